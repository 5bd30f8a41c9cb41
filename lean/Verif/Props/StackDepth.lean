import Verif.Lemmas.StackDepth
import Verif.Props.Distances
import Verif.Props.Meetings
/-!
# C123: how much of the stack a traversal takes

`lim` is the number of frames the interpreter has left.
-/
namespace Verif

section
variable {α : Type} [DecidableEq α] {next : α → List α}

/-- **C123**, for the traversal of any objects: with the finds `t` of the search from `obj`, the call returns if every
find is fewer than `lim` steps down the search, and else it raises RecursionError. -/
theorem C123_objects {obj : α} {t : List (Find α)} (tr : Trace next [obj] obj 1 (next obj) t) (lim : Nat) :
    ((0 < lim ∧ ∀ f ∈ t, f.depth < lim) → objRelatives next lim obj none = .ok (t.map (·.node))) ∧
      (¬(0 < lim ∧ ∀ f ∈ t, f.depth < lim) → objRelatives next lim obj none = .error .recursionError) := by
  have := objTraverse_stack tr lim
  constructor
  · intro c
    rw [if_pos c] at this
    obtain ⟨q, e⟩ := this
    obtain ⟨t', a, b, -⟩ := objTraverse_trace e
    rw [tr.unique (by simpa using a)]
    rw [objRelatives, e, Except.map, b]
  · intro c
    rw [if_neg c] at this
    rw [objRelatives, this, Except.map]
end

/-- **C123.** The search for the descendants of a node of a graph makes finitely many finds; `get_descendants` returns exactly if the stack
has more frames than the deepest of them is deep, and else it raises RecursionError. -/
theorem C123_descendants {h : Heap} (r : Reachable h) {g : GRef} {a : NodeArg} {x : NRef} (ha : getNode h g a = .ok x) :
    ∃ children : NRef → List NRef, (∀ n ∈ graphNodes h g, getChildren h g (.node n) = .ok (children n)) ∧
      ∃ t, Trace children [x] x 1 (children x) t ∧ ∀ lim,
        ((0 < lim ∧ ∀ f ∈ t, f.depth < lim) → getDescendants lim h g a = .ok (t.map (·.node))) ∧
          (¬(0 < lim ∧ ∀ f ∈ t, f.depth < lim) → getDescendants lim h g a = .error .recursionError) := by
  have hx := getNode_mem r ha
  have e : ∀ lim, getDescendants lim h g a = objRelatives (kids h) lim x none := by
    intro lim
    rw [getDescendants, descendantsRec_arg r ha, descendantsRec_eq r lim hx (by simp), objRelatives]
  obtain ⟨sub, d, -, ok⟩ := objTraverse_ok (kids_closed r) (graphNodes h g).length hx (V := []) (by simp) (List.length_filter_le _ _)
  obtain ⟨t, tr, -⟩ := Trace.of_pre ok.pre x 1
  have tr : Trace (kids h) [x] x 1 (kids h x) t := by simpa using tr
  refine ⟨kids h, fun n hn => getChildren_eq r (getNode_self r hn), t, tr, fun lim => ?_⟩
  rw [e]
  exact C123_objects tr lim

/-- **C123**, for `get_ancestors`. -/
theorem C123_ancestors {h : Heap} (r : Reachable h) {g : GRef} {a : NodeArg} {x : NRef} (ha : getNode h g a = .ok x) :
    ∃ parents : NRef → List NRef, (∀ n ∈ graphNodes h g, getParents h g (.node n) = .ok (parents n)) ∧
      ∃ t, Trace parents [x] x 1 (parents x) t ∧ ∀ lim,
        ((0 < lim ∧ ∀ f ∈ t, f.depth < lim) → ∃ l, getAncestors lim h g a = .ok l) ∧
          (¬(0 < lim ∧ ∀ f ∈ t, f.depth < lim) → getAncestors lim h g a = .error .recursionError) := by
  have hx := getNode_mem r ha
  have e : ∀ lim, ancestorsRec h g lim a [] = ancTraverse (pars h) lim x [] := by
    intro lim
    rw [ancestorsRec_arg r ha, ancestorsRec_eq r lim hx (by simp)]
  obtain ⟨anc, d, sub, -, ok⟩ := ancTraverse_ok (pars_closed r) (graphNodes h g).length hx (V := []) (by simp) (List.length_filter_le _ _)
  obtain ⟨t, tr, -⟩ := Trace.of_pre ok.pre x 1
  have tr : Trace (pars h) [x] x 1 (pars h x) t := by simpa using tr
  refine ⟨pars h, fun n hn => getParents_eq r (getNode_self r hn), t, tr, fun lim => ?_⟩
  have := ancTraverse_stack tr lim
  rw [getAncestors, e]
  constructor
  · intro c
    rw [if_pos c] at this
    obtain ⟨q, e⟩ := this
    exact ⟨q.1, by rw [e, Except.map]⟩
  · intro c
    rw [if_neg c] at this
    rw [this, Except.map]

/-- **C123**: so a descendant to which no walk of fewer than `lim` steps leads makes `get_descendants` raise. -/
theorem C123_far_descendant {h : Heap} (r : Reachable h) {g : GRef} {a : NodeArg} {x y : NRef} (ha : getNode h g a = .ok x)
    (hy : Relation.TransGen (Arrow h g) x y) {lim : Nat} (far : ∀ j < lim, ¬Walk (Arrow h g) j x y) :
    getDescendants lim h g a = .error .recursionError := by
  have hx := getNode_mem r ha
  obtain ⟨children, hc, t, tr, key⟩ := C123_descendants r ha
  have e : ∀ n ∈ graphNodes h g, children n = kids h n := fun n hn =>
    Except.ok.inj ((hc n hn).symm.trans (getChildren_eq r (getNode_self r hn)))
  have wk : ∀ {j u v}, u ∈ graphNodes h g → Walk (Step children) j u v → Walk (Arrow h g) j u v := by
    intro j u v hu w
    induction w with
    | zero => exact .zero _
    | step s _ ih =>
      have s := (mem_kids r hu).1 (by rw [← e _ hu]; exact s)
      exact .step s (ih (arrow_mem r s).2)
  have rc : ∀ {u v}, Path h g u v → Reach children u v := by
    intro u v p
    induction p with
    | single s => exact .single (by rw [Step, e _ (arrow_mem r s).1]; exact (mem_kids r (arrow_mem r s).1).2 s)
    | tail _ s ih => exact .tail ih (by rw [Step, e _ (arrow_mem r s).1]; exact (mem_kids r (arrow_mem r s).1).2 s)
  refine (key lim).2 fun ⟨h0, c⟩ => ?_
  have hne : y ≠ x := by
    rintro rfl
    exact far 0 h0 (.zero _)
  obtain ⟨f, hf, rfl⟩ := List.mem_map.1 (tr.pre.mem_iff.2 ⟨hne, rc hy⟩)
  obtain ⟨c', hc', j, ej, w⟩ := tr.walk f hf
  exact far (1 + j) (by have := c f hf; omega) (by rw [Nat.add_comm]; exact wk hx (.step hc' w))

/-- **C123**, for `get_ancestors`: an ancestor from which no walk of fewer than `lim` steps leads to the node makes it raise. -/
theorem C123_far_ancestor {h : Heap} (r : Reachable h) {g : GRef} {a : NodeArg} {x y : NRef} (ha : getNode h g a = .ok x)
    (hy : Relation.TransGen (Arrow h g) y x) {lim : Nat} (far : ∀ j < lim, ¬Walk (Arrow h g) j y x) :
    getAncestors lim h g a = .error .recursionError := by
  have hx := getNode_mem r ha
  obtain ⟨parents, hc, t, tr, key⟩ := C123_ancestors r ha
  have e : ∀ n ∈ graphNodes h g, parents n = pars h n := fun n hn =>
    Except.ok.inj ((hc n hn).symm.trans (getParents_eq r (getNode_self r hn)))
  have wk : ∀ {j u v}, u ∈ graphNodes h g → Walk (Step parents) j u v → Walk (Step (pars h)) j u v := by
    intro j u v hu w
    induction w with
    | zero => exact .zero _
    | @step u w v k s _ ih =>
      have s : Step (pars h) u w := by rw [Step, ← e _ hu]; exact s
      exact .step s (ih (pars_closed r _ hu _ s))
  have rc : ∀ {u v}, Path h g v u → Reach parents u v := by
    intro u v p
    induction p with
    | single s => exact .single (by rw [Step, e _ (arrow_mem r s).2]; exact (mem_pars r (arrow_mem r s).2).2 s)
    | tail _ s ih => exact .head (by rw [Step, e _ (arrow_mem r s).2]; exact (mem_pars r (arrow_mem r s).2).2 s) ih
  refine (key lim).2 fun ⟨h0, c⟩ => ?_
  have hne : y ≠ x := by
    rintro rfl
    exact far 0 h0 (.zero _)
  obtain ⟨f, hf, rfl⟩ := List.mem_map.1 (tr.pre.mem_iff.2 ⟨hne, rc hy⟩)
  obtain ⟨c', hc', j, ej, w⟩ := tr.walk f hf
  exact far (1 + j) (by have := c f hf; omega) (by rw [Nat.add_comm]; exact (walk_pars r hx).1 (wk hx (.step hc' w)))

/-- In `demo` the edges go `a → b → c → a`: two steps down, so three frames are needed and enough. -/
example : getDescendants 2 demo 0 (.key (.str "a")) = .error .recursionError ∧ (getDescendants 3 demo 0 (.key (.str "a"))).isOk ∧
    getAncestors 2 demo 0 (.key (.str "a")) = .error .recursionError ∧ (getAncestors 3 demo 0 (.key (.str "a"))).isOk := by
  decide +kernel

/-- `c` is two steps from `a`, and not fewer. -/
example : getDescendants 2 demo 0 (.key (.str "a")) = .error .recursionError := by
  have m0 : 0 ∈ graphNodes demo 0 := by decide +kernel
  have m1 : 1 ∈ graphNodes demo 0 := by decide +kernel
  have s : ∀ {n m : NRef}, n ∈ graphNodes demo 0 → m ∈ kids demo n → Arrow demo 0 n m := fun hn => (mem_kids demo_reachable hn).1
  refine C123_far_descendant demo_reachable (x := 0) (y := 2) (by decide +kernel)
    (.tail (.single (s m0 (m := 1) (by decide +kernel))) (s m1 (by decide +kernel))) fun j hj w => ?_
  rw [← walk_kids demo_reachable m0] at w
  match j, hj, w with
  | 1, _, .step (y := y) a w =>
    cases w
    exact absurd a (by unfold Step; decide +kernel)

/-- On the sample the deepest find is three steps down. -/
example : objRelatives sample 3 0 none = .error .recursionError ∧ objRelatives sample 4 0 none = .ok [1, 2, 4, 3] := by decide +kernel

end Verif
