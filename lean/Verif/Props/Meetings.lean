import Verif.Lemmas.Meet
import Verif.Props.Traverse
import Verif.Props.Objects
/-!
# In which order ancestors are listed, and what a depth limit leaves

**C116.** `get_ancestors` of a graph and **C117.** `get_descendants` and `get_ancestors` of objects with a limit.
-/
namespace Verif
section
variable {α : Type} {next : α → List α}

/-- What such a search meets is determined. -/
theorem Meet.unique {V todo met met' : List α} (h : Meet next V todo met) (h' : Meet next V todo met') : met = met' := by
  induction h generalizing met' with
  | nil => cases h'; rfl
  | again hx _ ih =>
    cases h' with
    | again _ h' => rw [ih h']
    | enter hn => exact absurd hx hn
  | enter hx _ _ ih1 ih2 =>
    cases h' with
    | again hn => exact absurd hn hx
    | enter _ a b =>
      have := ih1 a
      subst this
      rw [ih2 b]

theorem Limited.unique {b : Nat} {V todo met W met' W' : List α} (h : Limited next b V todo met W)
    (h' : Limited next b V todo met' W') : met = met' ∧ W = W' := by
  induction h generalizing met' W' with
  | nil => cases h'; exact ⟨rfl, rfl⟩
  | pass hx _ ih =>
    cases h' with
    | pass _ h' => exact ih h'
    | bottom hn => exact absurd hx hn
    | enter hn => exact absurd hx hn
  | bottom hx _ ih =>
    cases h' with
    | pass hn => exact absurd hn hx
    | bottom _ h' => exact ⟨by rw [(ih h').1], (ih h').2⟩
  | enter hx _ _ ih1 ih2 =>
    cases h' with
    | pass hn => exact absurd hn hx
    | enter _ a b =>
      obtain ⟨rfl, rfl⟩ := ih1 a
      obtain ⟨rfl, rfl⟩ := ih2 b
      exact ⟨rfl, rfl⟩

end

/-- **C116.** `get_ancestors(x)` lists the ancestors in the order in which they are first met on a walk that starts with the parents of
`x`, in their order, and goes into every node it has not met, at once. -/
theorem C116_order {h : Heap} (r : Reachable h) {g : GRef} {a : NodeArg} {x : NRef} (ha : getNode h g a = .ok x) {lim : Nat}
    {l : List NRef} (hl : getAncestors lim h g a = .ok l) :
    ∃ parents : NRef → List NRef, (∀ n ∈ graphNodes h g, getParents h g (.node n) = .ok (parents n)) ∧
      ∃ met, Meet parents [x] (parents x) met ∧ l = met.eraseDups := by
  have hx := getNode_mem r ha
  have e : ancestorsRec h g lim a [] = ancTraverse (pars h) lim x [] := by
    rw [ancestorsRec_arg r ha, ancestorsRec_eq r lim hx (by simp)]
  refine ⟨pars h, fun n hn => getParents_eq r (getNode_self r hn), ?_⟩
  unfold getAncestors at hl
  rw [e] at hl
  cases hq : ancTraverse (pars h) lim x [] with
  | error e => rw [hq] at hl; cases hl
  | ok q =>
    rw [hq] at hl
    cases hl
    obtain ⟨met, m, e, -⟩ := ancTraverse_meet hq
    exact ⟨met, by simpa using m, e⟩

/-- **C116**: so the first ancestor in the list is the first parent, and a node without parents has no ancestors. -/
theorem C116_first {h : Heap} (r : Reachable h) {g : GRef} {a : NodeArg} {lim : Nat} {l ps : List NRef}
    (hp : getParents h g a = .ok ps) (hl : getAncestors lim h g a = .ok l) : l.head? = ps.head? := by
  cases ha : getNode h g a with
  | error e =>
    unfold getParents getInwardEdges at hp
    rw [ha] at hp
    cases hp
  | ok x =>
  obtain ⟨parents, hP, met, m, rfl⟩ := C116_order r ha hl
  have := hP x (getNode_mem r ha)
  rw [getParents_eq r (getNode_self r (getNode_mem r ha))] at this
  rw [getParents_eq r ha, this] at hp
  have e := Except.ok.inj hp
  rw [e] at m
  cases m with
  | nil => rfl
  | again => simp [List.eraseDups_cons]
  | enter => simp [List.eraseDups_cons]

/-- In `demo` the edges go `a → b → c → a` and `d → d`: from `a` one meets `c`, then `b`, then `a` again. -/
example := C116_order demo_reachable (g := 0) (a := .key (.str "a")) (x := 0) (lim := 10) (l := [2, 1, 0])
  (by decide +kernel) (by decide +kernel)

example := C116_first demo_reachable (g := 0) (a := .key (.str "a")) (lim := 10) (l := [2, 1, 0]) (ps := [2])
  (by decide +kernel) (by decide +kernel)

/-- A node that is met twice is listed where it was met first: 3 between 1 and 2. -/
example : Meet (fun n : Nat => if n = 0 then [1, 2, 3] else if n = 1 then [3] else if n = 2 then [4] else []) [0] [1, 2, 3] [1, 3, 2, 4, 3] ∧
    [1, 3, 2, 4, 3].eraseDups = [1, 3, 2, 4] := by
  refine ⟨.enter (sub := [3]) (rest := [2, 4, 3]) (by decide) ?_ ?_, rfl⟩
  · exact .enter (sub := []) (rest := []) (by decide) (.nil _) (.nil _)
  · refine .enter (sub := [4]) (rest := [3]) (by decide) ?_ (.again (by decide) (.nil _))
    exact .enter (sub := []) (rest := []) (by decide) (.nil _) (.nil _)

section
variable {α : Type} [DecidableEq α] {next : α → List α}

/-- **C117.** With the limit `d ≥ 1` the objects listed are those met by the depth-first search that goes down `d` levels, each where it
was met first; with a limit of 0 or less there are none. -/
theorem C117_limited {obj : α} {lim : Nat} {d : Int} {l : List α} (hl : objRelatives next lim obj (some d) = .ok l) :
    (d ≤ 0 → l = []) ∧
      ∀ b : Nat, d = (b : Int) + 1 → ∃ met entered, Limited next b [obj] (next obj) met entered ∧ l = met.eraseDups := by
  unfold objRelatives at hl
  cases hq : objTraverse next lim obj [] (some d) with
  | error e => rw [hq] at hl; cases hl
  | ok q =>
    rw [hq] at hl
    cases hl
    refine ⟨fun hd => ?_, ?_⟩
    · cases lim with
      | zero => cases hq
      | succ n =>
        unfold objTraverse at hq
        simp only [Option.any_some] at hq
        rw [if_pos (by simpa using hd)] at hq
        cases hq
        rfl
    · rintro b rfl
      obtain ⟨met, m, e⟩ := objTraverse_limited (b := b) (by exact_mod_cast hq)
      exact ⟨met, q.2.2, by simpa using m, e⟩

/-- **C117**: a limit of at least the number of objects makes no difference: neither to the list nor to the distances, nor to whether the
call succeeds. -/
theorem C117_large {U : List α} (hU : ∀ y ∈ U, ∀ z ∈ next y, z ∈ U) {obj : α} (ho : obj ∈ U) {d : Int} (hd : (U.length : Int) ≤ d)
    (lim : Nat) :
    objRelatives next lim obj (some d) = objRelatives next lim obj none ∧
      objRelativesByDistance next lim obj (some d) = objRelativesByDistance next lim obj none := by
  have : objTraverse next lim obj [] (some d) = objTraverse next lim obj [] none := by
    refine objTraverse_unlimited hU ho (by simp) ?_
    have := List.length_filter_le (fun y => decide (y ∉ ([] : List α))) U
    omega
  simp [objRelatives, objRelativesByDistance, this]

end

/-- The search in `deep` with three levels: 4 is not met, since 2 is gone into from 1. -/
theorem deep_limited : Limited deep 2 [0] (deep 0) [1, 2, 3] [0, 1, 2] := by
  refine .enter (sub := [2, 3]) (rest := []) (V1 := [0, 1, 2]) (by decide) ?_ (.pass (by decide) (.nil _ _))
  refine .enter (sub := [3]) (rest := []) (V1 := [0, 1, 2]) (by decide) ?_ (.nil _ _)
  exact .bottom (by decide) (.nil _ _)

example : objRelatives deep 5 0 (some 3) = .ok [1, 2, 3] ∧ (3 : Int) = (2 : Nat) + 1 := by decide +kernel

example := (C117_limited (next := deep) (obj := 0) (lim := 5) (d := 3) (l := [1, 2, 3]) (by decide +kernel)).2 2 rfl

example := C117_large (next := deep) (U := [0, 1, 2, 3, 4]) (by decide) (obj := 0) (by decide) (d := 5) (by decide) 10

end Verif
