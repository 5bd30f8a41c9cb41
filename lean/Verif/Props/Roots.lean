import Verif.Lemmas.ListMore
import Verif.Props.Traverse
/-!
# C25, C26: roots, absolute roots, leaves
-/
namespace Verif

theorem graphNodes_nodup {h : Heap} (r : Reachable h) (g : GRef) : (graphNodes h g).Nodup :=
  (C01_registered r g).2.1

theorem removeFirst_eq {h : Heap} (r : Reachable h) {g : GRef} {x : NRef} (hx : x ∈ graphNodes h g) {l : List NRef}
    (hl : ∀ y ∈ l, y ∈ graphNodes h g) : removeFirst h x l = l.erase x := by
  unfold removeFirst
  induction l with
  | nil => rfl
  | cons a l ih =>
    rw [List.erase_cons, List.eraseP_cons]
    have ha := hl a (by simp)
    by_cases hax : a = x
    · simp [hax]
    · have : nodeEq h a x = false := by
        rw [Bool.eq_false_iff]
        intro hc
        exact hax ((C09_eq_identity r ha hx).1 hc)
      simp only [hax, decide_false, this, Bool.or_false, cond_false, beq_iff_eq, if_false]
      rw [ih fun y hy => hl y (by simp [hy])]

/-- Removing a list of nodes one after the other. -/
theorem removeAll_eq {h : Heap} (r : Reachable h) {g : GRef} {ds P : List NRef} (hd : ∀ y ∈ ds, y ∈ graphNodes h g)
    (hP : P.Sublist (graphNodes h g)) :
    (ds.foldl (fun p d => if memNode h d p then removeFirst h d p else p) P).Sublist (graphNodes h g) ∧
    ∀ y, y ∈ ds.foldl (fun p d => if memNode h d p then removeFirst h d p else p) P ↔ y ∈ P ∧ y ∉ ds := by
  have hnd := graphNodes_nodup r g
  induction ds generalizing P with
  | nil => exact ⟨hP, by simp⟩
  | cons d ds ih =>
    have hdm := hd d (by simp)
    have e : (if memNode h d P then removeFirst h d P else P) = P.erase d := by
      rw [memNode_eq r hdm (fun y hy => hP.subset hy), removeFirst_eq r hdm (fun y hy => hP.subset hy)]
      by_cases hm : d ∈ P
      · simp [hm]
      · simp [hm, List.erase_of_not_mem hm]
    rw [List.foldl_cons, e]
    obtain ⟨h1, h2⟩ := ih (fun y hy => hd y (by simp [hy])) (List.erase_sublist.trans hP)
    refine ⟨h1, fun y => ?_⟩
    rw [h2, (hP.nodup hnd).mem_erase_iff]
    simp only [List.mem_cons, not_or]
    constructor
    · rintro ⟨⟨a, b⟩, c⟩; exact ⟨b, a, c⟩
    · rintro ⟨b, a, c⟩; exact ⟨⟨a, b⟩, c⟩

theorem rootsLoop_ok {h : Heap} (r : Reachable h) {g : GRef} {lim : Nat} (hlim : (graphNodes h g).length ≤ lim)
    {todo done P : List NRef} (hs : graphNodes h g = done ++ todo) (hP : P.Sublist (graphNodes h g))
    (hcov : ∀ y ∈ graphNodes h g, y ∈ P ∨ ∃ p ∈ P, Path h g p y)
    (hanti : ∀ p ∈ P, p ∈ done → ∀ q ∈ P, q ≠ p → ¬ Path h g p q) :
    ∃ R, rootsLoop lim h g todo P = .ok R ∧ R.Sublist (graphNodes h g) ∧
      (∀ y ∈ graphNodes h g, y ∈ R ∨ ∃ p ∈ R, Path h g p y) ∧
      (∀ p ∈ R, ∀ q ∈ R, q ≠ p → ¬ Path h g p q) := by
  induction todo generalizing done P with
  | nil =>
    rw [List.append_nil] at hs
    exact ⟨P, rfl, hP, hcov, fun p hp q hq hne => hanti p hp (hs ▸ hP.subset hp) q hq hne⟩
  | cons n todo ih =>
    have hn : n ∈ graphNodes h g := by rw [hs]; simp
    unfold rootsLoop
    rw [memNode_eq r hn (fun y hy => hP.subset hy)]
    by_cases hnP : n ∈ P
    · simp only [inList, hnP, decide_true, if_true]
      obtain ⟨ds, _, _, -, hds, -⟩ := (C21_terminates r (getNode_self r hn) hlim).2
      have h19 := C19_descendants r (getNode_self r hn) hds
      have hmem : ∀ y ∈ ds, y ∈ graphNodes h g := fun y hy => (((h19.2.1 y).1 hy).2.mem r).2
      obtain ⟨s1, s2⟩ := removeAll_eq r hmem hP
      simp only [hds, bind, Except.bind]
      refine ih (done := done ++ [n]) (by simp [hs]) s1 ?_ ?_
      · intro y hy
        have nStay : n ∈ ds.foldl (fun p d => if memNode h d p then removeFirst h d p else p) P :=
          (s2 n).2 ⟨hnP, fun hc => ((h19.2.1 n).1 hc).1 rfl⟩
        rcases hcov y hy with hyP | ⟨p, hp, path⟩
        · by_cases hyd : y ∈ ds
          · exact .inr ⟨n, nStay, ((h19.2.1 y).1 hyd).2⟩
          · exact .inl ((s2 y).2 ⟨hyP, hyd⟩)
        · by_cases hpd : p ∈ ds
          · exact .inr ⟨n, nStay, ((h19.2.1 p).1 hpd).2.trans path⟩
          · exact .inr ⟨p, (s2 p).2 ⟨hp, hpd⟩, path⟩
      · intro p hp hpd q hq hne path
        rw [s2] at hp hq
        rcases List.mem_append.1 hpd with hpd | hpd
        · exact hanti p hp.1 hpd q hq.1 hne path
        · rw [List.mem_singleton.1 hpd] at path hne
          exact hq.2 ((h19.2.1 q).2 ⟨hne, path⟩)
    · simp only [inList, hnP, decide_false, Bool.false_eq_true, if_false]
      refine ih (done := done ++ [n]) (by simp [hs]) hP hcov ?_
      intro p hp hpd q hq hne
      rcases List.mem_append.1 hpd with hpd | hpd
      · exact hanti p hp hpd q hq hne
      · rw [List.mem_singleton.1 hpd] at hp; exact absurd hp hnP

/-- **C25.** `roots` answers (with as many stack frames as nodes) with a list of nodes in graph order such that every node is
a root or a descendant of a root, no root is a descendant of another root, every node without parents is a root, a non-empty
graph has a root, and if the graph has no cycle the roots are exactly the nodes without parents. -/
theorem C25_roots {h : Heap} (r : Reachable h) (g : GRef) {lim : Nat} (hlim : (graphNodes h g).length ≤ lim) :
    ∃ R, roots lim h g = .ok R ∧ R.Sublist (graphNodes h g) ∧
      (∀ y ∈ graphNodes h g, y ∈ R ∨ ∃ p ∈ R, Path h g p y) ∧
      (∀ p ∈ R, ∀ q ∈ R, q ≠ p → ¬ Path h g p q) ∧
      (∀ y ∈ graphNodes h g, (∀ p, ¬ Arrow h g p y) → y ∈ R) ∧
      (graphNodes h g ≠ [] → R ≠ []) ∧
      ((∀ x, ¬ Path h g x x) → ∀ y, y ∈ R ↔ y ∈ graphNodes h g ∧ ∀ p, ¬ Arrow h g p y) := by
  obtain ⟨R, h1, h2, h3, h4⟩ := rootsLoop_ok r hlim (todo := graphNodes h g) (done := []) (P := graphNodes h g) (by simp)
    (List.Sublist.refl _) (fun y hy => .inl hy) (by simp)
  have h5 : ∀ y ∈ graphNodes h g, (∀ p, ¬ Arrow h g p y) → y ∈ R := by
    intro y hy hno
    rcases h3 y hy with hR | ⟨p, -, path⟩
    · exact hR
    · obtain ⟨z, -, hz⟩ := Relation.TransGen.tail'_iff.1 path
      exact absurd hz (hno z)
  refine ⟨R, h1, h2, h3, h4, h5, ?_, ?_⟩
  · intro hne hR
    obtain ⟨y, hy⟩ := List.exists_mem_of_ne_nil _ hne
    rcases h3 y hy with hy | ⟨p, hp, -⟩
    · rw [hR] at hy; cases hy
    · rw [hR] at hp; cases hp
  · intro hac y
    refine ⟨fun hy => ⟨h2.subset hy, fun p hp => ?_⟩, fun hy => h5 y hy.1 hy.2⟩
    rcases h3 p (arrow_mem r hp).1 with hpR | ⟨q, hq, path⟩
    · by_cases hpy : y = p
      · subst hpy; exact hac y (.single hp)
      · exact h4 p hpR y hy hpy (.single hp)
    · have hqy : Path h g q y := path.tail hp
      by_cases hqe : y = q
      · subst hqe; exact hac y hqy
      · exact h4 q hq y hy hqe hqy

/-- The demo graph has two cycles: each is represented by one root. -/
example : roots 4 demo 0 = .ok [0, 3] := by decide +kernel

/-- A graph without cycles. -/
example : roots 5 (runOps forkOps Heap.init) 0 = .ok [3, 4] ∧ absoluteRoots (runOps forkOps Heap.init) 0 = .ok [3, 4] ∧
    leaves (runOps forkOps Heap.init) 0 = .ok [0] := by decide +kernel

/-- **C26.** `absolute_roots` is exactly the nodes with no inward edge and `leaves` exactly those with no outward edge, in
graph order. (Every node of the graph must have its `graph` attribute set, see C12.) -/
theorem C26_exact {h : Heap} (r : Reachable h) {g : GRef} (hown : ∀ n ∈ graphNodes h g, (h.node n).graph = some g) :
    (∃ R, absoluteRoots h g = .ok R ∧ R.Sublist (graphNodes h g) ∧
      ∀ x, x ∈ R ↔ x ∈ graphNodes h g ∧ ¬ ∃ e, LiveEdge h g e ∧ edgeEnd h e = .ok x) ∧
    (∃ L, leaves h g = .ok L ∧ L.Sublist (graphNodes h g) ∧
      ∀ x, x ∈ L ↔ x ∈ graphNodes h g ∧ ¬ ∃ e, LiveEdge h g e ∧ edgeStart h e = .ok x) := by
  have ends : ∀ e, LiveEdge h g e → (∃ n, edgeStart h e = .ok n) ∧ ∃ m, edgeEnd h e = .ok m := by
    intro e he
    obtain ⟨A, H⟩ := r.hist
    obtain ⟨i, hi⟩ := (liveEdge_iff H.rep).1 he
    obtain ⟨n, m, h1, h2, -⟩ := H.rep.live_edge hi
    exact ⟨⟨n, by simp [edgeStart, h1]⟩, ⟨m, by simp [edgeEnd, h2]⟩⟩
  constructor
  · have hp : ∀ x ∈ graphNodes h g, (do return !(← nodeHasParents h x) : Except PyErr Bool) = .ok (decide (pars h x = [])) := by
      intro x hx
      simp only [nodeHasParents, nodeParents, nodeGraph, hown x hx, getParents_eq r (getNode_self r hx), bind, Except.bind,
        pure, Except.pure]
      by_cases he : pars h x = [] <;> simp [he]
    refine ⟨_, filterE_ok hp, List.filter_sublist, fun x => ?_⟩
    rw [List.mem_filter, decide_eq_true_eq]
    refine and_congr_right fun hx => ?_
    rw [List.eq_nil_iff_forall_not_mem, not_exists]
    constructor
    · rintro hno e ⟨he, ht⟩
      obtain ⟨⟨n, hs⟩, -⟩ := ends e he
      exact hno n ((mem_pars r hx).2 ⟨e, he, hs, ht⟩)
    · intro hno n hn
      obtain ⟨e, he, -, ht⟩ := (mem_pars r hx).1 hn
      exact hno e ⟨he, ht⟩
  · have hp : ∀ x ∈ graphNodes h g, (do return !(← nodeHasChildren h x) : Except PyErr Bool) = .ok (decide (kids h x = [])) := by
      intro x hx
      simp only [nodeHasChildren, hasChildren, numChildren, nodeGraph, hown x hx, getChildren_eq r (getNode_self r hx), bind,
        Except.bind, pure, Except.pure]
      by_cases he : kids h x = []
      · simp [he]
      · simp [he, List.length_pos_iff]
    refine ⟨_, filterE_ok hp, List.filter_sublist, fun x => ?_⟩
    rw [List.mem_filter, decide_eq_true_eq]
    refine and_congr_right fun hx => ?_
    rw [List.eq_nil_iff_forall_not_mem, not_exists]
    constructor
    · rintro hno e ⟨he, hs⟩
      obtain ⟨-, ⟨m, ht⟩⟩ := ends e he
      exact hno m ((mem_kids r hx).2 ⟨e, he, hs, ht⟩)
    · intro hno n hn
      obtain ⟨e, he, hs, -⟩ := (mem_kids r hx).1 hn
      exact hno e ⟨he, hs⟩

theorem filterE_error {α : Type} {p : α → Except PyErr Bool} {e : PyErr} {l : List α} (h : ∀ x ∈ l, p x = .error e ∨ ∃ b, p x = .ok b) :
    (filterE p l = .error e ↔ ∃ x ∈ l, p x = .error e) := by
  induction l with
  | nil => simp [filterE]
  | cons x xs ih =>
    have ih := ih fun y hy => h y (by simp [hy])
    rcases h x (by simp) with hx | ⟨b, hx⟩
    · simp [filterE, hx, bind, Except.bind]
    · simp only [filterE, hx, bind, Except.bind, List.mem_cons, exists_eq_or_imp, reduceCtorEq, false_or, ← ih]
      cases filterE p xs <;> simp [pure, Except.pure]

/-- **C26**: `absolute_roots` and `leaves` raise `AttributeError` exactly if some node of the graph was removed and added back, so that
it does not know its graph. -/
theorem C26_raises {h : Heap} (r : Reachable h) (g : GRef) :
    (absoluteRoots h g = .error .attributeError ↔ ∃ n ∈ graphNodes h g, (h.node n).graph = none) ∧
    (leaves h g = .error .attributeError ↔ ∃ n ∈ graphNodes h g, (h.node n).graph = none) := by
  have own : ∀ n ∈ graphNodes h g, (h.node n).graph = some g ∨ (h.node n).graph = none := by
    intro n hn
    obtain ⟨A, H⟩ := r.hist
    obtain ⟨k, hk⟩ := (mem_graphNodes H.rep).1 hn
    exact (H.rep.nodeOk g k n hk).2.2
  have h1 : ∀ x ∈ graphNodes h g, ((do return !(← nodeHasParents h x) : Except PyErr Bool) = .error .attributeError ↔ (h.node x).graph = none) ∧
      ((do return !(← nodeHasParents h x) : Except PyErr Bool) = .error .attributeError ∨
        ∃ b, (do return !(← nodeHasParents h x) : Except PyErr Bool) = .ok b) := by
    intro x hx
    rcases own x hx with e | e <;>
      simp [nodeHasParents, nodeParents, nodeGraph, e, getParents_eq r (getNode_self r hx), bind, Except.bind, pure, Except.pure]
  have h2 : ∀ x ∈ graphNodes h g, ((do return !(← nodeHasChildren h x) : Except PyErr Bool) = .error .attributeError ↔ (h.node x).graph = none) ∧
      ((do return !(← nodeHasChildren h x) : Except PyErr Bool) = .error .attributeError ∨
        ∃ b, (do return !(← nodeHasChildren h x) : Except PyErr Bool) = .ok b) := by
    intro x hx
    rcases own x hx with e | e <;>
      simp only [nodeHasChildren, hasChildren, numChildren, nodeGraph, e, getChildren_eq r (getNode_self r hx), bind, Except.bind, pure,
        Except.pure] <;> cases kids h x <;> simp
  constructor
  · refine (filterE_error fun x hx => (h1 x hx).2).trans ?_
    exact exists_congr fun x => and_congr_right fun hx => (h1 x hx).1
  · refine (filterE_error fun x hx => (h2 x hx).2).trans ?_
    exact exists_congr fun x => and_congr_right fun hx => (h2 x hx).1

/-- **C26.** A non-empty graph without cycles has an absolute root and a leaf, and there `roots` and `absolute_roots` are the
same list. -/
theorem C26_acyclic {h : Heap} (r : Reachable h) {g : GRef} (hown : ∀ n ∈ graphNodes h g, (h.node n).graph = some g)
    (hac : ∀ x, ¬ Path h g x x) (hne : graphNodes h g ≠ []) :
    (∃ x R, absoluteRoots h g = .ok (x :: R)) ∧ (∃ x L, leaves h g = .ok (x :: L)) ∧
    ∀ lim, (graphNodes h g).length ≤ lim → roots lim h g = absoluteRoots h g := by
  obtain ⟨⟨R, hR, sR, mR⟩, L, hL, sL, mL⟩ := C26_exact r hown
  have arrowEnd : ∀ x, x ∈ graphNodes h g → (¬ (∃ e, LiveEdge h g e ∧ edgeEnd h e = .ok x) ↔ ∀ p, ¬ Arrow h g p x) := by
    intro x hx
    constructor
    · rintro hno p ⟨e, he, -, ht⟩; exact hno ⟨e, he, ht⟩
    · rintro hno ⟨e, he, ht⟩
      obtain ⟨A, H⟩ := r.hist
      obtain ⟨i, hi⟩ := (liveEdge_iff H.rep).1 he
      obtain ⟨n, m, h1, -⟩ := H.rep.live_edge hi
      exact hno n ⟨e, he, by simp [edgeStart, h1], ht⟩
  have heq : ∀ lim, (graphNodes h g).length ≤ lim → roots lim h g = .ok R := by
    intro lim hlim
    obtain ⟨R', h1, h2, -, -, -, -, h7⟩ := C25_roots r g hlim
    rw [h1, sublist_ext (graphNodes_nodup r g) h2 sR fun x => ?_]
    rw [h7 hac, mR]
    exact and_congr_right fun hx => (arrowEnd x hx).symm
  refine ⟨?_, ?_, fun lim hlim => by rw [heq lim hlim, hR]⟩
  · obtain ⟨R', h1, -, -, -, -, h6, -⟩ := C25_roots r g (Nat.le_refl _)
    rw [heq _ (Nat.le_refl _)] at h1
    cases h1
    cases hRR : R with
    | nil => exact absurd hRR (h6 hne)
    | cons x R => exact ⟨x, R, by rw [hR, hRR]⟩
  · obtain ⟨m, hm, hmax⟩ := exists_maximal (R := Path h g) (fun _ _ _ p q => p.trans q) hac hne
    have : m ∈ L := by
      refine (mL m).2 ⟨hm, ?_⟩
      rintro ⟨e, he, hs⟩
      obtain ⟨A, H⟩ := r.hist
      obtain ⟨i, hi⟩ := (liveEdge_iff H.rep).1 he
      obtain ⟨n, t, -, h2, -⟩ := H.rep.live_edge hi
      have ha : Arrow h g m t := ⟨e, he, hs, by simp [edgeEnd, h2]⟩
      exact hmax t (arrow_mem r ha).2 (.single ha)
    cases hLL : L with
    | nil => rw [hLL] at this; cases this
    | cons x L => exact ⟨x, L, by rw [hL, hLL]⟩

/-- The fork has no cycle: every edge goes from a larger to a smaller handle. -/
theorem fork_acyclic : ∀ x, ¬ Path (runOps forkOps Heap.init) 0 x x := by
  have r : Reachable (runOps forkOps Heap.init) := Reachable.runOps .init _ forkOps_ok
  have key : ∀ x y, Path (runOps forkOps Heap.init) 0 x y → y < x := by
    intro x y p
    have step : ∀ x y, Arrow (runOps forkOps Heap.init) 0 x y → y < x := by
      intro x y a
      have hx := (arrow_mem r a).1
      rw [← mem_kids r hx] at a
      have : ∀ x ∈ graphNodes (runOps forkOps Heap.init) 0, ∀ y ∈ kids (runOps forkOps Heap.init) x, y < x := by decide +kernel
      exact this x hx y a
    induction p with
    | single a => exact step _ _ a
    | tail _ a ih => exact Nat.lt_trans (step _ _ a) ih
  intro x p
  exact Nat.lt_irrefl _ (key x x p)

example : (∀ n ∈ graphNodes (runOps forkOps Heap.init) 0, ((runOps forkOps Heap.init).node n).graph = some 0) ∧
    graphNodes (runOps forkOps Heap.init) 0 ≠ [] := by decide +kernel

end Verif
