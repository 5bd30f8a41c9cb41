import Verif.Lemmas.Similar
import Verif.Spec.Stuck
/-!
# When `is_similar_to` raises
-/
namespace Verif

theorem firstMissing_cons {α : Type} {F M : α → Prop} {x : α} {l : List α} (hx : F x → ¬ M x) :
    FirstMissing F M (x :: l) ↔ M x ∨ (F x ∧ FirstMissing F M l) := by
  constructor
  · rintro ⟨l1, y, l2, e, h1, h2⟩
    cases l1 with
    | nil => simp at e; obtain ⟨rfl, rfl⟩ := e; exact .inl h2
    | cons z l1 =>
      simp at e
      obtain ⟨rfl, rfl⟩ := e
      exact .inr ⟨h1 x (by simp), l1, y, l2, rfl, fun y hy => h1 y (by simp [hy]), h2⟩
  · rintro (h | ⟨h, l1, y, l2, rfl, h1, h2⟩)
    · exact ⟨[], x, l, rfl, by simp, h⟩
    · refine ⟨x :: l1, y, l2, rfl, ?_, h2⟩
      intro z hz
      rcases List.mem_cons.1 hz with rfl | hz
      · exact h
      · exact h1 z hz

theorem firstMissing_nil {α : Type} {F M : α → Prop} : ¬ FirstMissing F M ([] : List α) := by
  rintro ⟨l1, y, l2, e, -, -⟩
  simp at e

theorem firstMissing_append {α : Type} {F M : α → Prop} (hx : ∀ x, F x → ¬ M x) (l l' : List α) :
    FirstMissing F M (l ++ l') ↔ FirstMissing F M l ∨ ((∀ x ∈ l, F x) ∧ FirstMissing F M l') := by
  induction l with
  | nil => simp [firstMissing_nil]
  | cons x l ih =>
    rw [List.cons_append, firstMissing_cons (hx x), firstMissing_cons (hx x), ih]
    constructor
    · rintro (h | ⟨h, h' | ⟨h1, h2⟩⟩)
      · exact .inl (.inl h)
      · exact .inl (.inr ⟨h, h'⟩)
      · refine .inr ⟨fun y hy => ?_, h2⟩
        rcases List.mem_cons.1 hy with rfl | hy
        · exact h
        · exact h1 y hy
    · rintro ((h | h) | ⟨h1, h2⟩)
      · exact .inl h
      · exact .inr ⟨h.1, .inl h.2⟩
      · exact .inr ⟨h1 x (by simp), .inr ⟨fun y hy => h1 y (by simp [hy]), h2⟩⟩

variable {h : Heap} {A : Spec}

theorem edgeFits_found {g' : GRef} (p : EdgeId × ERef) (hp : EdgeFits h A g' p) : ¬ p.1 ∉ (A.graph g').ids := by
  obtain ⟨f, hf, -⟩ := hp
  exact fun hn => hn (List.mem_map.2 ⟨_, hf, rfl⟩)

theorem edgesSimilar_error (R : Rep h A) {g g' : GRef} {o : Dict EdgeId ERef} (ho : ∀ p ∈ o, p ∈ (A.graph g').edges) :
    ∀ d : Dict EdgeId ERef, (∀ p ∈ d, p ∈ (A.graph g).edges) →
    (∀ p ∈ d, ∀ f, (p.1, f) ∈ (A.graph g').edges → (p.1, f) ∈ o) →
    ((edgesSimilar h o d = .ok true ↔ ∀ p ∈ d, EdgeFits h A g' p) ∧
    ∀ x, edgesSimilar h o d = .error x ↔ x = .keyError ∧ FirstMissing (EdgeFits h A g') (fun q => q.1 ∉ (A.graph g').ids) d) := by
  intro d
  induction d with
  | nil => intro _ _; simp [edgesSimilar, firstMissing_nil]
  | cons p d ih =>
    intro hd hall
    obtain ⟨i, e⟩ := p
    obtain ⟨ih1, ih2⟩ := ih (fun q hq => hd q (by simp [hq])) (fun q hq => hall q (by simp [hq]))
    have hc := firstMissing_cons (F := EdgeFits h A g') (M := fun q => q.1 ∉ (A.graph g').ids) (l := d) (edgeFits_found (h := h) (A := A) (g' := g') (i, e))
    cases hg : dget o i with
    | none =>
      have hno : i ∉ (A.graph g').ids := by
        intro hi
        obtain ⟨⟨j, f⟩, hf, rfl⟩ := List.mem_map.1 hi
        exact dget_none.1 hg (List.mem_map.2 ⟨_, hall (j, e) (by simp) f hf, rfl⟩)
      simp only [edgesSimilar, hg]
      refine ⟨⟨fun hc => by simp at hc, fun hc => ?_⟩, fun x => ?_⟩
      · exact absurd hno (edgeFits_found _ (hc (i, e) (by simp)))
      · rw [hc]
        constructor
        · intro hx; cases hx; exact ⟨rfl, .inl hno⟩
        · rintro ⟨rfl, -⟩; rfl
    | some f =>
      have hf := mem_of_dget hg
      obtain ⟨b, hb, hbi⟩ := edgeSimilar_eq R (hd (i, e) (by simp)) (ho _ hf)
      have hin : i ∈ (A.graph g').ids := List.mem_map.2 ⟨_, ho _ hf, rfl⟩
      simp only [edgesSimilar, hg, hb, bind, Except.bind]
      cases b with
      | true =>
        have hm : EdgeFits h A g' (i, e) := ⟨f, ho _ hf, (hbi.1 rfl).2⟩
        simp only [if_true]
        refine ⟨?_, fun x => ?_⟩
        · rw [ih1]
          constructor
          · intro hq p hp
            rcases List.mem_cons.1 hp with rfl | hp
            · exact hm
            · exact hq p hp
          · intro hq p hp; exact hq p (by simp [hp])
        · rw [ih2, hc]
          constructor
          · rintro ⟨a, b⟩; exact ⟨a, .inr ⟨hm, b⟩⟩
          · rintro ⟨a, b | b⟩
            · exact absurd hin b
            · exact ⟨a, b.2⟩
      | false =>
        have hm : ¬ EdgeFits h A g' (i, e) := by
          rintro ⟨f', hf', hm⟩
          obtain rfl := val_unique (R.idsNodup g') (ho _ hf) hf'
          exact absurd (hbi.2 ⟨rfl, hm⟩) (by simp)
        simp only [Bool.false_eq_true, if_false, pure, Except.pure]
        refine ⟨⟨fun hc => by simp at hc, fun hc => absurd (hc (i, e) (by simp)) hm⟩, fun x => ?_⟩
        rw [hc]
        constructor
        · intro hx; simp at hx
        · rintro ⟨-, b | b⟩
          · exact absurd hin b
          · exact absurd b.1 hm

theorem nodeSimilar_error (R : Rep h A) {g g' : GRef} {k : Key} {n m : NRef} (hn : (k, n) ∈ (A.graph g).nodes)
    (hm : (k, m) ∈ (A.graph g').nodes) :
    (nodeSimilar h n m = .ok true ↔ Comparable h A g g' k n m ∧
      (∀ q ∈ (A.graph g).out k, EdgeFits h A g' q) ∧ ∀ q ∈ (A.graph g).inn k, EdgeFits h A g' q) ∧
    ∀ x, nodeSimilar h n m = .error x ↔ x = .keyError ∧ Comparable h A g g' k n m ∧
      FirstMissing (EdgeFits h A g') (fun q => q.1 ∉ (A.graph g').ids) ((A.graph g).out k ++ (A.graph g).inn k) := by
  have o1 := R.outE g k n hn
  have o2 := R.outE g' k m hm
  have i1 := R.inE g k n hn
  have i2 := R.inE g' k m hm
  obtain ⟨E1, E2⟩ := edgesSimilar_error R (g := g) (o := (A.graph g').out k) (fun p hp => (List.mem_filter.1 hp).1)
    ((A.graph g).out k) (fun p hp => (List.mem_filter.1 hp).1)
    (fun p hp f hf => List.mem_filter.2 ⟨hf, by simpa using (List.mem_filter.1 hp).2⟩)
  obtain ⟨F1, F2⟩ := edgesSimilar_error R (g := g) (o := (A.graph g').inn k) (fun p hp => (List.mem_filter.1 hp).1)
    ((A.graph g).inn k) (fun p hp => (List.mem_filter.1 hp).1)
    (fun p hp f hf => List.mem_filter.2 ⟨hf, by simpa using (List.mem_filter.1 hp).2⟩)
  have hk : (h.node n).id = (h.node m).id := by rw [(R.nodeOk g k n hn).2.1, (R.nodeOk g' k m hm).2.1]
  have hobj : nodeObjSimilar h n m = true ↔ NodeMatch h n m := by
    simp only [nodeObjSimilar, hk, decide_true, Bool.true_and, Bool.and_eq_true, decide_eq_true_eq, paramsEq_iff, NodeMatch,
      and_assoc]
  rw [firstMissing_append edgeFits_found]
  unfold nodeSimilar
  simp only [o1, o2, i1, i2]
  by_cases c1 : nodeObjSimilar h n m = false
  · simp only [c1, if_true]
    have hN : ¬ Comparable h A g g' k n m := fun hc => by
      have := hobj.2 ⟨hc.1, hc.2.1, hc.2.2.1⟩
      rw [c1] at this; cases this
    exact ⟨by simp [hN], by simp [hN]⟩
  · have hN : NodeMatch h n m := hobj.1 (by simpa using c1)
    rw [if_neg c1]
    by_cases c2 : ((A.graph g).out k).length ≠ ((A.graph g').out k).length
    · rw [if_pos c2]
      have hN : ¬ Comparable h A g g' k n m := fun hc => c2 hc.2.2.2.1
      exact ⟨by simp [hN], by simp [hN]⟩
    · rw [if_neg c2]
      by_cases c3 : ((A.graph g).inn k).length ≠ ((A.graph g').inn k).length
      · rw [if_pos c3]
        have hN : ¬ Comparable h A g g' k n m := fun hc => c3 hc.2.2.2.2
        exact ⟨by simp [hN], by simp [hN]⟩
      · rw [if_neg c3]
        have hC : Comparable h A g g' k n m := ⟨hN.1, hN.2.1, hN.2.2, Classical.not_not.1 c2, Classical.not_not.1 c3⟩
        rw [← E1, ← F1]
        cases hr : edgesSimilar h ((A.graph g').out k) ((A.graph g).out k) with
        | error y =>
          refine ⟨by simp [bind, Except.bind], fun x => ?_⟩
          have := (E2 y).1 hr
          simp only [bind, Except.bind]
          constructor
          · intro hx; cases hx; exact ⟨this.1, hC, .inl this.2⟩
          · rintro ⟨rfl, -⟩; rw [this.1]
        | ok b =>
          have hno : ¬ FirstMissing (EdgeFits h A g') (fun q => q.1 ∉ (A.graph g').ids) ((A.graph g).out k) := fun hc => by
            have := (E2 .keyError).2 ⟨rfl, hc⟩
            rw [hr] at this; cases this
          cases b with
          | false => simp [bind, Except.bind, pure, Except.pure, hno]
          | true => simp [bind, Except.bind, hC, hno, F2]

theorem nodesSimilar_error (R : Rep h A) (g g' : GRef) : ∀ d : Dict Key NRef, (∀ p ∈ d, p ∈ (A.graph g).nodes) →
    ∀ x, nodesSimilar h (A.graph g').nodes d = .error x ↔
      x = .keyError ∧ FirstMissing (NodeFits h A g g') (NodeMissing h A g g') d := by
  intro d
  induction d with
  | nil => intro _; simp [nodesSimilar, firstMissing_nil]
  | cons p d ih =>
    intro hd x
    obtain ⟨k, n⟩ := p
    have ih := ih (fun q hq => hd q (by simp [hq])) x
    have hn := hd (k, n) (by simp)
    have excl : NodeFits h A g g' (k, n) → ¬ NodeMissing h A g g' (k, n) := by
      rintro ⟨m, hm, hc, h1, h2⟩ (hno | ⟨m', hm', hc', h3⟩)
      · exact hno (List.mem_map.2 ⟨_, hm, rfl⟩)
      · obtain ⟨l1, y, l2, e, -, hy⟩ := h3
        have : y ∈ (A.graph g).out k ++ (A.graph g).inn k := by simp only at e; rw [e]; simp
        refine edgeFits_found (h := h) y ?_ hy
        rcases List.mem_append.1 this with hq | hq
        · exact h1 y hq
        · exact h2 y hq
    rw [firstMissing_cons excl]
    cases hg : dget (A.graph g').nodes k with
    | none =>
      simp only [nodesSimilar, hg]
      constructor
      · intro hx; cases hx; exact ⟨rfl, .inl (.inl (dget_none.1 hg))⟩
      · rintro ⟨rfl, -⟩; rfl
    | some m =>
      have hm := mem_of_dget hg
      obtain ⟨T, E⟩ := nodeSimilar_error R hn hm
      have hin : ¬ k ∉ (A.graph g').names := fun hc => hc (List.mem_map.2 ⟨_, hm, rfl⟩)
      have fits : NodeFits h A g g' (k, n) ↔ nodeSimilar h n m = .ok true := by
        rw [T]
        constructor
        · rintro ⟨m', hm', hr⟩
          obtain rfl := val_unique (R.keysNodup g') hm hm'
          exact hr
        · exact fun hr => ⟨m, hm, hr⟩
      have missing : NodeMissing h A g g' (k, n) ↔ nodeSimilar h n m = .error .keyError := by
        rw [E]
        constructor
        · rintro (hc | ⟨m', hm', hr⟩)
          · exact absurd hc hin
          · obtain rfl := val_unique (R.keysNodup g') hm hm'
            exact ⟨rfl, hr⟩
        · exact fun hr => .inr ⟨m, hm, hr.2⟩
      rw [fits, missing]
      simp only [nodesSimilar, hg]
      cases hs : nodeSimilar h n m with
      | error y =>
        obtain ⟨rfl, -⟩ := (E y).1 hs
        simp only [bind, Except.bind, true_or, and_true]
        constructor
        · intro hx; cases hx; rfl
        · rintro rfl; rfl
      | ok b => cases b <;> simp [bind, Except.bind, pure, Except.pure, ih]

theorem graphSimilar_raises (R : Rep h A) {g g' : GRef} {x : PyErr} : graphSimilar h g g' = .error x ↔
    x = .keyError ∧ (A.graph g).nodes.length = (A.graph g').nodes.length ∧
      FirstMissing (NodeFits h A g g') (NodeMissing h A g g') (A.graph g).nodes := by
  have E := nodesSimilar_error R g g' (A.graph g).nodes (fun _ hp => hp) x
  unfold graphSimilar
  rw [R.nodes, R.nodes]
  by_cases hl : (A.graph g).nodes.length = (A.graph g').nodes.length
  · simp only [hl, ne_eq, not_true_eq_false, if_false, true_and]
    rw [← E]
    cases hr : nodesSimilar h (A.graph g').nodes (A.graph g).nodes with
    | error y => simp [bind, Except.bind]
    | ok b =>
      cases b with
      | false => simp [bind, Except.bind, pure, Except.pure]
      | true =>
        simp only [bind, Except.bind, pure, Except.pure, if_true, reduceCtorEq, iff_false]
        split
        · simp
        · split <;> simp
  · simp [hl]

end Verif
