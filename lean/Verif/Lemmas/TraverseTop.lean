import Verif.Lemmas.TraverseHeap
/-!
# Top-level facts about `get_ancestors` and `get_descendants`
-/
namespace Verif

section Mono
variable {σ α ε : Type}

theorem foldlM_mono {f g : σ → α → Except ε σ} {l : List α} (hfg : ∀ s a r, f s a = .ok r → g s a = .ok r) {s r : σ}
    (h : l.foldlM f s = .ok r) : l.foldlM g s = .ok r := by
  induction l generalizing s with
  | nil => exact h
  | cons a l ih =>
    rw [List.foldlM_cons] at h ⊢
    cases hf : f s a with
    | error e => rw [hf] at h; cases h
    | ok t => rw [hf] at h; rw [hfg _ _ _ hf]; exact ih h

end Mono

section Fuel
variable {α : Type} [DecidableEq α] {next : α → List α}

/-- A result does not depend on the number of stack frames. -/
theorem objTraverse_mono {fuel fuel' : Nat} (hle : fuel ≤ fuel') {x : α} {V : List α} {md : Option Int}
    {r : List α × Dict Nat (List α) × List α} (h : objTraverse next fuel x V md = .ok r) :
    objTraverse next fuel' x V md = .ok r := by
  induction fuel generalizing fuel' x V md r with
  | zero => cases h
  | succ fuel ih =>
    obtain ⟨fuel', rfl⟩ : ∃ f, fuel' = f + 1 := ⟨fuel' - 1, by omega⟩
    unfold objTraverse at h ⊢
    split at h
    · next hc => rw [if_pos hc]; exact h
    · next hc =>
      rw [if_neg hc]
      split at h
      · next hc => rw [if_pos hc]; exact h
      · next hc =>
        rw [if_neg hc]
        refine foldlM_mono ?_ h
        intro s c q hq
        split at hq
        · next hm => rw [if_pos hm]; exact hq
        · next hm =>
          rw [if_neg hm]
          cases hr : objTraverse next fuel c s.2.2 (md.map (· - 1)) with
          | error e => rw [hr] at hq; cases hq
          | ok p => rw [hr] at hq; rw [ih (by omega) hr]; exact hq

theorem ancTraverse_mono {fuel fuel' : Nat} (hle : fuel ≤ fuel') {x : α} {V : List α}
    {r : List α × Dict Nat (List α) × List α} (h : ancTraverse next fuel x V = .ok r) :
    ancTraverse next fuel' x V = .ok r := by
  induction fuel generalizing fuel' x V r with
  | zero => cases h
  | succ fuel ih =>
    obtain ⟨fuel', rfl⟩ : ∃ f, fuel' = f + 1 := ⟨fuel' - 1, by omega⟩
    unfold ancTraverse at h ⊢
    split at h
    · next hc => rw [if_pos hc]; exact h
    · next hc =>
      rw [if_neg hc]
      refine foldlM_mono ?_ h
      intro s c q hq
      simp only at hq ⊢
      split at hq
      · next hm => rw [if_pos hm]; exact hq
      · next hm =>
        rw [if_neg hm]
        cases hr : ancTraverse next fuel c s.2.2 with
        | error e => rw [hr] at hq; cases hq
        | ok p => rw [hr] at hq; rw [ih (by omega) hr]; exact hq

end Fuel

/-- A chain of one or more edges of `g` leads from `n` to `m`. -/
abbrev Path (h : Heap) (g : GRef) : NRef → NRef → Prop := Relation.TransGen (Arrow h g)

theorem Path.mem {h : Heap} (r : Reachable h) {g : GRef} {n m : NRef} (p : Path h g n m) :
    n ∈ graphNodes h g ∧ m ∈ graphNodes h g := by
  constructor
  · obtain ⟨k, hk, -⟩ := Relation.TransGen.head'_iff.1 p; exact (arrow_mem r hk).1
  · obtain ⟨k, -, hk⟩ := Relation.TransGen.tail'_iff.1 p; exact (arrow_mem r hk).2

theorem walk_kids {h : Heap} (r : Reachable h) {g : GRef} {k : Nat} {n m : NRef} (hn : n ∈ graphNodes h g) :
    Walk (Step (kids h)) k n m ↔ Walk (Arrow h g) k n m := by
  constructor
  · intro w
    induction w with
    | zero => exact .zero _
    | step hs _ ih =>
      have := (mem_kids r hn).1 hs
      exact .step this (ih (arrow_mem r this).2)
  · intro w
    exact w.mono fun a b hab => (mem_kids r (arrow_mem r hab).1).2 hab

theorem walk_pars {h : Heap} (r : Reachable h) {g : GRef} {k : Nat} {n m : NRef} (hn : n ∈ graphNodes h g) :
    Walk (Step (pars h)) k n m ↔ Walk (Arrow h g) k m n := by
  constructor
  · intro w
    induction w with
    | zero => exact .zero _
    | step hs _ ih =>
      have := (mem_pars r hn).1 hs
      exact (ih (arrow_mem r this).1).append (.step this (.zero _))
  · intro w
    exact w.reverse fun a b hab => (mem_pars r (arrow_mem r hab).2).2 hab

theorem reach_kids {h : Heap} (r : Reachable h) {g : GRef} {n m : NRef} (hn : n ∈ graphNodes h g) :
    Reach (kids h) n m ↔ Path h g n m := by
  unfold Reach Path
  rw [transGen_iff_walk, transGen_iff_walk]
  simp only [walk_kids r hn]

theorem reach_pars {h : Heap} (r : Reachable h) {g : GRef} {n m : NRef} (hn : n ∈ graphNodes h g) :
    Reach (pars h) n m ↔ Path h g m n := by
  unfold Reach Path
  rw [transGen_iff_walk, transGen_iff_walk]
  simp only [walk_pars r hn]

/-- Everything about one `get_descendants` call, whatever the stack size, unless it overflows. -/
theorem descendants_ok {h : Heap} (r : Reachable h) {g : GRef} {a : NodeArg} {x : NRef} (ha : getNode h g a = .ok x) :
    ∃ out d, TravOk (kids h) [] x out d ∧
      (∀ lim, (graphNodes h g).length ≤ lim → descendantsRec h g lim a [] = .ok (out, d, x :: out)) ∧
      (∀ lim q, descendantsRec h g lim a [] = .ok q → q = (out, d, x :: out)) := by
  have hx := getNode_mem r ha
  have e : ∀ lim, descendantsRec h g lim a [] = objTraverse (kids h) lim x [] none := fun lim => by
    rw [descendantsRec_arg r ha, descendantsRec_eq r lim hx (by simp)]
  obtain ⟨out, d, he, ht⟩ := objTraverse_ok (V := []) (kids_closed r) (graphNodes h g).length hx (by simp)
    (List.length_filter_le _ _)
  refine ⟨out, d, ht, ?_, ?_⟩
  · intro lim hlim
    rw [e, objTraverse_mono hlim he]
    simp
  · intro lim q hq
    rw [e] at hq
    have h1 := objTraverse_mono (Nat.le_max_left lim (graphNodes h g).length) hq
    have h2 := objTraverse_mono (Nat.le_max_right lim (graphNodes h g).length) he
    rw [h1] at h2
    simpa using h2

/-- Everything about one `get_ancestors` call. -/
theorem ancestors_ok {h : Heap} (r : Reachable h) {g : GRef} {a : NodeArg} {x : NRef} (ha : getNode h g a = .ok x) :
    ∃ anc d sub, AncOk (pars h) [] x sub anc d ∧
      (∀ lim, (graphNodes h g).length ≤ lim → ancestorsRec h g lim a [] = .ok (anc, d, x :: sub)) ∧
      (∀ lim q, ancestorsRec h g lim a [] = .ok q → q = (anc, d, x :: sub)) := by
  have hx := getNode_mem r ha
  have e : ∀ lim, ancestorsRec h g lim a [] = ancTraverse (pars h) lim x [] := fun lim => by
    rw [ancestorsRec_arg r ha, ancestorsRec_eq r lim hx (by simp)]
  obtain ⟨anc, d, sub, he, ht⟩ := ancTraverse_ok (V := []) (pars_closed r) (graphNodes h g).length hx (by simp)
    (List.length_filter_le _ _)
  refine ⟨anc, d, sub, ht, ?_, ?_⟩
  · intro lim hlim
    rw [e, ancTraverse_mono hlim he]
    simp
  · intro lim q hq
    rw [e] at hq
    have h1 := ancTraverse_mono (Nat.le_max_left lim (graphNodes h g).length) hq
    have h2 := ancTraverse_mono (Nat.le_max_right lim (graphNodes h g).length) he
    rw [h1] at h2
    simpa using h2

theorem AncOk.mem_iff {h : Heap} (r : Reachable h) {g : GRef} {x : NRef} {sub anc : List NRef} {d : Dict Nat (List NRef)}
    (hx : x ∈ graphNodes h g) (ht : AncOk (pars h) [] x sub anc d) (y : NRef) : y ∈ anc ↔ Path h g y x := by
  have hp : Pre (pars h) [x] (pars h x) sub := by simpa using ht.pre
  rw [ht.mem]
  constructor
  · rintro ⟨z, hz, hy⟩
    rcases List.mem_cons.1 hz with rfl | hz
    · exact .single ((mem_pars r hx).1 hy)
    · have := (reach_pars r hx).1 (hp.mem_iff.1 hz).2
      exact Relation.TransGen.head ((mem_pars r (this.mem r).1).1 hy) this
  · intro p
    obtain ⟨z, hz, hr⟩ := Relation.TransGen.head'_iff.1 p
    have hy := (mem_pars r (arrow_mem r hz).2).2 hz
    by_cases hzx : z = x
    · exact ⟨z, by simp [hzx], hy⟩
    · refine ⟨z, List.mem_cons_of_mem _ (hp.mem_iff.2 ⟨hzx, ?_⟩), hy⟩
      rcases Relation.reflTransGen_iff_eq_or_transGen.1 hr with e | hr
      · exact absurd e.symm hzx
      · exact (reach_pars r hx).2 hr

theorem TravOk.mem_iff {h : Heap} (r : Reachable h) {g : GRef} {x : NRef} {out : List NRef} {d : Dict Nat (List NRef)}
    (hx : x ∈ graphNodes h g) (ht : TravOk (kids h) [] x out d) (y : NRef) : y ∈ out ↔ y ≠ x ∧ Path h g x y := by
  have hp : Pre (kids h) [x] (kids h x) out := by simpa using ht.pre
  rw [hp.mem_iff, reach_kids r hx]

end Verif
