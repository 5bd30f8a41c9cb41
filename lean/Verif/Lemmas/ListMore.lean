/-!
# Facts about lists and orders
-/
namespace Verif

variable {α : Type}

/-- A transitive irreflexive relation has a maximal element on every non-empty list. -/
theorem exists_maximal {R : α → α → Prop} (ht : ∀ a b c, R a b → R b c → R a c) (hi : ∀ a, ¬ R a a) {l : List α} (hl : l ≠ []) :
    ∃ m ∈ l, ∀ y ∈ l, ¬ R m y := by
  induction l with
  | nil => exact absurd rfl hl
  | cons a l ih =>
    by_cases hl' : l = []
    · subst hl'; exact ⟨a, by simp, fun y hy => by rw [List.mem_singleton.1 hy]; exact hi a⟩
    · obtain ⟨m, hm, hmax⟩ := ih hl'
      by_cases hma : R m a
      · refine ⟨a, by simp, fun y hy hay => ?_⟩
        rcases List.mem_cons.1 hy with rfl | hy
        · exact hi _ hay
        · exact hmax y hy (ht _ _ _ hma hay)
      · refine ⟨m, by simp [hm], fun y hy hmy => ?_⟩
        rcases List.mem_cons.1 hy with rfl | hy
        · exact hma hmy
        · exact hmax y hy hmy

/-- Two sublists of a list without repetition that have the same members are equal. -/
theorem sublist_ext [DecidableEq α] {l l' L : List α} (hL : L.Nodup) (h : l.Sublist L) (h' : l'.Sublist L) (he : ∀ x, x ∈ l ↔ x ∈ l') :
    l = l' := by
  have key : ∀ {l L : List α}, L.Nodup → l.Sublist L → l = L.filter (fun x => decide (x ∈ l)) := by
    intro l L hL h
    induction h with
    | slnil => rfl
    | @cons l L a h ih =>
      rw [List.nodup_cons] at hL
      have : a ∉ l := fun hc => hL.1 (h.subset hc)
      rw [List.filter_cons_of_neg (by simpa using this)]
      exact ih hL.2
    | @cons_cons l L a h ih =>
      rw [List.nodup_cons] at hL
      rw [List.filter_cons_of_pos (by simp)]
      congr 1
      rw [ih hL.2]
      refine List.filter_congr fun x hx => ?_
      have hxa : x ≠ a := by rintro rfl; exact hL.1 hx
      rw [← ih hL.2]
      simp [hxa]
  rw [key hL h, key hL h']
  refine List.filter_congr fun x _ => ?_
  simp [he x]

end Verif
