import Verif.Spec.Drawing
import Verif.Lemmas.Dfs
import Verif.Lemmas.TreeStr
/-!
# Outlines and depth-first search
-/
namespace Verif
open Outline

/-- The members of a list that are not in `V`, at their first places. -/
def news (V : List Nat) : List Nat → List Nat
  | [] => []
  | x :: l => if x ∈ V then news V l else x :: news (V ++ [x]) l

theorem news_append (V l l' : List Nat) : news V (l ++ l') = news V l ++ news (V ++ news V l) l' := by
  induction l generalizing V with
  | nil => simp [news]
  | cons x l ih =>
    rw [List.cons_append, news, news]
    by_cases h : x ∈ V
    · rw [if_pos h, if_pos h, ih]
    · rw [if_neg h, if_neg h, ih]
      simp

theorem news_eraseDups (V l : List Nat) : news V l = (l.filter fun x => decide (x ∉ V)).eraseDups := by
  induction l generalizing V with
  | nil => simp [news]
  | cons x l ih =>
    rw [news]
    by_cases h : x ∈ V
    · rw [if_pos h, List.filter_cons_of_neg (by simpa using h), ih]
    · rw [if_neg h, List.filter_cons_of_pos (by simpa using h), List.eraseDups_cons, ih, List.filter_filter]
      congr 2
      refine List.filter_congr fun y _ => ?_
      by_cases e : y = x <;> simp [e]

variable {next : Nat → List Nat}

/-- A depth-first search tells what the drawing is. -/
theorem Pre.sketch {V todo out : List Nat} (h : Pre next V todo out) :
    ∀ a : List Nat, (∀ x, x ∈ a ↔ x ∈ V ∧ next x ≠ []) → ∃ F a', Drawing next a todo F a' ∧ (∀ x, x ∈ a' ↔ x ∈ V ++ out ∧ next x ≠ []) ∧
      news V ((occAll F).map Prod.fst) = out ∧ (occAll F).length = todo.length + (out.map fun x => (next x).length).sum := by
  induction h with
  | nil V => intro a ha; exact ⟨[], a, .nil a, by simpa using ha, rfl, rfl⟩
  | @skip V x xs out hx _ ih =>
    intro a ha
    obtain ⟨F, a', h1, h2, h3, h4⟩ := ih a ha
    by_cases hn : next x = []
    · refine ⟨_, a', .leaf (fun c => ((ha x).1 c).2 hn) hn h1, h2, ?_, ?_⟩
      · rw [occAll, occ, List.map_append, List.map_cons]
        simp [occAll, news, hx, h3]
      · rw [occAll, occ]
        simp [occAll, h4]; omega
    · refine ⟨_, a', .star ((ha x).2 ⟨hx, hn⟩) h1, h2, ?_, ?_⟩
      · rw [occAll, occ, List.map_append, List.map_cons]
        simp [occAll, news, hx, h3]
      · rw [occAll, occ]
        simp [occAll, h4]; omega
  | @visit V x xs sub rest hx h1 h2 ih1 ih2 =>
    intro a ha
    have hxa : x ∉ a := fun c => hx ((ha x).1 c).1
    by_cases hn : next x = []
    · rw [hn] at h1
      cases h1
      obtain ⟨F, a', g1, g2, g3, g4⟩ := ih2 a (by
        intro y
        rw [ha]
        simp only [List.mem_append, List.mem_singleton]
        constructor
        · rintro ⟨p, q⟩; exact ⟨.inl p, q⟩
        · rintro ⟨p | rfl, q⟩
          · exact ⟨p, q⟩
          · exact absurd hn q)
      refine ⟨_, a', .leaf hxa hn g1, by simpa using g2, ?_, ?_⟩
      · rw [occAll, occ, List.map_append, List.map_cons]
        simp [occAll, news, hx, g3]
      · rw [occAll, occ]
        simp [occAll, g4, hn]; omega
    · obtain ⟨S, b, s1, s2, s3, s4⟩ := ih1 (a ++ [x]) (by
        intro y
        simp only [List.mem_append, List.mem_singleton, ha]
        constructor
        · rintro (⟨p, q⟩ | rfl)
          · exact ⟨.inl p, q⟩
          · exact ⟨.inr rfl, hn⟩
        · rintro ⟨p | rfl, q⟩
          · exact .inl ⟨p, q⟩
          · exact .inr rfl)
      obtain ⟨F, a', g1, g2, g3, g4⟩ := ih2 b (by simpa using s2)
      refine ⟨_, a', .expand hxa hn s1 g1, by simpa using g2, ?_, ?_⟩
      · rw [occAll, occ, List.map_append, news_append, List.map_cons]
        have e : news V (x :: (occAll S).map Prod.fst) = x :: sub := by rw [news, if_neg hx, s3]
        rw [e, g3]
      · rw [occAll, occ]
        simp only [List.length_append, List.length_cons, s4, g4, List.map_append, List.map_cons, List.sum_append, List.sum_cons]
        omega

/-- What is drawn is determined. -/
theorem Drawing.unique {a todo F a' F' a''} (h : Drawing next a todo F a') (h' : Drawing next a todo F' a'') : F = F' ∧ a' = a'' := by
  induction h generalizing F' a'' with
  | nil => cases h'; exact ⟨rfl, rfl⟩
  | star hx _ ih =>
    cases h' with
    | star _ h' => obtain ⟨rfl, rfl⟩ := ih h'; exact ⟨rfl, rfl⟩
    | leaf hx' => exact absurd hx hx'
    | expand hx' => exact absurd hx hx'
  | leaf hx hn _ ih =>
    cases h' with
    | star hx' => exact absurd hx' hx
    | leaf _ _ h' => obtain ⟨rfl, rfl⟩ := ih h'; exact ⟨rfl, rfl⟩
    | expand _ hn' => exact absurd hn hn'
  | expand hx hn _ _ ih1 ih2 =>
    cases h' with
    | star hx' => exact absurd hx' hx
    | leaf _ hn' => exact absurd hn' hn
    | expand _ _ h1' h2' =>
      obtain ⟨rfl, rfl⟩ := ih1 h1'
      obtain ⟨rfl, rfl⟩ := ih2 h2'
      exact ⟨rfl, rfl⟩

/-- What has been expanded stays so. -/
theorem Drawing.grow {a todo F a'} (h : Drawing next a todo F a') : ∀ x ∈ a, x ∈ a' := by
  induction h with
  | nil => exact fun _ h => h
  | star _ _ ih => exact ih
  | leaf _ _ _ ih => exact ih
  | expand _ _ _ _ ih1 ih2 => exact fun y hy => ih2 y (ih1 y (by simp [hy]))

end Verif
