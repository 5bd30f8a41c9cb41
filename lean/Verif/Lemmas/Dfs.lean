import Verif.Spec.Reach
/-!
# Facts about `Pre` and `Walk`
-/
namespace Verif

variable {α : Type} {next : α → List α}

theorem Walk.append {R : α → α → Prop} {k j : Nat} {x y z : α} (h1 : Walk R k x y) (h2 : Walk R j y z) :
    Walk R (k + j) x z := by
  induction h1 with
  | zero => simpa using h2
  | @step x y w k hs _ ih => rw [Nat.add_right_comm]; exact .step hs (ih h2)

theorem Walk.mono {R S : α → α → Prop} {k : Nat} {x y : α} (h : Walk R k x y) (hRS : ∀ a b, R a b → S a b) : Walk S k x y := by
  induction h with
  | zero => exact .zero _
  | step hs _ ih => exact .step (hRS _ _ hs) ih

theorem Walk.reverse {R S : α → α → Prop} {k : Nat} {x y : α} (h : Walk R k x y) (hRS : ∀ a b, R a b → S b a) : Walk S k y x := by
  induction h with
  | zero => exact .zero _
  | step hs _ ih => exact ih.append (.step (hRS _ _ hs) (.zero _))

theorem transGen_iff_walk {R : α → α → Prop} {x y : α} : Relation.TransGen R x y ↔ ∃ k, 1 ≤ k ∧ Walk R k x y := by
  constructor
  · intro h
    induction h with
    | single h => exact ⟨1, Nat.le_refl _, .step h (.zero _)⟩
    | tail _ h ih =>
      obtain ⟨k, hk, w⟩ := ih
      exact ⟨k + 1, by omega, w.append (.step h (.zero _))⟩
  · rintro ⟨k, hk, w⟩
    induction w with
    | zero => omega
    | @step x y z k hs w ih =>
      by_cases h0 : 1 ≤ k
      · exact Relation.TransGen.head hs (ih h0)
      · obtain rfl : k = 0 := by omega
        cases w
        exact .single hs

namespace Pre
variable {V todo out : List α}

theorem disjoint (h : Pre next V todo out) : ∀ y ∈ out, y ∉ V := by
  induction h with
  | nil => simp
  | skip _ _ ih => exact ih
  | visit hx _ _ ih1 ih2 =>
    intro y hy hV
    simp only [List.cons_append, List.mem_cons, List.mem_append] at hy
    rcases hy with rfl | hy | hy
    · exact hx hV
    · exact ih1 y hy (by simp [hV])
    · exact ih2 y hy (by simp [hV])

theorem nodup (h : Pre next V todo out) : out.Nodup := by
  induction h with
  | nil => simp
  | skip _ _ ih => exact ih
  | visit hx h1 h2 ih1 ih2 =>
    rw [List.nodup_append]
    refine ⟨List.nodup_cons.2 ⟨fun hc => h1.disjoint _ hc (by simp), ih1⟩, ih2, ?_⟩
    intro a ha b hb hab
    subst hab
    refine h2.disjoint _ hb ?_
    rcases List.mem_cons.1 ha with rfl | ha
    · simp
    · simp [ha]

theorem sound (h : Pre next V todo out) : ∀ y ∈ out, ∃ t ∈ todo, Relation.ReflTransGen (Step next) t y := by
  induction h with
  | nil => simp
  | skip _ _ ih =>
    intro y hy
    obtain ⟨t, ht, hr⟩ := ih y hy
    exact ⟨t, by simp [ht], hr⟩
  | @visit V x xs sub rest hx h1 h2 ih1 ih2 =>
    intro y hy
    simp only [List.cons_append, List.mem_cons, List.mem_append] at hy
    rcases hy with rfl | hy | hy
    · exact ⟨y, by simp, .refl⟩
    · obtain ⟨t, ht, hr⟩ := ih1 y hy
      exact ⟨x, by simp, .head ht hr⟩
    · obtain ⟨t, ht, hr⟩ := ih2 y hy
      exact ⟨t, by simp [ht], hr⟩

theorem closed (h : Pre next V todo out) : (∀ t ∈ todo, t ∈ V ∨ t ∈ out) ∧ ∀ y ∈ out, ∀ z ∈ next y, z ∈ V ∨ z ∈ out := by
  induction h with
  | nil => simp
  | skip hx _ ih =>
    refine ⟨?_, ih.2⟩
    intro t ht
    rcases List.mem_cons.1 ht with rfl | ht
    · exact .inl hx
    · exact ih.1 t ht
  | @visit V x xs sub rest hx h1 h2 ih1 ih2 =>
    constructor
    · intro t ht
      rcases List.mem_cons.1 ht with rfl | ht
      · simp
      · have := ih2.1 t ht
        simp only [List.mem_append, List.mem_cons] at this ⊢
        grind
    · intro y hy z hz
      simp only [List.cons_append, List.mem_cons, List.mem_append] at hy
      rcases hy with rfl | hy | hy
      · have := ih1.1 z hz
        simp only [List.mem_append, List.mem_cons, List.not_mem_nil] at this ⊢
        grind
      · have := ih1.2 y hy z hz
        simp only [List.mem_append, List.mem_cons, List.not_mem_nil] at this ⊢
        grind
      · have := ih2.2 y hy z hz
        simp only [List.mem_append, List.mem_cons] at this ⊢
        grind

theorem subset_of_closed {U : List α} (h : Pre next V todo out) (hU : ∀ y ∈ U, ∀ z ∈ next y, z ∈ U) (ht : ∀ t ∈ todo, t ∈ U) :
    ∀ y ∈ out, y ∈ U := by
  intro y hy
  obtain ⟨t, htt, hr⟩ := h.sound y hy
  clear hy
  induction hr with
  | refl => exact ht t htt
  | tail _ hs ih => exact hU _ ih _ hs

/-- The preorder is determined. -/
theorem unique {out' : List α} (h : Pre next V todo out) (h' : Pre next V todo out') : out = out' := by
  induction h generalizing out' with
  | nil => cases h'; rfl
  | skip hx _ ih =>
    cases h' with
    | skip _ h' => exact ih h'
    | visit hx' => exact absurd hx hx'
  | visit hx h1 h2 ih1 ih2 =>
    cases h' with
    | skip hx' => exact absurd hx' hx
    | visit _ h1' h2' =>
      obtain rfl := ih1 h1'
      rw [ih2 h2']

/-- From one start node: exactly the other nodes that can be reached. -/
theorem mem_iff {x : α} (h : Pre next [x] (next x) out) {y : α} : y ∈ out ↔ y ≠ x ∧ Reach next x y := by
  constructor
  · intro hy
    refine ⟨fun hc => h.disjoint y hy (by simp [hc]), ?_⟩
    obtain ⟨t, ht, hr⟩ := h.sound y hy
    exact Relation.TransGen.head' ht hr
  · rintro ⟨hne, hr⟩
    have key : y ∈ [x] ∨ y ∈ out := by
      induction hr with
      | single hs => exact h.closed.1 _ hs
      | @tail b c _ hs ih =>
        by_cases hb : b = x
        · subst hb; exact h.closed.1 _ hs
        · rcases ih hb with hb' | hb'
          · exact absurd (by simpa using hb') hb
          · exact h.closed.2 b hb' c hs
    rcases key with hk | hk
    · exact absurd (by simpa using hk) hne
    · exact hk

end Pre
end Verif
