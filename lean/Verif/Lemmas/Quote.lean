import Verif.Spec.Dot
/-!
# Quoted strings
-/
namespace Verif

theorem endSlashes_snoc (a : List Char) (c : Char) : endSlashes (a ++ [c]) = if c = '\\' then endSlashes a + 1 else 0 := by
  simp only [endSlashes, List.reverse_append, List.reverse_cons, List.reverse_nil, List.nil_append, List.singleton_append,
    List.takeWhile_cons, decide_eq_true_eq]
  split <;> simp_all

/-- `Quotable` from left to right; `odd` is about the backslashes just read. -/
def quoteScan : Bool → List Char → Bool
  | odd, [] => !odd
  | odd, c :: cs =>
    if c = '\\' then quoteScan (!odd) cs
    else if c = '"' ∨ c = '\n' then !odd && quoteScan false cs
    else quoteScan false cs

theorem quoteScan_from (s a₀ : List Char) :
    (∀ a b, s = a ++ b → (b = [] ∨ b.head? = some '"' ∨ b.head? = some '\n') → endSlashes (a₀ ++ a) % 2 = 0) ↔
      quoteScan (decide (endSlashes a₀ % 2 = 1)) s = true := by
  induction s generalizing a₀ with
  | nil =>
    simp only [List.nil_eq, List.append_eq_nil_iff, and_imp, quoteScan, Bool.not_eq_true', decide_eq_false_iff_not]
    constructor
    · intro h
      have := h [] [] rfl rfl (.inl rfl)
      simp only [List.append_nil] at this
      omega
    · rintro h a b rfl rfl -
      simp only [List.append_nil]
      omega
  | cons c s ih =>
    have key : (∀ a b, c :: s = a ++ b → (b = [] ∨ b.head? = some '"' ∨ b.head? = some '\n') → endSlashes (a₀ ++ a) % 2 = 0) ↔
        ((c = '"' ∨ c = '\n') → endSlashes a₀ % 2 = 0) ∧
        (∀ a b, s = a ++ b → (b = [] ∨ b.head? = some '"' ∨ b.head? = some '\n') → endSlashes ((a₀ ++ [c]) ++ a) % 2 = 0) := by
      constructor
      · intro h
        refine ⟨?_, ?_⟩
        · intro hc
          have := h [] (c :: s) rfl (by simpa using hc)
          simpa using this
        · intro a b e hb
          have := h (c :: a) b (by simp [e]) hb
          simpa using this
      · rintro ⟨h1, h2⟩ a b e hb
        cases a with
        | nil =>
          simp only [List.nil_append] at e
          subst e
          simp only [List.append_nil]
          exact h1 (by simpa using hb)
        | cons x a =>
          simp only [List.cons_append, List.cons.injEq] at e
          obtain ⟨rfl, e⟩ := e
          have := h2 a b e hb
          simpa using this
    rw [key, ih, endSlashes_snoc]
    by_cases hc : c = '\\'
    · subst hc
      rw [if_pos rfl]
      have : decide ((endSlashes a₀ + 1) % 2 = 1) = !decide (endSlashes a₀ % 2 = 1) := by
        rw [Bool.eq_iff_iff]
        simp
        omega
      rw [this]
      simp [quoteScan]
    · rw [if_neg hc]
      simp only [quoteScan, hc, if_false]
      by_cases hq : c = '"' ∨ c = '\n'
      · simp [hq]
      · simp [hq]

theorem quotable_iff (s : List Char) : Quotable s ↔ quoteScan false s = true := quoteScan_from s []

instance (s : List Char) : Decidable (Quotable s) := decidable_of_iff _ (quotable_iff s).symm
instance (s : List Char) : Decidable (Plain s) := inferInstanceAs (Decidable (_ ∧ _))

theorem readQuoted_length (b : Bool) (l c r : List Char) (h : readQuoted b l = some (c, r)) :
    c.length + r.length + 1 ≤ l.length + (if b then 1 else 0) := by
  induction l generalizing b c with
  | nil => cases b <;> simp [readQuoted] at h
  | cons x l ih =>
    cases b with
    | false =>
      simp only [readQuoted] at h
      split at h
      · simp only [Option.some.injEq, Prod.mk.injEq] at h
        obtain ⟨rfl, rfl⟩ := h
        simp
      · split at h
        · have := ih _ _ h
          simp at this ⊢
          omega
        · simp only [Option.map_eq_some_iff, Prod.mk.injEq, Prod.exists] at h
          obtain ⟨c', r', h1, rfl, rfl⟩ := h
          have := ih _ _ h1
          simp at this ⊢
          omega
    | true =>
      simp only [readQuoted] at h
      split at h
      · simp only [Option.map_eq_some_iff, Prod.mk.injEq, Prod.exists] at h
        obtain ⟨c', r', h1, rfl, rfl⟩ := h
        have := ih _ _ h1
        simp at this ⊢
        omega
      · split at h
        · have := ih _ _ h
          simp at this ⊢
          omega
        · simp only [Option.map_eq_some_iff, Prod.mk.injEq, Prod.exists] at h
          obtain ⟨c', r', h1, rfl, rfl⟩ := h
          have := ih _ _ h1
          simp at this ⊢
          omega

/-- What was read is `s`, behind a backslash that was read before. -/
def behind (b : Bool) (s : List Char) : List Char := if b then '\\' :: s else s

theorem map_pair {o : Option (List Char × List Char)} {f : List Char → List Char} {c r : List Char} :
    o.map (fun p => (f p.1, p.2)) = some (c, r) ↔ ∃ c', o = some (c', r) ∧ f c' = c := by
  cases o with
  | none => simp
  | some p => obtain ⟨a, b⟩ := p; simp; grind

/-- A text between quotes as it is. -/
theorem readQuoted_plain (b : Bool) (s rest : List Char) :
    readQuoted b (s ++ '"' :: rest) = some (behind b s, rest) ↔ '"' ∉ s ∧ quoteScan b s = true := by
  induction s generalizing b with
  | nil =>
    cases b with
    | false => simp [readQuoted, quoteScan, behind]
    | true =>
      simp only [List.nil_append, quoteScan, readQuoted, if_true]
      constructor
      · intro h
        rw [map_pair (f := fun c => '"' :: c)] at h
        obtain ⟨c', h1, h2⟩ := h
        simp [behind] at h2
      · simp
  | cons c s ih =>
    cases b with
    | false =>
      simp only [List.cons_append, readQuoted, quoteScan, behind, Bool.false_eq_true, if_false]
      by_cases hq : c = '"'
      · subst hq
        simp
      · rw [if_neg hq]
        by_cases hs : c = '\\'
        · subst hs
          rw [if_pos rfl, if_pos rfl]
          have := ih true
          simp only [behind, if_true] at this
          rw [this]
          simp
        · rw [if_neg hs, if_neg hs, map_pair (f := fun x => c :: x)]
          simp only [List.cons.injEq, true_and, exists_eq_right]
          have := ih false
          simp only [behind, Bool.false_eq_true, if_false] at this
          rw [this]
          by_cases hn : c = '\n'
          · simp [hn]
          · simp [hq, hn, Ne.symm hq]
    | true =>
      simp only [List.cons_append, readQuoted, quoteScan, behind, if_true]
      by_cases hq : c = '"'
      · subst hq
        rw [if_pos rfl, map_pair (f := fun x => '"' :: x)]
        simp
      · rw [if_neg hq]
        by_cases hn : c = '\n'
        · subst hn
          simp only [if_true]
          constructor
          · intro h
            have := readQuoted_length _ _ _ _ h
            simp at this
            omega
          · simp
        · rw [if_neg hn, map_pair (f := fun x => '\\' :: c :: x)]
          simp only [List.cons.injEq, true_and, exists_eq_right]
          have := ih false
          simp only [behind, Bool.false_eq_true, if_false] at this
          rw [this]
          by_cases hs : c = '\\'
          · subst hs
            simp
          · simp [hs, hq, hn, Ne.symm hq]

/-- `s.replace('"', '\\"')` on characters. -/
def escaped (s : List Char) : List Char := s.flatMap fun c => if c = '"' then ['\\', '"'] else [c]

theorem escaped_cons (c : Char) (s : List Char) :
    escaped (c :: s) = if c = '"' then '\\' :: '"' :: escaped s else c :: escaped s := by
  by_cases h : c = '"' <;> simp [escaped, h]

theorem readQuoted_escaped_length (b : Bool) (s rest c : List Char)
    (h : readQuoted b (escaped s ++ '"' :: rest) = some (c, rest)) : c.length ≤ s.length + (if b then 1 else 0) := by
  induction s generalizing b c with
  | nil =>
    have := readQuoted_length _ _ _ _ h
    simp [escaped] at this ⊢
    omega
  | cons x s ih =>
    rw [escaped_cons] at h
    by_cases hq : x = '"'
    · rw [if_pos hq] at h
      cases b with
      | false =>
        simp only [List.cons_append, readQuoted] at h
        simp only [show ('\\' : Char) ≠ '"' from by decide, if_false, if_true] at h
        rw [map_pair (f := fun x => '"' :: x)] at h
        obtain ⟨c', h1, rfl⟩ := h
        have := ih _ _ h1
        simpa using this
      | true =>
        simp only [List.cons_append, readQuoted] at h
        simp only [show ('\\' : Char) ≠ '"' from by decide, show ('\\' : Char) ≠ '\n' from by decide, if_false, if_true] at h
        rw [map_pair (f := fun x => '\\' :: '\\' :: x)] at h
        obtain ⟨c', h1, -⟩ := h
        simp only [Option.some.injEq, Prod.mk.injEq] at h1
        have := congrArg List.length h1.2
        simp at this
        omega
    · rw [if_neg hq] at h
      cases b with
      | false =>
        simp only [List.cons_append, readQuoted, if_neg hq] at h
        by_cases hs : x = '\\'
        · rw [if_pos hs] at h
          have := ih _ _ h
          simp at this ⊢
          omega
        · rw [if_neg hs, map_pair (f := fun y => x :: y)] at h
          obtain ⟨c', h1, rfl⟩ := h
          have := ih _ _ h1
          simpa using this
      | true =>
        simp only [List.cons_append, readQuoted, if_neg hq] at h
        by_cases hs : x = '\n'
        · rw [if_pos hs] at h
          have := ih _ _ h
          simp at this ⊢
          omega
        · rw [if_neg hs, map_pair (f := fun y => '\\' :: x :: y)] at h
          obtain ⟨c', h1, rfl⟩ := h
          have := ih _ _ h1
          simp at this ⊢
          omega

/-- A text between quotes with its own quotes escaped. -/
theorem readQuoted_escaped (b : Bool) (s rest : List Char) :
    readQuoted b (escaped s ++ '"' :: rest) = some (behind b s, rest) ↔ quoteScan b s = true := by
  induction s generalizing b with
  | nil =>
    cases b with
    | false => simp [escaped, readQuoted, quoteScan, behind]
    | true =>
      simp only [escaped, List.flatMap_nil, List.nil_append, quoteScan, readQuoted, if_true]
      constructor
      · intro h
        rw [map_pair (f := fun c => '"' :: c)] at h
        obtain ⟨c', h1, h2⟩ := h
        simp [behind] at h2
      · simp
  | cons c s ih =>
    rw [escaped_cons]
    by_cases hq : c = '"'
    · subst hq
      rw [if_pos rfl]
      cases b with
      | false =>
        simp only [List.cons_append, readQuoted, behind]
        simp only [show ('\\' : Char) ≠ '"' from by decide, Bool.false_eq_true, if_false, if_true]
        rw [map_pair (f := fun x => '"' :: x)]
        simp only [List.cons.injEq, true_and, exists_eq_right]
        have := ih false
        simp only [behind, Bool.false_eq_true, if_false] at this
        rw [this]
        simp [quoteScan]
      | true =>
        simp only [List.cons_append, readQuoted, behind, quoteScan]
        simp only [show ('\\' : Char) ≠ '"' from by decide, show ('\\' : Char) ≠ '\n' from by decide, if_false, if_true]
        rw [map_pair (f := fun x => '\\' :: '\\' :: x)]
        simp
    · rw [if_neg hq]
      cases b with
      | false =>
        simp only [List.cons_append, readQuoted, quoteScan, behind, Bool.false_eq_true, if_false, if_neg hq]
        by_cases hs : c = '\\'
        · subst hs
          have := ih true
          simp only [behind, if_true] at this
          simp [this]
        · rw [if_neg hs, if_neg hs, map_pair (f := fun x => c :: x)]
          simp only [List.cons.injEq, true_and, exists_eq_right]
          have := ih false
          simp only [behind, Bool.false_eq_true, if_false] at this
          rw [this]
          by_cases hn : c = '\n'
          · simp [hn]
          · simp [hq, hn]
      | true =>
        simp only [List.cons_append, readQuoted, quoteScan, behind, if_true, if_neg hq]
        by_cases hn : c = '\n'
        · subst hn
          simp only [if_true]
          constructor
          · intro h
            have := readQuoted_escaped_length _ _ _ _ h
            simp at this
            omega
          · simp
        · rw [if_neg hn, map_pair (f := fun x => '\\' :: c :: x)]
          simp only [List.cons.injEq, true_and, exists_eq_right]
          have := ih false
          simp only [behind, Bool.false_eq_true, if_false] at this
          rw [this]
          by_cases hs : c = '\\'
          · subst hs
            simp
          · simp [hs, hq, hn]

end Verif
