import Verif.Lemmas.Quote
import Verif.Spec.Picture
/-!
# The tokens of the pieces of a source
-/
namespace Verif

/-- Between tokens, `cs` gives the tokens `ts`, whatever follows. -/
def Lexes (cs : List Char) (ts : List DotTok) : Prop :=
  ∀ rest, lexFrom .idle (cs ++ rest) = (lexFrom .idle rest).map (ts ++ ·)

/-- `cs` gives the token `t` if no letter or the like follows. -/
def LexesTok (cs : List Char) (t : DotTok) : Prop :=
  ∀ c rest, isWordChar c = false → lexFrom .idle (cs ++ c :: rest) = (lexFrom .idle (c :: rest)).map (t :: ·)

theorem Lexes.nil : Lexes [] [] := by intro rest; cases h : lexFrom .idle rest <;> simp [h]

theorem Lexes.append {a b : List Char} {s t : List DotTok} (ha : Lexes a s) (hb : Lexes b t) : Lexes (a ++ b) (s ++ t) := by
  intro rest
  rw [List.append_assoc, ha, hb]
  cases lexFrom .idle rest <;> simp

theorem Lexes.tok {a : List Char} {t : DotTok} (h : Lexes a [t]) : LexesTok a t := by
  intro c rest _
  rw [h]
  rfl

theorem LexesTok.then {a b : List Char} {t : DotTok} {ts : List DotTok} {c : Char} (h : LexesTok a t)
    (hc : isWordChar c = false) (hb : Lexes (c :: b) ts) : Lexes (a ++ c :: b) (t :: ts) := by
  intro rest
  have := hb rest
  simp only [List.cons_append, List.append_assoc] at this ⊢
  rw [h c _ hc, this]
  cases lexFrom .idle rest <;> simp

theorem lexes_one {c : Char} {ts : List DotTok} (h : lexStart c = some (ts, .idle)) : Lexes [c] ts := by
  intro rest
  simp [lexFrom, lexStep, h]

theorem lexes_cons {c : Char} {cs : List Char} {s t : List DotTok} (h : lexStart c = some (s, .idle)) (hr : Lexes cs t) :
    Lexes (c :: cs) (s ++ t) := (lexes_one h).append hr

/-! ## Quotes -/

theorem lex_quoted (cs acc : List Char) :
    lexFrom (.quoted acc) cs = ((readQuoted false cs).bind fun p =>
      (lexFrom .idle p.2).map (.text (.plain (String.ofList (acc ++ p.1))) :: ·)) ∧
    lexFrom (.slash acc) cs = ((readQuoted true cs).bind fun p =>
      (lexFrom .idle p.2).map (.text (.plain (String.ofList (acc ++ p.1))) :: ·)) := by
  induction cs generalizing acc with
  | nil => simp [lexFrom, readQuoted]
  | cons c cs ih =>
    constructor
    · simp only [lexFrom, lexStep, readQuoted]
      by_cases hq : c = '"'
      · simp [hq]
      · by_cases hs : c = '\\'
        · simp only [hs]
          simp [(ih acc).2, Function.comp_def]
        · simp only [hq, hs, if_false]
          simp [(ih (acc ++ [c])).1, Option.bind_map, Function.comp_def]
    · simp only [lexFrom, lexStep, readQuoted]
      by_cases hq : c = '"'
      · simp only [hq]
        simp [(ih (acc ++ ['"'])).1, Option.bind_map, Function.comp_def]
      · by_cases hs : c = '\n'
        · simp only [hs]
          simp [(ih acc).1, Function.comp_def]
        · simp only [hq, hs, if_false]
          simp [(ih (acc ++ ['\\', c])).1, Option.bind_map, Function.comp_def]

theorem lexes_quoted {cs t : List Char} (h : ∀ rest, readQuoted false (cs ++ '"' :: rest) = some (t, rest)) :
    Lexes ('"' :: cs ++ ['"']) [.text (.plain (String.ofList t))] := by
  intro rest
  have : lexFrom .idle ('"' :: (cs ++ '"' :: rest)) = lexFrom (.quoted []) (cs ++ '"' :: rest) := by
    have hs : lexStart '"' = some ([], .quoted []) := by decide
    simp [lexFrom, lexStep, hs]
  simp only [List.cons_append, List.append_assoc, List.nil_append]
  rw [this, (lex_quoted _ _).1, h]
  simp

theorem toList_inQuotes (s : String) : (inQuotes s).toList = '"' :: s.toList ++ ['"'] := by
  simp [inQuotes]

theorem lexes_plain {s : String} (h : Plain s.toList) : Lexes (inQuotes s).toList [.text (.plain s)] := by
  rw [toList_inQuotes]
  have := lexes_quoted (cs := s.toList) (t := s.toList) (fun rest => by
    have := (readQuoted_plain false s.toList rest).2 ⟨h.1, (quotable_iff _).1 h.2⟩
    simpa [behind] using this)
  simpa using this

theorem toList_escapeQuotes (s : String) : (escapeQuotes s).toList = escaped s.toList := by
  simp [escapeQuotes, escaped]

theorem lexes_escaped {s : String} (h : Quotable s.toList) :
    Lexes (inQuotes (escapeQuotes s)).toList [.text (.plain s)] := by
  rw [toList_inQuotes, toList_escapeQuotes]
  have := lexes_quoted (cs := escaped s.toList) (t := s.toList) (fun rest => by
    have := (readQuoted_escaped false s.toList rest).2 ((quotable_iff _).1 h)
    simpa [behind] using this)
  simpa using this

/-! ## Words -/

theorem wordChar_ne {c d : Char} (h : isWordChar c = true) (hd : isWordChar d = false) : c ≠ d := by
  rintro rfl
  simp [h] at hd

theorem lexStart_word {c : Char} (h : isWordChar c = true) : lexStart c = some ([], .word [c]) := by
  have hs : isBlank c = false := by
    simp only [isBlank, decide_eq_false_iff_not, not_or]
    exact ⟨wordChar_ne h (by decide), wordChar_ne h (by decide), wordChar_ne h (by decide), wordChar_ne h (by decide)⟩
  simp only [lexStart, hs, Bool.false_eq_true, if_false]
  rw [if_neg (wordChar_ne h (by decide)), if_neg (wordChar_ne h (by decide)), if_neg (wordChar_ne h (by decide)),
    if_neg (wordChar_ne h (by decide)), if_neg (wordChar_ne h (by decide)), if_neg (wordChar_ne h (by decide)),
    if_neg (wordChar_ne h (by decide)), if_neg (wordChar_ne h (by decide)), if_neg (wordChar_ne h (by decide)),
    if_neg (wordChar_ne h (by decide)), if_pos h]

theorem lex_word (cs acc : List Char) (hw : ∀ c ∈ cs, isWordChar c = true) (c : Char) (rest : List Char)
    (hc : isWordChar c = false) :
    lexFrom (.word acc) (cs ++ c :: rest) =
      (lexFrom .idle (c :: rest)).map (.word (String.ofList (acc ++ cs)) :: ·) := by
  induction cs generalizing acc with
  | nil =>
    simp only [List.nil_append, lexFrom, lexStep, hc, Bool.false_eq_true, if_false, List.append_nil]
    cases h : lexStart c with
    | none => simp
    | some p => cases h2 : lexFrom p.2 rest <;> simp [h2]
  | cons x cs ih =>
    have hx := hw x (by simp)
    have := ih (acc ++ [x]) (fun y hy => hw y (by simp [hy]))
    simp only [List.append_assoc, List.singleton_append] at this
    simp only [List.cons_append, lexFrom, lexStep, hx, if_true, Option.bind_some, this]
    simp

theorem lexes_word_of {s : String} (h : (s.toList ≠ [] ∧ ∀ c ∈ s.toList, isWordChar c = true) ∨
    ∃ c t, s.toList = '-' :: c :: t ∧ c.isDigit = true ∧ ∀ x ∈ t, isWordChar x = true) : LexesTok s.toList (.word s) := by
  intro c rest hc
  rcases h with ⟨h1, h2⟩ | ⟨x, t, h1, h2, h3⟩
  · cases e : s.toList with
    | nil => exact absurd e h1
    | cons x t =>
      rw [e] at h2
      have := lex_word t [x] (fun y hy => h2 y (by simp [hy])) c rest hc
      have hs : String.ofList (x :: t) = s := by rw [← e]; simp
      rw [List.singleton_append, hs] at this
      rw [List.cons_append, lexFrom]
      · simp only [lexStep, lexStart_word (h2 x (by simp)), Option.bind_some, this]
        cases lexFrom .idle (c :: rest) <;> simp
  · rw [h1]
    have := lex_word t ['-', x] h3 c rest hc
    have hs : String.ofList ('-' :: x :: t) = s := by rw [← h1]; simp
    simp only [List.cons_append, List.nil_append, hs] at this
    have hd : lexStart '-' = some ([], .dash) := by decide
    have hx : x ≠ '>' := by rintro rfl; simp at h2
    simp only [List.cons_append, lexFrom, lexStep, hd, Option.bind_some, h2, Bool.true_or, if_true, hx, if_false, this]
    simp

theorem lexes_word {s : String} (h : DotWord s) : LexesTok s.toList (.word s) := lexes_word_of h.2

/-! ## HTML -/

theorem lex_html (cs acc : List Char) (depth : Nat) (h : balanced depth cs = true) (rest : List Char) :
    lexFrom (.html depth acc) (cs ++ '>' :: rest) =
      (lexFrom .idle rest).map (.text (.html (String.ofList (acc ++ cs))) :: ·) := by
  induction cs generalizing acc depth with
  | nil =>
    simp only [balanced, decide_eq_true_eq] at h
    subst h
    simp [lexFrom, lexStep]
  | cons c cs ih =>
    simp only [balanced] at h
    simp only [List.cons_append, lexFrom, lexStep]
    by_cases h1 : c = '<'
    · subst h1
      simp only [if_true] at h ⊢
      rw [Option.bind_some, ih _ _ h]
      simp [Function.comp_def]
    · rw [if_neg h1] at h ⊢
      by_cases h2 : c = '>'
      · subst h2
        rw [if_pos rfl] at h ⊢
        cases depth with
        | zero => simp at h
        | succ depth =>
          simp only at h ⊢
          rw [Option.bind_some, ih _ _ h]
          simp [Function.comp_def]
      · rw [if_neg h2] at h ⊢
        rw [Option.bind_some, ih _ _ h]
        simp [Function.comp_def]

theorem lexes_html {cs : List Char} (h : balanced 0 cs = true) :
    Lexes ('<' :: cs ++ ['>']) [.text (.html (String.ofList cs))] := by
  intro rest
  have hs : lexStart '<' = some ([], .html 0 []) := by decide
  have := lex_html cs [] 0 h rest
  simp only [List.cons_append, List.append_assoc, List.nil_append, lexFrom, lexStep, hs, Option.bind_some]
  rw [List.nil_append] at this
  rw [this]
  simp [Function.comp_def]

theorem balanced_append {a b : List Char} {d : Nat} (ha : balanced 0 a = true) (hb : balanced d b = true) :
    balanced d (a ++ b) = true := by
  have key : ∀ (a : List Char) (k : Nat), balanced k a = true → balanced (k + d) (a ++ b) = true := by
    intro a
    induction a with
    | nil =>
      intro k hk
      simp only [balanced, decide_eq_true_eq] at hk
      subst hk
      simpa using hb
    | cons c a ih =>
      intro k hk
      simp only [balanced, List.cons_append] at hk ⊢
      by_cases h1 : c = '<'
      · rw [if_pos h1] at hk ⊢
        have := ih _ hk
        rwa [Nat.add_right_comm] at this
      · rw [if_neg h1] at hk ⊢
        by_cases h2 : c = '>'
        · rw [if_pos h2] at hk ⊢
          cases k with
          | zero => simp at hk
          | succ k =>
            rw [Nat.add_right_comm]
            exact ih _ hk
        · rw [if_neg h2] at hk ⊢
          exact ih _ hk
  simpa using key a 0 ha

end Verif
