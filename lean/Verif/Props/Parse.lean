import Verif.Lemmas.Parse
/-!
# C39, C40: indented text
-/
namespace Verif

/-- An outline used in the examples: three levels, an empty line, a line that goes back. -/
def menu : List Entry :=
  [.text 0 "soups".toList, .text 1 "hot  ones".toList, .blank, .text 2 "borscht".toList, .text 0 "salads".toList]

theorem menu_plain : ∀ e ∈ menu, e.Plain := by
  intro e he
  simp only [menu, List.mem_cons, List.not_mem_nil, or_false] at he
  rcases he with rfl | rfl | rfl | rfl | rfl
  · exact ⟨⟨_, _, rfl, by decide⟩, by decide⟩
  · exact ⟨⟨_, _, rfl, by decide⟩, by decide⟩
  · trivial
  · exact ⟨⟨_, _, rfl, by decide⟩, by decide⟩
  · exact ⟨⟨_, _, rfl, by decide⟩, by decide⟩

/-- **C39, exact form, unit given.** For every outline, every unit of blanks and tabs and any line ends, the text is read as
the outline it shows, except that in a text at depth `d` the first `d * (length of the unit - 1)` occurrences of the unit
are replaced by four blanks. -/
theorem C39_exact (u : Line) (hu : ∀ c ∈ u, c = ' ' ∨ c = '\t') (hne : u ≠ []) (eol : Nat → Nat) (es : List Entry)
    (hp : ∀ e ∈ es, e.Plain) :
    parseIndentations (es.mapIdx (fun j e => e.write u (eol j))) (some u) =
      readOutline (fun d t => replaceN u four (d * u.length - d) t) es := by
  have := parseFrom_write hu hne eol es 0 [] [] none hp .nil rfl
  simp only [Nat.zero_add] at this
  exact this

/-- **C39, exact form, unit detected.** -/
theorem C39_detected_exact (u : Line) (hu : ∀ c ∈ u, c = ' ' ∨ c = '\t') (hne : u ≠ []) (eol : Nat → Nat)
    (es : List Entry) (hp : ∀ e ∈ es, e.Plain) (shown : Nat → Line → Line) (hok : (readOutline shown es).2 = none) :
    parseIndentations (es.mapIdx (fun j e => e.write u (eol j))) none =
      readOutline (fun d t => replaceN u four (d * u.length - d) t) es := by
  rw [← C39_exact u hu hne eol es hp]
  have := parseFrom_detect hu hne eol shown es 0 [] [] none hp (by simp) hok
  simp only [Nat.zero_add] at this
  exact this

example : parseIndentations (menu.mapIdx (fun j e => e.write "\t".toList (j % 2))) none =
    ([⟨0, 0, "soups".toList, none⟩, ⟨1, 1, "hot  ones".toList, some 0⟩, ⟨2, 1, [], some 0⟩, ⟨3, 2, "borscht".toList, some 1⟩,
      ⟨4, 0, "salads".toList, none⟩], none) := by decide +kernel

/-- **C39 does not hold as stated**: a text indented with two blanks that has two blanks in it is changed. -/
theorem C39_violated : ∃ (u : Line) (es : List Entry), (∀ c ∈ u, c = ' ' ∨ c = '\t') ∧ u ≠ [] ∧ (∀ e ∈ es, e.Plain) ∧
    (readOutline (fun _ t => t) es).2 = none ∧
    parseIndentations (es.map (Entry.write u 0)) (some u) ≠ readOutline (fun _ t => t) es ∧
    parseIndentations (es.map (Entry.write u 0)) none ≠ readOutline (fun _ t => t) es :=
  ⟨"  ".toList, menu, by decide, by decide, menu_plain, by decide +kernel, by decide +kernel, by decide +kernel⟩

/-- **C39, partial**: with a given unit, every outline - also one that jumps too deep, or starts with an empty line - is
read as what it shows. Missing: units of two or more characters that occur in a text (see `C39_violated`). -/
theorem C39_given_partial (u : Line) (hu : ∀ c ∈ u, c = ' ' ∨ c = '\t') (hne : u ≠ []) (eol : Nat → Nat)
    (es : List Entry) (hp : ∀ e ∈ es, e.Plain)
    (h : u.length = 1 ∨ u = [' ', ' ', ' ', ' '] ∨ ∀ e ∈ es, e.Free u) :
    parseIndentations (es.mapIdx (fun j e => e.write u (eol j))) (some u) = readOutline (fun _ t => t) es := by
  rw [C39_exact u hu hne eol es hp, altered_same h]

/-- **C39, partial**: an outline whose depth grows by at most one at a time is read as what it shows, without being told
the unit. -/
theorem C39_detected_partial (u : Line) (hu : ∀ c ∈ u, c = ' ' ∨ c = '\t') (hne : u ≠ []) (eol : Nat → Nat)
    (es : List Entry) (hp : ∀ e ∈ es, e.Plain) (hok : (readOutline (fun _ t => t) es).2 = none)
    (h : u.length = 1 ∨ u = [' ', ' ', ' ', ' '] ∨ ∀ e ∈ es, e.Free u) :
    parseIndentations (es.mapIdx (fun j e => e.write u (eol j))) none = readOutline (fun _ t => t) es := by
  rw [C39_detected_exact u hu hne eol es hp _ hok, altered_same h]

example : (∀ c ∈ "\t".toList, c = ' ' ∨ c = '\t') ∧ "\t".toList.length = 1 ∧ (readOutline (fun _ t => t) menu).2 = none := by
  decide +kernel

/-! ## C40 -/

/-- **C40**, the parser: whatever the lines, the items that are yielded have these properties. A level is at most one more
than that of the line before; the first line has level 0; a line with level 0 has no parent; the parent of a deeper line is
the nearest non-empty line above that is shallower, and its level is exactly one less; an empty line repeats the level
and the parent of the line before. -/
theorem C40_parent (lines : List Line) (indent : Option Line) (i : Nat) (it : Item)
    (h : (parseIndentations lines indent).1[i]? = some it) :
    it.index = i ∧
    (i = 0 → it.level = 0) ∧
    (∀ q, 0 < i → (parseIndentations lines indent).1[i - 1]? = some q → it.level ≤ q.level + 1) ∧
    (it.level = 0 → it.parent = none) ∧
    (it.content ≠ [] → 0 < it.level → ∃ p q, it.parent = some p ∧ p < i ∧
      (parseIndentations lines indent).1[p]? = some q ∧ q.content ≠ [] ∧ q.level + 1 = it.level ∧
      ∀ j r, p < j → j < i → (parseIndentations lines indent).1[j]? = some r → r.content ≠ [] → it.level ≤ r.level) ∧
    (it.content = [] → ∃ q, 0 < i ∧ (parseIndentations lines indent).1[i - 1]? = some q ∧ it.level = q.level ∧
      it.parent = q.parent) :=
  good_parent (parseIndentations lines indent).1 [] [] (parseFrom_good lines _ [] 0 .nil rfl) trivial
    ⟨.nil, by simp⟩ (by intro q hq; simp at hq) (fun _ => rfl) i it (Nat.zero_le _) h

/-- **C40**: a parent is an earlier line, so following parents always ends. -/
theorem C40_earlier (lines : List Line) (indent : Option Line) (i : Nat) (it : Item) (p : Nat)
    (h : (parseIndentations lines indent).1[i]? = some it) (hp : it.parent = some p) : p < i := by
  induction i using Nat.strongRecOn generalizing it with
  | ind i ih =>
    obtain ⟨_, _, _, h0, hne, he⟩ := C40_parent lines indent i it h
    by_cases hc : it.content = []
    · obtain ⟨q, hi, hq, _, e⟩ := he hc
      have := ih (i - 1) (by omega) q hq (by rw [← e, hp])
      omega
    · rcases Nat.eq_zero_or_pos it.level with hz | hpos
      · rw [h0 hz] at hp
        exact absurd hp (by simp)
      · obtain ⟨p', q, hp', hlt, _⟩ := hne hc hpos
        rw [hp] at hp'
        obtain rfl : p = p' := by simpa using hp'
        exact hlt

/-- Every line is yielded, or an exception ends the generator. -/
theorem C40_all_lines (lines : List Line) (indent : Option Line) :
    ((parseIndentations lines indent).2 = none → (parseIndentations lines indent).1.length = lines.length) ∧
    ((parseIndentations lines indent).2 ≠ none → (parseIndentations lines indent).1.length < lines.length) := by
  suffices h : ∀ (lines : List Line) (s : PState) (i : Nat),
      ((parseFrom s i lines).2 = none → (parseFrom s i lines).1.length = lines.length) ∧
      ((parseFrom s i lines).2 ≠ none → (parseFrom s i lines).1.length < lines.length) from h lines _ 0
  intro lines
  induction lines with
  | nil => intro s i; exact ⟨fun _ => rfl, fun h => absurd rfl h⟩
  | cons l ls ih =>
    intro s i
    cases hp : parseLine s i l with
    | error e => simp [parseFrom, hp]
    | ok r =>
      obtain ⟨h1, h2⟩ := ih r.1 (i + 1)
      simp only [parseFrom, hp]
      exact ⟨fun h => by simp [h1 h], fun h => by simpa using h2 h⟩

/-- **C40**: a line that is two or more levels deeper than the line before it raises `ValueError`, and so does a first
line that is indented; everything before it has been yielded. (The unit is given; the line is not changed by it.) -/
theorem C40_too_deep (u : Line) (hu : ∀ c ∈ u, c = ' ' ∨ c = '\t') (hne : u ≠ []) (eol : Nat → Nat)
    (es : List Entry) (d : Nat) (t : Line) (rest : List Entry) (hp : ∀ e ∈ es ++ .text d t :: rest, e.Plain)
    (hok : (readOutline (fun _ t => t) es).2 = none)
    (hd : ∀ l, ((readOutline (fun _ t => t) es).1.getLast?.map (·.level)) = some l → l + 1 < d)
    (h0 : es = [] → 0 < d) :
    (parseIndentations ((es ++ .text d t :: rest).mapIdx (fun j e => e.write u (eol j))) (some u)).2 =
      some (.valueError "Indentation too deep") ∧
    (parseIndentations ((es ++ .text d t :: rest).mapIdx (fun j e => e.write u (eol j))) (some u)).1.length = es.length := by
  rw [C39_exact u hu hne eol _ hp]
  generalize (fun d t => replaceN u four (d * u.length - d) t) = f
  suffices h : ∀ (es : List Entry) (above : List (Nat × Nat)) (i : Nat), (readFrom (fun _ t => t) above i es).2 = none →
      (∀ l, ((readFrom (fun _ t => t) above i es).1.getLast?.map (·.level)) = some l → l + 1 < d) →
      (es = [] → ¬ Fits above d) →
      (readFrom f above i (es ++ .text d t :: rest)).2 = some (.valueError "Indentation too deep") ∧
      (readFrom f above i (es ++ .text d t :: rest)).1.length = es.length by
    refine h es [] 0 hok hd fun e hf => ?_
    have := h0 e
    simp only [Fits] at hf
    omega
  clear hok hd h0 hp
  intro es
  induction es with
  | nil =>
    intro above i _ _ h0
    simp [readFrom, h0 rfl]
  | cons e es ih =>
    intro above i hok hd _
    cases e with
    | blank =>
      cases above with
      | nil => simp [readFrom] at hok
      | cons a as =>
        simp only [readFrom, List.cons_append] at hok hd ⊢
        obtain ⟨h1, h2⟩ := ih (a :: as) (i + 1) hok
          (fun l hl => hd l (by
            rw [List.getLast?_cons]
            cases hh : (readFrom (fun _ t => t) (a :: as) (i + 1) es).1.getLast? with
            | none => rw [hh] at hl; simp at hl
            | some q => rw [hh] at hl; simpa using hl))
          (fun e hf => by
            subst e
            have := hd a.2 (by simp [readFrom])
            have hf : d ≤ a.2 + 1 := hf
            omega)
        exact ⟨h1, by simp [h2]⟩
    | text d' t' =>
      by_cases hf : Fits above d'
      · simp only [readFrom, List.cons_append, if_pos hf] at hok hd ⊢
        obtain ⟨h1, h2⟩ := ih ((i, d') :: above) (i + 1) hok
          (fun l hl => hd l (by
            rw [List.getLast?_cons]
            cases hh : (readFrom (fun _ t => t) ((i, d') :: above) (i + 1) es).1.getLast? with
            | none => rw [hh] at hl; simp at hl
            | some q => rw [hh] at hl; simpa using hl))
          (fun e hf => by
            subst e
            have := hd d' (by simp [readFrom])
            have hf : d ≤ d' + 1 := hf
            omega)
        exact ⟨h1, by simp [h2]⟩
      · simp only [readFrom, if_neg hf] at hok
        exact absurd hok (by simp)

example : (parseIndentations ["a".toList, "\tb".toList, "\t\t\tc".toList, "d".toList] (some "\t".toList)) =
    ([⟨0, 0, "a".toList, none⟩, ⟨1, 1, "b".toList, some 0⟩], some (.valueError "Indentation too deep")) := by decide +kernel

example : parseIndentations ["a".toList, "  b  c".toList, "d".toList] none =
    ([⟨0, 0, "a".toList, none⟩, ⟨1, 1, "b    c".toList, some 0⟩, ⟨2, 0, "d".toList, none⟩], none) := by decide +kernel

end Verif
