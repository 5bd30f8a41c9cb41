import Verif.Lemmas.Draw
/-!
# The header of the source
-/
namespace Verif
open Palette
variable {C : Type} [Palette C]

theorem dset_map {K V V' : Type} [DecidableEq K] (f : V → V') (d : Dict K V) (k : K) (v : V) :
    dset (d.map fun p => (p.1, f p.2)) k (f v) = (dset d k v).map fun p => (p.1, f p.2) := by
  induction d with
  | nil => rfl
  | cons p d ih =>
    simp only [List.map_cons, dset]
    split
    · simp
    · simp [ih]

/-- A value as it is written, and what it means. -/
abbrev Value := String × DotText

def ValueOk (v : Value) : Prop := ∃ tok, dotId tok = some v.2 ∧ LexesTok v.1.toList tok

theorem valueOk_plain {s : String} (h : Plain s.toList) : ValueOk (inQuotes s, .plain s) := ⟨_, rfl, (lexes_plain h).tok⟩

theorem valueOk_word {s : String} (h : DotWord s) : ValueOk (s, .plain s) := ⟨.word s, by simp [dotId, h.1], lexes_word h⟩

theorem valueOk_html {s : String} (h : balanced 0 s.toList = true) : ValueOk ("<" ++ s ++ ">", .html s) := by
  refine ⟨.text (.html s), rfl, ?_⟩
  have := (lexes_html h).tok
  have e : ("<" ++ s ++ ">").toList = '<' :: s.toList ++ ['>'] := by simp
  rw [e]
  simpa using this

/-! ## Numbers -/

theorem digit_wordChar {c : Char} (h : c.isDigit = true) : isWordChar c = true := by
  simp [isWordChar, Char.isAlphanum, h]

theorem not_keyword_of_digit {s : String} {c : Char} {t : List Char} (e : s.toList = c :: t) (h : c.isDigit = true ∨ c = '-') :
    isKeyword s = false := by
  have hc : c.toLower = c := by
    rcases h with h | rfl
    · have : c.isUpper = false := by
        simp only [Char.isDigit, Char.isUpper, Bool.and_eq_true, decide_eq_true_eq] at h ⊢
        simp only [decide_eq_false_iff_not]
        rintro ⟨h1, -⟩
        have h2 := h.2
        rw [UInt32.le_iff_toNat_le] at h2
        have h3 := UInt32.le_iff_toNat_le.1 h1
        have h4 := Nat.le_trans h3 h2
        exact absurd h4 (by decide)
      simp [Char.toLower, Char.isUpper] at this ⊢
      grind
    · decide
  unfold isKeyword
  rw [e, List.map_cons, hc]
  simp only [decide_eq_false_iff_not]
  intro hm
  have : c ∈ ['s', 'g', 'd', 'n', 'e', 's'] := by
    have h2 := List.mem_map_of_mem (f := fun s : String => s.toList.head?) hm
    simpa using h2
  rcases h with h | rfl
  · revert h
    revert this
    generalize c = x
    revert x
    decide
  · simp at this

theorem dotWord_nat (n : Nat) : DotWord n.repr := by
  have hd : ∀ c ∈ n.repr.toList, c.isDigit = true := by
    intro c hc
    simp only [Nat.repr, String.toList_ofList] at hc
    exact Nat.isDigit_of_mem_toDigits (by decide) (by decide) hc
  have hne : n.repr.toList ≠ [] := by
    simp [Nat.repr]
  cases e : n.repr.toList with
  | nil => exact absurd e hne
  | cons c t =>
    exact ⟨not_keyword_of_digit e (.inl (hd c (by simp [e]))), .inl ⟨hne, fun x hx => digit_wordChar (hd x hx)⟩⟩

theorem dotWord_int (i : Int) : DotWord (toString i) := by
  cases i with
  | ofNat n => exact dotWord_nat n
  | negSucc n =>
    have hd : ∀ c ∈ (n + 1).repr.toList, c.isDigit = true := by
      intro c hc
      simp only [Nat.repr, String.toList_ofList] at hc
      exact Nat.isDigit_of_mem_toDigits (by decide) (by decide) hc
    have e : (toString (Int.negSucc n)).toList = '-' :: (n + 1).repr.toList := by
      show ("-" ++ (n + 1).repr).toList = _
      simp
    cases e2 : (n + 1).repr.toList with
    | nil => simp [Nat.repr] at e2
    | cons c t =>
      rw [e2] at e hd
      exact ⟨not_keyword_of_digit e (.inr rfl), .inr ⟨c, t, e, hd c (by simp), fun x hx => digit_wordChar (hd x (by simp [hx]))⟩⟩

/-! ## The attribute line -/

/-- The values as they are written. -/
def written (l : Dict String Value) : Dict String String := l.map fun p => (p.1, p.2.1)
/-- What the values mean. -/
def meant (l : Dict String Value) : DotAttrs := l.map fun p => (p.1, p.2.2)

theorem writes_attributes (p : String × Value) (l : Dict String Value)
    (h : ∀ q ∈ p :: l, DotWord q.1 ∧ ValueOk q.2) :
    WritesAttrs ((String.intercalate ", " ((written (p :: l)).map fun q => q.1 ++ " = " ++ q.2)).toList ++ [' '])
      (meant (p :: l)) := by
  rw [String.toList_intercalate]
  induction l generalizing p with
  | nil =>
    obtain ⟨h1, tok, h2, h3⟩ := h p (by simp)
    refine ⟨[.word p.1, .eq, tok], ?_, .cons (by simp [dotName, dotId, h1.1]) h2 .nil⟩
    have e : List.intercalate (", " : String).toList (((written [p]).map fun q => q.1 ++ " = " ++ q.2).map String.toList) ++ [' '] =
        p.1.toList ++ (' ' :: ('=' :: (' ' :: (p.2.1.toList ++ (' ' :: []))))) := by
      simp [written, List.intercalate]
    rw [e]
    exact (lexes_word h1).then (by decide) (lexes_cons (s := []) (by decide) (lexes_cons (s := [.eq]) (by decide)
      (lexes_cons (s := []) (by decide) (h3.then (by decide) (lexes_space rfl)))))
  | cons q l ih =>
    obtain ⟨h1, tok, h2, h3⟩ := h p (by simp)
    obtain ⟨ts, h4, h5⟩ := ih q (fun x hx => h x (List.mem_cons_of_mem _ hx))
    refine ⟨.word p.1 :: .eq :: tok :: .comma :: ts, ?_, .comma (by simp [dotName, dotId, h1.1]) h2 h5⟩
    have e : List.intercalate (", " : String).toList (((written (p :: q :: l)).map fun q => q.1 ++ " = " ++ q.2).map String.toList) ++ [' '] =
        p.1.toList ++ (' ' :: ('=' :: (' ' :: (p.2.1.toList ++ (',' :: (' ' :: 
          (List.intercalate (", " : String).toList (((written (q :: l)).map fun q => q.1 ++ " = " ++ q.2).map String.toList) ++ [' '])))))) ) := by
      have e0 : (", " : String).toList = [',', ' '] := by decide +kernel
      simp only [written, List.map_cons]
      rw [intercalate_two]
      simp [e0]
    rw [e]
    exact (lexes_word h1).then (by decide) (lexes_cons (s := []) (by decide) (lexes_cons (s := [.eq]) (by decide)
      (lexes_cons (s := []) (by decide) (h3.then (by decide) (lexes_cons (s := [.comma]) (by decide)
        (lexes_cons (s := []) (by decide) h4))))))

theorem writes_attributesLine {l : Dict String Value} (h : ∀ q ∈ l, DotWord q.1 ∧ ValueOk q.2) {rest : List Char} {d : Nat}
    {is : List DotItem} (hr : WritesBody d rest is) :
    WritesBody d ((attributesLine (written l)).toList ++ rest)
      ((if meant l = [] then [] else [.defaults "graph" (meant l)]) ++ is) := by
  cases l with
  | nil => simpa [attributesLine, written, meant] using hr
  | cons p l =>
    obtain ⟨ts, h1, h2⟩ := writes_attributes p l h
    have hi : WritesItem ("graph [".toList ++ ((String.intercalate ", " ((written (p :: l)).map fun q => q.1 ++ " = " ++ q.2)).toList ++ [' '] ++ [']']))
        (.defaults "graph" (meant (p :: l))) := by
      refine ⟨_, ?_, stmt_graph h2⟩
      have e : ("graph [" : String).toList = "graph".toList ++ (' ' :: ['[']) := by decide +kernel
      rw [e, List.append_assoc]
      exact (lexes_word_of (s := "graph") (.inl ⟨by decide +kernel, by decide +kernel⟩)).then (by decide)
        (lexes_cons (s := []) (by decide) (lexes_cons (s := [.lbrack]) (by decide) (h1.append (lexes_one (by decide)))))
    have := ((hr.space (c := '\n') rfl).semi.item hi).spaces (sp := ['\t', ' ']) (by decide)
    have e : (attributesLine (written (p :: l))).toList ++ rest = ['\t', ' '] ++ (("graph [".toList ++
        ((String.intercalate ", " ((written (p :: l)).map fun q => q.1 ++ " = " ++ q.2)).toList ++ [' '] ++ [']'])) ++
        (';' :: '\n' :: rest)) := by
      simp [attributesLine, written]
    rw [e]
    simpa [meant] using this

/-! ## The attributes -/

def optValue (key : String) (f : String → Value) : Option String → Dict String Value
  | none => []
  | some s => [(key, f s)]

def quotedValue (s : String) : Value := (inQuotes s, .plain s)
def bareValue (s : String) : Value := (s, .plain s)

/-- The label as it is written. -/
def rawLabel (d : Display C) (label : String) : String :=
  if IsHtml label then label
  else
    match d.labelBackground with
    | none => inQuotes label
    | some bg =>
      if (d.labelLocation.bind (·.toList.head?)) = some 't' then "<" ++ labelTable bg label ++ "\n>"
      else "<\n" ++ labelTable bg label ++ ">"

def labelValues (d : Display C) : Dict String Value :=
  match d.label with
  | none => []
  | some label =>
    [("label", (rawLabel d label, labelDot d label))] ++
      optValue "labelloc" quotedValue (d.labelLocation.map fun s => String.ofList (s.toList.take 1)) ++
      optValue "fontsize" bareValue (d.fontSize.map (showNum C)) ++ optValue "fontname" quotedValue d.font ++
      optValue "fontcolor" quotedValue d.labelColour ++
      (match d.labelUrl with
        | none => []
        | some u => [("href", quotedValue u), ("target", quotedValue "_blank")])

def KwVal.value : KwVal → Value
  | .int i => bareValue (toString i)
  | .other s => quotedValue s

def headerValues (d : Display C) : Dict String Value :=
  d.kwargs.foldl (fun a p => dset a p.1 p.2.value) (labelValues d ++ optValue "tooltip" quotedValue d.tooltip)

theorem meant_labelValues (d : Display C) : meant (labelValues d) = labelDots d := by
  unfold labelValues labelDots
  cases d.label <;> cases d.labelLocation <;> cases d.fontSize <;> cases d.font <;> cases d.labelColour <;> cases d.labelUrl <;>
    simp [meant, optValue, optDot, quotedValue, bareValue]

theorem KwVal.written_value (v : KwVal) : v.value.1 = v.written := by cases v <;> rfl
theorem KwVal.text_value (v : KwVal) : v.value.2 = .plain v.text := by cases v <;> rfl

theorem meant_headerValues (d : Display C) : meant (headerValues d) = headerDots d := by
  have key : ∀ (l : Dict String KwVal) (a : Dict String Value),
      meant (l.foldl (fun a p => dset a p.1 p.2.value) a) = l.foldl (fun a p => dset a p.1 (.plain p.2.text)) (meant a) := by
    intro l
    induction l with
    | nil => intro a; rfl
    | cons p l ih =>
      intro a
      rw [List.foldl_cons, ih, List.foldl_cons]
      congr 1
      unfold meant
      rw [← KwVal.text_value]
      exact (dset_map (fun v : Value => v.2) a p.1 p.2.value).symm
  unfold headerValues headerDots
  rw [key]
  congr 1
  have : meant (optValue "tooltip" quotedValue d.tooltip) = optDot "tooltip" d.tooltip := by
    cases d.tooltip <;> rfl
  rw [← this, ← meant_labelValues]
  simp [meant]

theorem labelAttribute_eq {d : Display C} {a : DrawArgs} (H : HeaderOk d a) {l : String} (hl : d.label = some l) :
    labelAttribute d l = .ok (rawLabel d l) := by
  have hlab := H.label l hl
  unfold labelAttribute rawLabel
  by_cases hh : IsHtml l
  · rw [if_pos hh, if_pos (show _ ∧ _ from hh)]
  · rw [if_neg hh, if_neg (show ¬ (_ ∧ _) from hh)]
    rw [if_neg hh] at hlab
    cases hb : d.labelBackground with
    | none => rfl
    | some bg =>
      simp only [hb] at hlab
      cases hloc : d.labelLocation with
      | none => exact absurd hloc hlab.2.2
      | some s =>
        have hs := (H.location l hl).1
        rw [hloc] at hs
        cases e : s.toList with
        | nil => exact absurd (by rw [String.toList_eq_nil_iff] at e; rw [e]) hs
        | cons c t =>
          simp only [firstChar, e, Option.bind_some, List.head?_cons, Option.some.injEq]
          by_cases hc : c = 't' <;> simp [hc, bind, Except.bind]

theorem labelAttributes_eq {d : Display C} {a : DrawArgs} (H : HeaderOk d a) :
    labelAttributes d = .ok (written (labelValues d)) := by
  unfold labelAttributes labelValues
  cases hl : d.label with
  | none => rfl
  | some l =>
    have h1 := labelAttribute_eq H hl
    simp only [h1]
    cases hloc : d.labelLocation with
    | none =>
      cases d.fontSize <;> cases d.font <;> cases d.labelColour <;> cases d.labelUrl <;>
        simp [bind, Except.bind, written, optSet, optValue, dset, quotedValue, bareValue]
    | some s =>
      have hs := (H.location l hl).1
      rw [hloc] at hs
      cases e : s.toList with
      | nil => exact absurd (by rw [String.toList_eq_nil_iff] at e; rw [e]) hs
      | cons c t =>
        cases d.fontSize <;> cases d.font <;> cases d.labelColour <;> cases d.labelUrl <;>
          simp [bind, Except.bind, written, optSet, optValue, dset, quotedValue, bareValue, firstChar, e]

theorem headerAttributes_eq {d : Display C} {a : DrawArgs} (H : HeaderOk d a) :
    headerAttributes d = .ok (written (headerValues d)) := by
  have key : ∀ (l : Dict String KwVal) (a : Dict String Value),
      written (l.foldl (fun a p => dset a p.1 p.2.value) a) = l.foldl (fun a p => dset a p.1 p.2.written) (written a) := by
    intro l
    induction l with
    | nil => intro a; rfl
    | cons p l ih =>
      intro a
      rw [List.foldl_cons, ih, List.foldl_cons]
      congr 1
      unfold written
      rw [← KwVal.written_value]
      exact (dset_map (fun v : Value => v.1) a p.1 p.2.value).symm
  have ht : optSet (written (labelValues d)) "tooltip" (d.tooltip.map inQuotes) =
      written (labelValues d ++ optValue "tooltip" quotedValue d.tooltip) := by
    cases htt : d.tooltip with
    | none => simp [optSet, optValue]
    | some s =>
      unfold labelValues
      cases d.label <;> cases d.labelLocation <;> cases d.fontSize <;> cases d.font <;> cases d.labelColour <;> cases d.labelUrl <;>
        simp [written, optSet, optValue, dset, quotedValue, bareValue]
  unfold headerAttributes headerValues
  rw [labelAttributes_eq H]
  simp only [bind, Except.bind, ht, key]

theorem valueOk_label {d : Display C} {a : DrawArgs} (H : HeaderOk d a) {l : String} (hl : d.label = some l) :
    ValueOk (rawLabel d l, labelDot d l) := by
  have hlab := H.label l hl
  unfold rawLabel labelDot
  by_cases hh : IsHtml l
  · rw [if_pos hh] at hlab ⊢
    rw [if_pos hh]
    have e : l = "<" ++ String.ofList l.toList.tail.dropLast ++ ">" := by
      apply String.toList_injective
      have h1 := hh.1
      have h2 := hh.2
      have h3 : 2 ≤ l.toList.length := by rw [String.length_toList]; exact hlab.1
      cases e : l.toList with
      | nil => simp [e] at h1
      | cons c t =>
        rw [e] at h1 h2 h3
        simp only [List.head?_cons, Option.some.injEq] at h1
        subst h1
        have ht : t ≠ [] := by rintro rfl; simp at h3
        have h4 : t.getLast? = some '>' := by
          cases t with
          | nil => exact absurd rfl ht
          | cons x t => simpa [List.getLast?_cons_cons] using h2
        simp only [String.toList_append, String.toList_ofList, List.tail_cons]
        have h5 := List.dropLast_append_getLast? '>' h4
        have : ("<" : String).toList = ['<'] := rfl
        have e2 : (">" : String).toList = ['>'] := rfl
        rw [this, e2, List.append_assoc, h5]
        rfl
    have := valueOk_html (s := String.ofList l.toList.tail.dropLast) (by simpa using hlab.2)
    rwa [← e] at this
  · rw [if_neg hh] at hlab ⊢
    rw [if_neg hh]
    cases hb : d.labelBackground with
    | none =>
      rw [hb] at hlab
      exact valueOk_plain hlab
    | some bg =>
      simp only [hb] at hlab
      obtain ⟨h1, h2, -⟩ := hlab
      have ht : balanced 0 (labelTable bg l).toList = true := by
        have e : (labelTable bg l).toList = "<table border=\"0\" cellborder=\"0\"><tr>".toList ++
            ("<td bgcolor=\"".toList ++ (bg.toList ++ ("\" title=\"".toList ++ (l.toList ++ ("\">".toList ++
              (l.toList ++ " </td></tr></table>".toList)))))) := by
          have e0 : ("<table border=\"0\" cellborder=\"0\"><tr><td bgcolor=\"" : String) =
            "<table border=\"0\" cellborder=\"0\"><tr>" ++ "<td bgcolor=\"" := by decide +kernel
          unfold labelTable
          rw [e0]
          simp only [String.toList_append, List.append_assoc]
        rw [e]
        have b1 : balanced 0 "<table border=\"0\" cellborder=\"0\"><tr>".toList = true := by decide +kernel
        have b3 : balanced 0 (l.toList ++ " </td></tr></table>".toList) = true := balanced_append h2 (by decide +kernel)
        refine balanced_append b1 ?_
        have key : ∀ r, balanced 1 r = true → balanced 0 ("<td bgcolor=\"".toList ++ r) = true := by
          intro r hr
          have e : ("<td bgcolor=\"" : String).toList = ['<', 't', 'd', ' ', 'b', 'g', 'c', 'o', 'l', 'o', 'r', '=', '"'] := by
            decide +kernel
          rw [e]
          simpa [balanced] using hr
        have key2 : ∀ r, balanced 1 r = true → balanced 1 ("\" title=\"".toList ++ r) = true := by
          intro r hr
          have e : ("\" title=\"" : String).toList = ['"', ' ', 't', 'i', 't', 'l', 'e', '=', '"'] := by
            decide +kernel
          rw [e]
          simpa [balanced] using hr
        have key3 : ∀ r, balanced 0 r = true → balanced 1 ("\">".toList ++ r) = true := by
          intro r hr
          have e : ("\">" : String).toList = ['"', '>'] := by
            decide +kernel
          rw [e]
          simpa [balanced] using hr
        exact key _ (balanced_append h1 (key2 _ (balanced_append h2 (key3 _ b3))))
      simp only
      split
      · have := valueOk_html (s := labelTable bg l ++ "\n") (by
          rw [String.toList_append]
          exact balanced_append ht (by decide +kernel))
        have e : "<" ++ (labelTable bg l ++ "\n") ++ ">" = "<" ++ labelTable bg l ++ "\n>" := by
          apply String.toList_injective
          simp
        rwa [e] at this
      · have := valueOk_html (s := "\n" ++ labelTable bg l) (by
          rw [String.toList_append]
          exact balanced_append (by decide +kernel) ht)
        have e : "<" ++ ("\n" ++ labelTable bg l) ++ ">" = "<\n" ++ labelTable bg l ++ ">" := by
          apply String.toList_injective
          simp
        rwa [e] at this

theorem optValue_ok {k : String} {f : String → Value} {o : Option String} (hk : DotWord k) (h : ∀ s ∈ o, ValueOk (f s)) :
    ∀ q ∈ optValue k f o, DotWord q.1 ∧ ValueOk q.2 := by
  intro q hq
  cases o with
  | none => simp [optValue] at hq
  | some s =>
    simp only [optValue, List.mem_singleton] at hq
    subst hq
    exact ⟨hk, h s rfl⟩

theorem headerValues_ok {d : Display C} {a : DrawArgs} (H : HeaderOk d a) :
    ∀ q ∈ headerValues d, DotWord q.1 ∧ ValueOk q.2 := by
  have hlab : ∀ q ∈ labelValues d, DotWord q.1 ∧ ValueOk q.2 := by
    intro q hq
    unfold labelValues at hq
    cases hl : d.label with
    | none => simp [hl] at hq
    | some l =>
      rw [hl] at hq
      simp only [List.mem_append] at hq
      rcases hq with ((((hq | hq) | hq) | hq) | hq) | hq
      · rw [List.mem_singleton] at hq
        subst hq
        exact ⟨dotWord_label, valueOk_label H hl⟩
      · refine optValue_ok (dotWord_of (by decide +kernel) (by decide +kernel) (by decide +kernel)) ?_ q hq
        intro s hs
        simp only [Option.mem_def, Option.map_eq_some_iff] at hs
        obtain ⟨t, ht, rfl⟩ := hs
        exact valueOk_plain (by simpa using (H.location l hl).2 t ht)
      · refine optValue_ok (dotWord_of (by decide +kernel) (by decide +kernel) (by decide +kernel)) ?_ q hq
        intro s hs
        simp only [Option.mem_def, Option.map_eq_some_iff] at hs
        obtain ⟨t, ht, rfl⟩ := hs
        exact valueOk_word (H.fontSize t ht)
      · exact optValue_ok (dotWord_of (by decide +kernel) (by decide +kernel) (by decide +kernel))
          (fun s hs => valueOk_plain (H.font s hs)) q hq
      · exact optValue_ok (dotWord_of (by decide +kernel) (by decide +kernel) (by decide +kernel))
          (fun s hs => valueOk_plain (H.labelColour s hs)) q hq
      · cases hu : d.labelUrl with
        | none => simp [hu] at hq
        | some u =>
          simp only [hu, List.mem_cons, List.not_mem_nil, or_false] at hq
          rcases hq with rfl | rfl
          · exact ⟨show DotWord "href" from dotWord_of (by decide +kernel) (by decide +kernel) (by decide +kernel), valueOk_plain (H.labelUrl u hu)⟩
          · exact ⟨dotWord_of (by decide +kernel) (by decide +kernel) (by decide +kernel), valueOk_plain (by decide +kernel)⟩
  have key : ∀ (l : Dict String KwVal) (b : Dict String Value), (∀ p ∈ l, DotWord p.1 ∧ (∀ s, p.2 = .other s → Plain s.toList)) →
      (∀ q ∈ b, DotWord q.1 ∧ ValueOk q.2) → ∀ q ∈ l.foldl (fun a p => dset a p.1 p.2.value) b, DotWord q.1 ∧ ValueOk q.2 := by
    intro l
    induction l with
    | nil => intro b _ hb; exact hb
    | cons p l ih =>
      intro b hl hb
      refine ih _ (fun x hx => hl x (by simp [hx])) ?_
      intro q hq
      rcases mem_dset hq with rfl | ⟨hq, -⟩ | hq
      · refine ⟨(hl p (by simp)).1, ?_⟩
        have h2 := (hl p (by simp)).2
        cases hv : p.2 with
        | int i => exact valueOk_word (dotWord_int i)
        | other s => exact valueOk_plain (h2 s hv)
      · exact hb q hq
      · exact hb q hq
  refine key d.kwargs _ H.kwargs ?_
  intro q hq
  rcases List.mem_append.1 hq with hq | hq
  · exact hlab q hq
  · exact optValue_ok dotWord_tooltip (fun s hs => valueOk_plain (H.tooltip s hs)) q hq

/-! ## The assignments -/

theorem writes_assign {k v : String} (hk : DotWord k) (hv : Plain v.toList) :
    WritesItem (k ++ "=" ++ inQuotes v).toList (.assign k (.plain v)) := by
  refine ⟨_, ?_, stmt_assign (v := .text (.plain v)) hk.1 rfl⟩
  have e : (k ++ "=" ++ inQuotes v).toList = k.toList ++ '=' :: (inQuotes v).toList := by simp
  rw [e]
  exact (lexes_word hk).then (c := '=') (by decide) (lexes_cons (s := [.eq]) (c := '=') (by decide) (lexes_plain hv))

/-- A line with an assignment. -/
theorem WritesBody.assign {d : Nat} {k v : String} {rest : List Char} {is : List DotItem} (hk : DotWord k) (hv : Plain v.toList)
    (h : WritesBody d rest is) :
    WritesBody d (("\t" ++ (k ++ "=" ++ inQuotes v) ++ ";\n").toList ++ rest) (.assign k (.plain v) :: is) := by
  have e : ("\t" ++ (k ++ "=" ++ inQuotes v) ++ ";\n").toList ++ rest =
      '\t' :: ((k ++ "=" ++ inQuotes v).toList ++ (';' :: '\n' :: rest)) := by simp
  rw [e]
  exact ((h.space (c := '\n') rfl).semi.item (writes_assign hk hv)).space rfl

theorem plain_of_clean {s : List Char} (h1 : '"' ∉ s) (h2 : '\\' ∉ s) : Plain s := by
  refine ⟨h1, ?_⟩
  rintro a b rfl -
  have : ∀ c ∈ a.reverse, ¬ (c = '\\') := by
    intro c hc hcc
    subst hcc
    exact h2 (by simp [List.mem_reverse.1 hc])
  have : a.reverse.takeWhile (· = '\\') = [] := by
    cases e : a.reverse with
    | nil => rfl
    | cons x t => rw [e] at this; simp [this x (by simp)]
  simp [endSlashes, this]

theorem writes_size {d : Nat} {a : DrawArgs} {dd : Display C} (H : HeaderOk dd a) {rest : List Char} {is : List DotItem}
    (h : WritesBody d rest is) :
    WritesBody d ((sizeLines C a.height a.width).toList ++ rest) (sizeItems C a.height a.width ++ is) := by
  have hs : DotWord "size" := dotWord_of (by decide +kernel) (by decide +kernel) (by decide +kernel)
  have hrt : DotWord "ratio" := dotWord_of (by decide +kernel) (by decide +kernel) (by decide +kernel)
  have hf : WritesBody d (("\t" ++ ("ratio" ++ "=" ++ inQuotes "fill") ++ ";\n").toList ++ rest) (.assign "ratio" (.plain "fill") :: is) :=
    h.assign hrt (by decide +kernel)
  unfold sizeLines sizeItems
  cases hh : a.height with
  | none =>
    cases hw : a.width with
    | none => exact h
    | some q =>
      obtain ⟨w1, w2⟩ := H.width q hw
      have := hf.assign hs (v := showNum C q ++ "!") (plain_of_clean (by simp [w1]) (by simp [w2]))
      simpa [inQuotes] using this
  | some q =>
    obtain ⟨w1, w2⟩ := H.height q hh
    cases hw : a.width with
    | none =>
      have := hf.assign hs (v := showNum C q ++ "!") (plain_of_clean (by simp [w1]) (by simp [w2]))
      simpa [inQuotes] using this
    | some q' =>
      obtain ⟨w3, w4⟩ := H.width q' hw
      have := hf.assign hs (v := showNum C q' ++ "," ++ showNum C q ++ "!") (plain_of_clean (by simp [w1, w3]) (by simp [w2, w4]))
      simpa [inQuotes] using this

omit [Palette C] in
theorem drawnDirection_eq (d : Display C) (a : DrawArgs) : (directionOr d a.direction).toUpper = drawnDirection d a := by
  unfold drawnDirection directionOr
  cases a.direction with
  | none => rfl
  | some s => by_cases h : s = "" <;> simp [h]

/-- The header in front of a body. -/
theorem header_writes {w : World C} {g : GRef} {d : Display C} {a : DrawArgs} (hd : w.display g = some d) (H : HeaderOk d a)
    {rest : List Char} {is : List DotItem} (h : WritesBody 0 ('\t' :: rest) is) :
    ∃ s cs, graphvizHeader w g a = .ok s ∧
      s.toList = (if (w.heap.graph g).strict then "strict digraph G {\n" else "digraph G{\n").toList ++ cs ∧
      WritesBody 0 (cs ++ '\t' :: rest) (headerItems w g d a ++ is) := by
  refine ⟨(if (w.heap.graph g).strict then "strict digraph G {\n" else "digraph G{\n") ++ (attributesLine (written (headerValues d)) ++ ("\tbgcolor=\"" ++ d.background ++ "\";\n") ++
    (match a.pad with
      | none => ""
      | some p => "\tpad=\"" ++ showNum C p ++ "\";\n") ++
    (if (w.heap.graph g).ordering then "" else "\tordering=out;\n") ++
    sizeLines C a.height a.width) ++
    (if drawnDirection d a = "TB" then "" else "\trankdir=\"" ++ drawnDirection d a ++ "\""), (attributesLine (written (headerValues d)) ++ ("\tbgcolor=\"" ++ d.background ++ "\";\n") ++
    (match a.pad with
      | none => ""
      | some p => "\tpad=\"" ++ showNum C p ++ "\";\n") ++
    (if (w.heap.graph g).ordering then "" else "\tordering=out;\n") ++
    sizeLines C a.height a.width ++
    (if drawnDirection d a = "TB" then "" else "\trankdir=\"" ++ drawnDirection d a ++ "\"")).toList, ?_, ?_, ?_⟩
  · simp only [graphvizHeader, displayOf, hd, bind, Except.bind, headerAttributes_eq H, drawnDirection_eq]
    rfl
  · simp only [String.toList_append, List.append_assoc]
  · have h1 : WritesBody 0 ((if drawnDirection d a = "TB" then "" else "\trankdir=\"" ++ drawnDirection d a ++ "\"").toList ++ '\t' :: rest)
        ((if drawnDirection d a = "TB" then [] else [.assign "rankdir" (.plain (drawnDirection d a))]) ++ is) := by
      by_cases ht : drawnDirection d a = "TB"
      · simpa [ht] using h
      · rw [if_neg ht, if_neg ht]
        have := (h.item (writes_assign (k := "rankdir") (dotWord_of (by decide +kernel) (by decide +kernel) (by decide +kernel)) H.direction)).space (c := '\t') rfl
        simpa [inQuotes] using this
    have h2 := writes_size H h1
    have h3 : WritesBody 0 ((if (w.heap.graph g).ordering then "" else "\tordering=out;\n").toList ++
        ((sizeLines C a.height a.width).toList ++ ((if drawnDirection d a = "TB" then "" else "\trankdir=\"" ++ drawnDirection d a ++ "\"").toList ++ '\t' :: rest)))
        ((if (w.heap.graph g).ordering then [] else [.assign "ordering" (.plain "out")]) ++ (sizeItems C a.height a.width ++
        ((if drawnDirection d a = "TB" then [] else [.assign "rankdir" (.plain (drawnDirection d a))]) ++ is))) := by
      by_cases ho : (w.heap.graph g).ordering
      · simpa [ho] using h2
      · rw [if_neg ho, if_neg ho]
        obtain ⟨ts, t1, t2⟩ := h2
        refine ⟨[.word "ordering", .eq, .word "out"] ++ (.semi :: ts), ?_,
          .stmt (stmt_assign (k := "ordering") (v := .word "out") (by decide +kernel) (by decide +kernel)) t2.semi⟩
        have e : ("\tordering=out;\n" : String).toList = '\t' :: ("ordering".toList ++ ('=' :: ("out".toList ++ [';', '\n']))) := by
          decide +kernel
        rw [e]
        have := lexes_cons (c := '\t') (s := []) (by decide)
          ((lexes_word_of (s := "ordering") (.inl ⟨by decide +kernel, by decide +kernel⟩)).then (c := '=') (by decide)
            (lexes_cons (s := [.eq]) (c := '=') (by decide)
              ((lexes_word_of (s := "out") (.inl ⟨by decide +kernel, by decide +kernel⟩)).then (c := ';') (by decide)
                (lexes_cons (c := ';') (s := [.semi]) (by decide) (lexes_cons (c := '\n') (s := []) (by decide) t1)))))
        simpa using this
    have hb : ∀ {X : List Char} {Y : List DotItem}, WritesBody 0 X Y → WritesBody 0 ((match a.pad with
      | none => ""
      | some p => "\tpad=\"" ++ showNum C p ++ "\";\n").toList ++ X) ((match a.pad with
        | none => []
        | some p => [.assign "pad" (.plain (showNum C p))]) ++ Y) := by
      intro X Y hX
      cases hp : a.pad with
      | none => exact hX
      | some p =>
        have := hX.assign (k := "pad") (dotWord_of (by decide +kernel) (by decide +kernel) (by decide +kernel)) (H.pad p hp)
        simpa [inQuotes] using this
    have h5 := (hb h3).assign (k := "bgcolor") (dotWord_of (by decide +kernel) (by decide +kernel) (by decide +kernel)) H.background
    have h6 := writes_attributesLine (headerValues_ok H) h5
    rw [meant_headerValues] at h6
    unfold headerItems
    cases hp : a.pad <;> (rw [hp] at h6; simpa [inQuotes] using h6)

end Verif
