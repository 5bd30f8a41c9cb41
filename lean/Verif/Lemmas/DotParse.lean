import Verif.Lemmas.DotLex
/-!
# The statements of the pieces of a source
-/
namespace Verif

/-! ## Attributes -/

/-- The tokens of an attribute list. -/
inductive AttrToks : List DotTok → DotAttrs → Prop where
  | nil : AttrToks [] []
  | cons {k v : DotTok} {k' : String} {v' : DotText} {ts as} : dotName k = some k' → dotId v = some v' → AttrToks ts as →
      AttrToks (k :: .eq :: v :: ts) ((k', v') :: as)
  | comma {k v : DotTok} {k' : String} {v' : DotText} {ts as} : dotName k = some k' → dotId v = some v' → AttrToks ts as →
      AttrToks (k :: .eq :: v :: .comma :: ts) ((k', v') :: as)

theorem AttrToks.append {s t : List DotTok} {a b : DotAttrs} (h : AttrToks s a) (h' : AttrToks t b) :
    AttrToks (s ++ t) (a ++ b) := by
  induction h with
  | nil => exact h'
  | cons h1 h2 _ ih => exact .cons h1 h2 ih
  | comma h1 h2 _ ih => exact .comma h1 h2 ih

theorem dotAttrs_cons {k v : DotTok} {k' : String} {v' : DotText} (b : Bool) (hk : dotName k = some k') (hv : dotId v = some v')
    (r : List DotTok) :
    dotAttrs b (k :: .eq :: v :: r) = (dotAttrs true r).map fun p => ((k', v') :: p.1, p.2) := by
  have : dotAttrs b (k :: .eq :: v :: r) = (do
      let k ← dotName k
      let v ← dotId v
      let p ← dotAttrs true r
      some ((k, v) :: p.1, p.2)) := by
    cases b <;> cases k <;> first | rfl | simp [dotName, dotId] at hk
  rw [this, hk, hv]
  cases dotAttrs true r <;> rfl

theorem AttrToks.parse {ts : List DotTok} {as : DotAttrs} (h : AttrToks ts as) (b : Bool) (r : List DotTok) :
    dotAttrs b (ts ++ .rbrack :: r) = some (as, r) := by
  induction h generalizing b with
  | nil => cases b <;> simp [dotAttrs]
  | cons h1 h2 _ ih =>
    simp only [List.cons_append]
    rw [dotAttrs_cons b h1 h2, ih]
    rfl
  | comma h1 h2 _ ih =>
    simp only [List.cons_append]
    rw [dotAttrs_cons b h1 h2]
    simp [dotAttrs, ih]

/-- The characters of an attribute list. -/
def WritesAttrs (cs : List Char) (as : DotAttrs) : Prop := ∃ ts, Lexes cs ts ∧ AttrToks ts as

theorem lexes_space {c : Char} (h : isBlank c = true) : Lexes [c] [] := lexes_one (by simp [lexStart, h])

theorem WritesAttrs.nil : WritesAttrs [] [] := ⟨[], .nil, .nil⟩

theorem WritesAttrs.append {a b : List Char} {s t : DotAttrs} (h : WritesAttrs a s) (h' : WritesAttrs b t) :
    WritesAttrs (a ++ b) (s ++ t) := by
  obtain ⟨x, h1, h2⟩ := h
  obtain ⟨y, h3, h4⟩ := h'
  exact ⟨x ++ y, h1.append h3, h2.append h4⟩

theorem WritesAttrs.space {c : Char} {b : List Char} {t : DotAttrs} (hc : isBlank c = true) (h : WritesAttrs b t) :
    WritesAttrs (c :: b) t := by
  obtain ⟨y, h3, h4⟩ := h
  exact ⟨y, (lexes_space hc).append h3, h4⟩

theorem intercalate_two {α : Type} (sep a b : List α) (l : List (List α)) :
    List.intercalate sep (a :: b :: l) = a ++ sep ++ List.intercalate sep (b :: l) := by
  simp [List.intercalate, List.intersperse]

/-- Attribute lists with spaces between them. -/
theorem WritesAttrs.join (l : List (String × DotAttrs)) (h : ∀ p ∈ l, WritesAttrs p.1.toList p.2) :
    WritesAttrs (String.intercalate " " (l.map (·.1))).toList (l.flatMap (·.2)) := by
  rw [String.toList_intercalate, List.map_map]
  induction l with
  | nil => exact .nil
  | cons p l ih =>
    cases l with
    | nil => simpa [List.intercalate] using h p (by simp)
    | cons q l =>
      have := ih (fun x hx => h x (List.mem_cons_of_mem _ hx))
      simp only [List.map_cons, List.flatMap_cons] at this ⊢
      rw [intercalate_two, List.append_assoc]
      refine (h p (by simp)).append ?_
      simp only [Function.comp_apply, show (" " : String).toList = [' '] from rfl, List.singleton_append]
      exact this.space rfl

theorem writes_word_attr {k v : String} (hk : DotWord k) (hv : Lexes (inQuotes v).toList [.text (.plain v)]) :
    WritesAttrs (k ++ "=" ++ inQuotes v).toList [(k, .plain v)] := by
  refine ⟨[.word k, .eq, .text (.plain v)], ?_, .cons (by simp [dotName, dotId, hk.1]) rfl .nil⟩
  have e : (k ++ "=" ++ inQuotes v).toList = k.toList ++ '=' :: (inQuotes v).toList := by simp
  rw [e]
  exact (lexes_word hk).then (c := '=') (by decide) (lexes_cons (s := [.eq]) (c := '=') (by decide) hv)

theorem writes_quoted_attr {k v : String} (hk : Plain k.toList) (hv : Plain v.toList) :
    WritesAttrs ("\"" ++ k ++ "\"=\"" ++ v ++ "\"").toList [(k, .plain v)] := by
  have e : ("\"" ++ k ++ "\"=\"" ++ v ++ "\"").toList = (inQuotes k).toList ++ ('=' :: (inQuotes v).toList) := by
    simp [inQuotes]
  rw [e]
  exact ⟨[.text (.plain k), .eq, .text (.plain v)],
    (lexes_plain hk).append (lexes_cons (s := [.eq]) (c := '=') (by decide) (lexes_plain hv)), .cons rfl rfl .nil⟩

theorem writes_attrString {l : List (String × String)} (h : ∀ p ∈ l, Plain p.1.toList ∧ Plain p.2.toList) :
    WritesAttrs (attrString l).toList (plainAttrs l) := by
  have := WritesAttrs.join (l.map fun p => ("\"" ++ p.1 ++ "\"=\"" ++ p.2 ++ "\"", [(p.1, DotText.plain p.2)])) (by
    intro q hq
    obtain ⟨p, hp, rfl⟩ := List.mem_map.1 hq
    exact writes_quoted_attr (h p hp).1 (h p hp).2)
  simp only [List.map_map, List.flatMap_map] at this
  have e : l.flatMap (fun a => [(a.1, DotText.plain a.2)]) = plainAttrs l := by
    simp [plainAttrs, ← List.map_eq_flatMap]
  simpa [attrString, Function.comp_def, e] using this

/-! ## Statements -/

/-- The tokens of one statement. -/
structure StmtToks (ts : List DotTok) (i : DotItem) : Prop where
  start : ∃ t r, ts = t :: r ∧ t ≠ .rbrace ∧ t ≠ .lbrace ∧ t ≠ .semi ∧ t ≠ .lbrack
  parse : ∀ r, r.head? ≠ some .lbrack → dotStmt (ts ++ r) = some (i, r)

/-- The tokens of statements, with `depth` braces to be closed. -/
inductive BodyToks : Nat → List DotTok → List DotItem → Prop where
  | nil : BodyToks 0 [] []
  | stmt {d ts i r is} : StmtToks ts i → BodyToks d r is → BodyToks d (ts ++ r) (i :: is)
  | semi {d r is} : BodyToks d r is → BodyToks d (.semi :: r) is
  | opening {d r is} : BodyToks (d + 1) r is → BodyToks d (.lbrace :: r) (.opening :: is)
  | closing {d r is} : BodyToks d r is → BodyToks (d + 1) (.rbrace :: r) (.closing :: is)

theorem BodyToks.head {d : Nat} {ts : List DotTok} {is : List DotItem} (h : BodyToks d ts is) : ts.head? ≠ some .lbrack := by
  cases h with
  | nil => simp
  | stmt h1 h2 =>
    obtain ⟨t, r, rfl, -, -, -, ht⟩ := h1.start
    simpa using ht
  | semi _ => simp
  | opening _ => simp
  | closing _ => simp

theorem BodyToks.parse {d : Nat} {ts : List DotTok} {is : List DotItem} (h : BodyToks d ts is) (fuel : Nat)
    (hf : ts.length < fuel) : dotBody fuel d (ts ++ [.rbrace]) = some is := by
  induction h generalizing fuel with
  | nil =>
    cases fuel with
    | zero => simp at hf
    | succ fuel => simp [dotBody]
  | @stmt d ts i r is h1 h2 ih =>
    cases fuel with
    | zero => simp at hf
    | succ fuel =>
      obtain ⟨t, ts', rfl, ht⟩ := h1.start
      have hp := h1.parse (r ++ [.rbrace]) (by
        have := h2.head
        cases r <;> simp_all)
      rw [List.append_assoc]
      simp only [List.cons_append] at hp ⊢
      simp only [dotBody, ht.1, ht.2.1, ht.2.2.1, if_false, hp]
      rw [show (some (i, r ++ [DotTok.rbrace]) >>= fun p => do
          let is ← dotBody fuel d p.2
          some (p.1 :: is)) = (do
          let is ← dotBody fuel d (r ++ [.rbrace])
          some (i :: is)) from rfl, ih fuel (by simp at hf; omega)]
      rfl
  | semi _ ih =>
    cases fuel with
    | zero => simp at hf
    | succ fuel =>
      simp only [List.cons_append, dotBody]
      simp [ih fuel (by simpa using hf)]
  | opening _ ih =>
    cases fuel with
    | zero => simp at hf
    | succ fuel =>
      simp only [List.cons_append, dotBody]
      simp [ih fuel (by simpa using hf)]
  | closing _ ih =>
    cases fuel with
    | zero => simp at hf
    | succ fuel =>
      simp only [List.cons_append, dotBody]
      simp [ih fuel (by simpa using hf)]

theorem stmt_node {a : DotTok} {s : String} {ts : List DotTok} {as : DotAttrs} (ha : a = .text (.plain s))
    (h : AttrToks ts as) : StmtToks (a :: .lbrack :: ts ++ [.rbrack]) (.node s as) := by
  subst ha
  refine ⟨⟨_, _, rfl, by simp, by simp, by simp, by simp⟩, fun r _ => ?_⟩
  have := h.parse false r
  simp [dotStmt, dotName, dotId, dotOptAttrs, this]

theorem stmt_edge {s t : String} {ts : List DotTok} {as : DotAttrs} (h : AttrToks ts as) :
    StmtToks (.text (.plain s) :: .arrow :: .text (.plain t) :: .lbrack :: ts ++ [.rbrack]) (.edge s t as) := by
  refine ⟨⟨_, _, rfl, by simp, by simp, by simp, by simp⟩, fun r _ => ?_⟩
  have := h.parse false r
  simp [dotStmt, dotName, dotId, dotOptAttrs, this]

theorem stmt_edge_bare {s t : String} : StmtToks [.text (.plain s), .arrow, .text (.plain t)] (.edge s t []) := by
  refine ⟨⟨_, _, rfl, by simp, by simp, by simp, by simp⟩, fun r hr => ?_⟩
  have : dotOptAttrs r = some ([], r) := by
    cases r with
    | nil => rfl
    | cons x r => cases x <;> first | rfl | simp at hr
  simp [dotStmt, dotName, dotId, this]

theorem stmt_assign {k : String} {v : DotTok} {v' : DotText} (hk : isKeyword k = false) (hv : dotId v = some v') :
    StmtToks [.word k, .eq, v] (.assign k v') := by
  refine ⟨⟨_, _, rfl, by simp, by simp, by simp, by simp⟩, fun r hr => ?_⟩
  have hk' : dotName (.word k) = some k := by simp [dotName, dotId, hk]
  simp [dotStmt, hk', hv]

theorem stmt_graph {ts : List DotTok} {as : DotAttrs} (h : AttrToks ts as) :
    StmtToks (.word "graph" :: .lbrack :: ts ++ [.rbrack]) (.defaults "graph" as) := by
  refine ⟨⟨_, _, rfl, by simp, by simp, by simp, by simp⟩, fun r _ => ?_⟩
  have := h.parse false r
  simp [dotStmt, this]

/-! ## Characters -/

/-- The characters of one statement. -/
def WritesItem (cs : List Char) (i : DotItem) : Prop := ∃ ts, Lexes cs ts ∧ StmtToks ts i

/-- The characters of statements, with `d` braces to be closed. -/
def WritesBody (d : Nat) (cs : List Char) (is : List DotItem) : Prop := ∃ ts, Lexes cs ts ∧ BodyToks d ts is

theorem WritesBody.nil : WritesBody 0 [] [] := ⟨[], .nil, .nil⟩

theorem WritesBody.space {d : Nat} {c : Char} {cs : List Char} {is : List DotItem} (hc : isBlank c = true)
    (h : WritesBody d cs is) : WritesBody d (c :: cs) is := by
  obtain ⟨ts, h1, h2⟩ := h
  exact ⟨ts, (lexes_space hc).append h1, h2⟩

theorem WritesBody.spaces {d : Nat} {sp cs : List Char} {is : List DotItem} (hc : ∀ c ∈ sp, isBlank c = true)
    (h : WritesBody d cs is) : WritesBody d (sp ++ cs) is := by
  induction sp with
  | nil => exact h
  | cons c sp ih => exact (ih fun x hx => hc x (by simp [hx])).space (hc c (by simp))

theorem WritesBody.semi {d : Nat} {cs : List Char} {is : List DotItem} (h : WritesBody d cs is) :
    WritesBody d (';' :: cs) is := by
  obtain ⟨ts, h1, h2⟩ := h
  exact ⟨_, lexes_cons (s := [.semi]) (by decide) h1, h2.semi⟩

theorem WritesBody.opening {d : Nat} {cs : List Char} {is : List DotItem} (h : WritesBody (d + 1) cs is) :
    WritesBody d ('{' :: cs) (.opening :: is) := by
  obtain ⟨ts, h1, h2⟩ := h
  exact ⟨_, lexes_cons (s := [.lbrace]) (by decide) h1, h2.opening⟩

theorem WritesBody.closing {d : Nat} {cs : List Char} {is : List DotItem} (h : WritesBody d cs is) :
    WritesBody (d + 1) ('}' :: cs) (.closing :: is) := by
  obtain ⟨ts, h1, h2⟩ := h
  exact ⟨_, lexes_cons (s := [.rbrace]) (by decide) h1, h2.closing⟩

theorem WritesBody.item {d : Nat} {a cs : List Char} {i : DotItem} {is : List DotItem} (hi : WritesItem a i)
    (h : WritesBody d cs is) : WritesBody d (a ++ cs) (i :: is) := by
  obtain ⟨ts, h1, h2⟩ := h
  obtain ⟨us, h3, h4⟩ := hi
  exact ⟨_, h3.append h1, .stmt h4 h2⟩

/-- Statements with white space between them. -/
theorem WritesBody.items {d : Nat} {sep : String} {rest : List Char} {is : List DotItem} (l : List (String × DotItem))
    (hsep : ∀ c ∈ sep.toList, isBlank c = true) (hl : ∀ p ∈ l, WritesItem p.1.toList p.2) (h : WritesBody d rest is) :
    WritesBody d ((String.intercalate sep (l.map (·.1))).toList ++ rest) (l.map (·.2) ++ is) := by
  rw [String.toList_intercalate, List.map_map]
  induction l with
  | nil => exact h
  | cons p l ih =>
    have hp := hl p (by simp)
    cases l with
    | nil => simpa [List.intercalate] using h.item hp
    | cons q l =>
      have := ih (fun x hx => hl x (List.mem_cons_of_mem _ hx))
      simp only [List.map_cons, List.cons_append] at this ⊢
      rw [intercalate_two, List.append_assoc, List.append_assoc]
      exact (this.spaces hsep).item hp

theorem lexes_nonstrict : Lexes "digraph G{\n".toList [.word "digraph", .word "G", .lbrace] :=
  LexesTok.then (a := "digraph".toList) (c := ' ') (lexes_word_of (.inl ⟨by decide +kernel, by decide +kernel⟩)) (by decide)
    (lexes_cons (s := []) (by decide)
      (LexesTok.then (a := "G".toList) (c := '{') (lexes_word_of (.inl ⟨by decide +kernel, by decide +kernel⟩)) (by decide)
        (lexes_cons (s := [.lbrace]) (by decide) (lexes_space (c := '\n') rfl))))

theorem lexes_strict : Lexes "strict digraph G {\n".toList [.word "strict", .word "digraph", .word "G", .lbrace] :=
  LexesTok.then (a := "strict".toList) (c := ' ') (lexes_word_of (.inl ⟨by decide +kernel, by decide +kernel⟩)) (by decide)
    (lexes_cons (s := []) (by decide)
      (LexesTok.then (a := "digraph".toList) (c := ' ') (lexes_word_of (.inl ⟨by decide +kernel, by decide +kernel⟩)) (by decide)
        (lexes_cons (s := []) (by decide)
          (LexesTok.then (a := "G".toList) (c := ' ') (lexes_word_of (.inl ⟨by decide +kernel, by decide +kernel⟩)) (by decide)
            (lexes_cons (s := []) (by decide) (lexes_cons (s := [.lbrace]) (by decide) (lexes_space (c := '\n') rfl)))))))

theorem WritesBody.read {strict : Bool} {cs : List Char} {is : List DotItem} (h : WritesBody 0 cs is) (s : String)
    (hs : s.toList = (if strict then "strict digraph G {\n" else "digraph G{\n").toList ++ cs ++ ['}']) :
    readDot s = some ⟨strict, is⟩ := by
  obtain ⟨ts, h1, h2⟩ := h
  have hp := h2.parse ((ts ++ [DotTok.rbrace]).length + 1) (by simp; omega)
  have hend : lexFrom .idle ['}'] = some [.rbrace] := by decide
  have hts : lexFrom .idle (cs ++ ['}']) = some (ts ++ [.rbrace]) := by rw [h1, hend]; rfl
  unfold readDot
  rw [hs]
  cases strict with
  | false =>
    have := lexes_nonstrict (cs ++ ['}'])
    rw [hts] at this
    simp only [Bool.false_eq_true, if_false, List.append_assoc]
    rw [this]
    simp only [Option.map_some, Option.bind_some, List.cons_append, List.nil_append, dotGraph, hp]
  | true =>
    have := lexes_strict (cs ++ ['}'])
    rw [hts] at this
    simp only [if_true, List.append_assoc]
    rw [this]
    simp only [Option.map_some, Option.bind_some, List.cons_append, List.nil_append, dotGraph, hp]

end Verif
