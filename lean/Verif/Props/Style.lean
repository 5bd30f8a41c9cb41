import Verif.Model.Style
/-!
# C53: copies of styles, and inverting colours twice
-/
namespace Verif
open Palette
variable {C : Type} [Palette C]

/-- A node style object that calls of the constructor, the setters, `reset_colours` followed by a colour, `copy` and
`invert_colours` can make. -/
inductive NodeStyle.Made : NodeStyle C → Prop
  | make (a : NodeStyleArgs C) : Made (.make a)
  | setColour {s} (c : C) : Made s → Made (s.setColour c)
  | setFill {s} (c : Option C) : Made s → Made (s.setFill c)
  | setBorder {s} (c : Option C) : Made s → Made (s.setBorder c)
  | setText {s} (c : Option C) : Made s → Made (s.setText c)
  | recolour {s} (c : C) : Made s → Made (s.resetColours.setColour c)
  | copy {s} : Made s → Made s.copy
  | invert {s t} : Made s → s.invertColours = .ok t → Made t

/-- All three colours have a value. -/
def NodeStyle.Full (s : NodeStyle C) : Prop := s.fill.isSome ∧ s.border.isSome ∧ s.text.isSome

theorem NodeStyle.setColour_full (s : NodeStyle C) (c : C) : (s.setColour c).Full := by
  rcases s with ⟨c0, fill, border, text, fa, ba, ta, li, op, fo, ts, sh, ss⟩
  cases fill <;> cases border <;> cases text <;> simp [Full, setColour]

theorem NodeStyle.setColour_of_full (s : NodeStyle C) (c : C) (h : s.Full) : s.setColour c = { s with colour := c } := by
  rcases s with ⟨c0, fill, border, text, fa, ba, ta, li, op, fo, ts, sh, ss⟩
  cases fill <;> cases border <;> cases text <;> simp_all [Full, setColour]

/-- `copy` keeps everything but `lighter_fill`, which becomes true. -/
theorem NodeStyle.copy_eq (s : NodeStyle C) (h : s.Full) : s.copy = { s with lighter := true } := by
  rcases s with ⟨c0, fill, border, text, fa, ba, ta, li, op, fo, ts, sh, ss⟩
  cases fill <;> cases border <;> cases text <;> simp_all [Full, copy, make, setColour, setFill, setBorder, setText]

theorem NodeStyle.Made.full {s : NodeStyle C} (h : s.Made) : s.Full := by
  induction h with
  | make a => exact setColour_full _ _
  | setColour c _ _ => exact setColour_full _ _
  | setFill c _ ih => cases c <;> simp_all [Full, NodeStyle.setFill]
  | setBorder c _ ih => cases c <;> simp_all [Full, NodeStyle.setBorder]
  | setText c _ ih => cases c <;> simp_all [Full, NodeStyle.setText]
  | recolour c _ _ => exact setColour_full _ _
  | copy _ ih => rw [copy_eq _ ih]; exact ih
  | @invert s t _ e ih =>
    simp only [invertColours, bind, Except.bind] at e
    split at e
    · cases e
    · split at e
      · cases e
      · split at e
        · cases e
        · cases e; exact setColour_full _ _

/-- **C53.** The copy of a node style has the same Graphviz attributes, whatever was done to the style before. -/
theorem C53_node_copy (s : NodeStyle C) (h : s.Made) : s.copy.attributes = s.attributes := by
  rw [NodeStyle.copy_eq s h.full]; rfl

/-- An edge style object that calls of the constructor, the setters, `reset_colours` followed by a colour, `copy` and
`invert_colours` can make. -/
inductive EdgeStyle.Made : EdgeStyle C → Prop
  | make (a : EdgeStyleArgs C) : Made (.make a)
  | setColour {s} (c : C) : Made s → Made (s.setColour c)
  | setText {s} (c : Option C) : Made s → Made (s.setText c)
  | recolour {s} (c : C) : Made s → Made (s.resetColours.setColour c)
  | copy {s t} : Made s → s.copy = .ok t → Made t
  | invert {s t} : Made s → s.invertColours = .ok t → Made t

omit [Palette C] in
theorem EdgeStyle.setColour_text (s : EdgeStyle C) (c : C) : (s.setColour c).text.isSome := by
  rcases s with ⟨c0, text, ta, op, fo, ts, ar, la, lw⟩
  cases text <;> simp [setColour]

theorem EdgeStyle.copy_eq (s : EdgeStyle C) (h : s.text.isSome ∧ s.textAuto.isSome) :
    s.copy = .ok { s with labelStyle := some "below" } := by
  rcases s with ⟨c0, text, ta, op, fo, ts, ar, la, lw⟩
  cases text <;> cases ta <;> simp_all [copy, copied, make, setColour, setText]

omit [Palette C] in
theorem EdgeStyle.setColour_whole (s : EdgeStyle C) (c : C) (h : s.text.isSome → s.textAuto.isSome) :
    (s.setColour c).text.isSome ∧ (s.setColour c).textAuto.isSome := by
  rcases s with ⟨c0, text, ta, op, fo, ts, ar, la, lw⟩
  cases text <;> simp_all [setColour]

theorem EdgeStyle.Made.whole {s : EdgeStyle C} (h : s.Made) : s.text.isSome ∧ s.textAuto.isSome := by
  induction h with
  | make a =>
    rcases a with ⟨c0, op, fo, text, ts, ar, la, lw⟩
    cases text <;> simp [EdgeStyle.make, EdgeStyle.setText, EdgeStyle.setColour]
  | setColour c _ ih => exact setColour_whole _ _ fun _ => ih.2
  | setText c _ ih => cases c <;> simp [EdgeStyle.setText]
  | recolour c _ _ => exact setColour_whole _ _ (by simp [resetColours])
  | copy _ e ih => rw [copy_eq _ ih] at e; cases e; exact ih
  | @invert s t _ e ih =>
    simp only [invertColours, copy_eq _ ih, bind, Except.bind] at e
    cases e
    refine setColour_whole _ _ ?_
    split <;> simp [EdgeStyle.setText]

/-- **C53**, except for the label style: the copy of an edge style has the same Graphviz attributes apart from `lblstyle`,
and that one too if it has its default value `below`. -/
theorem C53_edge_copy_partial (s : EdgeStyle C) (h : s.Made) :
    ∃ t, s.copy = .ok t ∧ t.attributes.filter (·.1 ≠ "lblstyle") = s.attributes.filter (·.1 ≠ "lblstyle") ∧
      (s.labelStyle = some "below" → t.attributes = s.attributes) := by
  refine ⟨_, EdgeStyle.copy_eq s h.whole, ?_, fun hl => by cases s; simp_all⟩
  have : (stripQuotes "lblstyle") = "lblstyle" := by decide +kernel
  rcases s with ⟨c0, text, ta, op, fo, ts, ar, la, lw⟩
  simp only [EdgeStyle.attributes, EdgeStyle.dictionary, List.filter_filterMap, EdgeStyle.textColour]
  simp only [List.filterMap_cons, List.filterMap_nil, this]
  cases la <;> simp [AttrVal.ofStr, AttrVal.shown, Option.filter]

/-! ## Inverting twice -/

/-- The colours that are marked as derived are derived from the main colour in the way a style with `lighter_fill` does. -/
def NodeStyle.Derived (s : NodeStyle C) : Prop :=
  s.Full ∧ (s.fillAuto = true → s.fill = some (lighten s.colour differenceRatio)) ∧
    (s.borderAuto = true → s.border = some (darken s.colour (differenceRatio / 3))) ∧
    (s.textAuto = true → s.text = s.fill.map farthestGray)

/-- What inverting a complete style does. -/
theorem NodeStyle.invert_eq (s : NodeStyle C) (h : s.Full) :
    s.invertColours = .ok
      { s with lighter := true, colour := invert s.colour,
               fill := if s.fillAuto then some (lighten (invert s.colour) differenceRatio) else s.fill.map invert
               border := if s.borderAuto then some (darken (invert s.colour) (differenceRatio / 3)) else s.border.map invert
               text := if s.textAuto then
                   (if s.fillAuto then some (lighten (invert s.colour) differenceRatio) else s.fill.map invert).map farthestGray
                 else s.text.map invert } := by
  rw [invertColours, copy_eq s h]
  rcases s with ⟨c0, fill, border, text, fa, ba, ta, li, op, fo, ts, sh, ss⟩
  cases fill <;> cases border <;> cases text <;> simp_all [Full] <;>
  cases fa <;> cases ba <;> cases ta <;>
    simp [bind, Except.bind, invertFill, invertText, invertBorder, Except.map, invertOwn, setFill, setBorder, setText, setColour]

theorem NodeStyle.make_derived (a : NodeStyleArgs C) (h : a.lighter = true ∨ (a.fill.isSome ∧ a.border.isSome)) :
    (NodeStyle.make a).Derived := by
  refine ⟨setColour_full _ _, ?_⟩
  rcases a with ⟨c0, fill, border, op, fo, text, ts, sh, ss, li⟩
  cases fill <;> cases border <;> cases text <;> cases li <;>
    simp_all [make, setColour, setFill, setBorder, setText]

/-- **C53.** If inverting a colour twice gives the colour back, inverting a node style twice gives the same Graphviz
attributes - for every style as the constructor makes it with `lighter_fill` (the default), or with explicit fill and
border colours. The rest of the claim fails: see `C53_node_invert_violated`. -/
theorem C53_node_invert_partial (hinv : ∀ c : C, invert (invert c) = c) (a : NodeStyleArgs C)
    (h : a.lighter = true ∨ (a.fill.isSome ∧ a.border.isSome)) :
    ∃ t u, (NodeStyle.make a).invertColours = .ok t ∧ t.invertColours = .ok u ∧
      u.attributes = (NodeStyle.make a).attributes ∧ u.colour = (NodeStyle.make a).colour := by
  obtain ⟨hf, h1, h2, h3⟩ := NodeStyle.make_derived a h
  generalize NodeStyle.make a = s at hf h1 h2 h3
  refine ⟨_, _, NodeStyle.invert_eq s hf, NodeStyle.invert_eq _ ?_, ?_, hinv _⟩
  · rcases s with ⟨c0, fill, border, text, fa, ba, ta, li, op, fo, ts, sh, ss⟩
    cases fill <;> cases border <;> cases text <;> simp_all [NodeStyle.Full] <;>
    cases fa <;> cases ba <;> cases ta <;> simp
  · rcases s with ⟨c0, fill, border, text, fa, ba, ta, li, op, fo, ts, sh, ss⟩
    cases fill <;> cases border <;> cases text <;> simp_all [NodeStyle.Full] <;>
    cases fa <;> cases ba <;> cases ta <;> simp_all [NodeStyle.attributes, NodeStyle.dictionary]

/-- **C53.** Inverting an edge style twice restores everything but the label style - for every style as the constructor
makes it. -/
theorem C53_edge_invert_partial (hinv : ∀ c : C, invert (invert c) = c) (a : EdgeStyleArgs C) :
    ∃ t, (EdgeStyle.make a).invertColours = .ok t ∧
      t.invertColours = .ok { EdgeStyle.make a with labelStyle := some "below" } := by
  rcases a with ⟨c0, op, fo, text, ts, ar, la, lw⟩
  cases c0 <;> cases text <;>
    simp [EdgeStyle.make, EdgeStyle.setText, EdgeStyle.setColour, EdgeStyle.invertColours, EdgeStyle.copy, EdgeStyle.copied, hinv,
      EdgeStyle.textColour, bind, Except.bind]

/-- A palette of grey levels, to have concrete colours. -/
instance greys : Palette Rat where
  default := 2 / 3
  lighten c r := c + (1 - c) * r
  darken c r := c * (1 - r)
  invert c := 1 - c
  farthestGray c := if c ≤ 1 / 2 then 1 else 0
  hex c _ := toString c
  increaseHue c _ := c
  scaleSaturation c _ := c
  mix cs := cs.sum / cs.length
  pale c _ := c
  showNum q := toString q

/-- **C53** fails for a node style with `lighter_fill=False`: `copy` forgets that, so the fill colour, made darker than the
main colour before, is made lighter. -/
theorem C53_node_invert_violated :
    ∃ s t u : NodeStyle Rat, s = NodeStyle.make { colour := some (1 / 2 : Rat), lighter := false } ∧
      s.invertColours = .ok t ∧ t.invertColours = .ok u ∧ s.fill = some (1 / 4) ∧ u.fill = some (3 / 4) ∧
      (∀ c : Rat, invert (invert c) = c) := by
  refine ⟨_, _, _, rfl, NodeStyle.invert_eq _ (NodeStyle.setColour_full _ _), NodeStyle.invert_eq _ ?_, ?_, ?_, ?_⟩
  · exact ⟨by decide +kernel, by decide +kernel, by decide +kernel⟩
  · decide +kernel
  · decide +kernel
  · intro c; simp only [invert]; grind

/-- **C53** fails for an edge style with a label style of its own: the copy renders `below`. -/
theorem C53_edge_copy_violated :
    ∃ s t : EdgeStyle Rat, s = EdgeStyle.make { colour := some (0 : Rat), labelStyle := some "above" } ∧ s.copy = .ok t ∧
      ("lblstyle", "above") ∈ s.attributes ∧ ("lblstyle", "above") ∉ t.attributes := by
  refine ⟨_, _, rfl, rfl, ?_, ?_⟩ <;> decide +kernel

example : (NodeStyle.make (C := Rat) { colour := some 0 }).copy.attributes =
    [("color", "0"), ("fillcolor", "1/2"), ("fontname", "helvetica"), ("fontcolor", "1"), ("fontsize", "10"), ("shape", "box"),
     ("style", "rounded, filled")] := by decide +kernel

end Verif
