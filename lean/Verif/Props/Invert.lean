import Verif.Props.Style
/-!
# Inverting the colours of a style inverts its colours (C88)
-/
namespace Verif
open Palette
variable {C : Type} [Palette C]

/-- The same arguments with every colour inverted; `c` is the main colour. -/
def NodeStyleArgs.inverted (a : NodeStyleArgs C) (c : C) : NodeStyleArgs C :=
  { a with colour := some (invert c), fill := a.fill.map invert, border := a.border.map invert, text := a.text.map invert }

/-- The same arguments with every colour inverted; `c` is the main colour. -/
def EdgeStyleArgs.inverted (a : EdgeStyleArgs C) (c : C) : EdgeStyleArgs C :=
  { a with colour := some (invert c), text := a.text.map invert }

/-- **C88.** The inverted style of a node style is the one made from the inverted colours: it has the same main colour, fill colour,
border colour, text colour and Graphviz attributes. Missing: styles made with `lighter_fill=False` whose fill or border colour is
derived from the main colour (`C88_darker_violated`), and styles changed after they were made (`C88_setter_violated`). -/
theorem C88_node_partial (a : NodeStyleArgs C) (h : a.lighter = true ∨ (a.fill.isSome ∧ a.border.isSome)) :
    ∃ t, (NodeStyle.make a).invertColours = .ok t ∧
      t.colour = invert (NodeStyle.make a).colour ∧
      t.fill = (NodeStyle.make (a.inverted (NodeStyle.make a).colour)).fill ∧
      t.border = (NodeStyle.make (a.inverted (NodeStyle.make a).colour)).border ∧
      t.text = (NodeStyle.make (a.inverted (NodeStyle.make a).colour)).text ∧
      t.attributes = (NodeStyle.make (a.inverted (NodeStyle.make a).colour)).attributes := by
  refine ⟨_, NodeStyle.invert_eq _ (NodeStyle.setColour_full _ _), rfl, ?_⟩
  rcases a with ⟨c0, fill, border, op, fo, text, ts, sh, ss, li⟩
  cases fill <;> cases border <;> cases text <;> cases li <;>
    simp_all [NodeStyle.make, NodeStyle.setColour, NodeStyle.setFill, NodeStyle.setBorder, NodeStyle.setText, NodeStyleArgs.inverted,
      NodeStyle.attributes, NodeStyle.dictionary]

/-- **C88.** The inverted style of an edge style is the one made from the inverted colours, with the label style `below`. -/
theorem C88_edge_partial (a : EdgeStyleArgs C) :
    (EdgeStyle.make a).invertColours =
      .ok (EdgeStyle.make { a.inverted (EdgeStyle.make a).colour with labelStyle := some "below" }) := by
  rcases a with ⟨c0, op, fo, text, ts, ar, la, lw⟩
  cases c0 <;> cases text <;>
    simp [EdgeStyle.make, EdgeStyle.setText, EdgeStyle.setColour, EdgeStyle.invertColours, EdgeStyle.copy, EdgeStyle.copied,
      EdgeStyle.textColour, EdgeStyleArgs.inverted, bind, Except.bind]

/-- **C88 is violated** by styles whose fill or border colour was changed: for every style made without a fill colour (or border
colour), the one assigned later is not inverted but forgotten. -/
theorem C88_setter_violated (a : NodeStyleArgs C) (c : C) :
    (a.fill = none → ((NodeStyle.make a).setFill (some c)).invertColours.map (·.fill) =
      .ok (some (lighten (invert (NodeStyle.make a).colour) differenceRatio))) ∧
    (a.border = none → ((NodeStyle.make a).setBorder (some c)).invertColours.map (·.border) =
      .ok (some (darken (invert (NodeStyle.make a).colour) (differenceRatio / 3)))) := by
  have hf : (NodeStyle.make a).Full := NodeStyle.setColour_full _ _
  have h1 : ((NodeStyle.make a).setFill (some c)).Full := ⟨rfl, hf.2.1, hf.2.2⟩
  have h2 : ((NodeStyle.make a).setBorder (some c)).Full := ⟨hf.1, rfl, hf.2.2⟩
  constructor
  · intro hn
    rw [NodeStyle.invert_eq _ h1]
    rcases a with ⟨c0, fill, border, op, fo, text, ts, sh, ss, li⟩
    cases hn
    cases border <;> cases text <;> cases li <;>
      simp [NodeStyle.make, NodeStyle.setColour, NodeStyle.setFill, NodeStyle.setBorder, NodeStyle.setText, Except.map]
  · intro hn
    rw [NodeStyle.invert_eq _ h2]
    rcases a with ⟨c0, fill, border, op, fo, text, ts, sh, ss, li⟩
    cases hn
    cases fill <;> cases text <;> cases li <;>
      simp [NodeStyle.make, NodeStyle.setColour, NodeStyle.setFill, NodeStyle.setBorder, NodeStyle.setText, Except.map]

/-- **C88** holds for a text colour, whenever it is assigned. -/
theorem C88_text (a : NodeStyleArgs C) (c : C) :
    ((NodeStyle.make a).setText (some c)).invertColours.map (·.text) = .ok (some (invert c)) := by
  have hf : (NodeStyle.make a).Full := NodeStyle.setColour_full _ _
  rw [NodeStyle.invert_eq _ (⟨hf.1, hf.2.1, rfl⟩ : ((NodeStyle.make a).setText (some c)).Full)]
  simp [NodeStyle.setText, Except.map]

/-- **C88 is violated** by styles with `lighter_fill=False`: the fill colour of the inverted style is lighter than its main colour, not
darker. -/
theorem C88_darker_violated (a : NodeStyleArgs C) (hl : a.lighter = false) (hf : a.fill = none) :
    (NodeStyle.make a).fill = some (darken (NodeStyle.make a).colour differenceRatio) ∧
    (NodeStyle.make a).invertColours.map (·.fill) = .ok (some (lighten (invert (NodeStyle.make a).colour) differenceRatio)) := by
  have hfull : (NodeStyle.make a).Full := NodeStyle.setColour_full _ _
  rw [NodeStyle.invert_eq _ hfull]
  clear hfull
  rcases a with ⟨c0, fill, border, op, fo, text, ts, sh, ss, li⟩
  cases hf
  cases hl
  cases border <;> cases text <;>
    simp [NodeStyle.make, NodeStyle.setColour, NodeStyle.setFill, NodeStyle.setBorder, NodeStyle.setText, Except.map]

/-! ## Examples -/

/-- A style with a fill colour: all colours are inverted. -/
example : (NodeStyle.make { colour := some (0 : Rat), fill := some (1 / 4) }).invertColours.map (fun t => (t.colour, t.fill)) =
    .ok (1, some (3 / 4)) := by decide +kernel

/-- The colour assigned later is lost, and the result is not the inverse of any of the colours. -/
example : ((NodeStyle.make { colour := some (0 : Rat) }).setFill (some (1 / 4))).invertColours.map (·.fill) = .ok (some 1) := by
  decide +kernel

/-- A darker fill becomes a lighter one. -/
example : (NodeStyle.make { colour := some (1 / 2 : Rat), lighter := false }).fill = some (1 / 4) ∧
    (NodeStyle.make { colour := some (1 / 2 : Rat), lighter := false }).invertColours.map (·.fill) = .ok (some (3 / 4)) := by
  decide +kernel

end Verif
