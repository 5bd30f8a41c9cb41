import Verif.Py
/-!
# `styling/NodeStyle.py` and `styling/EdgeStyle.py`

The colours come from the package `colouration`, which is not part of the code base: a colour is an element of an
arbitrary type `C` with arbitrary operations (`Palette`). Simplifications: `Colour(obj=x)` of a colour is that colour, a
colour given by name has been looked up already, colours are truthy and immutable, floats are rationals.
-/
namespace Verif

/-- What the library uses of `colouration.Colour`, and how `str()` writes a number.
`NodeStyle.py:19`, `113-124`, `137`, `149`, `161`. -/
class Palette (C : Type) where
  /-- `DEFAULT_COLOUR`, `NodeStyle.py:4`, `EdgeStyle.py:4`. -/
  default : C
  lighten : C → Rat → C
  darken : C → Rat → C
  invert : C → C
  farthestGray : C → C
  /-- `colour.get_hexadecimal(opacity=...)`. -/
  hex : C → Option Rat → String
  increaseHue : C → Rat → C
  /-- `colour.saturation = colour.saturation * factor`. -/
  scaleSaturation : C → Rat → C
  /-- `Colour.mix(colours=...)`. -/
  mix : List C → C
  pale : C → Rat → C
  /-- `f'{x}'` for a number. -/
  showNum : Rat → String

open Palette

/-- `DEFAULT_NODE_COLOUR_DIFFERENCE_RATIO`, `NodeStyle.py:9`. -/
def differenceRatio : Rat := 1 / 2

/-- `class NodeStyle`, `NodeStyle.py:12-40`. `xAuto` is `_x_colour_based_on_main_colour`. -/
structure NodeStyle (C : Type) where
  colour : C
  fill : Option C
  border : Option C
  text : Option C
  fillAuto : Bool
  borderAuto : Bool
  textAuto : Bool
  lighter : Bool
  opacity : Option Rat
  font : Option String
  textSize : Option Rat
  shape : Option String
  shapeStyle : Option String
  deriving DecidableEq

/-- The arguments of `NodeStyle(...)` with their defaults, `NodeStyle.py:14-16`. `colour = none` is an explicit `None`. -/
structure NodeStyleArgs (C : Type) where
  colour : Option C
  fill : Option C := none
  border : Option C := none
  opacity : Option Rat := none
  font : Option String := some "helvetica"
  text : Option C := none
  textSize : Option Rat := some 10
  shape : Option String := some "box"
  shapeStyle : Option String := some "rounded, filled"
  lighter : Bool := true

/-- `class EdgeStyle`, `EdgeStyle.py:13-35`. `textAuto` is `_text_colour_based_on_main_colour`; it is `none` when the object
has no such attribute, as after `__setstate__` (`EdgeStyle.py:125-133`). -/
structure EdgeStyle (C : Type) where
  colour : C
  text : Option C
  textAuto : Option Bool
  opacity : Option Rat
  font : Option String
  textSize : Option Rat
  arrowSize : Rat
  labelStyle : Option String
  lineWidth : Option Rat
  deriving DecidableEq

/-- The arguments of `EdgeStyle(...)` with their defaults, `EdgeStyle.py:15-18`. -/
structure EdgeStyleArgs (C : Type) where
  colour : Option C
  opacity : Option Rat := some 1
  font : Option String := some "helvetica"
  text : Option C := none
  textSize : Option Rat := some 8
  arrowSize : Rat := 1 / 2
  labelStyle : Option String := some "below"
  lineWidth : Option Rat := some 1

/-- `s.strip('"')`. `NodeStyle.py:210`, `213`, `EdgeStyle.py:157`, `160`. -/
def stripQuotes (s : String) : String :=
  String.ofList (((s.toList.dropWhile (· = '"')).reverse.dropWhile (· = '"')).reverse)

/-- A value in `_graphviz_dictionary`. `NodeStyle.py:188-198`, `EdgeStyle.py:136-145`. -/
inductive AttrVal (C : Type) where
  | none
  | colour (c : C)
  | str (s : String)
  | num (q : Rat)

section
variable {C : Type} [Palette C]

/-- The value of an attribute as it is written; `None` is left out (`NodeStyle.py:206-216`, `EdgeStyle.py:153-163`). -/
def AttrVal.shown (opacity : Option Rat) : AttrVal C → Option String
  | .none => Option.none
  | .colour c => some (stripQuotes (hex c opacity))
  | .str s => some (stripQuotes s)
  | .num q => some (showNum C q)

/-- A colour or `None` in that dictionary, `NodeStyle.py:188-198`, `EdgeStyle.py:136-145`. -/
def AttrVal.ofColour : Option C → AttrVal C
  | Option.none => .none
  | some c => .colour c

/-- A string or `None` in that dictionary, `NodeStyle.py:188-198`, `EdgeStyle.py:136-145`. -/
def AttrVal.ofStr : Option String → AttrVal C
  | Option.none => .none
  | some s => .str s

/-- A number or `None` in that dictionary, `NodeStyle.py:188-198`, `EdgeStyle.py:136-145`. -/
def AttrVal.ofNum : Option Rat → AttrVal C
  | Option.none => .none
  | some q => .num q

namespace NodeStyle

/-- The setter of `NodeStyle.colour`, `NodeStyle.py:107-125`. -/
def setColour (s : NodeStyle C) (c : C) : NodeStyle C :=
  let s := { s with colour := c }
  let s := match s.fill with
    | some _ => s
    | none => { s with fill := some (if s.lighter then lighten c differenceRatio else darken c differenceRatio), fillAuto := true }
  let s := match s.border with
    | some _ => s
    | none => { s with border := some (if s.lighter then darken c (differenceRatio / 3) else lighten c (differenceRatio / 3)), borderAuto := true }
  match s.text with
    | some _ => s
    | none => { s with text := s.fill.map farthestGray, textAuto := true }

/-- The setter of `NodeStyle.fill_colour`, `NodeStyle.py:135-137`. -/
def setFill (s : NodeStyle C) : Option C → NodeStyle C
  | none => s
  | some c => { s with fill := some c }

/-- The setter of `NodeStyle.border_colour`, `NodeStyle.py:147-149`. -/
def setBorder (s : NodeStyle C) : Option C → NodeStyle C
  | none => s
  | some c => { s with border := some c }

/-- The setter of `NodeStyle.text_colour`, `NodeStyle.py:159-162`. -/
def setText (s : NodeStyle C) : Option C → NodeStyle C
  | none => s
  | some c => { s with text := some c, textAuto := false }

/-- `NodeStyle.__init__`, `NodeStyle.py:18-40`. -/
def make (a : NodeStyleArgs C) : NodeStyle C :=
  let colour := ((a.colour <|> a.fill) <|> a.border).getD default
  let s : NodeStyle C :=
    { colour := colour, fill := none, border := none, text := none, fillAuto := false, borderAuto := false,
      textAuto := false, lighter := a.lighter, opacity := none, font := none, textSize := none, shape := none,
      shapeStyle := none }
  let s := (((s.setFill a.fill).setBorder a.border).setText a.text).setColour colour
  { s with opacity := a.opacity, font := a.font, textSize := a.textSize, shape := a.shape, shapeStyle := a.shapeStyle }

/-- `NodeStyle.reset_colours`, `NodeStyle.py:54-57`. -/
def resetColours (s : NodeStyle C) : NodeStyle C := { s with fill := none, border := none, text := none }

/-- `NodeStyle.copy`, `NodeStyle.py:89-97`: `lighter_fill` is not passed on. -/
def copy (s : NodeStyle C) : NodeStyle C :=
  { make { colour := some s.colour, fill := s.fill, border := s.border, opacity := s.opacity, font := s.font,
           text := s.text, textSize := s.textSize, shape := s.shape, shapeStyle := s.shapeStyle } with
    fillAuto := s.fillAuto, textAuto := s.textAuto, borderAuto := s.borderAuto }

/-- `x.invert()`; `None` has no such method. `NodeStyle.py:65-78`. -/
def invertOwn : Option C → Except PyErr (Option C)
  | none => .error .attributeError
  | some c => .ok (some (invert c))

/-- `NodeStyle.py:65-68`. -/
def invertFill (r : NodeStyle C) : Except PyErr (NodeStyle C) :=
  if r.fillAuto then .ok { r with fill := none } else (invertOwn r.fill).map r.setFill

/-- `NodeStyle.py:70-73`. -/
def invertText (r : NodeStyle C) : Except PyErr (NodeStyle C) :=
  if r.textAuto then .ok { r with text := none } else (invertOwn r.text).map r.setText

/-- `NodeStyle.py:75-78`. -/
def invertBorder (r : NodeStyle C) : Except PyErr (NodeStyle C) :=
  if r.borderAuto then .ok { r with border := none } else (invertOwn r.border).map r.setBorder

/-- `NodeStyle.invert_colours`, `NodeStyle.py:63-83`. -/
def invertColours (s : NodeStyle C) : Except PyErr (NodeStyle C) := do
  let r ← invertFill s.copy
  let r ← invertText r
  let r ← invertBorder r
  .ok (r.setColour (invert r.colour))

/-- `NodeStyle._graphviz_dictionary`, `NodeStyle.py:188-198`. -/
def dictionary (s : NodeStyle C) : List (String × AttrVal C) :=
  [("color", .ofColour s.border), ("fillcolor", .ofColour s.fill), ("fontname", .ofStr s.font),
   ("fontcolor", .ofColour s.text), ("fontsize", .ofNum s.textSize), ("opacity", .ofNum s.opacity),
   ("shape", .ofStr s.shape), ("style", .ofStr s.shapeStyle)]

/-- The `key_values` of `NodeStyle.get_graphviz_str`, `NodeStyle.py:204-216`. -/
def attributes (s : NodeStyle C) : List (String × String) :=
  s.dictionary.filterMap (fun p => (p.2.shown s.opacity).map fun v => (stripQuotes p.1, v))

end NodeStyle

namespace EdgeStyle

/-- The setter of `EdgeStyle.colour`, `EdgeStyle.py:88-94`. -/
def setColour (s : EdgeStyle C) (c : C) : EdgeStyle C :=
  let s := { s with colour := c }
  match s.text with
  | some _ => s
  | none => { s with text := some c, textAuto := some true }

/-- The setter of `EdgeStyle.text_colour`, `EdgeStyle.py:104-111`. -/
def setText (s : EdgeStyle C) : Option C → EdgeStyle C
  | none => { s with text := some s.colour, textAuto := some true }
  | some c => { s with text := some c, textAuto := some false }

/-- `EdgeStyle.text_colour`, `EdgeStyle.py:101`. -/
def textColour (s : EdgeStyle C) : C := s.text.getD s.colour

/-- `EdgeStyle.__init__`, `EdgeStyle.py:20-35`. -/
def make (a : EdgeStyleArgs C) : EdgeStyle C :=
  let colour := (a.colour <|> a.text).getD default
  let s : EdgeStyle C :=
    { colour := colour, text := none, textAuto := some false, opacity := none, font := none, textSize := none,
      arrowSize := 0, labelStyle := none, lineWidth := none }
  let s := (s.setText a.text).setColour colour
  { s with opacity := a.opacity, font := a.font, textSize := a.textSize, arrowSize := a.arrowSize,
           labelStyle := a.labelStyle, lineWidth := a.lineWidth }

/-- `EdgeStyle.reset_colours`, `EdgeStyle.py:49-50`. -/
def resetColours (s : EdgeStyle C) : EdgeStyle C := { s with text := none }

/-- What `EdgeStyle.copy` returns if it returns, `EdgeStyle.py:56-62`: `label_style` is not passed on. -/
def copied (s : EdgeStyle C) : EdgeStyle C :=
  { make { colour := some s.colour, opacity := s.opacity, font := s.font, text := s.text, textSize := s.textSize,
           arrowSize := s.arrowSize, lineWidth := s.lineWidth } with textAuto := s.textAuto }

/-- `EdgeStyle.copy`, `EdgeStyle.py:56-62`: reading `_text_colour_based_on_main_colour` (line 61) fails if it is missing. -/
def copy (s : EdgeStyle C) : Except PyErr (EdgeStyle C) :=
  match s.textAuto with
  | none => .error .attributeError
  | some _ => .ok s.copied

/-- `EdgeStyle.invert_colours`, `EdgeStyle.py:68-78`. -/
def invertColours (s : EdgeStyle C) : Except PyErr (EdgeStyle C) := do
  let r ← s.copy
  let r := if r.textAuto = some true then { r with text := none } else r.setText (some (invert r.textColour))
  .ok (r.setColour (invert r.colour))

/-- `EdgeStyle._graphviz_dictionary`, `EdgeStyle.py:136-145`. -/
def dictionary (s : EdgeStyle C) : List (String × AttrVal C) :=
  [("color", .colour s.colour), ("fontname", .ofStr s.font), ("fontcolor", .colour s.textColour),
   ("fontsize", .ofNum s.textSize), ("arrowsize", .num s.arrowSize), ("lblstyle", .ofStr s.labelStyle),
   ("penwidth", .ofNum s.lineWidth)]

/-- The `key_values` of `EdgeStyle.get_graphviz_str`, `EdgeStyle.py:151-163`. -/
def attributes (s : EdgeStyle C) : List (String × String) :=
  s.dictionary.filterMap (fun p => (p.2.shown s.opacity).map fun v => (stripQuotes p.1, v))

end EdgeStyle
end

/-- `' '.join([f'"{key}"="{value}"' for key, value in key_values])`, `NodeStyle.py:218`, `EdgeStyle.py:165`. -/
def attrString (l : List (String × String)) : String :=
  String.intercalate " " (l.map fun p => "\"" ++ p.1 ++ "\"=\"" ++ p.2 ++ "\"")

end Verif
