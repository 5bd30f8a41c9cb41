import Verif.Model.Style
/-!
# What a style shows, from the arguments of its constructor

`lighten`, `darken`, `farthestGray` and `hex` are the functions of the colour library.
-/
namespace Verif
open Palette
variable {C : Type} [Palette C]

/-- The first of the colours that is given, or else the colour everything has by default. -/
def firstGiven : List (Option C) → C
  | [] => default
  | some c :: _ => c
  | none :: l => firstGiven l

/-- The four colours of a node. -/
structure NodeColours (C : Type) where
  main : C
  fill : C
  border : C
  text : C

/-- What is given counts. The main colour is otherwise the fill colour or the border colour; a fill colour is otherwise lighter than the
main colour by a half and a border darker by a sixth, or the other way round if `lighter_fill=False`; the text is the gray farthest from
the fill colour. -/
def nodeColours (a : NodeStyleArgs C) : NodeColours C :=
  let main := firstGiven [a.colour, a.fill, a.border]
  let fill := match a.fill with
    | some c => c
    | none => if a.lighter then lighten main (1 / 2) else darken main (1 / 2)
  { main := main, fill := fill,
    border := match a.border with
      | some c => c
      | none => if a.lighter then darken main (1 / 6) else lighten main (1 / 6),
    text := match a.text with
      | some c => c
      | none => farthestGray fill }

/-- The Graphviz attributes of a node: those whose value is not `None`. Colours are written with the opacity. -/
def nodeShows (a : NodeStyleArgs C) : List (String × String) :=
  let paint c := some (stripQuotes (hex c a.opacity))
  let k := nodeColours a
  [("color", paint k.border), ("fillcolor", paint k.fill), ("fontname", a.font.map stripQuotes), ("fontcolor", paint k.text),
   ("fontsize", a.textSize.map (showNum C)), ("opacity", a.opacity.map (showNum C)), ("shape", a.shape.map stripQuotes),
   ("style", a.shapeStyle.map stripQuotes)].filterMap fun p => p.2.map (p.1, ·)

/-- An edge has its colour, or else that of its text; the text has its colour, or else that of the edge. -/
def edgeColours (a : EdgeStyleArgs C) : C × C :=
  let main := firstGiven [a.colour, a.text]
  (main, firstGiven [a.text, some main])

/-- The Graphviz attributes of an edge. -/
def edgeShows (a : EdgeStyleArgs C) : List (String × String) :=
  let paint c := some (stripQuotes (hex c a.opacity))
  [("color", paint (edgeColours a).1), ("fontname", a.font.map stripQuotes), ("fontcolor", paint (edgeColours a).2),
   ("fontsize", a.textSize.map (showNum C)), ("arrowsize", some (showNum C a.arrowSize)), ("lblstyle", a.labelStyle.map stripQuotes),
   ("penwidth", a.lineWidth.map (showNum C))].filterMap fun p => p.2.map (p.1, ·)

end Verif
