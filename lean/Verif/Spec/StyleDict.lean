import Verif.Spec.Settings
/-!
# The style that a dictionary describes

`Describes l s`: the style `s` shows every setting of the dictionary `l`, has the defaults of the constructor where `l` says
nothing, and derives from the colour the colours that `l` does not give.
-/
namespace Verif
open Palette
variable {C : Type} [Palette C]

structure NodeStyle.Described (l : List (NodeItem C)) (s : NodeStyle C) : Prop where
  shows : ∀ i ∈ l, i.Shows s
  colour : (∀ c, .colour c ∉ l) → s.colour = Palette.default
  fill : (∀ c, .fill (some c) ∉ l) → s.fill = some (if s.lighter then lighten s.colour (1 / 2) else darken s.colour (1 / 2))
  border : (∀ c, .border (some c) ∉ l) → s.border = some (if s.lighter then darken s.colour (1 / 6) else lighten s.colour (1 / 6))
  text : (∀ c, .text (some c) ∉ l) → s.text = s.fill.map farthestGray
  lighter : (∀ b, .lighter b ∉ l) → s.lighter = true
  opacity : (∀ q, .opacity q ∉ l) → s.opacity = none
  font : (∀ f, .font f ∉ l) → s.font = some "helvetica"
  textSize : (∀ q, .textSize q ∉ l) → s.textSize = some 10
  shape : (∀ f, .shape f ∉ l) → s.shape = some "box"
  shapeStyle : (∀ f, .shapeStyle f ∉ l) → s.shapeStyle = some "rounded, filled"

structure EdgeStyle.Described (l : List (EdgeItemStyle C)) (s : EdgeStyle C) : Prop where
  shows : ∀ i ∈ l, i.Shows s
  colour : (∀ c, .colour c ∉ l) → s.colour = Palette.default
  text : (∀ c, .text (some c) ∉ l) → s.text = some s.colour
  opacity : (∀ q, .opacity q ∉ l) → s.opacity = some 1
  font : (∀ f, .font f ∉ l) → s.font = some "helvetica"
  textSize : (∀ q, .textSize q ∉ l) → s.textSize = some 8
  arrowSize : (∀ q, .arrowSize q ∉ l) → s.arrowSize = 1 / 2
  labelStyle : (∀ f, .labelStyle f ∉ l) → s.labelStyle = some "below"
  lineWidth : (∀ q, .lineWidth q ∉ l) → s.lineWidth = some 1

end Verif
