import Verif.Lemmas.TraverseTop
import Verif.Model.Stylize
/-!
# What the default look of a graph is
-/
namespace Verif
open Palette

/-- `n` lies on a cycle. -/
def OnLoop (h : Heap) (g : GRef) (n : NRef) : Prop := Path h g n n

/-- `n` has no parents outside cycles. -/
def SemiRoot (h : Heap) (g : GRef) (n : NRef) : Prop := ∀ p, Arrow h g p n → OnLoop h g p

variable {C : Type}

/-- The style that a node shows, if any. -/
def nodeLook (w : World C) (n : NRef) : Option (NodeStyle C) := (w.heap.node n).style.map w.ns

/-- The style that an edge shows, if any. -/
def edgeLook (w : World C) (e : ERef) : Option (EdgeStyle C) := (w.heap.edge e).style.map w.es

/-- `n` has no style, lies on a cycle, and has a parent that lies on none. -/
def Stranded (w : World C) (g : GRef) (n : NRef) : Prop :=
  nodeLook w n = none ∧ OnLoop w.heap g n ∧ ∃ p, Arrow w.heap g p n ∧ ¬ OnLoop w.heap g p

/-- What an edge's value does to the size of its arrow; a string or another object cannot be multiplied with a number. -/
def Val.factor : Val → Option Rat
  | .none => some 1
  | .int i => some i
  | _ => Option.none

variable [Palette C]

/-- `s` with all its colours derived from the colour `c`. -/
def tinted (s : NodeStyle C) (c : C) : NodeStyle C :=
  { s with
    colour := c, fill := some (lighten c (1 / 2)), border := some (darken c (1 / 6)),
    text := some (farthestGray (lighten c (1 / 2))), fillAuto := true, borderAuto := true, textAuto := true, lighter := true }

/-- The default node style in the colour `c`. -/
def defaultNode (c : C) : NodeStyle C :=
  { colour := c, fill := some (lighten c (1 / 2)), border := some (darken c (1 / 6)),
    text := some (farthestGray (lighten c (1 / 2))), fillAuto := true, borderAuto := true, textAuto := true, lighter := true,
    opacity := none, font := some "helvetica", textSize := some 10, shape := some "box", shapeStyle := some "rounded, filled" }

omit [Palette C] in
/-- The default edge style in the colour `c`, with the arrow size `a`. -/
def defaultEdge (c : C) (a : Rat) : EdgeStyle C :=
  { colour := c, text := some c, textAuto := some true, opacity := some 1, font := some "helvetica", textSize := some 8,
    arrowSize := a, labelStyle := some "below", lineWidth := some 1 }

open scoped Classical in
/-- `TintBy light h g base d n s`: `s` is the style that `n` inherits, when the nodes that inherit from nobody have the styles
`base`, and siblings spread by `d`. A node with several parents mixes the colours of those it is in no loop with, paler by `light`. -/
inductive TintBy (light : Rat) (h : Heap) (g : GRef) (base : NRef → Option (NodeStyle C)) : Rat → NRef → NodeStyle C → Prop where
  | own {d : Rat} {n : NRef} {s : NodeStyle C} : SemiRoot h g n → base n = some s → TintBy light h g base d n s.copy
  | only {d : Rat} {n p : NRef} {s : NodeStyle C} {children : List NRef} {rank : Nat} {x : Rat} :
      ¬ SemiRoot h g n → nodeParents h n = .ok [p] → nodeChildren h p = .ok children →
      children.countP (fun c => decide (nodeLt h c n = .ok true)) = rank →
      getDivergingNumber rank children.length false = .ok x → TintBy light h g base d p s →
      TintBy light h g base d n (tinted s (scaleSaturation (increaseHue s.colour (d * x)) (3 / 4)))
  | mix {d : Rat} {n first : NRef} {parents rest : List NRef} (style : NRef → NodeStyle C) :
      ¬ SemiRoot h g n → nodeParents h n = .ok parents → 2 ≤ parents.length →
      parents.filter (fun p => decide (¬ Path h g n p)) = first :: rest →
      (∀ p ∈ first :: rest, TintBy light h g base 0 p (style p)) →
      TintBy light h g base d n (tinted (style first) (pale (Palette.mix ((first :: rest).map fun p => (style p).colour)) light))

/-- The same with the default ratio. -/
abbrev Tint (h : Heap) (g : GRef) (base : NRef → Option (NodeStyle C)) : Rat → NRef → NodeStyle C → Prop := TintBy (1 / 20) h g base

end Verif
