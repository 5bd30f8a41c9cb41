import Verif.Spec.Paint
import Verif.Model.Painter
/-!
# What a graph looks like that was painted with given styles
-/
namespace Verif
open Palette
variable {C : Type} [Palette C]

open scoped Classical in
/-- `Shade light h g c d n c'`: `c'` is the colour that `n` gets when everything is painted after the one colour `c`. -/
inductive Shade (light : Rat) (h : Heap) (g : GRef) (c : C) : Rat → NRef → C → Prop where
  | own {d : Rat} {n : NRef} : SemiRoot h g n → Shade light h g c d n c
  | only {d : Rat} {n p : NRef} {children : List NRef} {rank : Nat} {x : Rat} :
      ¬ SemiRoot h g n → nodeParents h n = .ok [p] → nodeChildren h p = .ok children →
      children.countP (fun c => decide (nodeLt h c n = .ok true)) = rank →
      getDivergingNumber rank children.length false = .ok x →
      Shade light h g c d n (scaleSaturation (increaseHue c (d * x)) (3 / 4))
  | mix {d : Rat} {n : NRef} {parents : List NRef} (colour : NRef → C) :
      ¬ SemiRoot h g n → nodeParents h n = .ok parents → 2 ≤ parents.length →
      (∀ p ∈ parents, ¬ Path h g n p → Shade light h g c 0 p (colour p)) →
      Shade light h g c d n (pale (Palette.mix ((parents.filter fun p => decide (¬ Path h g n p)).map colour)) light)

/-- What a node painted in the colour `c` looks like: the default style, or the style given, in that colour. -/
def brushed (given : Option (NodeStyle C)) (c : C) : NodeStyle C :=
  match given with
  | none => defaultNode c
  | some s => tinted s c

/-- The style that a node takes from its parents, or from the style given. -/
def Takes (b : Brush) (given : Option (NodeStyle C)) (h : Heap) (g : GRef) (base : NRef → Option (NodeStyle C)) (n : NRef)
    (s : NodeStyle C) : Prop :=
  match given with
  | none => TintBy b.pale h g base b.divergence n s
  | some main => ∃ c, Shade b.pale h g main.colour b.divergence n c ∧ s = tinted main c

omit [Palette C] in
/-- What an edge painted in the colour `c` looks like, with the arrow size `a`: the default style, or the style given but for the
style of the label. -/
def penned (given : Option (EdgeStyle C)) (c : C) (a : Rat) : EdgeStyle C :=
  match given with
  | none => defaultEdge c a
  | some s => { s with colour := c, text := some c, textAuto := some true, arrowSize := a, labelStyle := some "below" }

omit [Palette C] in
/-- The size of the arrows to begin with. -/
def firstSize (given : Option (EdgeStyle C)) : Rat :=
  match given with
  | none => 1 / 2
  | some s => s.arrowSize

/-- The style objects of `w` are the same in `w'`. -/
structure Kept (w w' : World C) : Prop where
  more : w.heap.nStyle ≤ w'.heap.nStyle
  node : ∀ s, s < w.heap.nStyle → w'.ns s = w.ns s
  edge : ∀ s, s < w.heap.nStyle → w'.es s = w.es s

end Verif
