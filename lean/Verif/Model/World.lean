import Verif.Model.Mutate
import Verif.Model.Style
/-!
# Graphs together with what is needed to display them

`World` adds to the heap the contents of the style objects and, for every graph, the attributes that only concern the
display. Those attributes do not exist on a graph made by `copy` (`_BasicGraph.py:34-44`): `display g` is `none`.
-/
namespace Verif

/-- An item of a dictionary with node style settings (`node_style=`, `node_styles=`); the constructor is the key.
`other` is a key that is no keyword of `NodeStyle(...)` and no attribute of it. Simplification: it does not begin with an
underscore (`complement` raises `ValueError` for those). Simplification: the item `colour` is never `None`.
The keys are the parameters of `NodeStyle.py:14-16`. -/
inductive NodeItem (C : Type) where
  | colour (c : C)
  | fill (c : Option C)
  | border (c : Option C)
  | text (c : Option C)
  | opacity (q : Option Rat)
  | font (s : Option String)
  | textSize (q : Option Rat)
  | shape (s : Option String)
  | shapeStyle (s : Option String)
  | lighter (b : Bool)
  | other

/-- An item of a dictionary with edge style settings; `other` is as for nodes.
The keys are the parameters of `EdgeStyle.py:15-18`. -/
inductive EdgeItemStyle (C : Type) where
  | colour (c : C)
  | text (c : Option C)
  | opacity (q : Option Rat)
  | font (s : Option String)
  | textSize (q : Option Rat)
  | arrowSize (q : Rat)
  | labelStyle (s : Option String)
  | lineWidth (q : Option Rat)
  | other

/-- The attribute `_stylist`: only two strings mean something, `_GraphWithoutDisplay.py:245-248`. -/
inductive Stylist where
  | pensieve
  | random
  | other
  deriving DecidableEq

/-- A value in the `**kwargs` of a graph: an `int`, or something else, given by its `str()`.
`_GraphWithoutDisplay.py:347-351`. -/
inductive KwVal where
  | int (i : Int)
  | other (s : String)

/-- The display attributes of a graph, `_GraphWithoutDisplay.py:57-101`, `_BasicGraph.py:29-30`. `background` is
`background_colour.hexadecimal`; `scheme` is the list of colours of the colour scheme. Simplifications: `_label`,
`_tooltip` and the like are strings or `None`; a label converter is a total function from strings to strings. -/
structure Display (C : Type) where
  background : String := "#FAFAFA"
  direction : String := "LR"
  globalNode : Option (List (NodeItem C)) := none
  globalEdge : Option (List (EdgeItemStyle C)) := none
  nodeStyles : Dict Key (List (NodeItem C)) := []
  edgeStyles : Dict EdgeId (List (EdgeItemStyle C)) := []
  nodeColours : Dict Key C := []
  edgeColours : Dict EdgeId C := []
  label : Option String := some "\nPowered by Abstract"
  labelLocation : Option String := some "bottom"
  labelColour : Option String := some "deepskyblue3"
  labelUrl : Option String := some "https://github.com/idin/abstract"
  labelBackground : Option String := none
  tooltip : Option String := none
  font : Option String := some "helvetica"
  fontSize : Option Rat := some 10
  kwargs : Dict String KwVal := []
  scheme : List C
  stylist : Stylist := .pensieve
  nodeConverter : Option (String → String) := none
  edgeConverter : Option (Val → Val) := none

/-- The heap, the style objects and the display attributes.
The display attributes are set at `_GraphWithoutDisplay.py:57-77`, the style objects at `NodeStyle.py:14-40` and
`EdgeStyle.py:15-35`. -/
structure World (C : Type) where
  heap : Heap
  ns : SRef → NodeStyle C
  es : SRef → EdgeStyle C
  display : GRef → Option (Display C)

/-- A call that may change the world; an exception does not undo the changes made before it.
Python's semantics of calls and exceptions; every method, for example `_GraphWithoutDisplay.py:226-287`. -/
def W (C α : Type) := World C → Except PyErr α × World C

namespace W
variable {C : Type}

protected def pure {α : Type} (a : α) : W C α := fun w => (.ok a, w)

protected def bind {α β : Type} (x : W C α) (f : α → W C β) : W C β := fun w =>
  match x w with
  | (.ok a, w') => f a w'
  | (.error e, w') => (.error e, w')

/-- Statements one after the other; Python's semantics, for example `_GraphWithoutDisplay.py:226-287`. -/
instance : Monad (W C) := { pure := W.pure, bind := W.bind }

/-- `raise e`. For example `_GraphWithoutDisplay.py:766`. -/
def raise {α : Type} (e : PyErr) : W C α := fun w => (.error e, w)

/-- Run a read-only call. For example in `_GraphWithoutDisplay.py:226-287`. -/
def ask {α : Type} (q : World C → Except PyErr α) : W C α := fun w => (q w, w)

/-- Read something that cannot fail. For example in `_GraphWithoutDisplay.py:226-287`. -/
def look {α : Type} (f : World C → α) : W C α := fun w => (.ok (f w), w)

/-- Run a call on the heap. For example in `_GraphWithoutDisplay.py:226-287`. -/
def lift {α : Type} (x : M α) : W C α := fun w => ((x w.heap).1, { w with heap := (x w.heap).2 })

/-- Write the contents of a style object. `NodeStyle.py:42-161`. -/
def setNs (s : SRef) (st : NodeStyle C) : W C Unit := fun w => (.ok (), { w with ns := upd w.ns s st })

/-- Write the contents of a style object of an edge, `EdgeStyle.py:37-110`. -/
def setEs (s : SRef) (st : EdgeStyle C) : W C Unit := fun w => (.ok (), { w with es := upd w.es s st })

/-- `self._attribute`: `AttributeError` if the graph has no display attributes.
For example `_GraphWithoutDisplay.py:722`; a copy lacks them because of `_BasicGraph.py:37-53`. -/
def display (g : GRef) : W C (Display C) := fun w =>
  match w.display g with
  | none => (.error .attributeError, w)
  | some d => (.ok d, w)

@[simp] theorem bind_apply {α β : Type} (x : W C α) (f : α → W C β) (w : World C) :
    (x >>= f) w = match x w with
      | (.ok a, w') => f a w'
      | (.error e, w') => (.error e, w') := rfl

@[simp] theorem pure_apply {α : Type} (a : α) (w : World C) : (Pure.pure a : W C α) w = (.ok a, w) := rfl

@[simp] theorem raise_apply {α : Type} (e : PyErr) (w : World C) : (raise e : W C α) w = (.error e, w) := rfl

@[simp] theorem ask_apply {α : Type} (q : World C → Except PyErr α) (w : World C) : ask q w = (q w, w) := rfl

@[simp] theorem look_apply {α : Type} (f : World C → α) (w : World C) : look f w = (.ok (f w), w) := rfl

end W
end Verif
