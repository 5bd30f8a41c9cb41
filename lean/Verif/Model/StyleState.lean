import Verif.Model.Style
/-!
# Saving and restoring style objects: `__getstate__` and `__setstate__`

`copy.deepcopy(style)`, `pickle.dumps` and `pickle.loads` make a new object without calling `__init__` and hand it the dictionary
that `__getstate__` returned. Simplification: what is in the dictionary is itself copied faithfully.
-/
namespace Verif

/-- A value in the dictionary that `__getstate__` returns. `NodeStyle.py:164-185`, `EdgeStyle.py:113-133`. -/
inductive StateVal (C : Type) where
  | colour (c : Option C)
  | num (q : Option Rat)
  | str (s : Option String)
  deriving DecidableEq

section
variable {C : Type}

/-- `state[key]` where a colour or `None` is expected. Simplification: a value of another sort, which `__getstate__` never
writes, is a `TypeError` at once. `NodeStyle.py:164-185`, `EdgeStyle.py:113-133`. -/
def stateColour (d : Dict String (StateVal C)) (k : String) : Except PyErr (Option C) :=
  match dget d k with
  | none => .error .keyError
  | some (.colour c) => .ok c
  | some _ => .error .typeError

/-- `state[key]` where a number or `None` is expected; see `stateColour`. `NodeStyle.py:164-185`, `EdgeStyle.py:113-133`. -/
def stateNum (d : Dict String (StateVal C)) (k : String) : Except PyErr (Option Rat) :=
  match dget d k with
  | none => .error .keyError
  | some (.num c) => .ok c
  | some _ => .error .typeError

/-- `state[key]` where a string or `None` is expected; see `stateColour`. `NodeStyle.py:164-185`, `EdgeStyle.py:113-133`. -/
def stateStr (d : Dict String (StateVal C)) (k : String) : Except PyErr (Option String) :=
  match dget d k with
  | none => .error .keyError
  | some (.str c) => .ok c
  | some _ => .error .typeError

/-- A value that the style classes never leave `None`. Simplification: see `stateColour`.
`NodeStyle.py:164-185`, `EdgeStyle.py:113-133`. -/
def stateSome {α : Type} : Option α → Except PyErr α
  | none => .error .typeError
  | some x => .ok x

/-- `NodeStyle.__getstate__`, `NodeStyle.py:164-174`. -/
def NodeStyle.getState (s : NodeStyle C) : Dict String (StateVal C) :=
  [("_colour", .colour (some s.colour)), ("_fill_colour", .colour s.fill), ("_border_colour", .colour s.border),
   ("_font", .str s.font), ("_text_colour", .colour s.text), ("_text_size", .num s.textSize), ("_shape", .str s.shape),
   ("_shape_style", .str s.shapeStyle)]

/-- `NodeStyle.__setstate__`, `NodeStyle.py:176-185`. It sets neither `_lighter_fill` nor the three
`_x_colour_based_on_main_colour`; an object that lacks them is not modelled, because `C86_node_violated` shows that none is made
from a saved state. Here they get the values that the constructor starts with. -/
def NodeStyle.setState (d : Dict String (StateVal C)) : Except PyErr (NodeStyle C) := do
  let colour ← stateColour d "_colour"
  let fill ← stateColour d "_fill_colour"
  let border ← stateColour d "_border_colour"
  let opacity ← stateNum d "_opacity"
  let font ← stateStr d "_font"
  let text ← stateColour d "_text_colour"
  let textSize ← stateNum d "_text_size"
  let shape ← stateStr d "_shape"
  let shapeStyle ← stateStr d "_shape_style"
  let colour ← stateSome colour
  .ok { colour := colour, fill := fill, border := border, text := text, fillAuto := false, borderAuto := false, textAuto := false,
        lighter := true, opacity := opacity, font := font, textSize := textSize, shape := shape, shapeStyle := shapeStyle }

/-- `EdgeStyle.__getstate__`, `EdgeStyle.py:113-123`. -/
def EdgeStyle.getState (s : EdgeStyle C) : Dict String (StateVal C) :=
  [("_colour", .colour (some s.colour)), ("_opacity", .num s.opacity), ("_font", .str s.font), ("_text_colour", .colour s.text),
   ("_text_size", .num s.textSize), ("_arrow_size", .num (some s.arrowSize)), ("_label_style", .str s.labelStyle),
   ("_line_width", .num s.lineWidth)]

/-- `EdgeStyle.__setstate__`, `EdgeStyle.py:125-133`: `_text_colour_based_on_main_colour` is not set. -/
def EdgeStyle.setState (d : Dict String (StateVal C)) : Except PyErr (EdgeStyle C) := do
  let colour ← stateColour d "_colour"
  let opacity ← stateNum d "_opacity"
  let font ← stateStr d "_font"
  let text ← stateColour d "_text_colour"
  let textSize ← stateNum d "_text_size"
  let arrowSize ← stateNum d "_arrow_size"
  let labelStyle ← stateStr d "_label_style"
  let lineWidth ← stateNum d "_line_width"
  let colour ← stateSome colour
  let arrowSize ← stateSome arrowSize
  .ok { colour := colour, text := text, textAuto := none, opacity := opacity, font := font, textSize := textSize,
        arrowSize := arrowSize, labelStyle := labelStyle, lineWidth := lineWidth }

/-- `copy.deepcopy(style)` or `pickle.loads(pickle.dumps(style))` of a node style. `NodeStyle.py:164-185`. -/
def NodeStyle.deepcopy (s : NodeStyle C) : Except PyErr (NodeStyle C) := setState s.getState

/-- `copy.deepcopy(style)` or `pickle.loads(pickle.dumps(style))` of an edge style. `EdgeStyle.py:113-133`. -/
def EdgeStyle.deepcopy (s : EdgeStyle C) : Except PyErr (EdgeStyle C) := setState s.getState

end
end Verif
