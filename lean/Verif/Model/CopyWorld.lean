import Verif.Model.Graphviz
import Verif.Model.Filter
/-!
# Copies and their display attributes
-/
namespace Verif
variable {C : Type}

/-- The contents of the style objects after `deepcopy` of edge styles, `EdgeStyle.py:113-133`: a copy has the contents of its
original without `_text_colour_based_on_main_colour`, which `__getstate__` leaves out. -/
def Memo.dye (m : Memo) (es : SRef → EdgeStyle C) : SRef → EdgeStyle C := fun s =>
  match m.styles.find? (fun p => p.2 = s) with
  | some p => { es p.1 with textAuto := none }
  | none => es s

/-- A call on the heap that makes a graph with `__setstate__`: `_STATE_ATTRIBUTES` (`_BasicGraph.py:32`) has none of the
display attributes and `__setstate__` (`_BasicGraph.py:47-53`, `_GraphWithoutDisplay.py:128-140`) does not set them. -/
def W.undisplayed (x : M (GRef × Memo)) : W C GRef := fun w =>
  match x w.heap with
  | (.ok (g, m), h) => (.ok g, { w with heap := h, es := m.dye w.es, display := upd w.display g none })
  | (.error e, h) => (.error e, { w with heap := h })

/-- `BasicGraph.copy`, `_BasicGraph.py:56-62`, with the display attributes and the contents of edge styles. -/
def copyWorld (g : GRef) : W C GRef := W.undisplayed (graphCopy g)

/-- `BasicGraph.filter`, `_BasicGraph.py:64-98`, with the display attributes. -/
def filterWorld (lim : Nat) (g : GRef) (nodes : List NodeArg) (direction filterType : String) : W C GRef :=
  W.undisplayed (graphFilter lim g nodes direction filterType)

end Verif
