import Verif.Model.Copy
import Verif.Model.Traverse
/-!
# `filter`
-/
namespace Verif
open M

/-- `x or 'to_and_from'` as a condition: a non-empty string is true, `_BasicGraph.py:82, 86`. -/
def orLiteral (b : Bool) (literal : String) : Bool := b || decide (literal ≠ "")

/-- `for y in ...: relatives[y.name] = 1`, `_BasicGraph.py:83-84, 87-88`. -/
def addNames (h : Heap) (l : List NRef) (d : Dict Key Nat) : Dict Key Nat :=
  l.foldl (fun d y => dset d (h.node y).id 1) d

/-- One round of the loop over `nodes`, `_BasicGraph.py:78-88`. -/
def filterRound (lim : Nat) (h : Heap) (g : GRef) (direction : String) (d : Dict Key Nat) (x : NodeArg) :
    Except PyErr (Dict Key Nat) := do
  let node ← getNode h g x
  let d := dset d (h.node node).id 1
  let as ← if orLiteral (decide (direction = "to")) "to_and_from" then nodeAncestors lim h node else .ok []
  let d := addNames h as d
  let ds ← if orLiteral (decide (direction = "from")) "to_and_from" then nodeDescendants lim h node else .ok []
  .ok (addNames h ds d)

/-- The dictionary `relatives`, `_BasicGraph.py:76-88`. `nodes or []` is the list itself or the empty list. -/
def filterRelatives (lim : Nat) (h : Heap) (g : GRef) (direction : String) (nodes : List NodeArg) :
    Except PyErr (Dict Key Nat) :=
  nodes.foldlM (filterRound lim h g direction) []

/-- `to_delete`, `_BasicGraph.py:90-93`. -/
def filterDelete (h : Heap) (g : GRef) (filterType : String) (relatives : Dict Key Nat) : List Key :=
  if filterType = "include" then (dkeys (h.graph g).nodes).filter (fun k => (dget relatives k).isNone)
  else dkeys relatives

/-- `for name in to_delete: new_graph.remove_node(node=name)`, `_BasicGraph.py:96-97`. -/
def removeNames (g : GRef) : List Key → M Unit
  | [] => pure ()
  | k :: ks => do
    removeNode g (.key k)
    removeNames g ks

/-- `BasicGraph.filter`, `_BasicGraph.py:64-98`. Returns the memo of the copy as well. -/
def graphFilter (lim : Nat) (g : GRef) (nodes : List NodeArg) (direction filterType : String) : M (GRef × Memo) := do
  let rel ← ask (fun h => filterRelatives lim h g direction nodes)
  let del ← look (fun h => filterDelete h g filterType rel)
  let r ← graphCopy g
  removeNames r.1 del
  return r

end Verif
