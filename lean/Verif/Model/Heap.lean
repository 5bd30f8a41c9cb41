import Verif.Py
/-!
# The object heap

One structure per class, one field per attribute; references are natural numbers. Stores are total
functions together with an allocation counter; a reference that was handed out is below its counter.
-/
namespace Verif

/-- A reference to a graph object, `_BasicGraph.py:25-31`. -/
abbrev GRef := Nat
/-- A reference to a node object, `Node.py:13-42`. -/
abbrev NRef := Nat
/-- A reference to an edge object, `Edge.py:28-36`. -/
abbrev ERef := Nat
/-- A reference to a style object, `NodeStyle.py:14-40`, `EdgeStyle.py:15-35`. -/
abbrev SRef := Nat

/-- `class Node(GraphObj)`: `_GraphObj.py:12-23`, `Node.py:13-42`. Styles are references to style objects. -/
structure NodeObj where
  graph : Option GRef := none
  id : Key := .str ""
  value : Val := .none
  label : Val := .none
  tooltip : Val := .none
  frozen : Bool := false
  params : Dict String Val := []
  style : Option SRef := none
  outE : Dict EdgeId ERef := []
  inE : Dict EdgeId ERef := []
  outHaveStart : Bool := true
  inHaveEnd : Bool := true
  index : Nat := 0

/-- `class Edge(GraphObj)`: `_GraphObj.py:12-23`, `Edge.py:8-36`. -/
structure EdgeObj where
  graph : Option GRef := none
  start : Option NRef := none
  stop : Option NRef := none
  raw : RawId := .none
  value : Val := .none
  label : Val := .none
  tooltip : Val := .none
  frozen : Bool := false
  params : Dict String Val := []
  style : Option SRef := none

/-- `class BasicGraph` / `GraphWithoutDisplay`: `_BasicGraph.py:25-31`, `_GraphWithoutDisplay.py:57-106`.
`overwrite` is `_style_overwrite_allowed`; it is `none` when the attribute does not exist, which is the
case for every graph made by `copy` (`__getstate__` keeps only four attributes, `_BasicGraph.py:34-44`). -/
structure GraphObj where
  nodes : Dict Key NRef := []
  strict : Bool := false
  ordering : Bool := true
  nodesHaveGraph : Bool := true
  counter : Nat := 0
  overwrite : Option Bool := some false

/-- The whole object store. `nStyle` counts style objects, `warns` the warnings issued so far.
The objects are those of `_BasicGraph.py:25-31`, `Node.py:13-42` and `Edge.py:28-36`. -/
structure Heap where
  graph : GRef → GraphObj
  node : NRef → NodeObj
  edge : ERef → EdgeObj
  nG : Nat
  nN : Nat
  nE : Nat
  nStyle : Nat
  warns : Nat

/-- Before the first call. No line of the library has run: it has no module-level state (`__init__.py:1-7`). -/
def Heap.init : Heap :=
  { graph := fun _ => {}, node := fun _ => {}, edge := fun _ => {}, nG := 0, nN := 0, nE := 0, nStyle := 0, warns := 0 }

/-- A mutating call: an exception does not undo the mutations made before it.
Python's semantics of calls and exceptions; every method, for example `_BasicGraph.py:263-321`. -/
def M (α : Type) := Heap → Except PyErr α × Heap

/-- A read-only call. Python's semantics of calls and exceptions; every method, for example `_BasicGraph.py:263-321`. -/
abbrev Q (α : Type) := Heap → Except PyErr α

namespace M

protected def pure {α : Type} (a : α) : M α := fun h => (.ok a, h)

protected def bind {α β : Type} (x : M α) (f : α → M β) : M β := fun h =>
  match x h with
  | (.ok a, h') => f a h'
  | (.error e, h') => (.error e, h')

/-- Statements one after the other; Python's semantics, for example `_BasicGraph.py:278-321`. -/
instance : Monad M := { pure := M.pure, bind := M.bind }

/-- `raise e`. For example `_BasicGraph.py:231`. -/
def raise {α : Type} (e : PyErr) : M α := fun h => (.error e, h)

/-- Run a read-only call. For example `_BasicGraph.py:330`. -/
def ask {α : Type} (q : Q α) : M α := fun h => (q h, h)

/-- Read something that cannot fail. For example `_BasicGraph.py:343`. -/
def look {α : Type} (f : Heap → α) : M α := fun h => (.ok (f h), h)

/-- `node._attribute = value`, for example `_BasicGraph.py:332`, `Node.py:134-143`. -/
def modNode (n : NRef) (f : NodeObj → NodeObj) : M Unit := fun h =>
  (.ok (), { h with node := upd h.node n (f (h.node n)) })

/-- `edge._attribute = value`, for example `Edge.py:192-198`. -/
def modEdge (e : ERef) (f : EdgeObj → EdgeObj) : M Unit := fun h =>
  (.ok (), { h with edge := upd h.edge e (f (h.edge e)) })

/-- `graph._attribute = value`, for example `_BasicGraph.py:25-31`, `330-333`. -/
def modGraph (g : GRef) (f : GraphObj → GraphObj) : M Unit := fun h =>
  (.ok (), { h with graph := upd h.graph g (f (h.graph g)) })

/-- The new object of `Node(...)`, `Node.py:13-42`. -/
def newNode (o : NodeObj) : M NRef := fun h =>
  (.ok h.nN, { h with node := upd h.node h.nN o, nN := h.nN + 1 })

/-- The new object of `Edge(...)`, `Edge.py:28-36`. -/
def newEdge (o : EdgeObj) : M ERef := fun h =>
  (.ok h.nE, { h with edge := upd h.edge h.nE o, nE := h.nE + 1 })

/-- The new object of `Graph(...)`, `_BasicGraph.py:25-31`. -/
def newGraph (o : GraphObj) : M GRef := fun h =>
  (.ok h.nG, { h with graph := upd h.graph h.nG o, nG := h.nG + 1 })

/-- The new object of `NodeStyle(...)` or `EdgeStyle(...)`, `Node.py:70-80`, `Edge.py:65-75`. -/
def newStyle : M SRef := fun h => (.ok h.nStyle, { h with nStyle := h.nStyle + 1 })

/-- `warnings.warn(...)`. Simplification: only counted; the default warning filter never raises. `_BasicGraph.py:283`, `697`. -/
def warn : M Unit := fun h => (.ok (), { h with warns := h.warns + 1 })

@[simp] theorem bind_apply {α β : Type} (x : M α) (f : α → M β) (h : Heap) :
    (x >>= f) h = match x h with
      | (.ok a, h') => f a h'
      | (.error e, h') => (.error e, h') := rfl

@[simp] theorem pure_apply {α : Type} (a : α) (h : Heap) : (Pure.pure a : M α) h = (.ok a, h) := rfl

@[simp] theorem raise_apply {α : Type} (e : PyErr) (h : Heap) : (raise e : M α) h = (.error e, h) := rfl

@[simp] theorem ask_apply {α : Type} (q : Q α) (h : Heap) : ask q h = (q h, h) := rfl

@[simp] theorem look_apply {α : Type} (f : Heap → α) (h : Heap) : look f h = (.ok (f h), h) := rfl

end M
end Verif
