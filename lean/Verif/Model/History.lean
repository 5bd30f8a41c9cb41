import Verif.Model.Mutate
import Verif.Model.Copy
/-!
# Histories of API calls
-/
namespace Verif
open M

/-- One API call with its arguments.
The public methods of `_BasicGraph.py:56-740`, `Node.py:70-470` and `Edge.py:65-200`; the lines are at the definitions called
in `Op.step`. -/
inductive Op where
  | newGraph (strict ordering overwrite : Bool)
  | addNode (g : GRef) (name : Key) (a : NodeArgs) (p : IfExists)
  | addNodeObj (g : GRef) (n : NRef)
  | removeNode (g : GRef) (a : NodeArg)
  | connect (g : GRef) (s t : NodeArg) (a : EdgeArgs) (p : IfExists)
  | connectTo (n : NRef) (t : NodeArg) (a : EdgeArgs) (p : IfExists)
  | connectFrom (n : NRef) (s : NodeArg) (a : EdgeArgs) (p : IfExists)
  | disconnect (e : ERef)
  | removeSelf (e : ERef)
  | nodeValue (n : NRef) (v : Val)
  | nodeLabel (n : NRef) (v : Val)
  | nodeStyle (n : NRef) (s : StyleArg)
  | nodeFreeze (n : NRef) (b : Bool)
  | nodeParam (n : NRef) (k : String) (v : Val)
  | edgeValue (e : ERef) (v : Val)
  | edgeLabel (e : ERef) (v : Val)
  | edgeStyle (e : ERef) (s : StyleArg)
  | edgeFreeze (e : ERef) (b : Bool)
  | edgeParam (e : ERef) (k : String) (v : Val)
  | copy (g : GRef)
  /-- Not a call of its own: the part of `append` that is not a call listed here. -/
  | setOptions (g : GRef) (strict ordering : Option Bool)

/-- What a call returns. As in `_BasicGraph.py:56-740`, `Node.py:70-470` and `Edge.py:65-200`. -/
inductive Out where
  | none
  | node (n : NRef)
  | edge (e : ERef)
  | graph (g : GRef)
  /-- `copy` returns the new graph; `m` says which object became the copy of which. -/
  | copied (g : GRef) (m : Memo)
  deriving DecidableEq, Repr

/-- Run one call.
The public methods of `_BasicGraph.py:56-740`, `Node.py:70-470` and `Edge.py:65-200`; the lines are at the definitions called
in `Op.step`. -/
def Op.step : Op → M Out
  | .newGraph s o w => do return .graph (← graphInit s o w)
  | .addNode g x a p => do return .node (← Verif.addNode g x a p)
  | .addNodeObj g n => do
    match ← Verif.addNodeObj g n with
    | none => return .none
    | some m => return .node m
  | .removeNode g a => do Verif.removeNode g a; return .none
  | .connect g s t a p => do return .edge (← Verif.connect g s t a p)
  | .connectTo n t a p => do return .edge (← Verif.connectTo n t a p)
  | .connectFrom n s a p => do return .edge (← Verif.connectFrom n s a p)
  | .disconnect e => do Verif.disconnect e; return .none
  | .removeSelf e => do Verif.edgeRemoveSelf e; return .none
  | .nodeValue n v => do nodeSetValue n v; return .none
  | .nodeLabel n v => do nodeSetLabel n v; return .none
  | .nodeStyle n s => do nodeSetStyle n s; return .none
  | .nodeFreeze n b => do Verif.nodeFreeze n b; return .none
  | .nodeParam n k v => do nodeSetParam n k v; return .none
  | .edgeValue e v => do edgeSetValue e v; return .none
  | .edgeLabel e v => do edgeSetLabel e v; return .none
  | .edgeStyle e s => do edgeSetStyle e s; return .none
  | .edgeFreeze e b => do Verif.edgeFreeze e b; return .none
  | .edgeParam e k v => do edgeSetParam e k v; return .none
  | .copy g => do
    let r ← graphCopy g
    return .copied r.1 r.2
  | .setOptions g s o => do graphSetOptions g s o; return .none

/-- The objects a call mentions exist, and `add_node(Node)` is not used to register a node object whose `graph` is
`None` although it is registered in another graph (doing that is possible, and harmful: see `Props/Readd.lean`).
The case left out is `_BasicGraph.py:303-319` with such a node. -/
def Op.Ok (h : Heap) : Op → Prop
  | .addNode g _ _ _ => g < h.nG
  | .addNodeObj g n => g < h.nG ∧ n < h.nN ∧
      ((h.node n).graph = none → ∀ g' k, (k, n) ∈ (h.graph g').nodes → g' = g)
  | .connect g _ _ _ _ => g < h.nG
  | .removeNode g _ => g < h.nG
  | .copy g => g < h.nG
  | .setOptions g _ _ => g < h.nG
  | _ => True

/-- `h` is a heap the program can be in: some history of legal calls, failing ones included, leads to it.
A specification of programs that use the library, not code of it (no `.py:` lines). -/
inductive Reachable : Heap → Prop
  | init : Reachable Heap.init
  | step {h : Heap} (op : Op) : Reachable h → op.Ok h → Reachable (op.step h).2

/-- Run a list of calls one after the other, whatever they return.
A specification of programs that use the library, not code of it (no `.py:` lines). -/
def runOps : List Op → Heap → Heap
  | [], h => h
  | op :: ops, h => runOps ops (op.step h).2

/-- Every call of the list is legal when its turn comes.
A specification of programs that use the library, not code of it (no `.py:` lines). -/
def AllOk : List Op → Heap → Prop
  | [], _ => True
  | op :: ops, h => op.Ok h ∧ AllOk ops (op.step h).2

theorem Reachable.runOps {h : Heap} (r : Reachable h) (ops : List Op) (ok : AllOk ops h) :
    Reachable (Verif.runOps ops h) := by
  induction ops generalizing h with
  | nil => exact r
  | cons op ops ih => exact ih (.step op r ok.1) ok.2

end Verif
