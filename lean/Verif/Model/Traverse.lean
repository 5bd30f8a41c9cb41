import Verif.Model.Query
import Verif.Model.ObjTraverse
/-!
# Recursive queries of `BasicGraph` and `Node`

The argument `lim` (or the first, decreasing argument) is the number of stack frames available; see `ObjTraverse.lean`.
-/
namespace Verif

/-- `BasicGraph._get_ancestors`, `_BasicGraph.py:508-529`. `trav` is the shared list `nodes_travelled`. -/
def ancestorsRec (h : Heap) (g : GRef) :
    Nat → NodeArg → List NRef → Except PyErr (List NRef × Dict Nat (List NRef) × List NRef)
  | 0, _, _ => .error .recursionError
  | fuel + 1, a, trav => do
    let node ← getNode h g a
    let parents ← getParents h g (.node node)
    if parents.length = 0 then .ok ([], [], trav ++ [node])
    else parents.foldlM (fun s parent =>
      let acc := addDirect (memNode h) parent (s.1, s.2.1)
      if memNode h parent s.2.2 then .ok (acc.1, acc.2, s.2.2)
      else do
        let sub ← ancestorsRec h g fuel (.node parent) s.2.2
        let acc := absorb (memNode h) sub.1 sub.2.1 acc
        .ok (acc.1, acc.2, sub.2.2)) ([], [(1, [])], trav ++ [node])

/-- `BasicGraph.get_ancestors(node, distance=False)`, `_BasicGraph.py:537-541`. -/
def getAncestors (lim : Nat) (h : Heap) (g : GRef) (a : NodeArg) : Except PyErr (List NRef) :=
  (ancestorsRec h g lim a []).map (·.1)

/-- `BasicGraph.get_ancestors(node, distance=True)`, `_BasicGraph.py:537-539`. -/
def getAncestorsDict (lim : Nat) (h : Heap) (g : GRef) (a : NodeArg) : Except PyErr (Dict Nat (List NRef)) :=
  (ancestorsRec h g lim a []).map (·.2.1)

/-- `BasicGraph.is_node_in_loop`, `_BasicGraph.py:544-545`. -/
def isNodeInLoop (lim : Nat) (h : Heap) (g : GRef) (a : NodeArg) : Except PyErr Bool := do
  let node ← getNode h g a
  let anc ← getAncestors lim h g (.node node)
  .ok (memNode h node anc)

/-- `BasicGraph.are_nodes_in_same_loop`, `_BasicGraph.py:548-552`. -/
def areNodesInSameLoop (lim : Nat) (h : Heap) (g : GRef) (a b : NodeArg) : Except PyErr Bool := do
  let node1 ← getNode h g a
  let node2 ← getNode h g b
  let anc2 ← getAncestors lim h g (.node node2)
  let anc1 ← getAncestors lim h g (.node node1)
  .ok (memNode h node1 anc2 && memNode h node2 anc1)

/-- `BasicGraph._get_descendants`, `_BasicGraph.py:567-587`. -/
def descendantsRec (h : Heap) (g : GRef) :
    Nat → NodeArg → List NRef → Except PyErr (List NRef × Dict Nat (List NRef) × List NRef)
  | 0, _, _ => .error .recursionError
  | fuel + 1, a, trav => do
    let node ← getNode h g a
    let children ← getChildren h g (.node node)
    if children.length = 0 then .ok ([], [], trav ++ [node])
    else children.foldlM (fun s child =>
      if memNode h child s.2.2 then .ok s
      else do
        let acc := addDirect (memNode h) child (s.1, s.2.1)
        let sub ← descendantsRec h g fuel (.node child) s.2.2
        let acc := absorb (memNode h) sub.1 sub.2.1 acc
        .ok (acc.1, acc.2, sub.2.2)) ([], [(1, [])], trav ++ [node])

/-- `BasicGraph.get_descendants(node, distance=False)`, `_BasicGraph.py:595-599`. -/
def getDescendants (lim : Nat) (h : Heap) (g : GRef) (a : NodeArg) : Except PyErr (List NRef) :=
  (descendantsRec h g lim a []).map (·.1)

/-- `BasicGraph.get_descendants(node, distance=True)`, `_BasicGraph.py:595-597`. -/
def getDescendantsDict (lim : Nat) (h : Heap) (g : GRef) (a : NodeArg) : Except PyErr (Dict Nat (List NRef)) :=
  (descendantsRec h g lim a []).map (·.2.1)

/-- `Node.ancestors`, `Node.py:417`. -/
def nodeAncestors (lim : Nat) (h : Heap) (n : NRef) : Except PyErr (List NRef) := do
  let g ← nodeGraph h n
  getAncestors lim h g (.node n)

/-- `Node.descendants`, `Node.py:422`. -/
def nodeDescendants (lim : Nat) (h : Heap) (n : NRef) : Except PyErr (List NRef) := do
  let g ← nodeGraph h n
  getDescendants lim h g (.node n)

/-- `Node.num_descendants`, `Node.py:427`. -/
def nodeNumDescendants (lim : Nat) (h : Heap) (n : NRef) : Except PyErr Nat := do
  let ds ← nodeDescendants lim h n
  .ok ds.length

/-- `Node.is_in_loop`, `Node.py:471`. -/
def nodeIsInLoop (lim : Nat) (h : Heap) (n : NRef) : Except PyErr Bool := do
  let g ← nodeGraph h n
  isNodeInLoop lim h g (.node n)

/-- `Node.is_in_loop_with`, `Node.py:475`. -/
def nodeIsInLoopWith (lim : Nat) (h : Heap) (n m : NRef) : Except PyErr Bool := do
  let g ← nodeGraph h n
  areNodesInSameLoop lim h g (.node n) (.node m)

/-- `Edge.is_in_loop`, `Edge.py:202`. -/
def edgeIsInLoop (lim : Nat) (h : Heap) (e : ERef) : Except PyErr Bool := do
  let s ← edgeStart h e
  let t ← edgeEnd h e
  nodeIsInLoopWith lim h s t

/-- `BasicGraph.loop_nodes`, `_BasicGraph.py:559`. -/
def loopNodes (lim : Nat) (h : Heap) (g : GRef) : Except PyErr (List NRef) :=
  filterE (nodeIsInLoop lim h) (graphNodes h g)

/-- `l.remove(x)` on a list of nodes: deletes the first element that is `x` or `==` to it. `_BasicGraph.py:454`. -/
def removeFirst (h : Heap) (x : NRef) (l : List NRef) : List NRef :=
  l.eraseP (fun y => decide (y = x) || nodeEq h y x)

/-- The loop of `BasicGraph.roots`, `_BasicGraph.py:450-454`. -/
def rootsLoop (lim : Nat) (h : Heap) (g : GRef) : List NRef → List NRef → Except PyErr (List NRef)
  | [], possible => .ok possible
  | node :: nodes, possible =>
    if memNode h node possible then do
      let ds ← getDescendants lim h g (.node node)
      rootsLoop lim h g nodes (ds.foldl (fun p d => if memNode h d p then removeFirst h d p else p) possible)
    else rootsLoop lim h g nodes possible

/-- `BasicGraph.roots`, `_BasicGraph.py:449-455`. -/
def roots (lim : Nat) (h : Heap) (g : GRef) : Except PyErr (List NRef) :=
  rootsLoop lim h g (graphNodes h g) (graphNodes h g)

/-- `s.replace('"', '\\"')`, `Node.py:227`. -/
def escapeQuotes (s : String) : String := String.ofList (s.toList.flatMap (fun c => if c = '"' then ['\\', '"'] else [c]))

/-- `Node.label`, `Node.py:223-227`. -/
def nodeLabel (h : Heap) (n : NRef) : String :=
  escapeQuotes (if (h.node n).label.truthy then (h.node n).label.toStr else (h.node n).id.toStr)

/-- `Node.get_tree_str`, `Node.py:289-311`. `added` is the shared list `already_added`; the result is the string and that
list as it is left behind. `rest` in the loop is the number of children still to come. -/
def treeStrRec (h : Heap) : Nat → NRef → String → List NRef → Except PyErr (String × List NRef)
  | 0, _, _, _ => .error .recursionError
  | fuel + 1, n, indentation, added =>
    if memNode h n added then .ok (nodeLabel h n ++ "*\n", added)
    else do
      let children ← nodeChildren h n
      let r ← children.foldlM (fun (s : String × List NRef × Nat) child => do
        let last := s.2.2 + 1 = children.length
        let sub ← treeStrRec h fuel child (indentation ++ if last then "  " else "│ ") (s.2.1 ++ [n])
        .ok (s.1 ++ indentation ++ (if last then "└" else "├") ++ " " ++ sub.1, sub.2, s.2.2 + 1))
        (nodeLabel h n ++ "\n", added, 0)
      .ok (r.1, r.2.1)

/-- The loop of `BasicGraph.get_tree_str`, `_BasicGraph.py:664-666`. -/
def treeStrings (lim : Nat) (h : Heap) : List NRef → List NRef → Except PyErr (List String)
  | [], _ => .ok []
  | root :: rs, added => do
    let t ← treeStrRec h lim root "" added
    let ts ← treeStrings lim h rs t.2
    .ok (t.1 :: ts)

/-- `BasicGraph.get_tree_str`, `_BasicGraph.py:662-667`. -/
def getTreeStr (lim : Nat) (h : Heap) (g : GRef) : Except PyErr String := do
  let rs ← roots lim h g
  let ts ← treeStrings lim h rs []
  .ok (String.intercalate "\n" ts)

/-- Insert into a sorted list, after everything that is not larger (`sorted` is stable).
A step of Python's `sorted`, used at `Node.py:403`. -/
def insertNode (h : Heap) (x : NRef) : List NRef → Except PyErr (List NRef)
  | [] => .ok [x]
  | y :: ys => do
    let b ← nodeLt h x y
    if b then .ok (x :: y :: ys)
    else do
      let r ← insertNode h x ys
      .ok (y :: r)

/-- `sorted(l)` on nodes. Simplification: insertion sort, the result of any stable sort with a total order.
Used at `Node.py:403`. -/
def sortNodes (h : Heap) (l : List NRef) : Except PyErr (List NRef) :=
  l.foldlM (fun acc x => insertNode h x acc) []

/-- `Node.get_child_rank`, `Node.py:400-403`. -/
def getChildRank (h : Heap) (n parent : NRef) : Except PyErr Nat := do
  let siblings ← nodeChildren h parent
  if memNode h n siblings then do
    let sorted ← sortNodes h siblings
    .ok (sorted.findIdx (fun y => decide (y = n) || nodeEq h y n))
  else .error (.valueError "is not a child of")

end Verif
