import Verif.Spec.Ledger
import Verif.Model.Traverse
/-!
# What is seen of an answer

A query returns objects. `nodeText` and `edgeEntry` say what can be read on an object; `readNodes`, `readEdges`, `readByDistance`, `readById` say
what can be read of an answer, in the order of the answer; an exception is seen as it is.
-/
namespace Verif

/-- What can be read on a node. -/
def nodeText (h : Heap) (n : NRef) : Key × Notes := ((h.node n).id, nodeNotes h n)

/-- What can be read of one node. -/
def readNode (h : Heap) (q : Except PyErr NRef) : Except PyErr (Key × Notes) := q.map (nodeText h)

/-- What can be read of a list of nodes. -/
def readNodes (h : Heap) (q : Except PyErr (List NRef)) : Except PyErr (List (Key × Notes)) := q.map (List.map (nodeText h))

/-- What can be read of a list of edges. -/
def readEdges (h : Heap) (q : Except PyErr (List ERef)) : Except PyErr (List (Except PyErr EdgeL)) := q.map (List.map (edgeEntry h))

/-- What can be read of a dictionary of lists of nodes by distance. -/
def readByDistance (h : Heap) (q : Except PyErr (Dict Nat (List NRef))) : Except PyErr (List (Nat × List (Key × Notes))) :=
  q.map (List.map fun p => (p.1, p.2.map (nodeText h)))

/-- What can be read of a dictionary of edges by id. -/
def readById (h : Heap) (q : Except PyErr (Dict EdgeId ERef)) : Except PyErr (List (EdgeId × Except PyErr EdgeL)) :=
  q.map (List.map fun p => (p.1, edgeEntry h p.2))

/-- The two ledgers say the same about nodes and edges; the options may differ, and whether nodes know their graph. -/
def Ledger.SameText (L L' : Ledger) : Prop :=
  L.nodes.map (fun v => (v.name, v.notes)) = L'.nodes.map (fun v => (v.name, v.notes)) ∧ L.edges = L'.edges

/-- Graph `g` on heap `h` and graph `g'` on heap `h'` give the same answers, in the same order; if the one raises, so does the other. -/
structure AnswersAlike (h : Heap) (g : GRef) (h' : Heap) (g' : GRef) : Prop where
  nodes : (graphNodes h g).map (nodeText h) = (graphNodes h' g').map (nodeText h')
  node : ∀ k, readNode h (getNode h g (.key k)) = readNode h' (getNode h' g' (.key k))
  contains : ∀ k, containsKey h g k = containsKey h' g' k
  edges : readEdges h (graphEdges h g) = readEdges h' (graphEdges h' g')
  edgesDict : readById h (edgesDict h g) = readById h' (edgesDict h' g')
  outward : ∀ k, readEdges h (getOutwardEdges h g (.key k)) = readEdges h' (getOutwardEdges h' g' (.key k))
  inward : ∀ k, readEdges h (getInwardEdges h g (.key k)) = readEdges h' (getInwardEdges h' g' (.key k))
  edgesOf : ∀ k, readEdges h (getEdges h g (.key k)) = readEdges h' (getEdges h' g' (.key k))
  children : ∀ k, readNodes h (getChildren h g (.key k)) = readNodes h' (getChildren h' g' (.key k))
  parents : ∀ k, readNodes h (getParents h g (.key k)) = readNodes h' (getParents h' g' (.key k))
  siblings : ∀ k, readNodes h (getSiblings h g (.key k)) = readNodes h' (getSiblings h' g' (.key k))
  spouses : ∀ k, readNodes h (getSpouses h g (.key k)) = readNodes h' (getSpouses h' g' (.key k))
  ancestors : ∀ lim k, readNodes h (getAncestors lim h g (.key k)) = readNodes h' (getAncestors lim h' g' (.key k))
  descendants : ∀ lim k, readNodes h (getDescendants lim h g (.key k)) = readNodes h' (getDescendants lim h' g' (.key k))
  ancestorsDict : ∀ lim k, readByDistance h (getAncestorsDict lim h g (.key k)) = readByDistance h' (getAncestorsDict lim h' g' (.key k))
  descendantsDict : ∀ lim k,
    readByDistance h (getDescendantsDict lim h g (.key k)) = readByDistance h' (getDescendantsDict lim h' g' (.key k))
  inLoop : ∀ lim k, isNodeInLoop lim h g (.key k) = isNodeInLoop lim h' g' (.key k)
  sameLoop : ∀ lim k j, areNodesInSameLoop lim h g (.key k) (.key j) = areNodesInSameLoop lim h' g' (.key k) (.key j)
  roots : ∀ lim, readNodes h (roots lim h g) = readNodes h' (roots lim h' g')

/-- The same for the answers that ask a node which graph it is in. -/
structure AnswersAlikeHome (h : Heap) (g : GRef) (h' : Heap) (g' : GRef) : Prop where
  absoluteRoots : readNodes h (absoluteRoots h g) = readNodes h' (absoluteRoots h' g')
  leaves : readNodes h (leaves h g) = readNodes h' (leaves h' g')
  loopNodes : ∀ lim, readNodes h (loopNodes lim h g) = readNodes h' (loopNodes lim h' g')
  tree : ∀ lim, getTreeStr lim h g = getTreeStr lim h' g'

end Verif
