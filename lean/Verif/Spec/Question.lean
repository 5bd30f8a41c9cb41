import Verif.Model.Half
import Verif.Model.Traverse
/-!
# The questions one can ask a graph about one of its nodes
-/
namespace Verif

/-- What a question is answered with. -/
inductive Reply where
  | nodes (l : List NRef)
  | edges (l : List ERef)
  | number (n : Nat)
  | yesNo (b : Bool)
  | byDistance (d : Dict Nat (List NRef))

/-- The methods of a graph that take one node; those that recurse with the number of stack frames there are. -/
inductive Question where
  | node | outwardEdges | inwardEdges | edges
  | parents | numParents | hasParents | children | numChildren | hasChildren
  | siblings | numSiblings | hasSiblings | spouses | numSpouses | hasSpouses
  | ancestors (lim : Nat) | ancestorsByDistance (lim : Nat) | descendants (lim : Nat) | descendantsByDistance (lim : Nat)
  | inLoop (lim : Nat)

/-- The stack frames a question has. -/
def Question.frames : Question → Option Nat
  | ancestors lim | ancestorsByDistance lim | descendants lim | descendantsByDistance lim | inLoop lim => some lim
  | _ => none

/-- Asking graph `g` about `a`. -/
def Question.ask (h : Heap) (g : GRef) (a : NodeArg) : Question → Except PyErr Reply
  | node => (getNode h g a).map fun n => .nodes [n]
  | outwardEdges => (getOutwardEdges h g a).map .edges
  | inwardEdges => (getInwardEdges h g a).map .edges
  | edges => (getEdges h g a).map .edges
  | parents => (getParents h g a).map .nodes
  | numParents => (Verif.numParents h g a).map .number
  | hasParents => (Verif.hasParents h g a).map .yesNo
  | children => (getChildren h g a).map .nodes
  | numChildren => (Verif.numChildren h g a).map .number
  | hasChildren => (Verif.hasChildren h g a).map .yesNo
  | siblings => (getSiblings h g a).map .nodes
  | numSiblings => (Verif.numSiblings h g a).map .number
  | hasSiblings => (Verif.hasSiblings h g a).map .yesNo
  | spouses => (getSpouses h g a).map .nodes
  | numSpouses => (Verif.numSpouses h g a).map .number
  | hasSpouses => (Verif.hasSpouses h g a).map .yesNo
  | ancestors lim => (getAncestors lim h g a).map .nodes
  | ancestorsByDistance lim => (getAncestorsDict lim h g a).map .byDistance
  | descendants lim => (getDescendants lim h g a).map .nodes
  | descendantsByDistance lim => (getDescendantsDict lim h g a).map .byDistance
  | inLoop lim => (isNodeInLoop lim h g a).map .yesNo

end Verif
