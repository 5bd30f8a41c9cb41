import Verif.Spec.Draft
import Verif.Model.Builders
/-!
# What a dictionary describes

Uses only the arguments of `append` (`GDict`, `NodesArg`, `EdgeItem`, `Appendable`) and drafts.
-/
namespace Verif

/-- The elements of a list in order of first appearance. -/
def firsts {α : Type} [DecidableEq α] : List α → List α
  | [] => []
  | x :: xs => x :: (firsts xs).filter (fun y => decide (y ≠ x))

/-- The nodes as a list of `add_node` arguments. -/
def NodesArg.toList : NodesArg → List (Key × NodeArgs × IfExists)
  | .dict l => l
  | .list l => l.map fun x => (x, {}, .warn)

/-- An edge as `connect` arguments. -/
def EdgeItem.args : EdgeItem → Option (Key × Key × EdgeArgs × IfExists)
  | .two s t => some (s, t, {}, .warn)
  | .three s t a p => some (s, t, a, p)
  | .few => none
  | .many => none

/-- The id of an edge that is described properly. -/
def EdgeItem.id (x : EdgeItem) : Option EdgeId := x.args.map fun q => (q.1, q.2.1, q.2.2.1.raw)

def Draft.addKey (d : Draft) (x : Key) (a : NodeArgs) : Draft :=
  match x with
  | .str s => d.addNode s a
  | .int _ => d

def Draft.addItem (d : Draft) (x : EdgeItem) : Draft :=
  match x.args with
  | some (s, t, a, _) => d.connect s t a
  | none => d

/-- The options are overwritten where given, then the nodes and then the edges are added one by one. -/
def Draft.appendDict (d : Draft) (D : GDict) : Draft :=
  ((D.edges.getD []).foldl Draft.addItem
    (((D.nodes.map NodesArg.toList).getD []).foldl (fun d q => d.addKey q.1 q.2.1)
      { d with strict := D.strict.getD d.strict, ordering := D.ordering.getD d.ordering }))

mutual
/-- The dictionaries in what is appended, in order; an object that has none gives its exception. -/
def Appendable.dicts : Appendable → List (Except PyErr GDict)
  | .items l => Appendable.dictsAll l
  | .dict d => [.ok d]
  | .object (.ok d) => [.ok d]
  | .object (.error .attributeError) => [.error .typeError]
  | .object (.error e) => [.error e]
def Appendable.dictsAll : List Appendable → List (Except PyErr GDict)
  | [] => []
  | x :: l => x.dicts ++ Appendable.dictsAll l
end

end Verif
