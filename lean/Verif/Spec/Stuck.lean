import Verif.Spec.Alike
/-!
# When comparing two graphs goes wrong

Read with `Alike`: the nodes of one graph are gone through in the order in which they were added, and for each the edges that leave it
and then the edges that enter it, and the first thing that has no counterpart decides.
-/
namespace Verif

/-- Going through `l`, everything before some entry `Fits` and that entry is `Missing`. -/
def FirstMissing {α : Type} (Fits Missing : α → Prop) (l : List α) : Prop :=
  ∃ l1 x l2, l = l1 ++ x :: l2 ∧ (∀ y ∈ l1, Fits y) ∧ Missing x

/-- The other graph has an edge of the same id with the same value, style and parameters. -/
def EdgeFits (h : Heap) (A : Spec) (g' : GRef) (p : EdgeId × ERef) : Prop :=
  ∃ f, (p.1, f) ∈ (A.graph g').edges ∧ (h.edge p.2).value = (h.edge f).value ∧ (h.edge p.2).style = (h.edge f).style ∧
    SameParams (h.edge p.2).params (h.edge f).params

/-- The node named `k` and its namesake `m` in the other graph have the same value, style, parameters and numbers of edges. -/
def Comparable (h : Heap) (A : Spec) (g g' : GRef) (k : Key) (n m : NRef) : Prop :=
  (h.node n).value = (h.node m).value ∧ (h.node n).style = (h.node m).style ∧ SameParams (h.node n).params (h.node m).params ∧
  ((A.graph g).out k).length = ((A.graph g').out k).length ∧ ((A.graph g).inn k).length = ((A.graph g').inn k).length

/-- The other graph has a node of the same name with the same data, and edges of the same ids with the same data. -/
def NodeFits (h : Heap) (A : Spec) (g g' : GRef) (p : Key × NRef) : Prop :=
  ∃ m, (p.1, m) ∈ (A.graph g').nodes ∧ Comparable h A g g' p.1 p.2 m ∧
    (∀ q ∈ (A.graph g).out p.1, EdgeFits h A g' q) ∧ ∀ q ∈ (A.graph g).inn p.1, EdgeFits h A g' q

/-- The other graph has no node of that name; or it has one, with the same data and as many edges in each direction, and the first
edge that does not fit is one whose id the other graph does not have. -/
def NodeMissing (h : Heap) (A : Spec) (g g' : GRef) (p : Key × NRef) : Prop :=
  p.1 ∉ (A.graph g').names ∨ ∃ m, (p.1, m) ∈ (A.graph g').nodes ∧ Comparable h A g g' p.1 p.2 m ∧
    FirstMissing (EdgeFits h A g') (fun q => q.1 ∉ (A.graph g').ids) ((A.graph g).out p.1 ++ (A.graph g).inn p.1)

end Verif
