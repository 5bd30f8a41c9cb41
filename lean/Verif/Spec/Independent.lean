import Verif.Spec.Ledger
/-!
# Calls that have nothing to do with each other

Which node and which edges a call is about, when two calls are independent, and programs made of the calls of two parties, in any
order. Calls and ledgers are those of `Spec/Ledger.lean`.
-/
namespace Verif

/-- The node that a call adds, removes or writes on. -/
def Deed.node? : Deed → Option Key
  | .addNode x _ _ => some x
  | .removeNode k => some k
  | .nodeValue k _ => some k
  | .nodeLabel k _ => some k
  | .nodeStyle k _ => some k
  | .nodeFreeze k _ => some k
  | .nodeParam k _ _ => some k
  | _ => none

/-- The call may add or remove node `k`. -/
def Deed.bears (k : Key) : Deed → Prop
  | .addNode x _ _ => x = k
  | .removeNode x => x = k
  | _ => False

/-- The call makes an edge that starts or ends at node `k`. -/
def Deed.ends (k : Key) : Deed → Prop
  | .connect s t _ _ => s = k ∨ t = k
  | _ => False

/-- The call may add, remove or write on edge `i`. -/
def Deed.edge (i : EdgeId) : Deed → Prop
  | .connect s t a _ => (s, t, a.raw) = i
  | .removeNode k => i.1 = k ∨ i.2.1 = k
  | .disconnect j => j = i
  | .removeSelf j => j = i
  | .edgeValue j _ => j = i
  | .edgeLabel j _ => j = i
  | .edgeStyle j _ => j = i
  | .edgeFreeze j _ => j = i
  | .edgeParam j _ _ => j = i
  | _ => False

/-- The calls are about different nodes and different edges, and neither adds or removes an end of an edge that the other makes. Two
nodes that are removed may have edges in common. -/
structure Deed.Independent (d e : Deed) : Prop where
  nodes : ∀ k, d.node? = some k → e.node? ≠ some k
  ends : ∀ k, d.bears k → ¬ e.ends k
  ends' : ∀ k, e.bears k → ¬ d.ends k
  edges : (∃ k l, d = .removeNode k ∧ e = .removeNode l) ∨ ∀ i, d.edge i → ¬ e.edge i

/-- The same nodes and the same edges, with the same things written on them, perhaps in another order. -/
structure Ledger.Same (L L' : Ledger) : Prop where
  strict : L.strict = L'.strict
  ordering : L.ordering = L'.ordering
  overwrite : L.overwrite = L'.overwrite
  nodes : L.nodes.Perm L'.nodes
  edges : L.edges.Perm L'.edges

/-- Of a list of things that belong to two parties, those of party `b`. -/
def partOf {α : Type} (b : Bool) (l : List (Bool × α)) : List α := (l.filter fun x => x.1 == b).map Prod.snd

/-- Run the calls of two parties on graph `g`; what they raise is noted with the party. -/
def runShared (g : GRef) : List (Bool × Deed) → Heap → List (Bool × Except PyErr Unit) × Heap
  | [], h => ([], h)
  | d :: ds, h => ((d.1, (d.2.run g h).1) :: (runShared g ds (d.2.run g h).2).1, (runShared g ds (d.2.run g h).2).2)

/-- Run calls on graph `g`. -/
def runDeeds (g : GRef) : List Deed → Heap → List (Except PyErr Unit) × Heap
  | [], h => ([], h)
  | d :: ds, h => ((d.run g h).1 :: (runDeeds g ds (d.run g h).2).1, (runDeeds g ds (d.run g h).2).2)

end Verif
