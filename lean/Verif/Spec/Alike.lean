import Verif.Spec.MultiGraph
/-!
# When two graphs are alike
-/
namespace Verif

/-- The same parameters. -/
def SameParams (a b : Dict String Val) : Prop := ∀ k, dget a k = dget b k

/-- Graphs `g` and `g'` have the same flags, the same node names and the same edge ids, and nodes of the same name and edges of
the same id have the same value, style and parameters. Order, labels, tooltips and indices do not matter. -/
structure Alike (h : Heap) (A : Spec) (g g' : GRef) : Prop where
  names : ∀ k, k ∈ (A.graph g).names ↔ k ∈ (A.graph g').names
  ids : ∀ i, i ∈ (A.graph g).ids ↔ i ∈ (A.graph g').ids
  nodes : ∀ k n n', (k, n) ∈ (A.graph g).nodes → (k, n') ∈ (A.graph g').nodes →
    (h.node n).value = (h.node n').value ∧ (h.node n).style = (h.node n').style ∧ SameParams (h.node n).params (h.node n').params
  edges : ∀ i e e', (i, e) ∈ (A.graph g).edges → (i, e') ∈ (A.graph g').edges →
    (h.edge e).value = (h.edge e').value ∧ (h.edge e).style = (h.edge e').style ∧ SameParams (h.edge e).params (h.edge e').params
  strict : (h.graph g).strict = (h.graph g').strict
  ordering : (h.graph g).ordering = (h.graph g').ordering

theorem Alike.symm {h : Heap} {A : Spec} {g g' : GRef} (a : Alike h A g g') : Alike h A g' g where
  names k := (a.names k).symm
  ids i := (a.ids i).symm
  nodes k n n' hn hn' := by
    obtain ⟨x, y, z⟩ := a.nodes k n' n hn' hn
    exact ⟨x.symm, y.symm, fun k => (z k).symm⟩
  edges i e e' he he' := by
    obtain ⟨x, y, z⟩ := a.edges i e' e he' he
    exact ⟨x.symm, y.symm, fun k => (z k).symm⟩
  strict := a.strict.symm
  ordering := a.ordering.symm

end Verif
