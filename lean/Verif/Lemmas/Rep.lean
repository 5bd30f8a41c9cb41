import Verif.Model.Mutate
import Verif.Spec.MultiGraph
import Verif.Lemmas.Dict
/-!
# The representation relation between the heap and the abstract multigraph
-/
namespace Verif

theorem upd_upd {α : Type} (f : Nat → α) (n : Nat) (a b : α) : upd (upd f n a) n b = upd f n b := by
  funext x; by_cases hx : x = n
  · subst hx; simp
  · simp [upd_ne _ _ hx]

/-- Heap `h` represents the abstract state `A`. -/
structure Rep (h : Heap) (A : Spec) : Prop where
  name : ∀ n, A.name n = (h.node n).id
  home : ∀ n, A.home n = (h.node n).graph
  nodes : ∀ g, (h.graph g).nodes = (A.graph g).nodes
  keysNodup : ∀ g, ((A.graph g).nodes.map Prod.fst).Nodup
  nodeOk : ∀ g k n, (k, n) ∈ (A.graph g).nodes →
    n < h.nN ∧ (h.node n).id = k ∧ ((h.node n).graph = some g ∨ (h.node n).graph = none)
  nodeUniq : ∀ g g' k k' n, (k, n) ∈ (A.graph g).nodes → (k', n) ∈ (A.graph g').nodes → g = g'
  idsNodup : ∀ g, ((A.graph g).edges.map Prod.fst).Nodup
  edgeOk : ∀ g s t i e, ((s, t, i), e) ∈ (A.graph g).edges →
    e < h.nE ∧ i ≠ .cleared ∧ (h.edge e).graph = some g ∧ (h.edge e).raw = i ∧
    ∃ n m, (s, n) ∈ (A.graph g).nodes ∧ (t, m) ∈ (A.graph g).nodes ∧
      (h.edge e).start = some n ∧ (h.edge e).stop = some m
  outE : ∀ g k n, (k, n) ∈ (A.graph g).nodes → (h.node n).outE = (A.graph g).out k
  inE : ∀ g k n, (k, n) ∈ (A.graph g).nodes → (h.node n).inE = (A.graph g).inn k
  stale : ∀ n, (∀ g k, (k, n) ∉ (A.graph g).nodes) → (h.node n).outE = [] ∧ (h.node n).inE = []
  live : ∀ e n m, (h.edge e).start = some n → (h.edge e).stop = some m → (h.edge e).raw ≠ .cleared →
    ∃ g, (((h.node n).id, (h.node m).id, (h.edge e).raw), e) ∈ (A.graph g).edges
  graphs : ∀ g, h.nG ≤ g → (A.graph g).nodes = [] ∧ (A.graph g).edges = []

theorem Rep.init : Rep Heap.init Spec.init := by
  constructor <;> simp [Heap.init, Spec.init]

/-- `Rep` only reads part of the heap. -/
theorem Rep.congr {h h' : Heap} {A : Spec} (R : Rep h A)
    (hg : ∀ g, (h'.graph g).nodes = (h.graph g).nodes)
    (hid : ∀ n, (h'.node n).id = (h.node n).id)
    (hgr : ∀ n, (h'.node n).graph = (h.node n).graph)
    (ho : ∀ n, (h'.node n).outE = (h.node n).outE)
    (hi : ∀ n, (h'.node n).inE = (h.node n).inE)
    (he : ∀ e, (h'.edge e).graph = (h.edge e).graph ∧ (h'.edge e).raw = (h.edge e).raw ∧
      (h'.edge e).start = (h.edge e).start ∧ (h'.edge e).stop = (h.edge e).stop)
    (hN : h'.nN = h.nN) (hE : h'.nE = h.nE) (hG : h'.nG = h.nG) : Rep h' A where
  name n := by rw [hid]; exact R.name n
  home n := by rw [hgr]; exact R.home n
  nodes g := by rw [hg]; exact R.nodes g
  keysNodup := R.keysNodup
  nodeOk g k n hm := by rw [hN, hid, hgr]; exact R.nodeOk g k n hm
  nodeUniq := R.nodeUniq
  idsNodup := R.idsNodup
  edgeOk g s t i e hm := by
    obtain ⟨a, b, c, d⟩ := he e
    rw [hE, a, b, c, d]
    exact R.edgeOk g s t i e hm
  outE g k n hm := by rw [ho]; exact R.outE g k n hm
  inE g k n hm := by rw [hi]; exact R.inE g k n hm
  stale n hn := by rw [ho, hi]; exact R.stale n hn
  live e n m := by
    obtain ⟨a, b, c, d⟩ := he e
    rw [b, c, d, hid, hid]
    exact R.live e n m
  graphs g := by rw [hG]; exact R.graphs g

end Verif
