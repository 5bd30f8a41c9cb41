import Verif.Lemmas.Copy
import Verif.Spec.SpecHistory
/-!
# The copy of a graph represents the copied multigraph
-/
namespace Verif
open M

namespace CopyPost
variable {h h' : Heap} {A : Spec} {g : GRef} {m : Memo}

/-- Every object is an old one, a copy, or was not there before. -/
theorem node_cases (P : CopyPost h h' A g m) (x : NRef) :
    (∃ k n, (k, n) ∈ (A.graph g).nodes ∧ m.node n = x) ∨ h'.node x = h.node x := by
  rcases Nat.lt_or_ge x h.nN with h1 | h1
  · exact .inr (P.nodeOld x h1)
  · rcases Nat.lt_or_ge x h'.nN with h2 | h2
    · obtain ⟨n, hn, e⟩ := P.nodeAll x h1 h2
      obtain ⟨k, hk⟩ := (P.nodeKeys n).1 hn
      exact .inl ⟨k, n, hk, e⟩
    · exact .inr (P.nodeFar x h2)

theorem edge_cases (P : CopyPost h h' A g m) (x : ERef) :
    (∃ i e, (i, e) ∈ (A.graph g).edges ∧ m.edge e = x) ∨ h'.edge x = h.edge x := by
  rcases Nat.lt_or_ge x h.nE with h1 | h1
  · exact .inr (P.edgeOld x h1)
  · rcases Nat.lt_or_ge x h'.nE with h2 | h2
    · obtain ⟨n, hn, e⟩ := P.edgeAll x h1 h2
      obtain ⟨k, hk⟩ := (P.edgeKeys n).1 hn
      exact .inl ⟨k, n, hk, e⟩
    · exact .inr (P.edgeFar x h2)

theorem node_of (P : CopyPost h h' A g m) {k : Key} {n : NRef} (hn : (k, n) ∈ (A.graph g).nodes) :
    h.nN ≤ m.node n ∧ m.node n < h'.nN ∧
    h'.node (m.node n) = { h.node n with graph := some h.nG, outE := m.dict (h.node n).outE, inE := m.dict (h.node n).inE,
                                         outHaveStart := true, inHaveEnd := true } :=
  P.nodeNew n ((P.nodeKeys n).2 ⟨k, hn⟩)

theorem edge_of (P : CopyPost h h' A g m) {i : EdgeId} {e : ERef} (he : (i, e) ∈ (A.graph g).edges) :
    h.nE ≤ m.edge e ∧ m.edge e < h'.nE ∧
    ∃ st, h'.edge (m.edge e) = { h.edge e with graph := some h.nG, start := (h.edge e).start.map m.node,
                                               stop := (h.edge e).stop.map m.node, style := st } ∧
      (st = none ↔ (h.edge e).style = none) :=
  P.edgeNew e ((P.edgeKeys e).2 ⟨i, he⟩)

theorem node_inj (P : CopyPost h h' A g m) {k k' : Key} {n n' : NRef} (hn : (k, n) ∈ (A.graph g).nodes)
    (hn' : (k', n') ∈ (A.graph g).nodes) (e : m.node n = m.node n') : n = n' :=
  P.nodeInj n n' ((P.nodeKeys n).2 ⟨k, hn⟩) ((P.nodeKeys n').2 ⟨k', hn'⟩) e

end CopyPost

theorem Spec.copy_graph_same (A : Spec) (g g' : GRef) (m : Memo) : (A.copy g g' m).graph g' =
    { nodes := (A.graph g).nodes.map (fun p => (p.1, m.node p.2)),
      edges := (A.graph g).edges.map (fun p => (p.1, m.edge p.2)) } := upd_same _ _ _

theorem Spec.copy_graph_ne (A : Spec) (g : GRef) {g' x : GRef} (m : Memo) (hx : x ≠ g') :
    (A.copy g g' m).graph x = A.graph x := upd_ne _ _ hx

theorem Rep.copy {h h' : Heap} {A : Spec} {g : GRef} {m : Memo} (R : Rep h A) (P : CopyPost h h' A g m) :
    Rep h' (A.copy g h.nG m) := by
  -- members of the new graph
  have hnodes : ∀ k x, (k, x) ∈ ((A.copy g h.nG m).graph h.nG).nodes ↔ ∃ n, (k, n) ∈ (A.graph g).nodes ∧ m.node n = x := by
    intro k x
    rw [Spec.copy_graph_same]
    simp only [List.mem_map, Prod.mk.injEq]
    constructor
    · rintro ⟨⟨k', n⟩, hm, rfl, e⟩; exact ⟨n, hm, e⟩
    · rintro ⟨n, hm, e⟩; exact ⟨(k, n), hm, rfl, e⟩
  have hedges : ∀ i x, (i, x) ∈ ((A.copy g h.nG m).graph h.nG).edges ↔ ∃ e, (i, e) ∈ (A.graph g).edges ∧ m.edge e = x := by
    intro k x
    rw [Spec.copy_graph_same]
    simp only [List.mem_map, Prod.mk.injEq]
    constructor
    · rintro ⟨⟨k', n⟩, hm, rfl, e⟩; exact ⟨n, hm, e⟩
    · rintro ⟨n, hm, e⟩; exact ⟨(k, n), hm, rfl, e⟩
  have hold : ∀ g' k n, (k, n) ∈ (A.graph g').nodes → h'.node n = h.node n :=
    fun g' k n hn => P.nodeOld n (R.nodeOk g' k n hn).1
  have holdE : ∀ g' i e, (i, e) ∈ (A.graph g').edges → h'.edge e = h.edge e :=
    fun g' i e he => P.edgeOld e (R.edgeOk g' _ _ _ e he).1
  constructor
  · intro x
    show (match (A.graph g).nodes.find? (fun p => decide (m.node p.2 = x)) with | some p => p.1 | none => A.name x) = _
    cases hf : (A.graph g).nodes.find? (fun p => decide (m.node p.2 = x)) with
    | some p =>
      have hp := List.mem_of_find?_eq_some hf
      have he : m.node p.2 = x := by simpa using List.find?_some hf
      rw [← he, (P.node_of (k := p.1) hp).2.2]
      exact (R.nodeOk g p.1 p.2 hp).2.1.symm
    | none =>
      rcases P.node_cases x with ⟨k, n, hn, e⟩ | e
      · have := List.find?_eq_none.1 hf (k, n) hn
        exact absurd e (by simpa using this)
      · rw [e]; exact R.name x
  · intro x
    show (if x ∈ (A.graph g).nodes.map (fun p => m.node p.2) then some h.nG else A.home x) = _
    split
    · next hx =>
      obtain ⟨p, hp, rfl⟩ := List.mem_map.1 hx
      rw [(P.node_of (k := p.1) hp).2.2]
    · next hx =>
      rcases P.node_cases x with ⟨k, n, hn, e⟩ | e
      · exact absurd (List.mem_map.2 ⟨(k, n), hn, e⟩) hx
      · rw [e]; exact R.home x
  · intro x
    by_cases hx : x = h.nG
    · subst hx
      rw [P.graphNew, Spec.copy_graph_same, R.nodes]
    · rw [P.graphOld x hx, Spec.copy_graph_ne _ _ _ hx]; exact R.nodes x
  · intro x
    by_cases hx : x = h.nG
    · subst hx
      rw [Spec.copy_graph_same]
      simp only [List.map_map]
      exact R.keysNodup g
    · rw [Spec.copy_graph_ne _ _ _ hx]; exact R.keysNodup x
  · intro x k n hm
    by_cases hx : x = h.nG
    · subst hx
      obtain ⟨n', hn', rfl⟩ := (hnodes k n).1 hm
      obtain ⟨_, h2, h3⟩ := P.node_of hn'
      refine ⟨h2, ?_, .inl ?_⟩
      · rw [h3]; exact (R.nodeOk g k n' hn').2.1
      · rw [h3]
    · rw [Spec.copy_graph_ne _ _ _ hx] at hm
      obtain ⟨h1, h2, h3⟩ := R.nodeOk x k n hm
      rw [hold x k n hm]
      exact ⟨Nat.lt_of_lt_of_le h1 P.nN, h2, h3⟩
  · intro x y k k' n hx hy
    by_cases ex : x = h.nG <;> by_cases ey : y = h.nG
    · rw [ex, ey]
    · subst ex
      rw [Spec.copy_graph_ne _ _ _ ey] at hy
      obtain ⟨n', hn', rfl⟩ := (hnodes k n).1 hx
      exact absurd (R.nodeOk y k' _ hy).1 (Nat.not_lt.2 (P.node_of hn').1)
    · subst ey
      rw [Spec.copy_graph_ne _ _ _ ex] at hx
      obtain ⟨n', hn', rfl⟩ := (hnodes k' n).1 hy
      exact absurd (R.nodeOk x k _ hx).1 (Nat.not_lt.2 (P.node_of hn').1)
    · rw [Spec.copy_graph_ne _ _ _ ex] at hx
      rw [Spec.copy_graph_ne _ _ _ ey] at hy
      exact R.nodeUniq x y k k' n hx hy
  · intro x
    by_cases hx : x = h.nG
    · subst hx
      rw [Spec.copy_graph_same]
      simp only [List.map_map]
      exact R.idsNodup g
    · rw [Spec.copy_graph_ne _ _ _ hx]; exact R.idsNodup x
  · intro x s t i e hm
    by_cases hx : x = h.nG
    · subst hx
      obtain ⟨f, hf, rfl⟩ := (hedges _ e).1 hm
      obtain ⟨_, h2, st, h3, _⟩ := P.edge_of hf
      obtain ⟨_, q2, _, q4, n, n', q5, q6, q7, q8⟩ := R.edgeOk g s t i f hf
      refine ⟨h2, q2, ?_, ?_, m.node n, m.node n', (hnodes s _).2 ⟨n, q5, rfl⟩, (hnodes t _).2 ⟨n', q6, rfl⟩, ?_, ?_⟩
      · rw [h3]
      · rw [h3]; exact q4
      · rw [h3]; simp only [q7, Option.map_some]
      · rw [h3]; simp only [q8, Option.map_some]
    · rw [Spec.copy_graph_ne _ _ _ hx] at hm ⊢
      obtain ⟨h1, h2⟩ := R.edgeOk x s t i e hm
      rw [holdE x _ e hm]
      exact ⟨Nat.lt_of_lt_of_le h1 P.nE, h2⟩
  · intro x k n hm
    by_cases hx : x = h.nG
    · subst hx
      obtain ⟨n', hn', rfl⟩ := (hnodes k n).1 hm
      rw [(P.node_of hn').2.2, Spec.copy_graph_same]
      show m.dict (h.node n').outE = _
      rw [R.outE g k n' hn']
      simp only [Memo.dict, SGraph.out, List.filter_map]
      rfl
    · rw [hold x k n (by rw [Spec.copy_graph_ne _ _ _ hx] at hm; exact hm)]
      rw [Spec.copy_graph_ne _ _ _ hx] at hm ⊢
      exact R.outE x k n hm
  · intro x k n hm
    by_cases hx : x = h.nG
    · subst hx
      obtain ⟨n', hn', rfl⟩ := (hnodes k n).1 hm
      rw [(P.node_of hn').2.2, Spec.copy_graph_same]
      show m.dict (h.node n').inE = _
      rw [R.inE g k n' hn']
      simp only [Memo.dict, SGraph.inn, List.filter_map]
      rfl
    · rw [hold x k n (by rw [Spec.copy_graph_ne _ _ _ hx] at hm; exact hm)]
      rw [Spec.copy_graph_ne _ _ _ hx] at hm ⊢
      exact R.inE x k n hm
  · intro x hx
    rcases P.node_cases x with ⟨k, n, hn, e⟩ | e
    · exact absurd ((hnodes k x).2 ⟨n, hn, e⟩) (hx h.nG k)
    · rw [e]
      refine R.stale x fun y k hk => ?_
      by_cases ey : y = h.nG
      · subst ey; rw [(R.graphs _ (Nat.le_refl _)).1] at hk; simp at hk
      · exact hx y k (by rw [Spec.copy_graph_ne _ _ _ ey]; exact hk)
  · intro e n n' hs ht hr
    rcases P.edge_cases e with ⟨i, f, hf, rfl⟩ | e'
    · obtain ⟨_, _, st, h3, _⟩ := P.edge_of hf
      obtain ⟨s, t, r⟩ := i
      obtain ⟨_, q2, _, q4, a, b, q5, q6, q7, q8⟩ := R.edgeOk g s t r f hf
      rw [h3] at hs ht hr ⊢
      simp only [q7, q8, Option.map_some, Option.some.injEq] at hs ht
      refine ⟨h.nG, (hedges _ _).2 ⟨f, ?_, rfl⟩⟩
      rw [← hs, ← ht, (P.node_of q5).2.2, (P.node_of q6).2.2]
      simp only [(R.nodeOk g _ _ q5).2.1, (R.nodeOk g _ _ q6).2.1, q4]
      exact hf
    · rw [e'] at hs ht hr ⊢
      obtain ⟨x, hx⟩ := R.live e n n' hs ht hr
      have hne : x ≠ h.nG := by
        rintro rfl
        rw [(R.graphs _ (Nat.le_refl _)).2] at hx
        simp at hx
      obtain ⟨_, _, _, _, a, b, q5, q6, q7, q8⟩ := R.edgeOk x _ _ _ e hx
      rw [hs] at q7; rw [ht] at q8
      rw [← Option.some.inj q7] at q5
      rw [← Option.some.inj q8] at q6
      refine ⟨x, ?_⟩
      rw [Spec.copy_graph_ne _ _ _ hne, hold x _ n q5, hold x _ n' q6]
      exact hx
  · intro x hx
    have hx : h.nG + 1 ≤ x := by rw [← P.nG]; exact hx
    rw [Spec.copy_graph_ne _ _ _ (Nat.ne_of_gt hx)]
    exact R.graphs x (Nat.le_of_succ_le hx)

theorem Rep.copy_step {h : Heap} {A : Spec} (R : Rep h A) (g : GRef) (hg : g < h.nG) :
    Rep (graphCopy g h).2 (match (graphCopy g h).1 with | .error _ => A | .ok r => A.copy g r.1 r.2) := by
  by_cases hst : ∀ n ∈ graphNodes h g, (h.node n).style = none
  · obtain ⟨m, h', hr, P⟩ := run_graphCopy R hg hst
    rw [hr]
    exact R.copy P
  · have : ((dvals (h.graph g).nodes).any fun n => (h.node n).style.isSome) = true := by
      rw [List.any_eq_true]
      refine Classical.byContradiction fun hc => hst fun n hn => ?_
      cases hs : (h.node n).style with
      | none => rfl
      | some s => exact absurd ⟨n, hn, by rw [hs]; rfl⟩ hc
    have hr : graphCopy g h = (.error .keyError, h) := by
      simp only [graphCopy, bind_apply, look_apply, this, if_true, raise]
    rw [hr]
    exact R

end Verif
