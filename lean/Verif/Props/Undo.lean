import Verif.Props.Evolve
import Verif.Props.AddNode
/-!
# C101: adding and removing again
-/
namespace Verif
open M

theorem ddel_append_new {K V : Type} [DecidableEq K] {d : Dict K V} {k : K} {v : V} (h : k ∉ d.map Prod.fst) : ddel (d ++ [(k, v)]) k = d := by
  have := ddel_of_not_mem h
  simp only [ddel, List.filter_append] at this ⊢
  rw [this]
  simp

/-- Cutting out an edge that was just put in. -/
theorem cut_new (h : Heap) (n m : NRef) (i : EdgeId) (o : EdgeObj) (k : Nat) (hn : i ∉ (h.node n).outE.map Prod.fst)
    (hm : i ∉ (h.node m).inE.map Prod.fst) : cutNodes (newEdgeHeap h n m i o k) n m i = h.node := by
  funext x
  unfold cutNodes newEdgeHeap
  simp only
  have h1 : (if x = n then ddel (if x = n then (h.node x).outE ++ [(i, h.nE)] else (h.node x).outE) i
      else (if x = n then (h.node x).outE ++ [(i, h.nE)] else (h.node x).outE)) = (h.node x).outE := by
    by_cases e : x = n
    · subst e; simp only [if_true]; exact ddel_append_new hn
    · simp only [e, if_false]
  have h2 : (if x = m then ddel (if x = m then (h.node x).inE ++ [(i, h.nE)] else (h.node x).inE) i
      else (if x = m then (h.node x).inE ++ [(i, h.nE)] else (h.node x).inE)) = (h.node x).inE := by
    by_cases e : x = m
    · subst e; simp only [if_true]; exact ddel_append_new hm
    · simp only [e, if_false]
  rw [h1, h2]

/-- **C101**: an edge that `connect` made, and `disconnect` (or `remove_self`) removed right away, leaves no trace: the nodes, the graphs
and all other edges are as they were before, and the edge is in no graph. -/
theorem C101_connect {h h1 : Heap} (r : Reachable h) {g : GRef} {s t : NodeArg} {n m : NRef} (hs : getNode h g s = .ok n)
    (ht : getNode h g t = .ok m) {a : EdgeArgs} {p : IfExists}
    (hnew : ∀ f, LiveEdge h g f → edgeId h f ≠ .ok ((h.node n).id, (h.node m).id, a.raw))
    {e : ERef} (hr : connect g s t a p h = (.ok e, h1)) :
    ∃ h2 h3, disconnect e h1 = (.ok (), h2) ∧ edgeRemoveSelf e h1 = (.ok (), h3) ∧
      ∀ h', h' = h2 ∨ h' = h3 → h'.warns = h.warns ∧ h'.graph = h.graph ∧ h'.node = h.node ∧ (∀ f, f ≠ e → h'.edge f = h.edge f) ∧
        ∀ g', ¬ LiveEdge h' g' e := by
  obtain ⟨A, H⟩ := r.hist
  have R := H.rep
  obtain ⟨ks, -, hn⟩ := R.getNode_ok.1 hs
  obtain ⟨kt, -, hm⟩ := R.getNode_ok.1 ht
  have hid : (ks, kt, a.raw) ∉ (A.graph g).ids := by
    intro hc
    obtain ⟨f, hf⟩ := Rep.mem_ids.1 hc
    refine hnew f ((liveEdge_iff R).2 ⟨_, hf⟩) ?_
    rw [R.edgeId_eq hf, (R.nodeOk g ks n hn).2.1, (R.nodeOk g kt m hm).2.1]
  have ho : (ks, kt, a.raw) ∉ (h.node n).outE.map Prod.fst := by
    rw [R.outE g ks n hn]
    intro hc
    obtain ⟨q, hq, e⟩ := List.mem_map.1 hc
    exact hid (List.mem_map.2 ⟨q, (List.mem_filter.1 hq).1, e⟩)
  have hi : (ks, kt, a.raw) ∉ (h.node m).inE.map Prod.fst := by
    rw [R.inE g kt m hm]
    intro hc
    obtain ⟨q, hq, e⟩ := List.mem_map.1 hc
    exact hid (List.mem_map.2 ⟨q, (List.mem_filter.1 hq).1, e⟩)
  have r1 := r.connected hs hr
  have := R.connect_new hs ht hn hm a p hid
  rw [hr] at this
  cases hsr : styleResult none h.nStyle a.style with
  | none => rw [hsr] at this; cases this
  | some sr =>
    rw [hsr] at this
    have he : e = h.nE := Except.ok.inj (congrArg Prod.fst this)
    have hh := congrArg Prod.snd this
    simp only at hh
    subst he
    have R1 : Rep h1 (A.on g fun G => G.addEdge (ks, kt, a.raw) h.nE) := by
      rw [hh]
      exact R.newEdge _ hn hm (Rep.raw_ne_cleared a) hid rfl rfl rfl rfl
    have hin : ((ks, kt, a.raw), h.nE) ∈ ((A.on g fun G => G.addEdge (ks, kt, a.raw) h.nE).graph g).edges := by
      simp [Spec.on, SGraph.addEdge, hid]
    obtain ⟨n', m', b1, b2, d1, D1⟩ := R1.disconnect_live hin
    obtain ⟨n'', m'', c1, c2, d2, D2⟩ := R1.removeSelf_live hin
    have f1 : (h1.edge h.nE).start = some n := by rw [hh]; simp [newEdgeHeap]
    have f2 : (h1.edge h.nE).stop = some m := by rw [hh]; simp [newEdgeHeap]
    obtain rfl := Option.some.inj (b1.symm.trans f1)
    obtain rfl := Option.some.inj (b2.symm.trans f2)
    obtain rfl := Option.some.inj (c1.symm.trans f1)
    obtain rfl := Option.some.inj (c2.symm.trans f2)
    have gone : ∀ {h'}, Rep h' ((A.on g fun G => G.addEdge (ks, kt, a.raw) h.nE).on g fun G => G.delEdge h.nE) →
        ∀ g', ¬ LiveEdge h' g' h.nE := by
      intro h' R' g' hl
      obtain ⟨i, hi⟩ := (liveEdge_iff R').1 hl
      by_cases e : g' = g
      · subst e
        simp [Spec.on, SGraph.delEdge] at hi
      · rw [Spec.on_ne _ _ e, Spec.on_ne _ _ e] at hi
        obtain ⟨x, y, z⟩ := i
        exact absurd (R.edgeOk g' x y z _ hi).1 (Nat.lt_irrefl _)
    refine ⟨_, _, d1, d2, ?_⟩
    rintro h' (rfl | rfl)
    · refine ⟨by rw [hh]; rfl, by rw [hh]; rfl, ?_, fun f hf => ?_, gone D1⟩
      · simp only [disconnectHeap, hh]; exact cut_new h _ _ _ _ _ ho hi
      · simp only [disconnectHeap, hh, newEdgeHeap]; rw [upd_ne _ _ hf, upd_ne _ _ hf]
    · refine ⟨by rw [hh]; rfl, by rw [hh]; rfl, ?_, fun f hf => ?_, gone D2⟩
      · simp only [removeSelfHeap, hh]; exact cut_new h _ _ _ _ _ ho hi
      · simp only [removeSelfHeap, hh, newEdgeHeap]; rw [upd_ne _ _ hf, upd_ne _ _ hf]

/-- **C101**: a node that `add_node` made, and `remove_node` removed right away, leaves no trace but the index it used up. -/
theorem C101_add_node {h : Heap} (r : Reachable h) {g : GRef} (hg : g < h.nG) {x : String}
    (hnew : Key.str x ∉ dkeys (h.graph g).nodes) (a : NodeArgs) (p : IfExists) (hst : a.style.Valid) :
    ∃ n h1 h2, addNode g (.str x) a p h = (.ok n, h1) ∧ removeNode g (.node n) h1 = (.ok (), h2) ∧
      (∀ g', g' ≠ g → h2.graph g' = h.graph g') ∧ h2.graph g = { h.graph g with counter := (h.graph g).counter + 1 } ∧
      (∀ m, m ≠ n → h2.node m = h.node m) ∧ (h2.node n).graph = none ∧ h2.edge = h.edge := by
  obtain ⟨A, H⟩ := r.hist
  have R := H.rep
  have hk : Key.str x ∉ (A.graph g).names := by rw [SGraph.names, ← R.nodes g]; exact hnew
  obtain ⟨h1, e1, rest⟩ := R.addNode_new hg hk a p
  obtain ⟨h1', s, e1', -⟩ := C08_new r hg hnew a p hst
  cases hsr : styleResult none h.nStyle a.style with
  | none => rw [hsr] at e1; rw [e1] at e1'; cases e1'
  | some sr =>
    rw [hsr] at e1 rest
    obtain ⟨R1, eN, eE, eG, -, -, -⟩ := rest
    have r1 := Reachable.step (.addNode g (.str x) a p) r hg
    simp only [Op.step, bind_apply, e1, pure_apply, Option.elim] at r1
    have hA : (A.register g (.str x) h.nN (some g)).graph g = (A.graph g).addNode (.str x) h.nN := by
      simp [Spec.register, hk]
    have hin : (Key.str x, h.nN) ∈ ((A.register g (.str x) h.nN (some g)).graph g).nodes := by
      rw [hA]; simp [SGraph.addNode, hk]
    have hnode : getNode h1 g (.node h.nN) = .ok h.nN := getNode_self r1 ((mem_graphNodes R1).2 ⟨_, hin⟩)
    obtain ⟨h1'', -, e2, R2⟩ := R1.removeNode_live hnode hin
    obtain ⟨h2, e3, -, k1, -, k2, k3, k4, k5, k6, k7⟩ := C06_remove_node r1 hnode
    have R2' : Rep h2 ((A.register g (.str x) h.nN (some g)).unregister g (.str x)) := by
      have hh : h2 = _ := (Prod.ext_iff.1 (e3.symm.trans e2)).2
      rw [hh]
      exact R2
    clear R2 e2
    have R2 := R2'
    have hsame : ∀ g', ((A.register g (.str x) h.nN (some g)).unregister g (.str x)).graph g' = A.graph g' := by
      intro g'
      by_cases e : g' = g
      · subst e
        simp only [Spec.unregister, upd_same, hA, SGraph.addNode, hk, if_false, SGraph.delNode]
        have q1 : ((A.graph g').nodes ++ [(Key.str x, h.nN)]).filter (fun p => decide (p.1 ≠ Key.str x)) = (A.graph g').nodes := by
          rw [List.filter_append, List.filter_eq_self.2]
          · simp
          · intro q hq; simp only [decide_eq_true_eq]; rintro e; exact hk (e ▸ List.mem_map.2 ⟨q, hq, rfl⟩)
        have q2 : (A.graph g').edges.filter (fun p => decide (p.1.1 ≠ Key.str x ∧ p.1.2.1 ≠ Key.str x)) = (A.graph g').edges := by
          rw [List.filter_eq_self]
          rintro ⟨⟨s, t, i⟩, e⟩ hq
          obtain ⟨-, -, -, -, n', m', z1, z2, -⟩ := R.edgeOk _ _ _ _ _ hq
          simp only [decide_eq_true_eq]
          exact ⟨fun e => hk (e ▸ List.mem_map.2 ⟨_, z1, rfl⟩), fun e => hk (e ▸ List.mem_map.2 ⟨_, z2, rfl⟩)⟩
        rw [q1, q2]
      · simp only [Spec.unregister, upd_ne _ _ e, Spec.register, hk, if_false]
    refine ⟨h.nN, h1, h2, by rw [e1]; rfl, e3, fun g' hg' => ?_, ?_, fun m hm => ?_, ?_, ?_⟩
    · rw [k6 g' hg', eG, upd_ne _ _ hg']
    · rw [k7, eG, upd_same, R2.nodes, hsame, ← R.nodes]
    · by_cases hreg : ∃ g' k, (k, m) ∈ (A.graph g').nodes
      · obtain ⟨g', k, hkm⟩ := hreg
        obtain ⟨o, i, q⟩ := k4 m hm
        have o1 := R2.outE g' k m (by rw [hsame]; exact hkm)
        have i1 := R2.inE g' k m (by rw [hsame]; exact hkm)
        rw [hsame] at o1 i1
        rw [← R.outE g' k m hkm] at o1
        rw [← R.inE g' k m hkm] at i1
        rw [q] at o1 i1 ⊢
        simp only at o1 i1
        rw [o1, i1, eN, upd_ne _ _ hm]
      · rw [k5 m, eN, upd_ne _ _ hm]
        intro hc
        obtain ⟨k, hk'⟩ := (mem_graphNodes R1).1 hc
        rw [hA] at hk'
        simp only [SGraph.addNode, hk, if_false, List.mem_append, List.mem_singleton, Prod.mk.injEq] at hk'
        rcases hk' with hk' | hk'
        · exact hreg ⟨_, _, hk'⟩
        · exact hm hk'.2
    · rw [k3]
    · obtain ⟨os, is, o1, i1, -, k2⟩ := k2
      funext f
      rw [← eE]
      have z1 := R1.outwardEdges hin
      have z2 := R1.inwardEdges hin
      have none : ∀ (q : EdgeId × ERef), q ∈ (A.graph g).edges → q.1.1 ≠ Key.str x ∧ q.1.2.1 ≠ Key.str x := by
        rintro ⟨⟨s, t, i⟩, e⟩ hq
        obtain ⟨-, -, -, -, n', m', z1, z2, -⟩ := R.edgeOk _ _ _ _ _ hq
        exact ⟨fun e => hk (e ▸ List.mem_map.2 ⟨_, z1, rfl⟩), fun e => hk (e ▸ List.mem_map.2 ⟨_, z2, rfl⟩)⟩
      have w1 : ((A.register g (.str x) h.nN (some g)).graph g).out (.str x) = [] := by
        rw [hA]; simp only [SGraph.out, SGraph.addNode, hk, if_false, List.filter_eq_nil_iff]
        intro q hq; simpa using (none q hq).1
      have w2 : ((A.register g (.str x) h.nN (some g)).graph g).inn (.str x) = [] := by
        rw [hA]; simp only [SGraph.inn, SGraph.addNode, hk, if_false, List.filter_eq_nil_iff]
        intro q hq; simpa using (none q hq).2
      rw [w1] at z1
      rw [w2] at z2
      rw [o1] at z1
      rw [i1] at z2
      cases z1
      cases z2
      exact k2 f (by simp) (by simp)

end Verif
