import Verif.Lemmas.Neighbours
/-!
# C11: the list of all edges
-/
namespace Verif
open M

theorem sum_map_add' {α : Type} (l : List α) (f f' : α → Nat) :
    (l.map (fun a => f a + f' a)).sum = (l.map f).sum + (l.map f').sum := by
  induction l with
  | nil => rfl
  | cons a l ih => simp only [List.map_cons, List.sum_cons, ih]; omega

theorem sum_zero {α : Type} (l : List α) (f : α → Nat) (hf : ∀ a ∈ l, f a = 0) : (l.map f).sum = 0 := by
  induction l with
  | nil => rfl
  | cons a l ih => simp [hf a (by simp), ih (fun x hx => hf x (by simp [hx]))]

theorem sum_indicator {α : Type} [DecidableEq α] {l : List α} (hl : l.Nodup) {a : α} (ha : a ∈ l) :
    (l.map (fun k => if a = k then 1 else 0)).sum = 1 := by
  induction l with
  | nil => simp at ha
  | cons b l ih =>
    rw [List.nodup_cons] at hl
    simp only [List.map_cons, List.sum_cons]
    by_cases hab : a = b
    · subst hab
      rw [sum_zero]
      · simp
      · intro x hx
        have : a ≠ x := by rintro rfl; exact hl.1 hx
        simp [this]
    · have := ih hl.2 (by simpa [hab] using ha)
      rw [this]; simp [hab]

/-- Counting by classes counts everything once. -/
theorem sum_classes {α β : Type} [DecidableEq β] (f : α → β) {l : List β} (hl : l.Nodup) (xs : List α)
    (hx : ∀ x ∈ xs, f x ∈ l) : (l.map (fun k => (xs.filter (fun x => decide (f x = k))).length)).sum = xs.length := by
  induction xs with
  | nil => exact sum_zero _ _ (by simp)
  | cons x xs ih =>
    have : (fun k => ((x :: xs).filter (fun x => decide (f x = k))).length) =
        fun k => (if f x = k then 1 else 0) + (xs.filter (fun x => decide (f x = k))).length := by
      funext k
      by_cases hk : f x = k
      · simp only [List.filter_cons, hk, decide_true, ↓reduceIte, List.length_cons]; omega
      · simp [hk]
    rw [this, sum_map_add', sum_indicator hl (hx x (by simp)), ih (fun y hy => hx y (by simp [hy]))]
    simp only [List.length_cons]; omega

namespace Rep
variable {h : Heap} {A : Spec}

/-- The loop of `edges`. -/
theorem graphEdges_fold (R : Rep h A) {g : GRef} (ns : List NRef) (hns : ∀ n ∈ ns, ∃ k, (k, n) ∈ (A.graph g).nodes)
    (acc : List ERef) (hacc : acc.Nodup ∧ ∀ e ∈ acc, e ∈ (A.graph g).handles) :
    ∃ es, ns.foldlM (fun result n => do
        let es ← Verif.nodeEdges h n
        dedupEdges h es result) acc = .ok es ∧ es.Nodup ∧ (∀ e ∈ es, e ∈ (A.graph g).handles) ∧
      (∀ e, e ∈ es ↔ e ∈ acc ∨ ∃ n ∈ ns, ∃ k i, (k, n) ∈ (A.graph g).nodes ∧ (i, e) ∈ (A.graph g).edges ∧
        (i.1 = k ∨ i.2.1 = k)) := by
  induction ns generalizing acc with
  | nil => exact ⟨acc, rfl, hacc.1, hacc.2, by simp⟩
  | cons n ns ih =>
    obtain ⟨k, hk⟩ := hns n (by simp)
    have hne := R.nodeEdges hk
    have hsub : ∀ x ∈ ((A.graph g).out k).map Prod.snd ++
      (((A.graph g).inn k).map Prod.snd).filter (fun e => decide (e ∉ ((A.graph g).out k).map Prod.snd)),
        x ∈ (A.graph g).handles := by
      intro x hx
      rcases List.mem_append.1 hx with hx | hx
      · exact out_handles x hx
      · exact inn_handles x (List.mem_filter.1 hx).1
    obtain ⟨es, h1, h2, h3, h4⟩ := ih (fun m hm => hns m (by simp [hm])) (dedupInto acc (((A.graph g).out k).map Prod.snd ++
      (((A.graph g).inn k).map Prod.snd).filter (fun e => decide (e ∉ ((A.graph g).out k).map Prod.snd))))
      ⟨nodup_dedupInto _ _ hacc.1, by
        intro e he
        rcases (mem_dedupInto _ _ _).1 he with he | he
        · exact hacc.2 e he
        · exact hsub e he⟩
    refine ⟨es, ?_, h2, h3, ?_⟩
    · simp only [List.foldlM_cons, hne]
      show (dedupEdges h _ acc >>= fun s' => _) = _
      rw [R.dedup_live hsub hacc.2]
      exact h1
    · intro e
      rw [h4, mem_dedupInto]
      constructor
      · rintro ((he | he) | ⟨m, hm, hr⟩)
        · exact .inl he
        · refine .inr ⟨n, by simp, k, ?_⟩
          rcases List.mem_append.1 he with he | he
          · obtain ⟨i, hi, hik⟩ := mem_out_handles.1 he
            exact ⟨i, hk, hi, .inl hik⟩
          · obtain ⟨i, hi, hik⟩ := mem_inn_handles.1 (List.mem_filter.1 he).1
            exact ⟨i, hk, hi, .inr hik⟩
        · exact .inr ⟨m, by simp [hm], hr⟩
      · rintro (he | ⟨m, hm, k', i, hk', hi, hik⟩)
        · exact .inl (.inl he)
        · rcases List.mem_cons.1 hm with rfl | hm
          · obtain rfl := (R.node_unique hk hk').2
            refine .inl (.inr ?_)
            by_cases ho : e ∈ ((A.graph g).out k).map Prod.snd
            · exact List.mem_append_left _ ho
            · refine List.mem_append_right _ (List.mem_filter.2 ⟨?_, by simpa using ho⟩)
              rcases hik with hik | hik
              · exact absurd (mem_out_handles.2 ⟨i, hi, hik⟩) ho
              · exact mem_inn_handles.2 ⟨i, hi, hik⟩
          · exact .inr ⟨m, hm, k', i, hk', hi, hik⟩

theorem graphEdges (R : Rep h A) (g : GRef) :
    ∃ es, Verif.graphEdges h g = .ok es ∧ es.Nodup ∧ (∀ e, e ∈ es ↔ e ∈ (A.graph g).handles) := by
  obtain ⟨es, h1, h2, h3, h4⟩ := R.graphEdges_fold (graphNodes h g) (fun n hn => (mem_graphNodes R).1 hn) [] ⟨by simp, by simp⟩
  refine ⟨es, h1, h2, fun e => ⟨h3 e, ?_⟩⟩
  intro he
  obtain ⟨i, hi⟩ := mem_handles.1 he
  obtain ⟨n, m, -, -, -, -, -, a6, -⟩ := R.live_edge hi
  exact (h4 e).2 (.inr ⟨n, (mem_graphNodes R).2 ⟨_, a6⟩, _, i, a6, hi, .inl rfl⟩)

/-- Collecting edges into the dictionary. -/
theorem edgesDict_inner (R : Rep h A) {g : GRef} (es : List (EdgeId × ERef)) (hes : ∀ p ∈ es, p ∈ (A.graph g).edges)
    (d : Dict EdgeId ERef) (hd : (d.map Prod.fst).Nodup) (hdis : ∀ p ∈ es, p.1 ∉ d.map Prod.fst)
    (hnd : (es.map Prod.fst).Nodup) :
    (es.map Prod.snd).foldlM (fun d e => do
      let i ← edgeId h e
      return dset d i e) d = (.ok (d ++ es) : Except PyErr _) := by
  induction es generalizing d with
  | nil => simp; rfl
  | cons p es ih =>
    obtain ⟨i, e⟩ := p
    have hie := hes (i, e) (by simp)
    simp only [List.map_cons, List.foldlM_cons, R.edgeId_eq hie]
    show List.foldlM _ (dset d i e) _ = _
    rw [dset_of_not_mem (hdis (i, e) (by simp)), ih (fun p hp => hes p (by simp [hp]))]
    · simp
    · simp only [List.map_append, List.map_cons, List.map_nil]
      rw [List.nodup_append]
      refine ⟨hd, by simp, ?_⟩
      intro a ha b hb
      simp only [List.mem_singleton] at hb
      subst hb
      rintro rfl
      exact hdis (a, e) (by simp) ha
    · intro q hq
      simp only [List.map_append, List.map_cons, List.map_nil, List.mem_append, List.mem_singleton, not_or]
      refine ⟨hdis q (by simp [hq]), ?_⟩
      intro hc
      simp only [List.map_cons, List.nodup_cons] at hnd
      exact hnd.1 (List.mem_map.2 ⟨q, hq, hc⟩)
    · simp only [List.map_cons, List.nodup_cons] at hnd
      exact hnd.2

theorem edgesDict_fold (R : Rep h A) {g : GRef} (ns : List (Key × NRef)) (hns : ∀ p ∈ ns, p ∈ (A.graph g).nodes)
    (hnd : (ns.map Prod.fst).Nodup) (d : Dict EdgeId ERef) (hd : (d.map Prod.fst).Nodup)
    (hdis : ∀ p ∈ d, p.1.1 ∉ ns.map Prod.fst) :
    ∃ d', (ns.map Prod.snd).foldlM (fun d n => do
        let es ← Verif.outwardEdges h n
        es.foldlM (fun d e => do
          let i ← edgeId h e
          return dset d i e) d) d = (.ok d' : Except PyErr _) ∧ (d'.map Prod.fst).Nodup ∧
      ∀ p, p ∈ d' ↔ p ∈ d ∨ (p ∈ (A.graph g).edges ∧ p.1.1 ∈ ns.map Prod.fst) := by
  induction ns generalizing d with
  | nil => exact ⟨d, rfl, hd, by simp⟩
  | cons q ns ih =>
    obtain ⟨k, n⟩ := q
    have hkn := hns (k, n) (by simp)
    simp only [List.map_cons, List.nodup_cons] at hnd
    have hinner := R.edgesDict_inner (g := g) ((A.graph g).out k) (fun p hp => (List.mem_filter.1 hp).1) d hd
      (by
        intro p hp hc
        obtain ⟨q, hq, hqp⟩ := List.mem_map.1 hc
        have := hdis q hq
        rw [hqp] at this
        have hpk : p.1.1 = k := by simpa using (List.mem_filter.1 hp).2
        exact this (by simp [hpk]))
      (nodup_keys_filter _ (R.idsNodup g))
    obtain ⟨d', h1, h2, h3⟩ := ih (fun p hp => hns p (by simp [hp])) hnd.2 (d ++ (A.graph g).out k)
      (by
        rw [List.map_append, List.nodup_append]
        refine ⟨hd, nodup_keys_filter _ (R.idsNodup g), ?_⟩
        rintro a ha b hb rfl
        obtain ⟨p, hp, rfl⟩ := List.mem_map.1 ha
        obtain ⟨q, hq, hqp⟩ := List.mem_map.1 hb
        have hqk : q.1.1 = k := by simpa using (List.mem_filter.1 hq).2
        exact hdis p hp (by simp [← hqp, hqk]))
      (by
        intro p hp
        rcases List.mem_append.1 hp with hp | hp
        · intro hc; exact hdis p hp (List.mem_cons_of_mem _ hc)
        · have hpk : p.1.1 = k := by simpa using (List.mem_filter.1 hp).2
          rw [hpk]; exact hnd.1)
    refine ⟨d', ?_, h2, ?_⟩
    · simp only [List.map_cons, List.foldlM_cons, R.outwardEdges hkn]
      show (List.foldlM _ d _ >>= fun s' => _) = _
      rw [hinner]
      exact h1
    · intro p
      rw [h3]
      simp only [List.mem_append, SGraph.out, List.mem_filter, decide_eq_true_eq, List.map_cons, List.mem_cons]
      constructor
      · rintro ((h | ⟨h, h'⟩) | ⟨h, h'⟩)
        · exact .inl h
        · exact .inr ⟨h, .inl h'⟩
        · exact .inr ⟨h, .inr h'⟩
      · rintro (h | ⟨h, h' | h'⟩)
        · exact .inl (.inl h)
        · exact .inl (.inr ⟨h, h'⟩)
        · exact .inr ⟨h, h'⟩

end Rep

/-- **C11.** `graph.edges` lists every edge of the graph exactly once. -/
theorem C11_edges {h : Heap} (r : Reachable h) (g : GRef) :
    ∃ es, graphEdges h g = .ok es ∧ es.Nodup ∧
      (∀ e, e ∈ es ↔ ∃ n ∈ graphNodes h g, ∃ os, outwardEdges h n = .ok os ∧ e ∈ os) ∧
      (∀ e, e ∈ es ↔ ∃ n ∈ graphNodes h g, ∃ is, inwardEdges h n = .ok is ∧ e ∈ is) := by
  obtain ⟨A, H⟩ := r.hist
  have R := H.rep
  obtain ⟨es, h1, h2, h3⟩ := R.graphEdges g
  refine ⟨es, h1, h2, ?_, ?_⟩
  · intro e
    rw [h3, Rep.mem_handles]
    exact (liveEdge_iff R).symm
  · intro e
    rw [h3, Rep.mem_handles]
    constructor
    · rintro ⟨i, hi⟩
      obtain ⟨n, m, -, -, -, -, -, -, a7⟩ := R.live_edge hi
      exact ⟨m, (mem_graphNodes R).2 ⟨_, a7⟩, _, R.inwardEdges a7, Rep.mem_inn_handles.2 ⟨i, hi, rfl⟩⟩
    · rintro ⟨n, hn, is, hi, he⟩
      obtain ⟨k, hk⟩ := (mem_graphNodes R).1 hn
      rw [R.inwardEdges hk] at hi
      cases hi
      obtain ⟨i, hi, -⟩ := Rep.mem_inn_handles.1 he
      exact ⟨i, hi⟩

/-- **C11.** `graph.edges_dict` has the same edges, each under its own id, one entry per id. -/
theorem C11_edges_dict {h : Heap} (r : Reachable h) (g : GRef) :
    ∃ es d, graphEdges h g = .ok es ∧ edgesDict h g = .ok d ∧ (dkeys d).Nodup ∧
      (∀ e, e ∈ dvals d ↔ e ∈ es) ∧ (∀ i e, (i, e) ∈ d → edgeId h e = .ok i) := by
  obtain ⟨A, H⟩ := r.hist
  have R := H.rep
  obtain ⟨es, h1, h2, h3⟩ := R.graphEdges g
  obtain ⟨d, d1, d2, d3⟩ := R.edgesDict_fold (g := g) (A.graph g).nodes (fun _ hp => hp) (R.keysNodup g) [] (by simp) (by simp)
  have hd3 : ∀ p, p ∈ d ↔ p ∈ (A.graph g).edges := by
    intro p
    rw [d3]
    simp only [List.not_mem_nil, false_or, and_iff_left_iff_imp]
    intro hp
    obtain ⟨i, e⟩ := p
    obtain ⟨n, m, -, -, -, -, -, a6, -⟩ := R.live_edge hp
    exact List.mem_map.2 ⟨_, a6, rfl⟩
  refine ⟨es, d, h1, ?_, d2, ?_, ?_⟩
  · unfold edgesDict graphNodes dvals
    rw [R.nodes]
    exact d1
  · intro e
    rw [h3, Rep.mem_handles]
    unfold dvals
    constructor
    · intro he
      obtain ⟨⟨i, e'⟩, hi, rfl⟩ := List.mem_map.1 he
      exact ⟨i, (hd3 _).1 hi⟩
    · rintro ⟨i, hi⟩
      exact List.mem_map.2 ⟨(i, e), (hd3 _).2 hi, rfl⟩
  · intro i e hi
    exact R.edgeId_eq ((hd3 _).1 hi)

/-- **C11.** The number of edges is the sum of `num_children` and the sum of `num_parents` over all nodes. -/
theorem C11_degrees {h : Heap} (r : Reachable h) (g : GRef) :
    ∃ es ch pa, graphEdges h g = .ok es ∧
      (graphNodes h g).mapM (fun n => numChildren h g (.node n)) = .ok ch ∧
      (graphNodes h g).mapM (fun n => numParents h g (.node n)) = .ok pa ∧
      ch.sum = es.length ∧ pa.sum = es.length := by
  obtain ⟨A, H⟩ := r.hist
  have R := H.rep
  obtain ⟨es, h1, h2, h3⟩ := R.graphEdges g
  have hlen : es.length = (A.graph g).edges.length := by
    have := ((List.perm_ext_iff_of_nodup h2 (R.handles_nodup g)).2 h3).length_eq
    simpa [SGraph.handles] using this
  have hnodes : graphNodes h g = (A.graph g).nodes.map Prod.snd := by unfold graphNodes dvals; rw [R.nodes]
  have names : ∀ (i : EdgeId) (e : ERef), (i, e) ∈ (A.graph g).edges → i.1 ∈ (A.graph g).nodes.map Prod.fst ∧
      i.2.1 ∈ (A.graph g).nodes.map Prod.fst := by
    intro i e hi
    obtain ⟨n, m, -, -, -, -, -, a6, a7⟩ := R.live_edge hi
    exact ⟨List.mem_map.2 ⟨_, a6, rfl⟩, List.mem_map.2 ⟨_, a7, rfl⟩⟩
  refine ⟨es, (graphNodes h g).map (fun n => (kids h n).length), (graphNodes h g).map (fun n => (pars h n).length), h1, ?_, ?_, ?_, ?_⟩
  · refine mapM_ok ?_
    intro n hn
    obtain ⟨k, hk⟩ := (mem_graphNodes R).1 hn
    simp only [numChildren, R.getChildren (R.getNode_live hk)]
    rfl
  · refine mapM_ok ?_
    intro n hn
    obtain ⟨k, hk⟩ := (mem_graphNodes R).1 hn
    simp only [numParents, R.getParents (R.getNode_live hk)]
    rfl
  · rw [hlen, hnodes, List.map_map,
      ← sum_classes (fun p : EdgeId × ERef => p.1.1) (R.keysNodup g) (A.graph g).edges (by rintro ⟨i, e⟩ hi; exact (names i e hi).1),
      List.map_map]
    congr 1
    refine List.map_congr_left ?_
    rintro ⟨k, n⟩ hk
    exact R.kids_length hk
  · rw [hlen, hnodes, List.map_map,
      ← sum_classes (fun p : EdgeId × ERef => p.1.2.1) (R.keysNodup g) (A.graph g).edges (by rintro ⟨i, e⟩ hi; exact (names i e hi).2),
      List.map_map]
    congr 1
    refine List.map_congr_left ?_
    rintro ⟨k, n⟩ hk
    exact R.pars_length hk

example : graphEdges demo 0 = .ok [0, 3, 2, 1, 4] := by decide +kernel

end Verif
