import Verif.Model.Half
import Verif.Props.Attributes
import Verif.Props.Siblings
import Verif.Props.Readd
/-!
# C57 (edges by id), C27 (counts), C89, C90: `remove_edges`, and the methods that write one end of an edge
-/
namespace Verif
open M

/-- **C57.** `outward_edge_ids` lists the ids of the outward edges in order, `num_outward_edges` counts them, and
`get_outward_edge(id)` returns the outward edge with that id and raises `KeyError` if there is none. -/
theorem C57_outward_by_id {h : Heap} (r : Reachable h) {g : GRef} {x : NRef} (hx : x ∈ graphNodes h g) :
    ∃ os, outwardEdges h x = .ok os ∧ os.map (edgeId h) = (outwardEdgeIds h x).map Except.ok ∧ (outwardEdgeIds h x).Nodup ∧
      numOutwardEdges h x = os.length ∧
      (∀ i e, getOutwardEdge h x i = .ok e ↔ e ∈ os ∧ edgeId h e = .ok i) ∧
      (∀ i, i ∉ outwardEdgeIds h x → getOutwardEdge h x i = .error .keyError) := by
  obtain ⟨A, H⟩ := r.hist
  have R := H.rep
  obtain ⟨k, hk⟩ := (mem_graphNodes R).1 hx
  have ho := R.outE g k x hk
  have hnd : (dkeys (h.node x).outE).Nodup := by
    rw [ho]; exact nodup_keys_filter _ (R.idsNodup g)
  refine ⟨_, R.outwardEdges hk, ?_, hnd, ?_, ?_, ?_⟩
  · simp only [outwardEdgeIds, ho, dkeys, List.map_map]
    refine List.map_congr_left ?_
    rintro ⟨i, e⟩ hp
    exact R.edgeId_eq (List.mem_filter.1 hp).1
  · simp [numOutwardEdges, ho]
  · intro i e
    have : getOutwardEdge h x i = .ok e ↔ dget (h.node x).outE i = some e := by
      unfold getOutwardEdge; split <;> simp_all
    rw [this, dget_iff hnd, ho, Rep.mem_out_handles]
    simp only [SGraph.out, List.mem_filter, decide_eq_true_eq]
    constructor
    · rintro ⟨h1, h2⟩; exact ⟨⟨i, h1, h2⟩, R.edgeId_eq h1⟩
    · rintro ⟨⟨j, h1, h2⟩, h3⟩
      rw [R.edgeId_eq h1] at h3
      cases h3; exact ⟨h1, h2⟩
  · intro i hi
    have := dget_none.2 hi
    simp [getOutwardEdge, this]

/-- **C57.** The same for `inward_edge_ids` and `get_inward_edge`. -/
theorem C57_inward_by_id {h : Heap} (r : Reachable h) {g : GRef} {x : NRef} (hx : x ∈ graphNodes h g) :
    ∃ is, inwardEdges h x = .ok is ∧ is.map (edgeId h) = (inwardEdgeIds h x).map Except.ok ∧ (inwardEdgeIds h x).Nodup ∧
      (∀ i e, getInwardEdge h x i = .ok e ↔ e ∈ is ∧ edgeId h e = .ok i) ∧
      (∀ i, i ∉ inwardEdgeIds h x → getInwardEdge h x i = .error .keyError) := by
  obtain ⟨A, H⟩ := r.hist
  have R := H.rep
  obtain ⟨k, hk⟩ := (mem_graphNodes R).1 hx
  have ho := R.inE g k x hk
  have hnd : (dkeys (h.node x).inE).Nodup := by
    rw [ho]; exact nodup_keys_filter _ (R.idsNodup g)
  refine ⟨_, R.inwardEdges hk, ?_, hnd, ?_, ?_⟩
  · simp only [inwardEdgeIds, ho, dkeys, List.map_map]
    refine List.map_congr_left ?_
    rintro ⟨i, e⟩ hp
    exact R.edgeId_eq (List.mem_filter.1 hp).1
  · intro i e
    have : getInwardEdge h x i = .ok e ↔ dget (h.node x).inE i = some e := by
      unfold getInwardEdge; split <;> simp_all
    rw [this, dget_iff hnd, ho, Rep.mem_inn_handles]
    simp only [SGraph.inn, List.mem_filter, decide_eq_true_eq]
    constructor
    · rintro ⟨h1, h2⟩; exact ⟨⟨i, h1, h2⟩, R.edgeId_eq h1⟩
    · rintro ⟨⟨j, h1, h2⟩, h3⟩
      rw [R.edgeId_eq h1] at h3
      cases h3; exact ⟨h1, h2⟩
  · intro i hi
    have := dget_none.2 hi
    simp [getInwardEdge, this]

example : outwardEdgeIds demo 0 = [(.str "a", .str "b", .none), (.str "a", .str "b", .key (.str "2"))] ∧
    getOutwardEdge demo 0 (.str "a", .str "b", .key (.str "2")) = .ok 3 ∧ numOutwardEdges demo 0 = 2 ∧
    inwardEdgeIds demo 0 = [(.str "c", .str "a", .none)] ∧ getInwardEdge demo 0 (.str "c", .str "a", .none) = .ok 2 := by
  decide +kernel

/-- **C27.** `num_siblings`, `has_siblings`, `num_spouses`, `has_spouses`: the numbers of the nodes listed, and whether there
is another node that shares a parent (a child) with `x`. -/
theorem C27_counts {h : Heap} (r : Reachable h) {g : GRef} {a : NodeArg} {x : NRef} (ha : getNode h g a = .ok x) :
    (∃ l b, getSiblings h g a = .ok l ∧ numSiblings h g a = .ok l.length ∧ hasSiblings h g a = .ok b ∧
      (b = true ↔ ∃ y p, y ≠ x ∧ Arrow h g p x ∧ Arrow h g p y)) ∧
    (∃ l b, getSpouses h g a = .ok l ∧ numSpouses h g a = .ok l.length ∧ hasSpouses h g a = .ok b ∧
      (b = true ↔ ∃ y c, y ≠ x ∧ Arrow h g x c ∧ Arrow h g y c)) := by
  obtain ⟨⟨l, h1, -, h2⟩, l', h3, -, h4⟩ := C27_exact r ha
  refine ⟨⟨l, decide (l.length > 0), h1, by simp [numSiblings, h1, bind, Except.bind, pure, Except.pure],
    by simp [hasSiblings, numSiblings, h1, bind, Except.bind, pure, Except.pure], ?_⟩,
    l', decide (l'.length > 0), h3, by simp [numSpouses, h3, bind, Except.bind, pure, Except.pure],
    by simp [hasSpouses, numSpouses, h3, bind, Except.bind, pure, Except.pure], ?_⟩
  · simp only [gt_iff_lt, decide_eq_true_eq, List.length_pos_iff_exists_mem, h2]
    grind
  · simp only [gt_iff_lt, decide_eq_true_eq, List.length_pos_iff_exists_mem, h4]
    grind

/-- A run of `remove_self` calls on edges of a graph keeps the heap reachable. -/
theorem removeAll_reachable (es : List ERef) {h h' : Heap} (r : Reachable h) (hr : removeAll es h = (.ok (), h')) :
    Reachable h' := by
  induction es generalizing h with
  | nil => simp only [removeAll] at hr; cases hr; exact r
  | cons e es ih =>
    have := Reachable.step (.removeSelf e) r trivial
    simp only [Op.step, bind_apply] at this
    simp only [removeAll, bind_apply] at hr
    revert this hr
    cases hx : edgeRemoveSelf e h with
    | mk x h1 =>
      cases x with
      | error err => simp
      | ok u => intro hr this; exact ih this hr

/-- **C89.** `node.remove_edges()` on a node of a graph succeeds and gives a graph that could have been made by
`remove_self` calls. The nodes stay, in their order; every node lists the same edges in the same order without those that
start or end at `x`; these report no start, end or graph, and nothing else changes. -/
theorem C89_remove_edges {h : Heap} (r : Reachable h) {g : GRef} {x : NRef} (hx : x ∈ graphNodes h g) :
    ∃ h', removeEdges x h = (.ok (), h') ∧ Reachable h' ∧ h'.graph = h.graph ∧
      outwardEdges h' x = .ok [] ∧ inwardEdges h' x = .ok [] ∧
      (∀ y ∈ graphNodes h g, y ≠ x → ∃ os is,
        outwardEdges h y = .ok os ∧ outwardEdges h' y = .ok (os.filter (fun e => decide (edgeEnd h e ≠ .ok x))) ∧
        inwardEdges h y = .ok is ∧ inwardEdges h' y = .ok (is.filter (fun e => decide (edgeStart h e ≠ .ok x)))) ∧
      (∀ e, LiveEdge h g e → edgeStart h e = .ok x ∨ edgeEnd h e = .ok x →
        h'.edge e = { h.edge e with start := none, stop := none, graph := none }) ∧
      (∀ e, ¬ (LiveEdge h g e ∧ (edgeStart h e = .ok x ∨ edgeEnd h e = .ok x)) → h'.edge e = h.edge e) ∧
      (∀ y, ∃ o i, h'.node y = { h.node y with outE := o, inE := i }) ∧
      (∀ y, y ∉ graphNodes h g → h'.node y = h.node y) := by
  obtain ⟨A, H⟩ := r.hist
  have R := H.rep
  obtain ⟨k, hk⟩ := (mem_graphNodes R).1 hx
  have hes := R.nodeEdges hk
  generalize hE : (((A.graph g).out k).map Prod.snd ++
      (((A.graph g).inn k).map Prod.snd).filter (fun e => decide (e ∉ ((A.graph g).out k).map Prod.snd))) = es at hes
  have hnd : es.Nodup := by
    rw [← hE, List.nodup_append]
    refine ⟨R.out_nodup g k, (R.inn_nodup g k).filter _, ?_⟩
    rintro x hx y hy rfl
    simp only [List.mem_filter, decide_eq_true_eq] at hy
    exact hy.2 hx
  have hmemes : ∀ e, e ∈ es ↔ ∃ i, (i, e) ∈ (A.graph g).edges ∧ (i.1 = k ∨ i.2.1 = k) := by
    intro e
    rw [← hE]
    rw [List.mem_append, List.mem_filter, decide_eq_true_eq, Rep.mem_out_handles, Rep.mem_inn_handles]
    constructor
    · rintro (⟨i, h1, h2⟩ | ⟨⟨i, h1, h2⟩, -⟩)
      · exact ⟨i, h1, .inl h2⟩
      · exact ⟨i, h1, .inr h2⟩
    · rintro ⟨i, h1, h2⟩
      by_cases h3 : i.1 = k
      · exact .inl ⟨i, h1, h3⟩
      · refine .inr ⟨⟨i, h1, h2.resolve_left h3⟩, ?_⟩
        rintro ⟨i', h1', h3'⟩
        obtain ⟨_, rfl⟩ := R.handle_unique h1 h1'
        exact h3 h3'
  obtain ⟨h', hr, K, R'⟩ := Rep.removeAll_live es R hnd (fun e he => by
    obtain ⟨i, hi, -⟩ := (hmemes e).1 he
    exact Rep.mem_handles.2 ⟨i, hi⟩)
  have hmem : ∀ e, e ∈ es ↔ LiveEdge h g e ∧ (edgeStart h e = .ok x ∨ edgeEnd h e = .ok x) := by
    intro e
    rw [hmemes, liveEdge_iff R]
    constructor
    · rintro ⟨i, h1, h2⟩
      exact ⟨⟨i, h1⟩, by rw [(edge_ends R hk h1).1, (edge_ends R hk h1).2]; exact h2⟩
    · rintro ⟨⟨i, h1⟩, h2⟩
      rw [(edge_ends R hk h1).1, (edge_ends R hk h1).2] at h2
      exact ⟨i, h1, h2⟩
  have hout : ∀ y j, (j, y) ∈ (A.graph g).nodes → outwardEdges h' y =
      .ok ((((A.graph g).out j).map Prod.snd).filter (fun e => decide (e ∉ es))) := by
    intro y j hj
    rw [R'.outwardEdges (g := g) (k := j) (by simpa using hj)]
    congr 1
    rw [← filter_handles (p := fun p => decide (p.2 ∉ es)) (by simp)]
    simp only [SGraph.out, Spec.on_same, List.filter_filter]
    congr 1
    refine List.filter_congr ?_
    intro z _
    simp [Bool.and_comm]
  have hinn : ∀ y j, (j, y) ∈ (A.graph g).nodes → inwardEdges h' y =
      .ok ((((A.graph g).inn j).map Prod.snd).filter (fun e => decide (e ∉ es))) := by
    intro y j hj
    rw [R'.inwardEdges (g := g) (k := j) (by simpa using hj)]
    congr 1
    rw [← filter_handles (p := fun p => decide (p.2 ∉ es)) (by simp)]
    simp only [SGraph.inn, Spec.on_same, List.filter_filter]
    congr 1
    refine List.filter_congr ?_
    intro z _
    simp [Bool.and_comm]
  refine ⟨h', ?_, removeAll_reachable es r hr, K.graph, ?_, ?_, ?_, ?_, ?_, K.node, ?_⟩
  · simp only [removeEdges, bind_apply, ask_apply, hes, hr]
  · rw [hout x k hk, List.filter_eq_nil_iff.2]
    intro e he
    obtain ⟨i, h1, h2⟩ := Rep.mem_out_handles.1 he
    simpa using (hmemes e).2 ⟨i, h1, .inl h2⟩
  · rw [hinn x k hk, List.filter_eq_nil_iff.2]
    intro e he
    obtain ⟨i, h1, h2⟩ := Rep.mem_inn_handles.1 he
    simpa using (hmemes e).2 ⟨i, h1, .inr h2⟩
  · intro y hy hne
    obtain ⟨j, hj⟩ := (mem_graphNodes R).1 hy
    have hjk : j ≠ k := by rintro rfl; exact hne (val_unique (R.keysNodup g) hj hk)
    refine ⟨_, _, R.outwardEdges hj, ?_, R.inwardEdges hj, ?_⟩
    · rw [hout y j hj]
      congr 1
      refine List.filter_congr ?_
      intro e he
      obtain ⟨i, h1, h2⟩ := Rep.mem_out_handles.1 he
      have hs : edgeStart h e ≠ .ok x := by rw [Ne, (edge_ends R hk h1).1, h2]; exact hjk
      simp [hmem, (liveEdge_iff R).2 ⟨i, h1⟩, hs]
    · rw [hinn y j hj]
      congr 1
      refine List.filter_congr ?_
      intro e he
      obtain ⟨i, h1, h2⟩ := Rep.mem_inn_handles.1 he
      have hs : edgeEnd h e ≠ .ok x := by rw [Ne, (edge_ends R hk h1).2, h2]; exact hjk
      simp [hmem, (liveEdge_iff R).2 ⟨i, h1⟩, hs]
  · intro e he h2; exact K.gone e ((hmem e).2 ⟨he, h2⟩)
  · intro e he; exact K.edge e (fun hc => he ((hmem e).1 hc))
  · intro y hy
    obtain ⟨o, i, ho⟩ := K.node y
    by_cases hy' : ∃ g' k', (k', y) ∈ (A.graph g').nodes
    · obtain ⟨g', k', hk'⟩ := hy'
      have hg : g' ≠ g := by rintro rfl; exact hy ((mem_graphNodes R).2 ⟨k', hk'⟩)
      have hm' : (k', y) ∈ ((A.on g fun G => { G with edges := G.edges.filter fun p => decide (p.2 ∉ es) }).graph g').nodes := by
        rw [Spec.on_ne _ _ hg]; exact hk'
      have e1 := R'.outE _ _ _ hm'
      have e2 := R'.inE _ _ _ hm'
      have f1 := R.outE _ _ _ hk'
      have f2 := R.inE _ _ _ hk'
      rw [Spec.on_ne _ _ hg] at e1 e2
      simp only [ho] at e1 e2 ⊢
      rw [e1, e2, ← f1, ← f2]
    · have hno : ∀ g' k', (k', y) ∉ (A.graph g').nodes := fun g' k' hc => hy' ⟨g', k', hc⟩
      have f := R.stale y hno
      have e := R'.stale y (by
        intro g' k' hc
        by_cases hg : g' = g
        · subst hg
          simp only [Spec.on_same] at hc
          exact hno _ _ hc
        · rw [Spec.on_ne _ _ hg] at hc
          exact hno _ _ hc)
      simp only [ho] at e ⊢
      rw [e.1, e.2]
      cases hnm : h.node y
      simp only [hnm] at f
      rw [f.1, f.2]

example : (0 : NRef) ∈ graphNodes demo 0 ∧ (removeEdges 0 demo).1 = .ok () ∧
    graphNodes (removeEdges 0 demo).2 0 = [0, 1, 2, 3] ∧ outwardEdges (removeEdges 0 demo).2 1 = .ok [1] ∧
    inwardEdges (removeEdges 0 demo).2 1 = .ok [] ∧ outwardEdges (removeEdges 0 demo).2 3 = .ok [4] := by decide +kernel

/-- The edge lists of a heap that differs only in which edges the nodes list. -/
theorem half_dedup {h h' : Heap} {A : Spec} (R : Rep h A) {g : GRef} (he : h'.edge = h.edge)
    (hid : ∀ x, (h'.node x).id = (h.node x).id) {l acc : List ERef} (hl : ∀ e ∈ l, e ∈ (A.graph g).handles)
    (ha : ∀ e ∈ acc, e ∈ (A.graph g).handles) : dedupEdges h' l acc = .ok (dedupInto acc l) := by
  rw [dedupEdges_congr he (by
    intro e _
    simp only [edgeId, he, hid])]
  exact R.dedup_live hl ha

/-- An edge whose start no longer lists it. -/
def HalfGone (h : Heap) (e : ERef) : Prop :=
  ∃ s t, (h.edge e).start = some s ∧ (h.edge e).stop = some t ∧
    dget (h.node s).outE ((h.node s).id, (h.node t).id, (h.edge e).raw) = none

theorem dget_ddel_none {K V : Type} [DecidableEq K] {d : Dict K V} {k j : K} (hk : dget d k = none) :
    dget (ddel d j) k = none := by
  rw [dget_none] at hk ⊢
  intro hc
  obtain ⟨p, hp, rfl⟩ := List.mem_map.1 hc
  exact hk (List.mem_map.2 ⟨p, (mem_ddel.1 hp).1, rfl⟩)

theorem HalfGone.remove {h : Heap} {e : ERef} (H : HalfGone h e) : edgeRemoveSelf e h = (.error .keyError, h) := by
  obtain ⟨s, t, h1, h2, h3⟩ := H
  simp only [edgeRemoveSelf, bind_apply, look_apply, h1, h2, reduceCtorEq, or_self, ↓reduceIte, ask_apply, edgeStart,
    edgeId, removeOutwardEdge, h3, raise]

theorem HalfGone.disconnect {h : Heap} {e : ERef} (H : HalfGone h e) :
    Verif.disconnect e h = (.error .keyError, h) := by
  obtain ⟨s, t, h1, h2, h3⟩ := H
  simp only [Verif.disconnect, bind_apply, look_apply, h1, h2, ask_apply, edgeStart, edgeId, removeOutwardEdge, h3, raise]

theorem HalfGone.dels {h h' : Heap} {e : ERef} (H : HalfGone h e) (he : h'.edge e = h.edge e)
    (hid : ∀ x, (h'.node x).id = (h.node x).id)
    (hout : ∀ x, (h'.node x).outE = (h.node x).outE ∨ ∃ i, (h'.node x).outE = ddel (h.node x).outE i) : HalfGone h' e := by
  obtain ⟨s, t, h1, h2, h3⟩ := H
  refine ⟨s, t, by rw [he]; exact h1, by rw [he]; exact h2, ?_⟩
  rw [hid, hid, he]
  rcases hout s with ho | ⟨i, ho⟩
  · rw [ho]; exact h3
  · rw [ho]; exact dget_ddel_none h3

/-- The start of `e` does not list it and the graphs are `G`: what the removal of other edges preserves. -/
theorem HalfGone.bind {α β : Type} {G : GRef → GraphObj} {e : ERef} {x : M α} {f : α → M β}
    (hx : ∀ h, HalfGone h e ∧ h.graph = G → HalfGone (x h).2 e ∧ (x h).2.graph = G)
    (hf : ∀ a h, HalfGone h e ∧ h.graph = G → HalfGone (f a h).2 e ∧ (f a h).2.graph = G) (h : Heap)
    (H : HalfGone h e ∧ h.graph = G) : HalfGone ((x >>= f) h).2 e ∧ ((x >>= f) h).2.graph = G := by
  have := hx h H
  simp only [bind_apply]
  revert this
  cases x h with
  | mk r h1 =>
    cases r with
    | error err => exact id
    | ok a => exact hf a h1

theorem HalfGone.others {e f : ERef} (hf : f ≠ e) (G : GRef → GraphObj) (h : Heap) (H : HalfGone h e ∧ h.graph = G) :
    HalfGone (edgeRemoveSelf f h).2 e ∧ (edgeRemoveSelf f h).2.graph = G := by
  have hro : ∀ s i h, HalfGone h e ∧ h.graph = G →
      HalfGone (removeOutwardEdge s i h).2 e ∧ (removeOutwardEdge s i h).2.graph = G := by
    intro s i h H
    cases hd : dget (h.node s).outE i with
    | none => simp only [removeOutwardEdge, bind_apply, look_apply, hd, raise]; exact H
    | some v =>
      simp only [removeOutwardEdge, bind_apply, look_apply, hd, modNode]
      refine ⟨H.1.dels rfl ?_ ?_, H.2⟩
      · intro x; by_cases hx : x = s
        · subst hx; simp
        · simp only [upd_ne _ _ hx]
      · intro x; by_cases hx : x = s
        · subst hx; exact .inr ⟨i, by simp⟩
        · exact .inl (by simp only [upd_ne _ _ hx])
  have hri : ∀ s i h, HalfGone h e ∧ h.graph = G →
      HalfGone (removeInwardEdge s i h).2 e ∧ (removeInwardEdge s i h).2.graph = G := by
    intro s i h H
    cases hd : dget (h.node s).inE i with
    | none => simp only [removeInwardEdge, bind_apply, look_apply, hd, raise]; exact H
    | some v =>
      simp only [removeInwardEdge, bind_apply, look_apply, hd, modNode]
      refine ⟨H.1.dels rfl ?_ ?_, H.2⟩
      · intro x; by_cases hx : x = s
        · subst hx; simp
        · simp only [upd_ne _ _ hx]
      · intro x; by_cases hx : x = s
        · subst hx; exact .inl (by simp)
        · exact .inl (by simp only [upd_ne _ _ hx])
  have hask : ∀ {α : Type} (q : Heap → Except PyErr α) h, HalfGone h e ∧ h.graph = G →
      HalfGone ((ask q : M α) h).2 e ∧ ((ask q : M α) h).2.graph = G := by
    intro α q h H
    simpa only [ask_apply] using H
  revert h H
  unfold edgeRemoveSelf
  refine HalfGone.bind (fun h H => by simpa only [look_apply] using H) fun o => ?_
  split
  · intro h H; exact H
  · refine HalfGone.bind (hask _) fun s => ?_
    refine HalfGone.bind (hask _) fun i => ?_
    refine HalfGone.bind (hro s i) fun _ => ?_
    refine HalfGone.bind (hask _) fun t => ?_
    refine HalfGone.bind (hask _) fun j => ?_
    refine HalfGone.bind (hri t j) fun _ => ?_
    intro h H
    simp only [modEdge]
    exact ⟨H.1.dels (by simp [upd_ne _ _ (Ne.symm hf)]) (fun _ => rfl) (fun _ => .inl rfl), H.2⟩

theorem HalfGone.removeAll {e : ERef} (es : List ERef) (he : e ∈ es) {h : Heap} (H : HalfGone h e) :
    ∃ err h', Verif.removeAll es h = (.error err, h') ∧ h'.graph = h.graph := by
  induction es generalizing h with
  | nil => simp at he
  | cons f es ih =>
    simp only [Verif.removeAll, bind_apply]
    by_cases hf : f = e
    · subst hf
      rw [H.remove]; exact ⟨_, _, rfl, rfl⟩
    · have h1 := HalfGone.others hf h.graph h ⟨H, rfl⟩
      revert h1
      cases edgeRemoveSelf f h with
      | mk r h1 =>
        intro hh
        cases r with
        | error err => exact ⟨_, _, rfl, hh.2⟩
        | ok u =>
          obtain ⟨err, h', e1, e2⟩ := ih (by simpa [Ne.symm hf] using he) hh.1
          exact ⟨err, h', e1, e2.trans hh.2⟩

/-- **C90 fails for every edge of every graph**: after `start.remove_outward_edge(id)` alone, the edge is still listed at its
end and still reports its two ends, although its start does not list it. `disconnect` and `remove_self` raise `KeyError` and
change nothing; `remove_node` of the end raises and the end stays in the graph; and connecting the two nodes again under the
same id raises, with `TypeError` if the start has another outward edge and `ValueError` otherwise. -/
theorem C90_remove_half_violated {h : Heap} (r : Reachable h) {g : GRef} {e : ERef} (he : LiveEdge h g e) :
    ∃ s t i h', edgeStart h e = .ok s ∧ edgeEnd h e = .ok t ∧ edgeId h e = .ok i ∧
      removeOutwardEdge s i h = (.ok (), h') ∧
      (∃ os, outwardEdges h s = .ok os ∧ outwardEdges h' s = .ok (os.filter (fun f => decide (f ≠ e))) ∧
        ∀ (a : EdgeArgs) (p : IfExists), a.raw = (h.edge e).raw →
          connect g (.node s) (.node t) a p h' =
            (.error (if ∃ f ∈ os, f ≠ e then .typeError else .valueError "This is very weird! (inward)"), h')) ∧
      (∃ is, inwardEdges h' t = .ok is ∧ e ∈ is) ∧ edgeStart h' e = .ok s ∧ edgeEnd h' e = .ok t ∧
      disconnect e h' = (.error .keyError, h') ∧ edgeRemoveSelf e h' = (.error .keyError, h') ∧
      (∃ err h'', removeNode g (.node t) h' = (.error err, h'') ∧ t ∈ graphNodes h'' g) := by
  obtain ⟨A, H⟩ := r.hist
  have R := H.rep
  obtain ⟨i, hi⟩ := (liveEdge_iff R).1 he
  obtain ⟨s, t, h1, h2, h3, h4, h5, h6, h7⟩ := R.live_edge hi
  let h' : Heap := { h with node := upd h.node s { h.node s with outE := ddel (h.node s).outE i } }
  have hid : ∀ x, (h'.node x).id = (h.node x).id := by
    intro x; show (upd h.node s _ x).id = _
    by_cases hx : x = s
    · subst hx; simp
    · rw [upd_ne _ _ hx]
  have hin : ∀ x, (h'.node x).inE = (h.node x).inE := by
    intro x; show (upd h.node s _ x).inE = _
    by_cases hx : x = s
    · subst hx; simp
    · rw [upd_ne _ _ hx]
  have hos : (h'.node s).outE = ddel (h.node s).outE i := by
    show (upd h.node s _ s).outE = _
    simp
  have hrun : removeOutwardEdge s i h = (.ok (), h') := by
    simp only [removeOutwardEdge, bind_apply, look_apply, h4, modNode]; rfl
  have hidn : (h.node s).id = i.1 := (R.nodeOk g _ s h6).2.1
  have hidm : (h.node t).id = i.2.1 := (R.nodeOk g _ t h7).2.1
  have hraw : (h.edge e).raw = i.2.2 := by
    obtain ⟨a, b, c⟩ := i
    exact (R.edgeOk g a b c e hi).2.2.2.1
  have hgone : dget (ddel (h.node s).outE i) i = none := by
    rw [dget_none]
    intro hc
    obtain ⟨p, hp, hpi⟩ := List.mem_map.1 hc
    exact (mem_ddel.1 hp).2 hpi
  have hhalf : HalfGone h' e := by
    refine ⟨s, t, h1, h2, ?_⟩
    rw [hos, hid, hid, hidn, hidm]
    show dget _ (i.1, i.2.1, (h.edge e).raw) = none
    rw [hraw]; exact hgone
  have hout' : outwardEdges h' s = .ok ((((A.graph g).out i.1).map Prod.snd).filter (fun f => decide (f ≠ e))) := by
    unfold outwardEdges dvals
    have heq : (h'.node s).outE.map Prod.snd = (((A.graph g).out i.1).map Prod.snd).filter (fun f => decide (f ≠ e)) := by
      rw [hos, R.outE g _ s h6, ← filter_handles (p := fun p => decide (p.1 ≠ i))]
      · rfl
      · rintro ⟨j, f⟩ hp
        have hp' := (List.mem_filter.1 hp).1
        simp only [decide_eq_decide]
        refine not_congr ⟨?_, ?_⟩
        · rintro rfl; exact val_unique (R.idsNodup g) hp' hi
        · rintro rfl; exact (R.handle_unique hp' hi).2
    rw [heq, half_dedup R (h' := h') (g := g) rfl hid
      (fun f hf => Rep.out_handles f (List.mem_filter.1 hf).1) (by simp),
      dedupInto_nodup _ _ ((R.out_nodup g i.1).filter _)]
    simp
  have hinn' : inwardEdges h' t = .ok (((A.graph g).inn i.2.1).map Prod.snd) := by
    unfold inwardEdges dvals
    rw [hin, R.inE g _ t h7, half_dedup R (h' := h') (g := g) rfl hid Rep.inn_handles (by simp),
      dedupInto_nodup _ _ (R.inn_nodup g i.2.1)]
    simp
  have hgs : getNode h' g (.node s) = .ok s := by
    simp only [getNode, hid, hidn]
    show (match dget (h.graph g).nodes i.1 with | some n => _ | none => _) = _
    rw [R.nodes g, dget_of_mem (R.keysNodup g) h6]
  have hgt : getNode h' g (.node t) = .ok t := by
    simp only [getNode, hid, hidm]
    show (match dget (h.graph g).nodes i.2.1 with | some n => _ | none => _) = _
    rw [R.nodes g, dget_of_mem (R.keysNodup g) h7]
  refine ⟨s, t, i, h', by simp [edgeStart, h1], by simp [edgeEnd, h2], h3, hrun, ⟨_, R.outwardEdges h6, hout', ?_⟩,
    ⟨_, hinn', Rep.mem_inn_handles.2 ⟨i, hi, rfl⟩⟩, ?_, ?_, hhalf.disconnect, hhalf.remove, ?_⟩
  · intro a p hraw'
    rw [hraw] at hraw'
    have hi' : ((h'.node s).id, (h'.node t).id, a.raw) = i := by rw [hid, hid, hidn, hidm, hraw']
    have ho : dget (h'.node s).outE i = none := by rw [hos]; exact hgone
    have hi2 : dget (h'.node t).inE i = some e := by rw [hin]; exact h5
    simp only [connect, bind_apply, ask_apply, hgs, hgt, look_apply, hi', ho, hi2, hout', reduceCtorEq, and_false, ne_eq,
      not_true_eq_false, false_and, ↓reduceIte, not_false_eq_true]
    by_cases hex : ∃ f ∈ ((A.graph g).out i.1).map Prod.snd, f ≠ e
    · have hne : ¬ (((A.graph g).out i.1).map Prod.snd).filter (fun f => decide (f ≠ e)) = [] := by
        obtain ⟨f, hf, hfe⟩ := hex
        intro hc
        have := List.filter_eq_nil_iff.1 hc f hf
        simp [hfe] at this
      rw [if_pos hex]
      simp only [tupleInEdges, ne_eq] at hne ⊢
      rw [if_neg hne]
    · have hnil : (((A.graph g).out i.1).map Prod.snd).filter (fun f => decide (f ≠ e)) = [] := by
        rw [List.filter_eq_nil_iff]
        intro f hf
        simp only [decide_eq_true_eq, not_not]
        exact Classical.byContradiction fun hc => hex ⟨f, hf, hc⟩
      rw [if_neg hex]
      simp only [tupleInEdges, ne_eq] at hnil ⊢
      rw [if_pos hnil]
      rfl
  · show edgeStart h e = _; simp [edgeStart, h1]
  · show edgeEnd h e = _; simp [edgeEnd, h2]
  · have hsub : ∀ f ∈ dvals (h'.node t).outE, f ∈ (A.graph g).handles := by
      intro f hf
      have : f ∈ dvals (h.node t).outE := by
        revert hf
        show f ∈ dvals (upd h.node s _ t).outE → _
        by_cases hx : t = s
        · subst hx
          rw [upd_same]
          simp only [dvals, ddel]
          intro hf
          obtain ⟨p, hp, rfl⟩ := List.mem_map.1 hf
          exact List.mem_map.2 ⟨p, (List.mem_filter.1 hp).1, rfl⟩
        · rw [upd_ne _ _ hx]; exact id
      rw [R.outE g _ t h7] at this
      exact Rep.out_handles f this
    have hd1 := half_dedup R (h' := h') (g := g) rfl hid hsub (acc := []) (by simp)
    have hacc : ∀ f ∈ dedupInto [] (dvals (h'.node t).outE), f ∈ (A.graph g).handles := by
      intro f hf
      rw [mem_dedupInto] at hf
      exact hsub f (by simpa using hf)
    have hd2 := half_dedup R (h' := h') (g := g) rfl hid (l := dvals (h'.node t).inE)
      (by rw [hin, R.inE g _ t h7]; exact Rep.inn_handles) hacc
    have hmem : e ∈ dedupInto (dedupInto [] (dvals (h'.node t).outE)) (dvals (h'.node t).inE) := by
      rw [mem_dedupInto, hin]
      exact .inr (List.mem_map.2 ⟨_, mem_of_dget h5, rfl⟩)
    obtain ⟨err, h'', e1, e2⟩ := HalfGone.removeAll _ hmem hhalf
    refine ⟨err, h'', ?_, ?_⟩
    · have hne : nodeEdges h' t = .ok (dedupInto (dedupInto [] (dvals (h'.node t).outE)) (dvals (h'.node t).inE)) := by
        simp only [nodeEdges, hd1, hd2, bind, Except.bind]
      simp only [removeNode, bind_apply, ask_apply, hgt, removeEdges, hne, e1]
    · simp only [graphNodes, e2]
      exact (mem_graphNodes R).2 ⟨_, h7⟩

example : LiveEdge demo 0 0 := ⟨0, by decide, [0, 3], by decide, by decide⟩

/-- The start lists another edge: `TypeError`. -/
example : (removeOutwardEdge 0 (.str "a", .str "b", .none) demo).1 = .ok () ∧
    (connect 0 (.node 0) (.node 1) {} .warn (removeOutwardEdge 0 (.str "a", .str "b", .none) demo).2).1 = .error .typeError ∧
    (disconnect 0 (removeOutwardEdge 0 (.str "a", .str "b", .none) demo).2).1 = .error .keyError := by decide +kernel

/-- **C90, what holds**: the two calls together take the edge out of the lists, as `disconnect` does; but the edge still
reports its ends, its id and its graph. -/
theorem C90_both_partial {h : Heap} (r : Reachable h) {g : GRef} {e : ERef} (he : LiveEdge h g e) :
    ∃ s t i h1 h2, edgeStart h e = .ok s ∧ edgeEnd h e = .ok t ∧ edgeId h e = .ok i ∧
      removeOutwardEdge s i h = (.ok (), h1) ∧ removeInwardEdge t i h1 = (.ok (), h2) ∧
      EdgeDeleted h h2 e ∧ h2.edge = h.edge ∧ disconnect e h2 = (.error .keyError, h2) := by
  obtain ⟨A, H⟩ := r.hist
  have R := H.rep
  obtain ⟨i, hi⟩ := (liveEdge_iff R).1 he
  obtain ⟨s, t, h1, h2, h3, h4, h5, h6, h7⟩ := R.live_edge hi
  let k1 : Heap := { h with node := upd h.node s { h.node s with outE := ddel (h.node s).outE i } }
  have hk1 : removeOutwardEdge s i h = (.ok (), k1) := by
    simp only [removeOutwardEdge, bind_apply, look_apply, h4, modNode]; rfl
  have hin : (k1.node t).inE = (h.node t).inE := by
    show (upd h.node s _ t).inE = _
    by_cases hx : t = s
    · subst hx; simp
    · rw [upd_ne _ _ hx]
  let k2 : Heap := { h with node := cutNodes h s t i }
  have hk2 : removeInwardEdge t i k1 = (.ok (), k2) := by
    have hd : dget (k1.node t).inE i = some e := by rw [hin]; exact h5
    simp only [removeInwardEdge, bind_apply, look_apply, hd, modNode]
    show (_, ({ k1 with node := upd k1.node t { k1.node t with inE := ddel (k1.node t).inE i } } : Heap)) = _
    have := upd_cut h s t i
    show (_, ({ h with node := _ } : Heap)) = _
    rw [this]
  obtain ⟨n, m, e1, e2, e3, R'⟩ := R.disconnect_live hi
  obtain rfl : s = n := by rw [h1] at e1; exact Option.some.inj e1
  obtain rfl : t = m := by rw [h2] at e2; exact Option.some.inj e2
  have D : EdgeDeleted h (disconnectHeap h s t i e) e :=
    edgeDeleted_of R hi R' rfl (by intro f hf; simp [disconnectHeap, upd_ne _ _ hf]) (by intro x; exact ⟨_, _, rfl⟩)
  have hgr : ∀ g' k, ((A.on g fun G => G.delEdge e).graph g').out k = ((A.graph g').out k).filter (fun p => decide (p.2 ≠ e)) ∧
      ((A.on g fun G => G.delEdge e).graph g').inn k = ((A.graph g').inn k).filter (fun p => decide (p.2 ≠ e)) := by
    intro g' k
    by_cases hg : g' = g
    · subst hg
      simp only [Spec.on_same, SGraph.delEdge, SGraph.out, SGraph.inn, List.filter_filter]
      exact ⟨List.filter_congr (by intro p _; simp [Bool.and_comm]), List.filter_congr (by intro p _; simp [Bool.and_comm])⟩
    · rw [Spec.on_ne _ _ hg]
      constructor <;>
      · rw [List.filter_eq_self.2]
        rintro ⟨j, f⟩ hp
        simp only [decide_eq_true_eq]
        rintro rfl
        exact hg (R.handle_unique (List.mem_filter.1 hp).1 hi).1
  have hnodes : ∀ g', ((A.on g fun G => G.delEdge e).graph g').nodes = (A.graph g').nodes := by
    intro g'
    by_cases hg : g' = g
    · subst hg; simp [SGraph.delEdge]
    · rw [Spec.on_ne _ _ hg]
  refine ⟨s, t, i, k1, k2, by simp [edgeStart, h1], by simp [edgeEnd, h2], h3, hk1, hk2, ⟨rfl, fun _ _ => rfl, D.attrs, ?_, ?_⟩,
    rfl, ?_⟩
  · intro g' x hx
    obtain ⟨k, hk⟩ := (mem_graphNodes R).1 hx
    refine ⟨_, R.outwardEdges hk, ?_⟩
    have ho : (k2.node x).outE = ((A.graph g').out k).filter (fun p => decide (p.2 ≠ e)) := by
      rw [← (hgr g' k).1]; exact R'.outE g' k x (by rw [hnodes]; exact hk)
    have heq : dvals (k2.node x).outE = (((A.graph g').out k).map Prod.snd).filter (fun f => decide (f ≠ e)) := by
      rw [ho, ← filter_handles (p := fun p => decide (p.2 ≠ e)) (by simp)]; rfl
    unfold outwardEdges
    rw [heq, half_dedup R (h' := k2) (g := g') rfl (fun _ => rfl)
      (fun f hf => Rep.out_handles f (List.mem_filter.1 hf).1) (by simp),
      dedupInto_nil_nodup _ ((R.out_nodup g' k).filter _)]
  · intro g' x hx
    obtain ⟨k, hk⟩ := (mem_graphNodes R).1 hx
    refine ⟨_, R.inwardEdges hk, ?_⟩
    have ho : (k2.node x).inE = ((A.graph g').inn k).filter (fun p => decide (p.2 ≠ e)) := by
      rw [← (hgr g' k).2]; exact R'.inE g' k x (by rw [hnodes]; exact hk)
    have heq : dvals (k2.node x).inE = (((A.graph g').inn k).map Prod.snd).filter (fun f => decide (f ≠ e)) := by
      rw [ho, ← filter_handles (p := fun p => decide (p.2 ≠ e)) (by simp)]; rfl
    unfold inwardEdges
    rw [heq, half_dedup R (h' := k2) (g := g') rfl (fun _ => rfl)
      (fun f hf => Rep.inn_handles f (List.mem_filter.1 hf).1) (by simp),
      dedupInto_nil_nodup _ ((R.inn_nodup g' k).filter _)]
  · refine HalfGone.disconnect ⟨s, t, h1, h2, ?_⟩
    obtain ⟨a, b, c⟩ := i
    have hn : (k2.node s).id = a := (R.nodeOk g _ s h6).2.1
    have hm : (k2.node t).id = b := (R.nodeOk g _ t h7).2.1
    have hr : (k2.edge e).raw = c := (R.edgeOk g a b c e hi).2.2.2.1
    rw [hn, hm, hr]
    show dget (if s = s then ddel (h.node s).outE (a, b, c) else _) _ = _
    rw [if_pos rfl, dget_none]
    intro hc
    obtain ⟨p, hp, hpi⟩ := List.mem_map.1 hc
    exact (mem_ddel.1 hp).2 hpi

/-- **C90, what holds**: `append_outward_edge` and `append_inward_edge` of an edge at its own ends change nothing, and after
`remove_outward_edge` they put the edge back, at the end of the list. -/
theorem C90_append_partial {h : Heap} (r : Reachable h) {g : GRef} {e : ERef} (he : LiveEdge h g e) :
    ∃ s t i, edgeStart h e = .ok s ∧ edgeEnd h e = .ok t ∧ edgeId h e = .ok i ∧
      appendOutwardEdge s e h = (.ok (), h) ∧ appendInwardEdge t e h = (.ok (), h) ∧
      ∃ h1 h2 os, removeOutwardEdge s i h = (.ok (), h1) ∧ appendOutwardEdge s e h1 = (.ok (), h2) ∧
        outwardEdges h s = .ok os ∧ outwardEdges h2 s = .ok (os.filter (fun f => decide (f ≠ e)) ++ [e]) ∧
        (∀ x, x ≠ s → h2.node x = h.node x) ∧ (h2.node s = { h.node s with outE := (h2.node s).outE }) ∧
        h2.edge = h.edge ∧ h2.graph = h.graph := by
  obtain ⟨A, H⟩ := r.hist
  have R := H.rep
  obtain ⟨i, hi⟩ := (liveEdge_iff R).1 he
  obtain ⟨s, t, h1, h2, h3, h4, h5, h6, h7⟩ := R.live_edge hi
  have updself : ∀ x (o : NodeObj), h.node x = o → ({ h with node := upd h.node x o } : Heap) = h := by
    intro x o ho
    have : upd h.node x o = h.node := by
      funext y; by_cases hy : y = x
      · subst hy; simp [ho]
      · rw [upd_ne _ _ hy]
    rw [this]
  let k1 : Heap := { h with node := upd h.node s { h.node s with outE := ddel (h.node s).outE i } }
  have hk1 : removeOutwardEdge s i h = (.ok (), k1) := by
    simp only [removeOutwardEdge, bind_apply, look_apply, h4, modNode]; rfl
  have hid : ∀ x, (k1.node x).id = (h.node x).id := by
    intro x; show (upd h.node s _ x).id = _
    by_cases hx : x = s
    · subst hx; simp
    · rw [upd_ne _ _ hx]
  have hid1 : edgeId k1 e = .ok i := by
    rw [← h3]
    simp only [edgeId, hid]
    rfl
  have hgone : i ∉ (ddel (h.node s).outE i).map Prod.fst := by
    intro hc
    obtain ⟨p, hp, hpi⟩ := List.mem_map.1 hc
    exact (mem_ddel.1 hp).2 hpi
  let k2 : Heap := { h with node := upd h.node s { h.node s with outE := ddel (h.node s).outE i ++ [(i, e)] } }
  have hk2 : appendOutwardEdge s e k1 = (.ok (), k2) := by
    simp only [appendOutwardEdge, bind_apply, ask_apply, hid1, modNode]
    show (_, ({ h with node := upd (upd h.node s _) s { upd h.node s _ s with outE := dset (upd h.node s _ s).outE i e } } : Heap)) = _
    rw [upd_same, upd_upd, dset_of_not_mem hgone]
  have hid2 : ∀ x, (k2.node x).id = (h.node x).id := by
    intro x; show (upd h.node s _ x).id = _
    by_cases hx : x = s
    · subst hx; simp
    · rw [upd_ne _ _ hx]
  have heq : dvals (k2.node s).outE = (((A.graph g).out i.1).map Prod.snd).filter (fun f => decide (f ≠ e)) ++ [e] := by
    show ((upd h.node s _ s).outE).map Prod.snd = _
    rw [upd_same]
    simp only [List.map_append, List.map_cons, List.map_nil]
    congr 1
    rw [R.outE g _ s h6, ← filter_handles (p := fun p => decide (p.1 ≠ i))]
    · rfl
    · rintro ⟨j, f⟩ hp
      have hp' := (List.mem_filter.1 hp).1
      simp only [decide_eq_decide]
      refine not_congr ⟨?_, ?_⟩
      · rintro rfl; exact val_unique (R.idsNodup g) hp' hi
      · rintro rfl; exact (R.handle_unique hp' hi).2
  refine ⟨s, t, i, by simp [edgeStart, h1], by simp [edgeEnd, h2], h3, ?_, ?_, k1, k2, _, hk1, hk2, R.outwardEdges h6, ?_, ?_, ?_,
    rfl, rfl⟩
  · simp only [appendOutwardEdge, bind_apply, ask_apply, h3, modNode, dset_same h4]
    exact congrArg _ (updself s _ rfl)
  · simp only [appendInwardEdge, bind_apply, ask_apply, h3, modNode, dset_same h5]
    exact congrArg _ (updself t _ rfl)
  · unfold outwardEdges
    rw [heq, half_dedup R (h' := k2) (g := g) rfl hid2 ?_ (by simp), dedupInto_nil_nodup]
    · rw [List.nodup_append]
      refine ⟨(R.out_nodup g i.1).filter _, by simp, ?_⟩
      intro x hx y hy
      simp only [List.mem_singleton] at hy
      subst hy
      simpa using (List.mem_filter.1 hx).2
    · intro f hf
      rcases List.mem_append.1 hf with hf | hf
      · exact Rep.out_handles f (List.mem_filter.1 hf).1
      · simp only [List.mem_singleton] at hf
        subst hf; exact Rep.mem_handles.2 ⟨i, hi⟩
  · intro x hx; exact upd_ne _ _ hx
  · show upd h.node s _ s = _
    simp only [k2, upd_same]

/-- **C90 fails for every edge and every other node of its graph**: `node.append_outward_edge(edge)` lists the edge among the
outward edges of a node at which it does not start, and its end among the children of that node. -/
theorem C90_append_violated {h : Heap} (r : Reachable h) {g : GRef} {e : ERef} (he : LiveEdge h g e) {x : NRef}
    (hx : x ∈ graphNodes h g) (hne : edgeStart h e ≠ .ok x) :
    ∃ s t h' os, appendOutwardEdge x e h = (.ok (), h') ∧ outwardEdges h x = .ok os ∧ outwardEdges h' x = .ok (os ++ [e]) ∧
      edgeStart h' e = .ok s ∧ s ≠ x ∧ edgeEnd h' e = .ok t ∧
      ∃ cs, getChildren h g (.node x) = .ok cs ∧ getChildren h' g (.node x) = .ok (cs ++ [t]) := by
  obtain ⟨A, H⟩ := r.hist
  have R := H.rep
  obtain ⟨i, hi⟩ := (liveEdge_iff R).1 he
  obtain ⟨s, t, h1, h2, h3, h4, h5, h6, h7⟩ := R.live_edge hi
  obtain ⟨k, hk⟩ := (mem_graphNodes R).1 hx
  have hik : i.1 ≠ k := fun hc => hne ((edge_ends R hk hi).1.2 hc)
  have hnot : i ∉ (h.node x).outE.map Prod.fst := by
    rw [R.outE g k x hk]
    intro hc
    obtain ⟨p, hp, rfl⟩ := List.mem_map.1 hc
    have := (List.mem_filter.1 hp).2
    exact hik (by simpa using this)
  let h' : Heap := { h with node := upd h.node x { h.node x with outE := (h.node x).outE ++ [(i, e)] } }
  have hrun : appendOutwardEdge x e h = (.ok (), h') := by
    simp only [appendOutwardEdge, bind_apply, ask_apply, h3, modNode, dset_of_not_mem hnot]; rfl
  have hid : ∀ y, (h'.node y).id = (h.node y).id := by
    intro y; show (upd h.node x _ y).id = _
    by_cases hy : y = x
    · subst hy; simp
    · rw [upd_ne _ _ hy]
  have hout : outwardEdges h' x = .ok (((A.graph g).out k).map Prod.snd ++ [e]) := by
    have heq : dvals (h'.node x).outE = ((A.graph g).out k).map Prod.snd ++ [e] := by
      show ((upd h.node x _ x).outE).map Prod.snd = _
      rw [upd_same, R.outE g k x hk]
      simp
    unfold outwardEdges
    rw [heq, half_dedup R (h' := h') (g := g) rfl hid ?_ (by simp), dedupInto_nil_nodup]
    · rw [List.nodup_append]
      refine ⟨R.out_nodup g k, by simp, ?_⟩
      intro y hy z hz
      simp only [List.mem_singleton] at hz
      subst hz
      rintro rfl
      obtain ⟨j, hj, hj'⟩ := Rep.mem_out_handles.1 hy
      rw [(R.handle_unique hj hi).2] at hj'
      exact hik hj'
    · intro f hf
      rcases List.mem_append.1 hf with hf | hf
      · exact Rep.out_handles f hf
      · simp only [List.mem_singleton] at hf
        subst hf; exact Rep.mem_handles.2 ⟨i, hi⟩
  have hgx : getNode h g (.node x) = .ok x := getNode_self r hx
  have hgx' : getNode h' g (.node x) = .ok x := by
    rw [← hgx]; simp only [getNode, hid]; rfl
  have hends : edgeEnd h' = edgeEnd h := rfl
  refine ⟨s, t, h', _, hrun, R.outwardEdges hk, hout, ?_, ?_, ?_, kids h x, getChildren_eq r hgx, ?_⟩
  · show edgeStart h e = _; simp [edgeStart, h1]
  · rintro rfl; exact hne (by simp [edgeStart, h1])
  · show edgeEnd h e = _; simp [edgeEnd, h2]
  · have hc := getChildren_eq r hgx
    simp only [getChildren, getOutwardEdges, hgx, R.outwardEdges hk, bind, Except.bind] at hc
    simp only [getChildren, getOutwardEdges, hgx', hout, bind, Except.bind, hends, List.mapM_append, hc]
    simp [edgeEnd, h2, bind, Except.bind, pure, Except.pure]

example : (1 : NRef) ∈ graphNodes demo 0 ∧ edgeStart demo 0 ≠ .ok 1 ∧
    getChildren (appendOutwardEdge 1 0 demo).2 0 (.node 1) = .ok [2, 1] := by decide +kernel

end Verif
