import Verif.Props.Shape
import Verif.Props.Append
import Verif.Lemmas.Alone
/-!
# C103: the order in which a graph is described
-/
namespace Verif
open M

theorem Untouched.live_iff {h h' : Heap} {g : GRef} (u : Untouched h h' g) {e : ERef} (r : Reachable h)
    (r' : Reachable h') : LiveEdge h' g e ↔ LiveEdge h g e := by
  refine ⟨fun he => ?_, fun he => u.live he r r'⟩
  obtain ⟨A, H⟩ := r.hist
  obtain ⟨B, H'⟩ := r'.hist
  obtain ⟨i, hi⟩ := (liveEdge_iff H'.rep).1 he
  obtain ⟨n, hn, _, ho⟩ := H'.rep.edge_out hi
  have hm : n ∈ Verif.graphNodes h g := by rw [← u.graphNodes]; exact (mem_graphNodes H'.rep).2 ⟨_, hn⟩
  obtain ⟨k, hk⟩ := (mem_graphNodes H.rep).1 hm
  rw [u.nodes n hm, H.rep.outE g k n hk] at ho
  exact (liveEdge_iff H.rep).2 ⟨i, (List.mem_filter.1 ho).1⟩

/-- Graph `g` has the nodes and edges of `d`, in whatever order. -/
structure Sketch (h : Heap) (g : GRef) (d : Draft) : Prop where
  strict : (h.graph g).strict = d.strict
  ordering : (h.graph g).ordering = d.ordering
  node : ∀ v, v ∈ d.nodes ↔ ∃ n ∈ graphNodes h g, seenNode h n = v
  edge : ∀ v, v ∈ d.edges ↔ ∃ e, LiveEdge h g e ∧ seenEdge h e = .ok v

theorem Draws.sketch {h : Heap} {g : GRef} {d : Draft} (D : Draws h g d) : Sketch h g d := by
  obtain ⟨es, -, e2, e3, e4⟩ := D.edges
  have live : ∀ e, LiveEdge h g e ↔ e ∈ es := by
    intro e
    constructor
    · rintro ⟨n, hn, os, ho, he⟩
      rw [(e3 n hn).2.1] at ho
      obtain rfl := Except.ok.inj ho
      exact (List.mem_filter.1 he).1
    · intro he
      obtain ⟨-, ⟨n, hn, hs⟩, -⟩ := e4 e he
      exact ⟨n, hn, _, (e3 n hn).2.1, List.mem_filter.2 ⟨he, by simpa using hs⟩⟩
  refine ⟨D.strict, D.ordering, fun v => by rw [← D.nodes]; simp, fun v => ?_⟩
  have : v ∈ d.edges ↔ Except.ok v ∈ es.map (seenEdge h) := by rw [e2]; simp
  rw [this]
  simp [live]

theorem Sketch.untouched {h h' : Heap} (r : Reachable h) (r' : Reachable h') {g : GRef} {d : Draft} (D : Sketch h g d)
    (u : Untouched h h' g) : Sketch h' g d := by
  refine ⟨by rw [u.graph]; exact D.strict, by rw [u.graph]; exact D.ordering, fun v => ?_, fun v => ?_⟩
  · rw [D.node, u.graphNodes]
    refine exists_congr fun n => and_congr_right fun hn => ?_
    rw [seenNode, seenNode, u.nodes n hn]
  · rw [D.edge]
    refine exists_congr fun e => ?_
    rw [u.live_iff r r']
    refine and_congr_right fun he => ?_
    obtain ⟨n, m, h1, h2⟩ := liveEdge_ends r he
    obtain ⟨x1, x2⟩ := arrow_mem r ⟨e, he, h1, h2⟩
    obtain ⟨A, H⟩ := r.hist
    obtain ⟨B, H'⟩ := r'.hist
    obtain ⟨i, hi⟩ := (liveEdge_iff H.rep).1 he
    obtain ⟨j, hj⟩ := (liveEdge_iff H'.rep).1 ((u.live_iff r r').2 he)
    obtain ⟨n1, m1, b1, b2, b3, -, -, b6, b7⟩ := H.rep.live_edge hi
    obtain ⟨n2, m2, c1, c2, c3, -, -, c6, c7⟩ := H'.rep.live_edge hj
    have hij : i = j := by
      have e1 := u.edges e he
      rw [e1] at c1 c2
      obtain rfl := Option.some.inj (b1.symm.trans c1)
      obtain rfl := Option.some.inj (b2.symm.trans c2)
      have k1 := (H.rep.nodeOk _ _ _ b6).2.1
      have k2 := (H.rep.nodeOk _ _ _ b7).2.1
      have k3 := (H'.rep.nodeOk _ _ _ c6).2.1
      have k4 := (H'.rep.nodeOk _ _ _ c7).2.1
      rw [u.nodes _ ((mem_graphNodes H.rep).2 ⟨_, b6⟩)] at k3
      rw [u.nodes _ ((mem_graphNodes H.rep).2 ⟨_, b7⟩)] at k4
      simp only [edgeId, e1, b1, b2] at b3 c3
      rw [u.nodes _ ((mem_graphNodes H.rep).2 ⟨_, b6⟩), u.nodes _ ((mem_graphNodes H.rep).2 ⟨_, b7⟩)] at c3
      exact Except.ok.inj (b3.symm.trans c3)
    subst hij
    simp only [seenEdge, H.rep.edgeId_eq hi, H'.rep.edgeId_eq hj, u.edges e he]

theorem Sketch.perm {h : Heap} {g : GRef} {d d' : Draft} (D : Sketch h g d) (hs : d.strict = d'.strict) (ho : d.ordering = d'.ordering)
    (hn : d.nodes.Perm d'.nodes) (he : d.edges.Perm d'.edges) : Sketch h g d' :=
  ⟨D.strict.trans hs, D.ordering.trans ho, fun v => by rw [← hn.mem_iff, D.node], fun v => by rw [← he.mem_iff, D.edge]⟩

theorem Sketch.names {h : Heap} {A : Spec} (H : Hist h A) {g : GRef} {d : Draft} (D : Sketch h g d) (k : Key) :
    k ∈ (A.graph g).names ↔ k ∈ d.names := by
  have R := H.rep
  constructor
  · intro hk
    obtain ⟨⟨k, n⟩, hn, rfl⟩ := List.mem_map.1 hk
    exact List.mem_map.2 ⟨_, (D.node _).2 ⟨n, (mem_graphNodes R).2 ⟨_, hn⟩, rfl⟩, (R.nodeOk _ _ _ hn).2.1⟩
  · intro hk
    obtain ⟨v, hv, rfl⟩ := List.mem_map.1 hk
    obtain ⟨n, hn, rfl⟩ := (D.node v).1 hv
    obtain ⟨k, hk⟩ := (mem_graphNodes R).1 hn
    exact List.mem_map.2 ⟨_, hk, (R.nodeOk _ _ _ hk).2.1.symm⟩

/-- What is seen of an edge with id `i`. -/
def edgeSeenAs (h : Heap) (e : ERef) (i : EdgeId) : EdgeD :=
  ⟨i, (h.edge e).label, (h.edge e).value, (h.edge e).tooltip, (h.edge e).params, (h.edge e).style.isSome⟩

theorem seenEdge_as {h : Heap} {A : Spec} (R : Rep h A) {g : GRef} {i : EdgeId} {e : ERef} (hi : (i, e) ∈ (A.graph g).edges) :
    seenEdge h e = .ok (edgeSeenAs h e i) := by
  simp only [seenEdge, R.edgeId_eq hi]; rfl

theorem seenEdge_id {h : Heap} {e : ERef} {v : EdgeD} (hv : seenEdge h e = .ok v) : edgeId h e = .ok v.id := by
  unfold seenEdge at hv
  cases hi : edgeId h e with
  | error x => rw [hi] at hv; cases hv
  | ok i => rw [hi] at hv; rw [← Except.ok.inj hv]

theorem Sketch.ids {h : Heap} {A : Spec} (H : Hist h A) {g : GRef} {d : Draft} (D : Sketch h g d) (i : EdgeId) :
    i ∈ (A.graph g).ids ↔ i ∈ d.ids := by
  have R := H.rep
  rw [Rep.mem_ids]
  constructor
  · rintro ⟨e, he⟩
    have hs := seenEdge_as R he
    exact List.mem_map.2 ⟨_, (D.edge _).2 ⟨e, (liveEdge_iff R).2 ⟨i, he⟩, hs⟩, rfl⟩
  · intro hi
    obtain ⟨v, hv, rfl⟩ := List.mem_map.1 hi
    obtain ⟨e, he, hs⟩ := (D.edge v).1 hv
    obtain ⟨j, hj⟩ := (liveEdge_iff R).1 he
    have := (R.edgeId_eq hj).symm.trans (seenEdge_id hs)
    rw [← Except.ok.inj this]
    exact ⟨e, hj⟩

/-- Graphs with the same, unstyled, nodes and edges are similar. -/
theorem Sketch.similar {h : Heap} (r : Reachable h) {g g' : GRef} {d : Draft} (D : Sketch h g d) (D' : Sketch h g' d)
    (hn : ∀ v ∈ d.nodes, v.styled = false) (he : ∀ v ∈ d.edges, v.styled = false) : graphSimilar h g g' = .ok true := by
  obtain ⟨A, H⟩ := r.hist
  have R := H.rep
  rw [C42_exact H]
  refine ⟨fun k => by rw [D.names H, D'.names H], fun i => by rw [D.ids H, D'.ids H], ?_, ?_, D.strict.trans D'.strict.symm,
    D.ordering.trans D'.ordering.symm⟩
  · intro k n n' hk hk'
    have m := (D'.node _).2 ⟨n', (mem_graphNodes R).2 ⟨_, hk'⟩, rfl⟩
    obtain ⟨x, hx, e⟩ := (D.node _).1 m
    have hid : (h.node x).id = (h.node n').id := congrArg NodeD.name e
    obtain rfl := node_eq_of_name r hx ((mem_graphNodes R).2 ⟨_, hk⟩)
      (hid.trans ((R.nodeOk _ _ _ hk').2.1.trans (R.nodeOk _ _ _ hk).2.1.symm))
    have s1 : (h.node x).style.isSome = false := by rw [← hn _ m, ← e]; rfl
    have s2 : (h.node n').style.isSome = false := hn _ m
    refine ⟨congrArg NodeD.value e, ?_, fun k => ?_⟩
    · rw [Option.isSome_eq_false_iff, Option.isNone_iff_eq_none] at s1 s2
      rw [s1, s2]
    · have : (h.node x).params = (h.node n').params := congrArg NodeD.params e
      rw [this]
  · intro i e e' hk hk'
    have hs' := seenEdge_as R hk'
    have m := (D'.edge _).2 ⟨e', (liveEdge_iff R).2 ⟨_, hk'⟩, hs'⟩
    obtain ⟨x, hx, q⟩ := (D.edge _).1 m
    obtain ⟨j, hj⟩ := (liveEdge_iff R).1 hx
    have hij : j = i := Except.ok.inj ((R.edgeId_eq hj).symm.trans (seenEdge_id q))
    subst hij
    obtain rfl := val_unique (R.idsNodup g) hj hk
    have q' := seenEdge_as R hj
    have eq := Except.ok.inj (q'.symm.trans q)
    have s2 : (h.edge e').style.isSome = false := he _ m
    have s1 : (h.edge x).style.isSome = false := by rw [← s2]; exact congrArg EdgeD.styled eq
    refine ⟨congrArg EdgeD.value eq, ?_, fun k => ?_⟩
    · rw [Option.isSome_eq_false_iff, Option.isNone_iff_eq_none] at s1 s2
      rw [s1, s2]
    · have : (h.edge x).params = (h.edge e').params := congrArg EdgeD.params eq
      rw [this]

/-- Graphs with the same names, and edges between the same names, have the same shape. -/
theorem Sketch.shape {h h' : Heap} (r : Reachable h) (r' : Reachable h') {g g' : GRef} {d d' : Draft} (D : Sketch h g d)
    (D' : Sketch h' g' d') (hn : ∀ k, k ∈ d.names ↔ k ∈ d'.names)
    (he : ∀ s t, (∃ i, (s, t, i) ∈ d.ids) ↔ ∃ i, (s, t, i) ∈ d'.ids) : OneShape h g h' g' := by
  obtain ⟨A, H⟩ := r.hist
  obtain ⟨A', H'⟩ := r'.hist
  refine sameShape_of H.rep H'.rep (fun k => ?_) fun s t => ?_
  · rw [D.names H, D'.names H', hn]
  · simp only [D.ids H, D'.ids H', he]

/-- The edge that an edge description makes, if its id is new. -/
def EdgeItem.seen (x : EdgeItem) : Option EdgeD := x.args.map fun q =>
  { id := (q.1, q.2.1, q.2.2.1.raw), label := q.2.2.1.label, value := q.2.2.1.value, tooltip := q.2.2.1.tooltip,
    params := q.2.2.1.kwargs, styled := decide (q.2.2.1.style ≠ .none) }

theorem foldl_addItem (l : List EdgeItem) (d : Draft) (hnd : (l.filterMap EdgeItem.id).Nodup)
    (hdis : ∀ i ∈ l.filterMap EdgeItem.id, i ∉ d.ids) :
    (l.foldl Draft.addItem d).edges = d.edges ++ l.filterMap EdgeItem.seen := by
  induction l generalizing d with
  | nil => simp
  | cons x l ih =>
    rw [List.foldl_cons]
    cases hx : x.args with
    | none =>
      have e1 : d.addItem x = d := by simp [Draft.addItem, hx]
      have e2 : (x :: l).filterMap EdgeItem.id = l.filterMap EdgeItem.id := by simp [EdgeItem.id, hx]
      have e3 : (x :: l).filterMap EdgeItem.seen = l.filterMap EdgeItem.seen := by simp [EdgeItem.seen, hx]
      rw [e2] at hnd hdis
      rw [e1, e3]
      exact ih d hnd hdis
    | some q =>
      obtain ⟨s, t, a, p⟩ := q
      have e1 : d.addItem x = d.connect s t a := by simp [Draft.addItem, hx]
      have e2 : (x :: l).filterMap EdgeItem.id = (s, t, a.raw) :: l.filterMap EdgeItem.id := by simp [EdgeItem.id, hx]
      have e3 : (x :: l).filterMap EdgeItem.seen =
          ⟨(s, t, a.raw), a.label, a.value, a.tooltip, a.kwargs, decide (a.style ≠ .none)⟩ :: l.filterMap EdgeItem.seen := by simp [EdgeItem.seen, hx]
      rw [e2] at hnd hdis
      have hnew : (s, t, a.raw) ∉ d.ids := hdis _ (by simp)
      obtain ⟨hn1, hn2⟩ := List.nodup_cons.1 hnd
      rw [e1, e3, ih _ hn2]
      · simp [Draft.connect, hnew]
      · intro i hi
        have := hdis i (List.mem_cons_of_mem _ hi)
        intro hc
        have hd : (d.connect s t a).ids = d.ids ++ [(s, t, a.raw)] := by simp only [Draft.connect, hnew, if_false]; simp [Draft.ids]
        rw [hd, List.mem_append, List.mem_singleton] at hc
        rcases hc with hc | rfl
        · exact this hc
        · exact hn1 hi

theorem seen_unstyled {names : List Key} {l : List EdgeItem} (hed : ∀ x ∈ l, x.Good names) :
    ∀ v ∈ l.filterMap EdgeItem.seen, v.styled = false := by
  intro v hv
  obtain ⟨x, hx, hs⟩ := List.mem_filterMap.1 hv
  obtain ⟨s, t, a, p, h1, -, -, -, h5⟩ := hed x hx
  simp only [EdgeItem.seen, h1, Option.map_some, Option.some.injEq] at hs
  rw [← hs]
  simp [h5]

theorem fromDict_lt {h h' : Heap} (r : Reachable h) {x : Appendable} {g : GRef} (hr : fromDict x h = (.ok g, h')) : g < h'.nG := by
  have e : graphInit false true false h = (.ok h.nG, (graphInit false true false h).2) := rfl
  have r1 : Reachable (graphInit false true false h).2 := Reachable.step (.newGraph false true false) r trivial
  have hlt : h.nG < (graphInit false true false h).2.nG := Nat.lt_succ_self _
  have a := (Alone.append (g := h.nG) x).alone _ r1 hlt
  rw [fromDict, bind_apply, e] at hr
  simp only [bind_apply] at hr
  cases hx : append h.nG x (graphInit false true false h).2 with
  | mk res h2 =>
    rw [hx] at hr a
    cases res with
    | error err => cases hr
    | ok u =>
      simp only [pure_apply, Prod.mk.injEq, Except.ok.injEq] at hr
      rw [← hr.1, ← hr.2]
      exact Nat.lt_of_lt_of_le hlt a.2.1

/-- **C103**: two dictionaries that list the same nodes and the same edges in different orders give similar graphs. -/
theorem C103_from_dict {h : Heap} (r : Reachable h) {nodes nodes' : List (String × NodeArgs × IfExists)} {edges edges' : List EdgeItem}
    (strict ordering : Option Bool) (label label' : Option String) (hp : nodes.Perm nodes') (hq : edges.Perm edges')
    (hnd : (nodes.map Prod.fst).Nodup) (hst : ∀ q ∈ nodes, q.2.1.style = .none)
    (hed : ∀ x ∈ edges, x.Good (nodes.map fun q => .str q.1)) (hids : (edges.filterMap EdgeItem.id).Nodup) :
    ∃ h1 h2, fromDict (.dict { strict := strict, ordering := ordering, label := label.map .str, edges := some edges,
                               nodes := some (.dict (nodes.map fun q => (.str q.1, q.2))) }) h = (.ok h.nG, h1) ∧
      fromDict (.dict { strict := strict, ordering := ordering, label := label'.map .str, edges := some edges',
                        nodes := some (.dict (nodes'.map fun q => (.str q.1, q.2))) }) h1 = (.ok h1.nG, h2) ∧
      graphSimilar h2 h.nG h1.nG = .ok true := by
  have valid : ∀ {l : List (String × NodeArgs × IfExists)}, (∀ q ∈ l, q.2.1.style = .none) → ∀ q ∈ l, q.2.1.style.Valid :=
    fun hl q hq => by rw [hl q hq]; trivial
  have hst' : ∀ q ∈ nodes', q.2.1.style = .none := fun q hq => hst q (hp.mem_iff.2 hq)
  have hed' : ∀ x ∈ edges', x.Good (nodes'.map fun q => .str q.1) := by
    intro x hx
    obtain ⟨s, t, a, p, h1, h2, h3, h4⟩ := hed x (hq.mem_iff.2 hx)
    exact ⟨s, t, a, p, h1, (hp.map _).mem_iff.1 h2, (hp.map _).mem_iff.1 h3, h4⟩
  obtain ⟨h1, d, e1, r1, D, f1, f2, f3, f4, -, -⟩ := C37_from_dict r nodes edges strict ordering label hnd (valid hst) hed
  obtain ⟨h2, d', e2, r2, D', f1', f2', f3', f4', -, u⟩ := C37_from_dict r1 nodes' edges' strict ordering label'
    ((hp.map _).nodup_iff.1 hnd) (valid hst') hed'
  have hlt := fromDict_lt r e1
  have S := D.sketch.untouched r1 r2 (u _ hlt)
  rw [foldl_addItem _ _ hids (by simp [Draft.ids])] at f4
  rw [foldl_addItem _ _ ((hq.filterMap _).nodup_iff.1 hids) (by simp [Draft.ids])] at f4'
  simp only [List.nil_append] at f4 f4'
  have S' := D'.sketch.perm (d' := d) (f1'.trans f1.symm) (f2'.trans f2.symm)
    (by rw [f3, f3']; exact (hp.map _).symm) (by rw [f4, f4']; exact (hq.filterMap _).symm)
  refine ⟨h1, h2, e1, e2, S.similar r2 S' ?_ ?_⟩
  · rw [f3]
    intro v hv
    obtain ⟨q, hq, rfl⟩ := List.mem_map.1 hv
    simp [hst q hq]
  · rw [f4]
    exact seen_unstyled hed

/-- **C103**: in any case the graphs have the same shape, also if edges are repeated, and whatever graphs there were before. -/
theorem C103_from_dict_shape {h h' : Heap} (r : Reachable h) (r' : Reachable h') {nodes nodes' : List (String × NodeArgs × IfExists)}
    {edges edges' : List EdgeItem} (strict ordering strict' ordering' : Option Bool) (label label' : Option String)
    (hp : (nodes.map Prod.fst).Perm (nodes'.map Prod.fst)) (hq : (edges.filterMap EdgeItem.id).Perm (edges'.filterMap EdgeItem.id))
    (hnd : (nodes.map Prod.fst).Nodup) (hst : ∀ q ∈ nodes, q.2.1.style.Valid) (hst' : ∀ q ∈ nodes', q.2.1.style.Valid)
    (hed : ∀ x ∈ edges, x.Good (nodes.map fun q => .str q.1)) (hed' : ∀ x ∈ edges', x.Good (nodes'.map fun q => .str q.1)) :
    ∃ h1 h2, fromDict (.dict { strict := strict, ordering := ordering, label := label.map .str, edges := some edges,
                               nodes := some (.dict (nodes.map fun q => (.str q.1, q.2))) }) h = (.ok h.nG, h1) ∧
      fromDict (.dict { strict := strict', ordering := ordering', label := label'.map .str, edges := some edges',
                        nodes := some (.dict (nodes'.map fun q => (.str q.1, q.2))) }) h' = (.ok h'.nG, h2) ∧
      Reachable h1 ∧ Reachable h2 ∧ OneShape h1 h.nG h2 h'.nG := by
  obtain ⟨h1, d, e1, r1, D, -, -, f3, -, f5, -⟩ := C37_from_dict r nodes edges strict ordering label hnd hst hed
  obtain ⟨h2, d', e2, r2, D', -, -, f3', -, f5', -⟩ := C37_from_dict r' nodes' edges' strict' ordering' label' (hp.nodup_iff.1 hnd) hst' hed'
  refine ⟨h1, h2, e1, e2, r1, r2, D.sketch.shape r1 r2 D'.sketch (fun k => ?_) fun s t => ?_⟩
  · simp only [Draft.names, f3, f3', List.map_map]
    have := (hp.map Key.str).mem_iff (a := k)
    simpa [Function.comp_def] using this
  · simp only [f5, f5', mem_firsts, hq.mem_iff]

/-- **C103**: `from_lists` of the same rows in different orders gives graphs of the same shape. -/
theorem C103_from_lists {h h' : Heap} (r : Reachable h) (r' : Reachable h') (start stop start' stop' : List String) (edge edge' : List Val)
    (strict strict' : Bool) (hp : (start.zip (stop.zip edge)).Perm (start'.zip (stop'.zip edge'))) :
    ∃ h1 h2, fromLists (start.map .str) (stop.map .str) edge strict h = (.ok h.nG, h1) ∧
      fromLists (start'.map .str) (stop'.map .str) edge' strict' h' = (.ok h'.nG, h2) ∧
      Reachable h1 ∧ Reachable h2 ∧ OneShape h1 h.nG h2 h'.nG := by
  obtain ⟨h1, e1, r1, D, -⟩ := C36_from_lists r start stop edge strict
  obtain ⟨h2, e2, r2, D', -⟩ := C36_from_lists r' start' stop' edge' strict'
  refine ⟨h1, h2, e1, e2, r1, r2, D.sketch.shape r1 r2 D'.sketch (fun k => ?_) fun s t => ?_⟩
  · have : ∀ x, x ∈ rowNames (rowsOf start stop edge) ↔ x ∈ rowNames (rowsOf start' stop' edge') := by
      intro x
      simp only [rowNames, rowsOf, List.mem_flatMap, hp.mem_iff]
    simp [Draft.names, mem_firsts, this]
  · have ids : ∀ rows : List (String × String × Val), (∃ i, (s, t, i) ∈ (rows.mapIdx fun i row =>
        ({ id := (.str row.1, .str row.2.1, .key (.int i)), label := row.2.2 } : EdgeD)).map EdgeD.id) ↔
        ∃ row ∈ rows, Key.str row.1 = s ∧ Key.str row.2.1 = t := by
      intro rows
      constructor
      · rintro ⟨i, hi⟩
        obtain ⟨v, hv, e⟩ := List.mem_map.1 hi
        obtain ⟨j, hj, rfl⟩ := List.mem_mapIdx.1 hv
        simp only [Prod.mk.injEq] at e
        exact ⟨_, List.getElem_mem hj, e.1, e.2.1⟩
      · rintro ⟨row, hrow, rfl, rfl⟩
        obtain ⟨j, hj, rfl⟩ := List.getElem_of_mem hrow
        exact ⟨.key (.int j), List.mem_map.2 ⟨_, List.mem_mapIdx.2 ⟨j, hj, rfl⟩, rfl⟩⟩
    simp only [Draft.ids, ids, rowsOf, hp.mem_iff]

/-- **C103**, the limit of it for `from_lists`: the number of the row is part of the id of the edge, so two lists of rows that have different
ends in some place never give similar graphs, even if they are the same rows in another order. -/
theorem C103_from_lists_differ {h : Heap} (r : Reachable h) (start stop start' stop' : List String) (edge edge' : List Val)
    (strict strict' : Bool) {i : Nat} {x y x' y' : String} {v v' : Val} (hi : (start.zip (stop.zip edge))[i]? = some (x, y, v))
    (hi' : (start'.zip (stop'.zip edge'))[i]? = some (x', y', v')) (hne : x ≠ x' ∨ y ≠ y') :
    ∃ h1 h2, fromLists (start.map .str) (stop.map .str) edge strict h = (.ok h.nG, h1) ∧
      fromLists (start'.map .str) (stop'.map .str) edge' strict' h1 = (.ok h1.nG, h2) ∧ graphSimilar h2 h.nG h1.nG ≠ .ok true := by
  obtain ⟨h1, e1, r1, D, -⟩ := C36_from_lists r start stop edge strict
  obtain ⟨h2, e2, r2, D', u⟩ := C36_from_lists r1 start' stop' edge' strict'
  refine ⟨h1, h2, e1, e2, fun hs => ?_⟩
  obtain ⟨A, H⟩ := r2.hist
  rw [C42_exact H] at hs
  have hlt : h.nG < h1.nG := by
    obtain ⟨hl, hv⟩ := List.getElem?_eq_some_iff.1 hi
    have : ({ name := .str x } : NodeD) ∈ (firsts (rowNames (rowsOf start stop edge))).map fun x => ({ name := .str x } : NodeD) := by
      refine List.mem_map.2 ⟨x, mem_firsts.2 (List.mem_flatMap.2 ⟨_, List.getElem_mem hl, ?_⟩), rfl⟩
      rw [hv]; simp
    obtain ⟨n, hn, -⟩ := (D.sketch.node _).1 this
    exact lt_nG_of_getNode r1 (getNode_self r1 hn)
  have S := D.sketch.untouched r1 r2 (u _ hlt)
  have S' := D'.sketch
  have m : (Key.str x, Key.str y, RawId.key (.int i)) ∈ (A.graph h.nG).ids := by
    rw [S.ids H]
    obtain ⟨hl, hv⟩ := List.getElem?_eq_some_iff.1 hi
    refine List.mem_map.2 ⟨_, List.mem_mapIdx.2 ⟨i, hl, rfl⟩, ?_⟩
    simp only [rowsOf, hv]
  rw [hs.ids, S'.ids H] at m
  obtain ⟨w, hw, e⟩ := List.mem_map.1 m
  obtain ⟨j, hj, rfl⟩ := List.mem_mapIdx.1 hw
  simp only [Prod.mk.injEq, Key.str.injEq, RawId.key.injEq, Key.int.injEq] at e
  obtain ⟨q1, q2, q3⟩ := e
  have : j = i := by exact_mod_cast q3
  subst this
  obtain ⟨hl, hv⟩ := List.getElem?_eq_some_iff.1 hi'
  simp only [rowsOf, hv] at q1 q2
  rcases hne with hne | hne
  · exact hne q1.symm
  · exact hne q2.symm

end Verif
