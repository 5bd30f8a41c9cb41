import Verif.Lemmas.BookedRun
import Verif.Props.MonotoneCalls
import Verif.Props.Shape
/-!
# C107: a graph is its ledger

What the calls on a graph do and raise is a function of what can be seen of it.
-/
namespace Verif
open M

namespace Booked
variable {h : Heap} {A : Spec} {g : GRef} {L : Ledger}

/-- What a user sees. -/
theorem reads (B : Booked h A g L) : Reads h g L := by
  have R := B.rep
  refine ⟨B.strict, B.ordering, B.overwrite, ?_, (A.graph g).edges.map Prod.snd, R.handles_nodup g, ?_, ?_, ?_⟩
  · unfold graphNodes dvals
    rw [R.nodes, List.map_map]
    exact B.nodes
  · rw [← B.edges, List.map_map, List.map_map]
    apply List.map_congr_left
    rintro ⟨i, e⟩ hm
    simp only [Function.comp_apply, edgeEntry, R.edgeId_eq hm, entryAs]
    rfl
  · intro n hn
    obtain ⟨k, hk⟩ := (mem_graphNodes R).1 hn
    refine ⟨?_, ?_⟩
    · rw [R.outwardEdges hk, SGraph.out, filter_handles]
      rintro ⟨i, e⟩ hm
      simp only [(edge_ends R hk hm).1]
    · rw [R.inwardEdges hk, SGraph.inn, filter_handles]
      rintro ⟨i, e⟩ hm
      simp only [(edge_ends R hk hm).2]
  · intro e he
    obtain ⟨⟨i, e'⟩, hm, rfl⟩ := List.mem_map.1 he
    obtain ⟨n, m, h1, h2, -, -, -, h6, h7⟩ := R.live_edge hm
    refine ⟨⟨n, (mem_graphNodes R).2 ⟨_, h6⟩, ?_⟩, ⟨m, (mem_graphNodes R).2 ⟨_, h7⟩, ?_⟩⟩
    · simp [edgeStart, h1]
    · simp [edgeEnd, h2]

end Booked

/-- The abstract state can be chosen to fit the ledger. -/
theorem Reads.booked {h : Heap} {g : GRef} {L : Ledger} (K : Reads h g L) (r : Reachable h) (hg : g < h.nG) :
    ∃ A, Booked h A g L := by
  obtain ⟨A, H⟩ := r.hist
  have R := H.rep
  obtain ⟨es, e0, e1, e2, e3⟩ := K.edges
  -- every edge of `es` is an edge of the graph, and the other way round
  have live : ∀ e ∈ es, ∃ i, (i, e) ∈ (A.graph g).edges := by
    intro e he
    obtain ⟨⟨n, hn, hs⟩, -⟩ := e3 e he
    obtain ⟨k, hk⟩ := (mem_graphNodes R).1 hn
    have h1 := (e2 n hn).1
    rw [R.outwardEdges hk] at h1
    have h1 := Except.ok.inj h1
    have : e ∈ ((A.graph g).out k).map Prod.snd := by
      rw [h1]; exact List.mem_filter.2 ⟨he, by simpa using hs⟩
    obtain ⟨i, hi, -⟩ := Rep.mem_out_handles.1 this
    exact ⟨i, hi⟩
  have back : ∀ i e, (i, e) ∈ (A.graph g).edges → e ∈ es := by
    intro i e hi
    obtain ⟨n, m, h1, h2, -, -, -, h6, -⟩ := R.live_edge hi
    have h3 := (e2 n ((mem_graphNodes R).2 ⟨_, h6⟩)).1
    rw [R.outwardEdges h6] at h3
    have : e ∈ ((A.graph g).out i.1).map Prod.snd := Rep.mem_out_handles.2 ⟨i, hi, rfl⟩
    rw [Except.ok.inj h3] at this
    exact (List.mem_filter.1 this).1
  let idOf : ERef → EdgeId := fun e => match edgeId h e with | .ok i => i | .error _ => (.str "", .str "", .none)
  have idOf_eq : ∀ i e, (i, e) ∈ (A.graph g).edges → idOf e = i := by
    intro i e hi
    simp only [idOf, R.edgeId_eq hi]
  let E : List (EdgeId × ERef) := es.map fun e => (idOf e, e)
  have memE : ∀ p, p ∈ E ↔ p ∈ (A.graph g).edges := by
    rintro ⟨i, e⟩
    constructor
    · intro hp
      obtain ⟨e', he', hp⟩ := List.mem_map.1 hp
      cases hp
      obtain ⟨j, hj⟩ := live _ he'
      rw [idOf_eq j _ hj]
      exact hj
    · intro hp
      exact List.mem_map.2 ⟨e, back i e hp, by rw [idOf_eq i e hp]⟩
  have snd : ∀ l : List (EdgeId × ERef), (∀ p ∈ l, p ∈ (A.graph g).edges) → l = (l.map Prod.snd).map fun e => (idOf e, e) := by
    intro l hl
    rw [List.map_map]
    conv => lhs; rw [← List.map_id l]
    apply List.map_congr_left
    rintro ⟨i, e⟩ hp
    simp only [Function.comp_apply, idOf_eq i e (hl _ hp), id]
  have outEq : ∀ k n, (k, n) ∈ (A.graph g).nodes → E.filter (fun p => decide (p.1.1 = k)) = (A.graph g).out k := by
    intro k n hk
    have h1 := (e2 n ((mem_graphNodes R).2 ⟨_, hk⟩)).1
    rw [R.outwardEdges hk] at h1
    have h1 := Except.ok.inj h1
    rw [snd (E.filter _) (fun p hp => (memE p).1 (List.mem_filter.1 hp).1), snd ((A.graph g).out k) (fun p hp => (List.mem_filter.1 hp).1),
      h1, filter_handles (q := fun e => decide (edgeStart h e = .ok n))]
    · simp only [E, List.map_map, Function.comp_def, List.map_id']
      congr
    · rintro ⟨i, e⟩ hp
      simp only [(edge_ends R hk ((memE _).1 hp)).1]
  have innEq : ∀ k n, (k, n) ∈ (A.graph g).nodes → E.filter (fun p => decide (p.1.2.1 = k)) = (A.graph g).inn k := by
    intro k n hk
    have h1 := (e2 n ((mem_graphNodes R).2 ⟨_, hk⟩)).2
    rw [R.inwardEdges hk] at h1
    have h1 := Except.ok.inj h1
    rw [snd (E.filter _) (fun p hp => (memE p).1 (List.mem_filter.1 hp).1), snd ((A.graph g).inn k) (fun p hp => (List.mem_filter.1 hp).1),
      h1, filter_handles (q := fun e => decide (edgeEnd h e = .ok n))]
    · simp only [E, List.map_map, Function.comp_def, List.map_id']
      congr
    · rintro ⟨i, e⟩ hp
      simp only [(edge_ends R hk ((memE _).1 hp)).2]
  have idsNd : (E.map Prod.fst).Nodup := by
    simp only [E, List.map_map]
    refine (List.nodup_map_iff_inj_on e0).2 ?_
    intro e he f hf heq
    obtain ⟨i, hi⟩ := live e he
    obtain ⟨j, hj⟩ := live f hf
    simp only [Function.comp_apply, idOf_eq i e hi, idOf_eq j f hj] at heq
    subst heq
    exact val_unique (R.idsNodup g) hi hj
  refine ⟨A.on g fun G => { G with edges := E }, ?_, hg, K.strict, K.ordering, K.overwrite, ?_, ?_⟩
  · have on_graph : ∀ g', ((A.on g fun G => { G with edges := E }).graph g').nodes = (A.graph g').nodes := by
      intro g'
      by_cases hx : g' = g
      · subst hx; simp
      · rw [Spec.on_ne _ _ hx]
    have on_edges : ∀ g' p, p ∈ ((A.on g fun G => { G with edges := E }).graph g').edges ↔ p ∈ (A.graph g').edges := by
      intro g' p
      by_cases hx : g' = g
      · subst hx; simpa using memE p
      · rw [Spec.on_ne _ _ hx]
    refine ⟨R.name, R.home, fun g' => ?_, fun g' => ?_, fun g' k n hm => ?_, fun g1 g2 k k' n h1 h2 => ?_, fun g' => ?_,
      fun g' s t i e hm => ?_, fun g' k n hm => ?_, fun g' k n hm => ?_, fun n hm => ?_, fun e n m h1 h2 h3 => ?_, fun g' hl => ?_⟩
    · rw [on_graph]; exact R.nodes g'
    · rw [on_graph]; exact R.keysNodup g'
    · rw [on_graph] at hm; exact R.nodeOk g' k n hm
    · rw [on_graph] at h1 h2; exact R.nodeUniq _ _ _ _ _ h1 h2
    · by_cases hx : g' = g
      · subst hx; simpa using idsNd
      · rw [Spec.on_ne _ _ hx]; exact R.idsNodup g'
    · rw [on_edges] at hm
      simp only [on_graph]
      exact R.edgeOk g' s t i e hm
    · rw [on_graph] at hm
      rw [R.outE g' k n hm]
      by_cases hx : g' = g
      · subst hx; simp only [Spec.on_same, SGraph.out]; exact (outEq k n hm).symm
      · rw [Spec.on_ne _ _ hx]
    · rw [on_graph] at hm
      rw [R.inE g' k n hm]
      by_cases hx : g' = g
      · subst hx; simp only [Spec.on_same, SGraph.inn]; exact (innEq k n hm).symm
      · rw [Spec.on_ne _ _ hx]
    · refine R.stale n fun g' k hk => hm g' k ?_
      rw [on_graph]; exact hk
    · obtain ⟨g', hg'⟩ := R.live e n m h1 h2 h3
      exact ⟨g', (on_edges _ _).2 hg'⟩
    · have hx : g' ≠ g := by rintro rfl; exact absurd hg (Nat.not_lt.2 hl)
      rw [Spec.on_ne _ _ hx]; exact R.graphs g' hl
  · simp only [Spec.on_same]
    rw [← K.nodes]
    unfold graphNodes dvals
    rw [R.nodes, List.map_map]
    rfl
  · simp only [Spec.on_same, E, List.map_map]
    apply (List.map_injective_iff (f := (Except.ok : EdgeL → Except PyErr EdgeL))).2 (fun a b h => Except.ok.inj h)
    rw [← e1, List.map_map]
    apply List.map_congr_left
    intro e he
    obtain ⟨i, hi⟩ := live e he
    simp only [Function.comp_apply, entryAs, idOf_eq i e hi, edgeEntry, R.edgeId_eq hi]
    rfl

/-! ## Legal programs -/

/-- A deed is one call, or no call at all if the node or the edge it names is not there. -/
theorem Deed.call (d : Deed) (g : GRef) (h : Heap) :
    (∃ op : Op, (g < h.nG → op.Ok h) ∧ (d.run g h).2 = (op.step h).2 ∧ (d.Plain → op.Plain ∧ op.style = .none)) ∨ (d.run g h).2 = h := by
  have bp : ∀ {α β : Type} (x : M α) (b : α → β), ((do let y ← x; pure (b y) : M β) h).2 = (x h).2 := by
    intro α β x b
    simp only [bind_apply]
    cases x h with
    | mk o h' => cases o <;> rfl
  have wn : ∀ (P : Prop) (k : Key) (f : NRef → M Unit) (F : NRef → Op), (P → ∀ n, (F n).Plain ∧ (F n).style = .none) → (∀ n, (F n).Ok h) → (∀ n, ((F n).step h).2 = (f n h).2) →
      (∃ op : Op, (g < h.nG → op.Ok h) ∧ (withNode g k f h).2 = (op.step h).2 ∧ (P → op.Plain ∧ op.style = .none)) ∨ (withNode g k f h).2 = h := by
    intro P k f F hP hF hf
    simp only [withNode, bind_apply, ask_apply]
    cases getNode h g (.key k) with
    | error e => exact .inr rfl
    | ok n => exact .inl ⟨F n, fun _ => hF n, (hf n).symm, fun h => hP h n⟩
  have we : ∀ (P : Prop) (i : EdgeId) (f : ERef → M Unit) (F : ERef → Op), (P → ∀ n, (F n).Plain ∧ (F n).style = .none) → (∀ n, (F n).Ok h) → (∀ n, ((F n).step h).2 = (f n h).2) →
      (∃ op : Op, (g < h.nG → op.Ok h) ∧ (withEdge g i f h).2 = (op.step h).2 ∧ (P → op.Plain ∧ op.style = .none)) ∨ (withEdge g i f h).2 = h := by
    intro P k f F hP hF hf
    simp only [withEdge, bind_apply, ask_apply]
    cases findEdge h g k with
    | error e => exact .inr rfl
    | ok n => exact .inl ⟨F n, fun _ => hF n, (hf n).symm, fun h => hP h n⟩
  cases d with
  | addNode x a p => exact .inl ⟨.addNode g x a p, id, by rw [Deed.run, Op.step, bp, bp], fun h => by simp [Op.Plain, Op.style, show a.style = .none from h]⟩
  | connect s t a p => exact .inl ⟨.connect g (.key s) (.key t) a p, id, by rw [Deed.run, Op.step, bp, bp], fun h => by simp [Op.Plain, Op.style, show a.style = .none from h]⟩
  | removeNode k => exact .inl ⟨.removeNode g (.key k), id, by rw [Deed.run, Op.step, bp], fun _ => by simp [Op.Plain, Op.style]⟩
  | disconnect i => exact we _ i _ .disconnect (fun _ _ => by simp [Op.Plain, Op.style]) (fun _ => trivial) fun e => by rw [Op.step, bp]
  | removeSelf i => exact we _ i _ .removeSelf (fun _ _ => by simp [Op.Plain, Op.style]) (fun _ => trivial) fun e => by rw [Op.step, bp]
  | nodeValue k v => exact wn _ k _ (.nodeValue · v) (fun _ _ => by simp [Op.Plain, Op.style]) (fun _ => trivial) fun n => by rw [Op.step, bp]
  | nodeLabel k v => exact wn _ k _ (.nodeLabel · v) (fun _ _ => by simp [Op.Plain, Op.style]) (fun _ => trivial) fun n => by rw [Op.step, bp]
  | nodeStyle k s => exact wn _ k _ (.nodeStyle · s) (fun h _ => h.elim) (fun _ => trivial) fun n => by rw [Op.step, bp]
  | nodeFreeze k b => exact wn _ k _ (.nodeFreeze · b) (fun _ _ => by simp [Op.Plain, Op.style]) (fun _ => trivial) fun n => by rw [Op.step, bp]
  | nodeParam k x v => exact wn _ k _ (.nodeParam · x v) (fun _ _ => by simp [Op.Plain, Op.style]) (fun _ => trivial) fun n => by rw [Op.step, bp]
  | edgeValue i v => exact we _ i _ (.edgeValue · v) (fun _ _ => by simp [Op.Plain, Op.style]) (fun _ => trivial) fun n => by rw [Op.step, bp]
  | edgeLabel i v => exact we _ i _ (.edgeLabel · v) (fun _ _ => by simp [Op.Plain, Op.style]) (fun _ => trivial) fun n => by rw [Op.step, bp]
  | edgeStyle i s => exact we _ i _ (.edgeStyle · s) (fun h _ => h.elim) (fun _ => trivial) fun n => by rw [Op.step, bp]
  | edgeFreeze i b => exact we _ i _ (.edgeFreeze · b) (fun _ _ => by simp [Op.Plain, Op.style]) (fun _ => trivial) fun n => by rw [Op.step, bp]
  | edgeParam i x v => exact we _ i _ (.edgeParam · x v) (fun _ _ => by simp [Op.Plain, Op.style]) (fun _ => trivial) fun n => by rw [Op.step, bp]

theorem Deed.reachable {h : Heap} (r : Reachable h) {g : GRef} (hg : g < h.nG) (d : Deed) : Reachable (d.run g h).2 := by
  rcases d.call g h with ⟨op, ok, e, -⟩ | e
  · rw [e]; exact .step op r (ok hg)
  · rw [e]; exact r

/-- Nothing that looks like `L` is touched. -/
theorem Reads.untouched {h h' : Heap} {g : GRef} {L : Ledger} (K : Reads h g L) (u : Untouched h h' g) (s : Stays h h' g) :
    Reads h' g L := by
  obtain ⟨es, e0, e1, e2, e3⟩ := K.edges
  have live : ∀ e ∈ es, LiveEdge h g e := by
    intro e he
    obtain ⟨⟨n, hn, hs⟩, -⟩ := e3 e he
    exact ⟨n, hn, _, (e2 n hn).1, List.mem_filter.2 ⟨he, by simpa using hs⟩⟩
  have st : ∀ e ∈ es, edgeStart h' e = edgeStart h e := fun e he => by simp only [edgeStart, u.edges e (live e he)]
  have en : ∀ e ∈ es, edgeEnd h' e = edgeEnd h e := fun e he => by simp only [edgeEnd, u.edges e (live e he)]
  refine ⟨by rw [u.graph]; exact K.strict, by rw [u.graph]; exact K.ordering, by rw [u.graph]; exact K.overwrite, ?_, es, e0, ?_, ?_, ?_⟩
  · rw [← K.nodes, s.nodes]
    apply List.map_congr_left
    intro n hn
    simp only [nodeEntry, nodeNotes, u.nodes n hn]
  · rw [← e1]
    apply List.map_congr_left
    intro e he
    simp only [edgeEntry, edgeNotes, s.edges e (live e he), u.edges e (live e he)]
  · intro n hn
    rw [s.nodes] at hn
    refine ⟨?_, ?_⟩
    · rw [s.outs n hn, (e2 n hn).1]
      refine congrArg _ (List.filter_congr fun e he => ?_)
      simp only [st e he]
      congr
    · rw [s.inns n hn, (e2 n hn).2]
      refine congrArg _ (List.filter_congr fun e he => ?_)
      simp only [en e he]
      congr
  · intro e he
    rw [s.nodes, st e he, en e he]
    exact e3 e he

/-- Every move is legal when its turn comes, and the other calls are not on graph `g`. -/
def MovesOk (g : GRef) : List Move → Heap → Prop
  | [], _ => True
  | .deed d :: ms, h => MovesOk g ms (d.run g h).2
  | .other op :: ms, h => op.Ok h ∧ ¬ op.on h g ∧ MovesOk g ms (op.step h).2

/-- **C107**: every graph looks like some ledger: there is a list of all its edges from which the lists of the edges leaving and
entering each node are taken, in order. -/
theorem C107_exists {h : Heap} (r : Reachable h) {g : GRef} (hg : g < h.nG) : ∃ L, Reads h g L := by
  obtain ⟨A, H⟩ := r.hist
  exact ⟨{ strict := (h.graph g).strict, ordering := (h.graph g).ordering, overwrite := (h.graph g).overwrite,
           nodes := (A.graph g).nodes.map fun p => nodeEntry h p.2, edges := (A.graph g).edges.map (entryAs h) },
    Booked.reads ⟨H.rep, hg, rfl, rfl, rfl, rfl, rfl⟩⟩

/-- **C107**: what a call raises, and what the graph looks like after it, is a function of what the graph looked like before. -/
theorem C107_step {h : Heap} (r : Reachable h) {g : GRef} (hg : g < h.nG) {L : Ledger} (K : Reads h g L) (d : Deed) :
    (d.run g h).1 = (L.run d).1 ∧ Reads (d.run g h).2 g (L.run d).2 := by
  obtain ⟨A, B⟩ := K.booked r hg
  obtain ⟨h1, A', h2⟩ := B.goes d
  exact ⟨h1, h2.reads⟩

/-- **C107**: also if other calls, not on this graph, are made in between: any calls on other graphs, on their nodes and their edges,
on deleted objects, making new graphs, copying this graph or another one. -/
theorem C107_interleaved {h : Heap} (r : Reachable h) {g : GRef} (hg : g < h.nG) {L : Ledger} (K : Reads h g L) (ms : List Move)
    (ok : MovesOk g ms h) :
    (runMoves g ms h).1 = (L.runAll (deedsOf ms)).1 ∧ Reads (runMoves g ms h).2 g (L.runAll (deedsOf ms)).2 := by
  induction ms generalizing h L with
  | nil => exact ⟨rfl, K⟩
  | cons m ms ih =>
    cases m with
    | deed d =>
      obtain ⟨h1, h2⟩ := C107_step r hg K d
      have hg' : g < (d.run g h).2.nG := by
        rcases d.call g h with ⟨op, -, e, -⟩ | e
        · rw [e]; exact Nat.lt_of_lt_of_le hg (Grows.step op h).nG
        · rw [e]; exact hg
      obtain ⟨h3, h4⟩ := ih (d.reachable r hg) hg' h2 ok
      simp only [runMoves, deedsOf, Ledger.runAll]
      exact ⟨by rw [h1, h3], h4⟩
    | other op =>
      obtain ⟨ok1, no, ok2⟩ := ok
      have r' : Reachable (op.step h).2 := .step op r ok1
      have u := C10_isolated r op ok1 hg no
      exact ih r' (Nat.lt_of_lt_of_le hg (Grows.step op h).nG) (K.untouched u (u.stays r r')) ok2

/-- **C107**: two graphs that look alike behave alike, in one program or in two: the same calls raise the same and leave them looking
alike, whatever else is done in between. -/
theorem C107_alike {h h' : Heap} (r : Reachable h) (r' : Reachable h') {g g' : GRef} (hg : g < h.nG) (hg' : g' < h'.nG) {L : Ledger}
    (K : Reads h g L) (K' : Reads h' g' L) (ms ms' : List Move) (ok : MovesOk g ms h) (ok' : MovesOk g' ms' h')
    (same : deedsOf ms = deedsOf ms') :
    (runMoves g ms h).1 = (runMoves g' ms' h').1 ∧
      ∃ L', Reads (runMoves g ms h).2 g L' ∧ Reads (runMoves g' ms' h').2 g' L' := by
  obtain ⟨h1, h2⟩ := C107_interleaved r hg K ms ok
  obtain ⟨h3, h4⟩ := C107_interleaved r' hg' K' ms' ok'
  exact ⟨by rw [h1, h3, same], _, h2, same ▸ h4⟩

/-- **C107**: graphs that look alike have the same shape, so that every query answers alike (C102). -/
theorem C107_shape {h h' : Heap} (r : Reachable h) (r' : Reachable h') {g g' : GRef} (hg : g < h.nG) (hg' : g' < h'.nG) {L : Ledger}
    (K : Reads h g L) (K' : Reads h' g' L) : OneShape h g h' g' := by
  obtain ⟨A, B⟩ := K.booked r hg
  obtain ⟨A', B'⟩ := K'.booked r' hg'
  exact sameShape_of B.rep B'.rep (fun k => by rw [← B.names, ← B'.names]) fun s t => by rw [← B.ids, ← B'.ids]

/-- **C107**: a copy looks like its original, except that it does not know whether styles may be overwritten. -/
theorem C107_copy {h h' : Heap} (r : Reachable h) {g g' : GRef} (hg : g < h.nG) {L : Ledger} (K : Reads h g L) {m : Memo}
    (hc : graphCopy g h = (.ok (g', m), h')) : Reads h' g' L.copy ∧ Reads h' g L := by
  obtain ⟨A, B⟩ := K.booked r hg
  have hst : ∀ n ∈ graphNodes h g, (h.node n).style = none := by
    intro n hn
    refine Classical.byContradiction fun hs => ?_
    rw [C33_violated hn hs] at hc
    cases hc
  obtain ⟨m', h'', hr, P⟩ := run_graphCopy B.rep hg hst
  rw [hr] at hc
  obtain ⟨h1, rfl⟩ := Prod.mk.inj hc
  obtain ⟨rfl, rfl⟩ := Prod.mk.inj (Except.ok.inj h1)
  constructor
  · refine Booked.reads (A := A.copy g h.nG m') ⟨B.rep.copy P, by rw [P.nG]; exact Nat.lt_succ_self _, ?_, ?_, ?_, ?_, ?_⟩
    · rw [P.graphNew]; exact B.strict
    · rw [P.graphNew]; exact B.ordering
    · rw [P.graphNew]; rfl
    · simp only [Spec.copy, upd_same, List.map_map, Ledger.copy]
      rw [← B.nodes, List.map_map]
      apply List.map_congr_left
      rintro ⟨k, n⟩ hn
      simp only [Function.comp_apply, nodeEntry, nodeNotes, (P.node_of hn).2.2]
      rfl
    · simp only [Spec.copy, upd_same, List.map_map, Ledger.copy]
      rw [← B.edges]
      apply List.map_congr_left
      rintro ⟨i, e⟩ he
      obtain ⟨-, -, st, hst, hs⟩ := P.edge_of he
      have : st.isSome = (h.edge e).style.isSome := by
        cases st <;> cases hq : (h.edge e).style <;> simp_all
      simp only [Function.comp_apply, entryAs, edgeNotes, hst, this]
  · have r' : Reachable h'' := by
      have := Reachable.step (.copy g) r hg
      simpa only [Op.step, bind_apply, hr, pure_apply] using this
    have u := C10_isolated r (.copy g) hg (g := g) hg (by exact id)
    simp only [Op.step, bind_apply, hr, pure_apply] at u
    exact K.untouched u (u.stays r r')

namespace Ledger

theorem names_copy (L : Ledger) : L.copy.names = L.names := by simp [names, copy, Function.comp_def]

theorem onNode_copy (L : Ledger) (k : Key) (f : Option Bool → Notes → After1 Notes) (hf : ∀ m m', f m = f m') :
    L.copy.onNode k f = ((L.onNode k f).1, (L.onNode k f).2.copy) := by
  have h1 : L.copy.nodes.find? (fun v => decide (v.name = k)) =
      (L.nodes.find? (fun v => decide (v.name = k))).map fun v => { v with homeless := false } := by
    simp only [copy, List.find?_map, Function.comp_def]
  unfold onNode
  rw [h1]
  cases L.nodes.find? (fun v => decide (v.name = k)) with
  | none => rfl
  | some v =>
    simp only [Option.map_some]
    rw [hf _ (if v.homeless = true then none else L.overwrite)]
    simp only [copy, List.map_map, Function.comp_def]
    refine congrArg _ ?_
    congr 1
    apply List.map_congr_left
    intro u _
    by_cases hu : u.name = k <;> simp [hu]

theorem onEdge_copy (L : Ledger) (i : EdgeId) (f : Option Bool → Notes → After1 Notes) (hf : ∀ m m', f m = f m') :
    L.copy.onEdge i f = ((L.onEdge i f).1, (L.onEdge i f).2.copy) := by
  unfold onEdge
  simp only [copy]
  cases L.edges.find? (fun v => decide (v.id = i)) with
  | none => rfl
  | some v =>
    simp only
    rw [hf none L.overwrite]

theorem cutEdge_copy (L : Ledger) (i : EdgeId) : L.copy.cutEdge i = ((L.cutEdge i).1, (L.cutEdge i).2.copy) := by
  unfold cutEdge
  simp only [show L.copy.ids = L.ids from rfl]
  split <;> rfl

/-- A call that gives no style does to a copy what it does to the original. -/
theorem run_copy (L : Ledger) {d : Deed} (pl : d.Plain) : L.copy.run d = ((L.run d).1, (L.run d).2.copy) := by
  cases d with
  | addNode x a p =>
    cases x with
    | int i => rfl
    | str x =>
      simp only [Deed.Plain] at pl
      simp only [run, names_copy, pl]
      split
      · split
        · rfl
        · exact onNode_copy L _ _ fun _ _ => rfl
      · simp [fits, copy]
  | connect s t a p =>
    simp only [Deed.Plain] at pl
    simp only [run, names_copy, pl, show L.copy.ids = L.ids from rfl]
    split
    · rfl
    · split
      · split
        · rfl
        · exact onEdge_copy L _ _ fun _ _ => rfl
      · simp [fits, copy]
  | removeNode k =>
    simp only [run, names_copy]
    split
    · simp [copy, List.filter_map, Function.comp_def]
    · rfl
  | disconnect i => exact cutEdge_copy L i
  | removeSelf i => exact cutEdge_copy L i
  | nodeStyle k s => exact absurd pl id
  | edgeStyle i s => exact absurd pl id
  | nodeValue k v => unfold run; exact onNode_copy L _ _ fun _ _ => rfl
  | nodeLabel k v => unfold run; exact onNode_copy L _ _ fun _ _ => rfl
  | nodeFreeze k b => unfold run; exact onNode_copy L _ _ fun _ _ => rfl
  | nodeParam k x v => unfold run; exact onNode_copy L _ _ fun _ _ => rfl
  | edgeValue i v => unfold run; exact onEdge_copy L _ _ fun _ _ => rfl
  | edgeLabel i v => unfold run; exact onEdge_copy L _ _ fun _ _ => rfl
  | edgeFreeze i b => unfold run; exact onEdge_copy L _ _ fun _ _ => rfl
  | edgeParam i x v => unfold run; exact onEdge_copy L _ _ fun _ _ => rfl

theorem runAll_copy (L : Ledger) {ds : List Deed} (pl : ∀ d ∈ ds, d.Plain) :
    L.copy.runAll ds = ((L.runAll ds).1, (L.runAll ds).2.copy) := by
  induction ds generalizing L with
  | nil => rfl
  | cons d ds ih =>
    simp only [runAll, run_copy L (pl d (by simp))]
    rw [ih _ fun d hd => pl d (by simp [hd])]

end Ledger

/-- **C107**: a copy behaves like its original. If none of the calls gives a style, what is done to the copy raises what the same calls
on the original raise, and leaves the copy looking like a copy of the original they leave; and the calls on the one have no effect on
the other: `ms` and `ms'` may contain each other's calls. -/
theorem C107_copy_behaves {h h' : Heap} (r : Reachable h) {g g' : GRef} (hg : g < h.nG) {m : Memo}
    (hc : graphCopy g h = (.ok (g', m), h')) (ms ms' : List Move) (ok : MovesOk g ms h') (ok' : MovesOk g' ms' h')
    (same : deedsOf ms = deedsOf ms') (pl : ∀ d ∈ deedsOf ms, d.Plain) :
    (runMoves g ms h').1 = (runMoves g' ms' h').1 ∧
      ∃ L', Reads (runMoves g ms h').2 g L' ∧ Reads (runMoves g' ms' h').2 g' L'.copy := by
  obtain ⟨L, K⟩ := C107_exists r hg
  obtain ⟨K1, K2⟩ := C107_copy r hg K hc
  have r' : Reachable h' := by
    have := Reachable.step (.copy g) r hg
    simpa only [Op.step, bind_apply, hc, pure_apply] using this
  have hG : g' < h'.nG ∧ g < h'.nG := by
    obtain ⟨A, H⟩ := r.hist
    have hst : ∀ n ∈ graphNodes h g, (h.node n).style = none := by
      intro n hn
      refine Classical.byContradiction fun hs => ?_
      rw [C33_violated hn hs] at hc
      cases hc
    obtain ⟨m', h'', hr, P⟩ := run_graphCopy H.rep hg hst
    rw [hr] at hc
    obtain ⟨h1, rfl⟩ := Prod.mk.inj hc
    obtain ⟨rfl, rfl⟩ := Prod.mk.inj (Except.ok.inj h1)
    rw [P.nG]
    exact ⟨Nat.lt_succ_self _, Nat.lt_succ_of_lt hg⟩
  obtain ⟨h1, h2⟩ := C107_interleaved r' hG.2 K2 ms ok
  obtain ⟨h3, h4⟩ := C107_interleaved r' hG.1 K1 ms' ok'
  rw [← same, Ledger.runAll_copy L pl] at h3 h4
  exact ⟨by rw [h1, h3], _, h2, h4⟩

end Verif
