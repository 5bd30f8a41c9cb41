import Verif.Model.Rename
import Verif.Props.Remove
import Verif.Props.Readd
/-!
# C82: assigning to `raw_id`
-/
namespace Verif
open M

/-- The heap after `node.raw_id = y`. -/
def renamed (h : Heap) (n : NRef) (y : Key) : Heap := (nodeSetRawId n y h).2

/-- The heap after `edge.raw_id = r`. -/
def reIded (h : Heap) (e : ERef) (r : RawId) : Heap := (edgeSetRawId e r h).2

theorem renamed_node (h : Heap) (n : NRef) (y : Key) (m : NRef) :
    (renamed h n y).node m = if m = n then { h.node n with id := y } else h.node m := by
  simp only [renamed, nodeSetRawId, modNode]
  by_cases hm : m = n
  · subst hm; simp
  · simp [hm]

theorem renamed_edge (h : Heap) (n : NRef) (y : Key) : (renamed h n y).edge = h.edge := rfl

theorem renamed_graph (h : Heap) (n : NRef) (y : Key) : (renamed h n y).graph = h.graph := rfl

theorem renamed_outE (h : Heap) (n : NRef) (y : Key) (m : NRef) : ((renamed h n y).node m).outE = (h.node m).outE := by
  rw [renamed_node]; split <;> simp_all

theorem renamed_inE (h : Heap) (n : NRef) (y : Key) (m : NRef) : ((renamed h n y).node m).inE = (h.node m).inE := by
  rw [renamed_node]; split <;> simp_all

theorem renamed_id (h : Heap) (n : NRef) (y : Key) (m : NRef) :
    ((renamed h n y).node m).id = if m = n then y else (h.node m).id := by
  rw [renamed_node]; split <;> simp_all

/-- The name of no node of `g`. -/
def NameFree (h : Heap) (g : GRef) (y : Key) : Prop := ∀ m ∈ graphNodes h g, (h.node m).id ≠ y

/-- The id of an edge after a node was renamed. -/
theorem renamed_edgeId {h : Heap} {A : Spec} (R : Rep h A) {g : GRef} {s t : Key} {i : RawId} {e : ERef}
    (he : ((s, t, i), e) ∈ (A.graph g).edges) {a b : NRef} (ha : (h.edge e).start = some a) (hb : (h.edge e).stop = some b)
    (n : NRef) (y : Key) :
    edgeId (renamed h n y) e = .ok (if a = n then y else s, if b = n then y else t, i) := by
  obtain ⟨_, _, _, hr, a', b', h6, h7, h1, h2⟩ := R.edgeOk _ _ _ _ _ he
  rw [ha] at h1; cases h1
  rw [hb] at h2; cases h2
  simp only [edgeId, renamed_edge, ha, hb, renamed_id, (R.nodeOk _ _ _ h6).2.1, (R.nodeOk _ _ _ h7).2.1, hr]

theorem renamed_edgeEq {h : Heap} {A : Spec} (R : Rep h A) {g g' : GRef} {n : NRef} {y : Key} {x : Key}
    (hn : (x, n) ∈ (A.graph g).nodes) (hy : NameFree h g y) {e f : ERef} (he : e ∈ (A.graph g').handles)
    (hf : f ∈ (A.graph g').handles) : edgeEq (renamed h n y) e f = .ok (decide (e = f)) := by
  obtain ⟨⟨s, t, i⟩, hi⟩ := Rep.mem_handles.1 he
  obtain ⟨⟨s', t', j⟩, hj⟩ := Rep.mem_handles.1 hf
  obtain ⟨_, _, _, _, a, b, h6, h7, h1, h2⟩ := R.edgeOk _ _ _ _ _ hi
  obtain ⟨_, _, _, _, a', b', k6, k7, k1, k2⟩ := R.edgeOk _ _ _ _ _ hj
  have inj : ∀ {k k' : Key} {c c' : NRef}, (k, c) ∈ (A.graph g').nodes → (k', c') ∈ (A.graph g').nodes →
      (if c = n then y else k) = (if c' = n then y else k') → k = k' := by
    intro k k' c c' hc hc' heq
    by_cases h1 : c = n
    · subst h1
      obtain ⟨rfl, -⟩ := R.node_unique hn hc
      by_cases h2 : c' = c
      · subst h2; exact (R.node_unique hc hc').2
      · rw [if_pos rfl, if_neg h2] at heq
        exact absurd ((R.nodeOk _ _ _ hc').2.1.trans heq.symm) (hy c' ((mem_graphNodes R).2 ⟨_, hc'⟩))
    · by_cases h2 : c' = n
      · subst h2
        obtain ⟨rfl, -⟩ := R.node_unique hn hc'
        rw [if_neg h1, if_pos rfl] at heq
        exact absurd ((R.nodeOk _ _ _ hc).2.1.trans heq) (hy c ((mem_graphNodes R).2 ⟨_, hc⟩))
      · rwa [if_neg h1, if_neg h2] at heq
  have hiff : ((if a = n then y else s, if b = n then y else t, i) : EdgeId) =
      (if a' = n then y else s', if b' = n then y else t', j) ↔ e = f := by
    constructor
    · intro heq
      simp only [Prod.mk.injEq] at heq
      obtain ⟨q1, q2, rfl⟩ := heq
      have r1 := inj h6 k6 q1
      have r2 := inj h7 k7 q2
      subst r1 r2
      exact val_unique (R.idsNodup g') hi hj
    · rintro rfl
      obtain ⟨-, q⟩ := R.handle_unique hi hj
      cases q
      rw [h1] at k1; cases k1
      rw [h2] at k2; cases k2
      rfl
  simp only [edgeEq, renamed_edge, R.edge_graph hi, R.edge_graph hj, renamed_edgeId R hi h1 h2, renamed_edgeId R hj k1 k2]
  simp [hiff, bind, Except.bind, pure, Except.pure]

/-- Lists of edges are made by comparing edges. -/
theorem dedup_agree {h h' : Heap} {P : ERef → Prop} (hE : ∀ e f, P e → P f → edgeEq h' e f = edgeEq h e f) {l acc : List ERef}
    (hl : ∀ e ∈ l, P e) (ha : ∀ e ∈ acc, P e) : dedupEdges h' l acc = dedupEdges h l acc := by
  have hm : ∀ e, P e → ∀ l : List ERef, (∀ e ∈ l, P e) → memEdge h' e l = memEdge h e l := by
    intro e he l hl
    induction l with
    | nil => rfl
    | cons x l ih =>
      simp only [memEdge]
      rw [hE x e (hl x (by simp)) he, ih (fun z hz => hl z (by simp [hz]))]
  induction l generalizing acc with
  | nil => rfl
  | cons x l ih =>
    have hx := hl x (by simp)
    have hl' : ∀ e ∈ l, P e := fun z hz => hl z (by simp [hz])
    simp only [dedupEdges]
    rw [hm x hx acc ha, ih hl' ha, ih hl' (acc := acc ++ [x]) (by
      intro z hz
      rcases List.mem_append.1 hz with hz | hz
      · exact ha z hz
      · simp at hz; subst hz; exact hx)]

theorem renamed_edges {h : Heap} {A : Spec} (R : Rep h A) {g g' : GRef} {n : NRef} {y : Key} {x : Key}
    (hn : (x, n) ∈ (A.graph g).nodes) (hy : NameFree h g y) {k : Key} {m : NRef} (hm : (k, m) ∈ (A.graph g').nodes) :
    outwardEdges (renamed h n y) m = outwardEdges h m ∧ inwardEdges (renamed h n y) m = inwardEdges h m ∧
    nodeEdges (renamed h n y) m = nodeEdges h m := by
  have hE : ∀ e f, e ∈ (A.graph g').handles → f ∈ (A.graph g').handles →
      edgeEq (renamed h n y) e f = edgeEq h e f := fun e f he hf => by
    rw [renamed_edgeEq R hn hy he hf, R.edgeEq_live he hf]
  have ho : ∀ e ∈ dvals (h.node m).outE, e ∈ (A.graph g').handles := by
    simpa [dvals, R.outE _ _ _ hm] using Rep.out_handles (G := A.graph g') (k := k)
  have hi : ∀ e ∈ dvals (h.node m).inE, e ∈ (A.graph g').handles := by
    simpa [dvals, R.inE _ _ _ hm] using Rep.inn_handles (G := A.graph g') (k := k)
  have o : outwardEdges (renamed h n y) m = outwardEdges h m := by
    simp only [outwardEdges, renamed_outE]
    exact dedup_agree hE ho (by simp)
  refine ⟨o, ?_, ?_⟩
  · simp only [inwardEdges, renamed_inE]
    exact dedup_agree hE hi (by simp)
  · have o' : nodeEdges (renamed h n y) m =
        (outwardEdges (renamed h n y) m >>= fun r => dedupEdges (renamed h n y) (dvals (h.node m).inE) r) := by
      simp only [nodeEdges, outwardEdges, renamed_inE]
    have o'' : nodeEdges h m = (outwardEdges h m >>= fun r => dedupEdges h (dvals (h.node m).inE) r) := rfl
    rw [o', o'', o, R.outwardEdges hm]
    exact dedup_agree hE hi Rep.out_handles

/-- **C82**, what holds: under a name that the graph does not use, the renamed node and all other nodes of all graphs keep
their edges and the edges keep their ends, and giving a node its own name changes nothing. Missing: the graph does not
know the new name (`C82_lookup_violated`), and neither the node nor its edges can be removed any more
(`C82_remove_violated`, `C82_edges_violated`). -/
theorem C82_structure_partial {h : Heap} (r : Reachable h) {g : GRef} {n : NRef} (hn : n ∈ graphNodes h g) (y : Key) :
    (nodeSetRawId n y h).1 = .ok () ∧
    (NameFree h g y → ∀ g', graphNodes (renamed h n y) g' = graphNodes h g' ∧
      ∀ m ∈ graphNodes h g', outwardEdges (renamed h n y) m = outwardEdges h m ∧
        inwardEdges (renamed h n y) m = inwardEdges h m) ∧
    (∀ e, edgeStart (renamed h n y) e = edgeStart h e ∧ edgeEnd (renamed h n y) e = edgeEnd h e) ∧
    (y = (h.node n).id → renamed h n y = h) := by
  obtain ⟨A, H⟩ := r.hist
  have R := H.rep
  obtain ⟨x, hx⟩ := (mem_graphNodes R).1 hn
  refine ⟨rfl, fun hy g' => ⟨rfl, fun m hm => ?_⟩, fun e => ⟨rfl, rfl⟩, ?_⟩
  · obtain ⟨k, hk⟩ := (mem_graphNodes R).1 hm
    obtain ⟨a, b, -⟩ := renamed_edges R hx hy hk
    exact ⟨a, b⟩
  · rintro rfl
    simp only [renamed, nodeSetRawId, modNode]
    have : upd h.node n { h.node n with id := (h.node n).id } = h.node := by
      funext m
      by_cases hm : m = n
      · subst hm; simp
      · simp [upd_ne _ _ hm]
    rw [this]

/-- **C82 fails** for every node and every new name: the graph still finds the node under its old name and does not know the
new one. The node itself is no longer found, so that calls which are given the node raise `KeyError`; if the new name
belongs to another node, they get that one instead. -/
theorem C82_lookup_violated {h : Heap} (r : Reachable h) {g : GRef} {n : NRef} (hn : n ∈ graphNodes h g) {y : Key}
    (hy : y ≠ (h.node n).id) :
    getNode (renamed h n y) g (.key (h.node n).id) = .ok n ∧
    (NameFree h g y → getNode (renamed h n y) g (.key y) = .error .keyError ∧
      getNode (renamed h n y) g (.node n) = .error .keyError ∧
      removeNode g (.node n) (renamed h n y) = (.error .keyError, renamed h n y) ∧
      ∀ t a p, connect g (.node n) t a p (renamed h n y) = (.error .keyError, renamed h n y)) ∧
    (∀ m ∈ graphNodes h g, (h.node m).id = y → getNode (renamed h n y) g (.node n) = .ok m ∧ m ≠ n ∧
      removeNode g (.node n) (renamed h n y) = removeNode g (.node m) (renamed h n y) ∧
      ∀ t a p, connect g (.node n) t a p (renamed h n y) = connect g (.node m) t a p (renamed h n y)) := by
  obtain ⟨A, H⟩ := r.hist
  have R := H.rep
  obtain ⟨x, hx⟩ := (mem_graphNodes R).1 hn
  obtain rfl : (h.node n).id = x := (R.nodeOk _ _ _ hx).2.1
  have hd : dget (h.graph g).nodes (h.node n).id = some n := by
    rw [R.nodes]; exact dget_of_mem (R.keysNodup g) hx
  refine ⟨by simp only [getNode, renamed_graph, hd], fun hf => ?_, fun m hm hmy => ?_⟩
  · have hnone : dget (h.graph g).nodes y = none := by
      rw [dget_none, R.nodes]
      intro hc
      obtain ⟨⟨k, m⟩, hp, rfl⟩ := List.mem_map.1 hc
      exact hf m ((mem_graphNodes R).2 ⟨_, hp⟩) (R.nodeOk _ _ _ hp).2.1
    have hg : getNode (renamed h n y) g (.node n) = .error .keyError := by
      simp only [getNode, renamed_graph, renamed_id, if_pos, hnone]
    refine ⟨by simp only [getNode, renamed_graph, hnone], hg, ?_, fun t a p => ?_⟩
    · simp only [removeNode, bind_apply, ask_apply, hg]
    · simp only [connect, bind_apply, ask_apply, hg]
  · obtain ⟨k, hk⟩ := (mem_graphNodes R).1 hm
    obtain rfl : (h.node m).id = k := (R.nodeOk _ _ _ hk).2.1
    have hmn : m ≠ n := by rintro rfl; exact hy hmy.symm
    have hdm : dget (h.graph g).nodes y = some m := by
      rw [R.nodes, ← hmy]; exact dget_of_mem (R.keysNodup g) hk
    have hg : getNode (renamed h n y) g (.node n) = .ok m := by
      simp only [getNode, renamed_graph, renamed_id, if_pos, hdm]
    have hg' : getNode (renamed h n y) g (.node m) = .ok m := by
      simp only [getNode, renamed_graph, renamed_id, if_neg hmn, hmy, hdm]
    refine ⟨hg, hmn, ?_, fun t a p => ?_⟩
    · simp only [removeNode, bind_apply, ask_apply, hg, hg']
    · simp only [connect, bind_apply, ask_apply, hg, hg']

/-- What both ways to delete an edge do first. -/
theorem stuck {h : Heap} {e : ERef} {a b : NRef} {i : EdgeId} (ha : (h.edge e).start = some a) (hb : (h.edge e).stop = some b)
    (hi : edgeId h e = .ok i) (ho : dget (h.node a).outE i = none) :
    disconnect e h = (.error .keyError, h) ∧ edgeRemoveSelf e h = (.error .keyError, h) := by
  constructor
  · simp only [disconnect, bind_apply, ask_apply, edgeStart, ha, hi, removeOutwardEdge, look_apply, ho, raise_apply]
  · simp only [edgeRemoveSelf, bind_apply, look_apply, ha, hb, reduceCtorEq, or_self, if_false, ask_apply, edgeStart, hi,
      removeOutwardEdge, ho, raise_apply]

theorem renamed_stuck {h : Heap} {A : Spec} (R : Rep h A) {g : GRef} {n : NRef} {y : Key} {x : Key}
    (hn : (x, n) ∈ (A.graph g).nodes) (hy : NameFree h g y) {i : EdgeId} {e : ERef} (he : (i, e) ∈ (A.graph g).edges)
    (ht : i.1 = x ∨ i.2.1 = x) :
    disconnect e (renamed h n y) = (.error .keyError, renamed h n y) ∧
    edgeRemoveSelf e (renamed h n y) = (.error .keyError, renamed h n y) := by
  obtain ⟨s, t, i⟩ := i
  obtain ⟨_, _, _, _, a, b, h6, h7, h1, h2⟩ := R.edgeOk _ _ _ _ _ he
  refine stuck (by rw [renamed_edge]; exact h1) (by rw [renamed_edge]; exact h2) (renamed_edgeId R he h1 h2 n y) ?_
  rw [renamed_outE, R.outE _ _ _ h6, dget_none]
  intro hc
  obtain ⟨⟨j, f⟩, hj, hji⟩ := List.mem_map.1 hc
  have hj' := (List.mem_filter.1 hj).1
  obtain ⟨s', t', r'⟩ := j
  obtain ⟨_, _, _, _, a', b', k6, k7, -, -⟩ := R.edgeOk _ _ _ _ _ hj'
  simp only [Prod.mk.injEq] at hji
  rcases ht with hs | hs
  · simp only at hs
    obtain rfl : a = n := val_unique (R.keysNodup g) h6 (hs ▸ hn)
    rw [if_pos rfl] at hji
    exact hy a' ((mem_graphNodes R).2 ⟨_, k6⟩) ((R.nodeOk _ _ _ k6).2.1.trans hji.1)
  · simp only at hs
    obtain rfl : b = n := val_unique (R.keysNodup g) h7 (hs ▸ hn)
    rw [if_pos rfl] at hji
    exact hy b' ((mem_graphNodes R).2 ⟨_, k7⟩) ((R.nodeOk _ _ _ k7).2.1.trans hji.2.1)

/-- **C82 fails** for every edge of a renamed node: it cannot be deleted, neither with `disconnect` nor with `remove_self`. -/
theorem C82_edges_violated {h : Heap} (r : Reachable h) {g : GRef} {n : NRef} (hn : n ∈ graphNodes h g) {y : Key}
    (hy : NameFree h g y) {e : ERef} (he : LiveEdge h g e) (ht : edgeStart h e = .ok n ∨ edgeEnd h e = .ok n) :
    disconnect e (renamed h n y) = (.error .keyError, renamed h n y) ∧
    edgeRemoveSelf e (renamed h n y) = (.error .keyError, renamed h n y) := by
  obtain ⟨A, H⟩ := r.hist
  have R := H.rep
  obtain ⟨x, hx⟩ := (mem_graphNodes R).1 hn
  obtain ⟨i, hi⟩ := (liveEdge_iff R).1 he
  refine renamed_stuck R hx hy hi ?_
  obtain ⟨q1, q2⟩ := edge_ends R hx hi
  exact ht.imp q1.1 q2.1

/-- **C82 fails** for every renamed node: it cannot be removed, whatever it is called by. -/
theorem C82_remove_violated {h : Heap} (r : Reachable h) {g : GRef} {n : NRef} (hn : n ∈ graphNodes h g) {y : Key}
    (hy : NameFree h g y) {a : NodeArg} (ha : getNode (renamed h n y) g a = .ok n) :
    (removeNode g a (renamed h n y)).1 = .error .keyError := by
  obtain ⟨A, H⟩ := r.hist
  have R := H.rep
  obtain ⟨x, hx⟩ := (mem_graphNodes R).1 hn
  have hE := (renamed_edges R hx hy hx).2.2
  rw [R.nodeEdges hx] at hE
  simp only [removeNode, bind_apply, ask_apply, ha, removeEdges, hE]
  generalize hl : (((A.graph g).out x).map Prod.snd ++ (((A.graph g).inn x).map Prod.snd).filter
    (fun e => decide (e ∉ ((A.graph g).out x).map Prod.snd))) = l
  cases l with
  | nil =>
    have hnone : dget (h.graph g).nodes y = none := by
      rw [dget_none, R.nodes]
      intro hc
      obtain ⟨⟨k, m⟩, hp, rfl⟩ := List.mem_map.1 hc
      exact hy m ((mem_graphNodes R).2 ⟨_, hp⟩) (R.nodeOk _ _ _ hp).2.1
    simp only [removeAll, pure_apply, modNode, look_apply, upd_same, renamed_id, if_pos, renamed_graph, hnone, raise_apply]
  | cons e l =>
    have he : e ∈ ((A.graph g).out x).map Prod.snd ++ (((A.graph g).inn x).map Prod.snd).filter
        (fun e => decide (e ∉ ((A.graph g).out x).map Prod.snd)) := by rw [hl]; simp
    have : ∃ i, (i, e) ∈ (A.graph g).edges ∧ (i.1 = x ∨ i.2.1 = x) := by
      rcases List.mem_append.1 he with he | he
      · obtain ⟨i, hi, hx'⟩ := Rep.mem_out_handles.1 he
        exact ⟨i, hi, .inl hx'⟩
      · obtain ⟨⟨i, e'⟩, hi, rfl⟩ := List.mem_map.1 (List.mem_filter.1 he).1
        obtain ⟨h1, h2⟩ := List.mem_filter.1 hi
        exact ⟨i, h1, .inr (by simpa using h2)⟩
    obtain ⟨i, hi, ht⟩ := this
    simp only [removeAll, bind_apply, (renamed_stuck R hx hy hi ht).2]

/-- The demo graph after `b.raw_id = 'z'`. -/
example : 1 ∈ graphNodes demo 0 ∧ NameFree demo 0 (.str "z") ∧ LiveEdge demo 0 0 ∧ edgeEnd demo 0 = .ok 1 ∧
    getNode (renamed demo 1 (.str "z")) 0 (.key (.str "b")) = .ok 1 ∧
    edgeId (renamed demo 1 (.str "z")) 0 = .ok (.str "a", .str "z", .none) := by
  refine ⟨by decide, ?_, ⟨0, by decide, [0, 3], by decide, by decide⟩, by decide, by decide, by decide⟩
  intro m hm
  have : m ∈ [0, 1, 2, 3] := by simpa [show graphNodes demo 0 = [0, 1, 2, 3] by decide] using hm
  simp only [List.mem_cons, List.not_mem_nil, or_false] at this
  rcases this with rfl | rfl | rfl | rfl <;> decide

/-- **C82 fails** badly if the new name is taken: after `d.raw_id = 'b'` in the demo graph, `remove_node(d)` removes `b` and
keeps `d`. -/
theorem C82_taken_violated : (removeNode 0 (.node 3) (renamed demo 3 (.str "b"))).1 = .ok () ∧
    graphNodes (removeNode 0 (.node 3) (renamed demo 3 (.str "b"))).2 0 = [0, 2, 3] := by decide +kernel

/-! ## Edges -/

theorem reIded_node (h : Heap) (e : ERef) (r : RawId) : (reIded h e r).node = h.node := rfl

theorem reIded_graph (h : Heap) (e : ERef) (r : RawId) : (reIded h e r).graph = h.graph := rfl

theorem reIded_edge (h : Heap) (e : ERef) (r : RawId) (f : ERef) :
    (reIded h e r).edge f = if f = e then { h.edge e with raw := r } else h.edge f := by
  simp only [reIded, edgeSetRawId, modEdge]
  by_cases hf : f = e
  · subst hf; simp
  · simp [hf]

/-- **C82 fails** for every edge and every new id that is not in use between its ends: the edge can no longer be deleted, and
the new id is not taken, so that `connect` makes a second edge with it; then two edges of the graph have the same id. -/
theorem C82_edge_id_violated {h : Heap} (r : Reachable h) {g : GRef} {e : ERef} (he : LiveEdge h g e) {n m : NRef}
    (hn : edgeStart h e = .ok n) (hm : edgeEnd h e = .ok m) {a : EdgeArgs} (hs : a.style = .none)
    (hf : ∀ f, LiveEdge h g f → edgeId h f ≠ .ok ((h.node n).id, (h.node m).id, a.raw)) (p : IfExists) :
    disconnect e (reIded h e a.raw) = (.error .keyError, reIded h e a.raw) ∧
    edgeRemoveSelf e (reIded h e a.raw) = (.error .keyError, reIded h e a.raw) ∧
    ∃ h', connect g (.node n) (.node m) a p (reIded h e a.raw) = (.ok h.nE, h') ∧ h.nE ≠ e ∧
      edgeId h' h.nE = edgeId h' e ∧ h.nE ∈ dvals (h'.node n).outE ∧ e ∈ dvals (h'.node n).outE := by
  obtain ⟨A, H⟩ := r.hist
  have R := H.rep
  obtain ⟨⟨s, t, i⟩, hi⟩ := (liveEdge_iff R).1 he
  obtain ⟨hlt, _, _, _, n', m', h6, h7, h1, h2⟩ := R.edgeOk _ _ _ _ _ hi
  simp only [edgeStart, h1, Except.ok.injEq] at hn
  simp only [edgeEnd, h2, Except.ok.injEq] at hm
  subst hn hm
  obtain rfl : (h.node n').id = s := (R.nodeOk _ _ _ h6).2.1
  obtain rfl : (h.node m').id = t := (R.nodeOk _ _ _ h7).2.1
  have fresh : ∀ f, (((h.node n').id, (h.node m').id, a.raw), f) ∉ (A.graph g).edges := fun f hc =>
    hf f ((liveEdge_iff R).2 ⟨_, hc⟩) (R.edgeId_eq hc)
  have ho : dget (h.node n').outE ((h.node n').id, (h.node m').id, a.raw) = none := by
    rw [R.outE _ _ _ h6, dget_none]
    intro hc
    obtain ⟨⟨j, f⟩, hj, hji⟩ := List.mem_map.1 hc
    obtain rfl : j = _ := hji
    exact fresh f (List.mem_filter.1 hj).1
  have hin : dget (h.node m').inE ((h.node n').id, (h.node m').id, a.raw) = none := by
    rw [R.inE _ _ _ h7, dget_none]
    intro hc
    obtain ⟨⟨j, f⟩, hj, hji⟩ := List.mem_map.1 hc
    obtain rfl : j = _ := hji
    exact fresh f (List.mem_filter.1 hj).1
  have hst : ((reIded h e a.raw).edge e).start = some n' := by rw [reIded_edge, if_pos rfl]; exact h1
  have hen : ((reIded h e a.raw).edge e).stop = some m' := by rw [reIded_edge, if_pos rfl]; exact h2
  have hid : edgeId (reIded h e a.raw) e = .ok ((h.node n').id, (h.node m').id, a.raw) := by
    simp only [edgeId, hst, hen, reIded_node]
    rw [reIded_edge, if_pos rfl]
  obtain ⟨d1, d2⟩ := stuck hst hen hid (by rw [reIded_node]; exact ho)
  have hne : h.nE ≠ e := by rintro rfl; exact Nat.lt_irrefl _ hlt
  have hgn : getNode (reIded h e a.raw) g (.node n') = .ok n' := R.getNode_live h6
  have hgm : getNode (reIded h e a.raw) g (.node m') = .ok m' := R.getNode_live h7
  refine ⟨d1, d2, ?_⟩
  have hE : (reIded h e a.raw).nE = h.nE := rfl
  have hmem : e ∈ dvals (h.node n').outE := by
    rw [R.outE _ _ _ h6]
    exact List.mem_map.2 ⟨_, List.mem_filter.2 ⟨hi, by simp⟩, rfl⟩
  have hrun : connect g (.node n') (.node m') a p (reIded h e a.raw) = (.ok h.nE,
      newEdgeHeap (reIded h e a.raw) n' m' ((h.node n').id, (h.node m').id, a.raw)
        { graph := some g, start := some n', stop := some m', raw := a.raw, value := a.value, label := a.label,
          tooltip := a.tooltip, params := a.kwargs, style := none } h.nStyle) := by
    simp only [connect, bind_apply, ask_apply, hgn, hgm, look_apply, reIded_node, ho, hin, and_self, if_true]
    rw [run_edgeInit (by rw [reIded_node]; exact ho) (by rw [reIded_node]; exact hin)]
    simp only [hs, styleResult, styleCount]
    rfl
  refine ⟨_, hrun, hne, ?_, ?_, ?_⟩
  · have h3 : ((reIded h e a.raw).edge e).raw = a.raw := by rw [reIded_edge, if_pos rfl]
    simp only [edgeId, newEdgeHeap, hE, upd_same, upd_ne _ _ hne.symm, hst, hen, h3]
  · simp [newEdgeHeap, dvals, hE]
  · simp only [newEdgeHeap, reIded_node, if_pos, dvals, List.map_append]
    exact List.mem_append_left _ hmem

/-- `a.raw_id = 'new'` for the edge a -> b of the demo graph that has no id. -/
example : LiveEdge demo 0 0 ∧ edgeStart demo 0 = .ok 0 ∧ edgeEnd demo 0 = .ok 1 ∧
    graphEdges demo 0 = .ok [0, 3, 2, 1, 4] ∧
    [0, 3, 2, 1, 4].all (fun f => decide (edgeId demo f ≠ .ok (.str "a", .str "b", .key (.str "new")))) ∧
    (disconnect 0 (reIded demo 0 (.key (.str "new")))).1 = .error .keyError := by
  refine ⟨⟨0, by decide, [0, 3], by decide, by decide⟩, by decide +kernel, by decide +kernel, by decide +kernel, by decide +kernel, by decide +kernel⟩

/-! ## C83: the class `Edge` -/

/-- **C83**, what holds: between two nodes of the graph and with an id that is not in use between them, `Edge(...)` does what
`connect` does. Missing: ids in use (`C83_taken_violated`) and nodes of other graphs (`C83_foreign_violated`). -/
theorem C83_like_connect_partial {h : Heap} (r : Reachable h) {g : GRef} {n m : NRef} (hn : n ∈ graphNodes h g)
    (hm : m ∈ graphNodes h g) (a : EdgeArgs) (p : IfExists)
    (hf : ∀ f, LiveEdge h g f → edgeId h f ≠ .ok ((h.node n).id, (h.node m).id, a.raw)) :
    newEdgeObj g n m a h = connect g (.node n) (.node m) a p h := by
  obtain ⟨A, H⟩ := r.hist
  have R := H.rep
  obtain ⟨s, h6⟩ := (mem_graphNodes R).1 hn
  obtain ⟨t, h7⟩ := (mem_graphNodes R).1 hm
  have fresh : ∀ f, (((h.node n).id, (h.node m).id, a.raw), f) ∉ (A.graph g).edges := fun f hc =>
    hf f ((liveEdge_iff R).2 ⟨_, hc⟩) (R.edgeId_eq hc)
  have ho : dget (h.node n).outE ((h.node n).id, (h.node m).id, a.raw) = none := by
    rw [R.outE _ _ _ h6, dget_none]
    intro hc
    obtain ⟨⟨j, f⟩, hj, hji⟩ := List.mem_map.1 hc
    obtain rfl : j = _ := hji
    exact fresh f (List.mem_filter.1 hj).1
  have hin : dget (h.node m).inE ((h.node n).id, (h.node m).id, a.raw) = none := by
    rw [R.inE _ _ _ h7, dget_none]
    intro hc
    obtain ⟨⟨j, f⟩, hj, hji⟩ := List.mem_map.1 hc
    obtain rfl : j = _ := hji
    exact fresh f (List.mem_filter.1 hj).1
  simp only [connect, bind_apply, ask_apply, R.getNode_live h6, R.getNode_live h7, look_apply, ho, hin, and_self, if_true,
    newEdgeObj]

theorem mem_dvals_dset {K V : Type} [DecidableEq K] {d : Dict K V} (hd : (dkeys d).Nodup) {k : K} {v x : V} :
    x ∈ dvals (dset d k v) ↔ x = v ∨ ∃ k', k' ≠ k ∧ (k', x) ∈ d := by
  have hd' : ((dset d k v).map Prod.fst).Nodup := nodup_dset hd
  constructor
  · intro hx
    obtain ⟨⟨k', x'⟩, hm, rfl⟩ := List.mem_map.1 hx
    have := dget_of_mem hd' hm
    rw [dget_dset] at this
    by_cases hk : k' = k
    · subst hk; simp at this; exact .inl this.symm
    · rw [if_neg (Ne.symm hk)] at this
      exact .inr ⟨k', hk, mem_of_dget this⟩
  · rintro (rfl | ⟨k', hk, hm⟩)
    · exact List.mem_map.2 ⟨(k, x), mem_of_dget (by rw [dget_dset]; simp), rfl⟩
    · refine List.mem_map.2 ⟨(k', x), mem_of_dget (v := x) ?_, rfl⟩
      rw [dget_dset, if_neg (Ne.symm hk)]
      exact dget_of_mem hd hm

/-- The heap after `Edge(...)`. -/
def edgeMade (h : Heap) (g : GRef) (n m : NRef) (a : EdgeArgs) : Heap :=
  let o : EdgeObj :=
    { graph := some g, start := some n, stop := some m, raw := a.raw, value := a.value, label := a.label,
      tooltip := a.tooltip, params := a.kwargs, style := none }
  { h with
    node := fun x => { h.node x with
      outE := if x = n then dset (h.node n).outE ((h.node n).id, (h.node m).id, a.raw) h.nE else (h.node x).outE
      inE := if x = m then dset (h.node m).inE ((h.node n).id, (h.node m).id, a.raw) h.nE else (h.node x).inE }
    edge := upd h.edge h.nE o
    nE := h.nE + 1 }

/-- `Edge(...)` with any id. -/
theorem run_newEdgeObj {h : Heap} {g : GRef} {n m : NRef} {a : EdgeArgs} (hs : a.style = .none) :
    newEdgeObj g n m a h = (.ok h.nE,
      edgeMade h g n m a) := by
  simp only [newEdgeObj, edgeInit, bind_apply, hs, run_resolveStyle, styleResult, styleCount, Option.elim, pure_apply, newEdge,
    ask_apply, edgeId, upd_same, modNode]
  have : ∀ x i, (upd h.node n { h.node n with outE := dset (h.node n).outE i h.nE } x).id = (h.node x).id := by
    intro x i; by_cases hx : x = n
    · subst hx; simp
    · rw [upd_ne _ _ hx]
  simp only [this, edgeMade]
  congr 2
  funext x
  by_cases h1 : x = m
  · subst h1
    by_cases h2 : x = n
    · subst h2; simp
    · simp [h2]
  · rw [upd_ne _ _ h1]
    by_cases h2 : x = n
    · subst h2; simp [h1]
    · rw [upd_ne _ _ h2]; simp [h1, h2]

/-- **C83 fails** for every edge: `Edge(...)` with its ends and id pushes it out. It is listed nowhere any more, but still
says that it belongs to the graph; deleting it deletes the new edge. -/
theorem C83_taken_violated {h : Heap} (r : Reachable h) {g : GRef} {e : ERef} (he : LiveEdge h g e) {n m : NRef}
    (hn : edgeStart h e = .ok n) (hm : edgeEnd h e = .ok m) {a : EdgeArgs} (hs : a.style = .none)
    (hr : a.raw = (h.edge e).raw) :
    ∃ h', newEdgeObj g n m a h = (.ok h.nE, h') ∧ (h'.edge e) = h.edge e ∧ (h'.edge e).graph = some g ∧
      (∀ k, e ∉ dvals (h'.node k).outE ∧ e ∉ dvals (h'.node k).inE) ∧
      h.nE ∈ dvals (h'.node n).outE ∧ h.nE ∈ dvals (h'.node m).inE ∧
      ∃ h'', disconnect e h' = (.ok (), h'') ∧ h.nE ∉ dvals (h''.node n).outE ∧ h.nE ∉ dvals (h''.node m).inE ∧
        (h''.edge h.nE).graph = some g := by
  obtain ⟨A, H⟩ := r.hist
  have R := H.rep
  obtain ⟨⟨s, t, i⟩, hi⟩ := (liveEdge_iff R).1 he
  obtain ⟨hlt, _, hgr, hraw, n', m', h6, h7, h1, h2⟩ := R.edgeOk _ _ _ _ _ hi
  simp only [edgeStart, h1, Except.ok.injEq] at hn
  simp only [edgeEnd, h2, Except.ok.injEq] at hm
  subst hn hm
  obtain rfl : (h.node n').id = s := (R.nodeOk _ _ _ h6).2.1
  obtain rfl : (h.node m').id = t := (R.nodeOk _ _ _ h7).2.1
  rw [hraw] at hr
  have hne : e ≠ h.nE := by rintro rfl; exact Nat.lt_irrefl _ hlt
  have no : (dkeys (h.node n').outE).Nodup := by
    rw [R.outE _ _ _ h6]; exact nodup_keys_filter _ (R.idsNodup g)
  have ni : (dkeys (h.node m').inE).Nodup := by
    rw [R.inE _ _ _ h7]; exact nodup_keys_filter _ (R.idsNodup g)
  -- where the edge is listed
  have only : ∀ k j, ((j, e) ∈ (h.node k).outE → k = n' ∧ j = ((h.node n').id, (h.node m').id, i)) ∧
      ((j, e) ∈ (h.node k).inE → k = m' ∧ j = ((h.node n').id, (h.node m').id, i)) := by
    intro k j
    by_cases hk : ∃ g' x, (x, k) ∈ (A.graph g').nodes
    · obtain ⟨g', x, hx⟩ := hk
      rw [R.outE _ _ _ hx, R.inE _ _ _ hx]
      constructor
      · intro hj
        obtain ⟨hj, hjx⟩ := List.mem_filter.1 hj
        obtain ⟨rfl, rfl⟩ := R.handle_unique hi hj
        simp only [decide_eq_true_eq] at hjx
        exact ⟨val_unique (R.keysNodup g) (hjx ▸ hx) h6, rfl⟩
      · intro hj
        obtain ⟨hj, hjx⟩ := List.mem_filter.1 hj
        obtain ⟨rfl, rfl⟩ := R.handle_unique hi hj
        simp only [decide_eq_true_eq] at hjx
        exact ⟨val_unique (R.keysNodup g) (hjx ▸ hx) h7, rfl⟩
    · have := R.stale k (fun g' x hc => hk ⟨g', x, hc⟩)
      rw [this.1, this.2]
      simp
  have hin : ∀ k, e ∉ dvals ((if k = n' then dset (h.node n').outE ((h.node n').id, (h.node m').id, a.raw) h.nE else (h.node k).outE)) ∧
      e ∉ dvals ((if k = m' then dset (h.node m').inE ((h.node n').id, (h.node m').id, a.raw) h.nE else (h.node k).inE)) := by
    intro k
    constructor
    · split
      · next hk =>
        rw [mem_dvals_dset no]
        rintro (hc | ⟨j, hj, hm⟩)
        · exact hne hc
        · exact hj ((only n' j).1 hm |>.2.trans (by rw [hr]))
      · next hk =>
        intro hc
        obtain ⟨⟨j, e'⟩, hm, rfl⟩ := List.mem_map.1 hc
        exact hk ((only k j).1 hm).1
    · split
      · next hk =>
        rw [mem_dvals_dset ni]
        rintro (hc | ⟨j, hj, hm⟩)
        · exact hne hc
        · exact hj ((only m' j).2 hm |>.2.trans (by rw [hr]))
      · next hk =>
        intro hc
        obtain ⟨⟨j, e'⟩, hm, rfl⟩ := List.mem_map.1 hc
        exact hk ((only k j).2 hm).1
  have fresh : ∀ k j, (j, h.nE) ∉ (h.node k).outE ∧ (j, h.nE) ∉ (h.node k).inE := by
    intro k j
    by_cases hk : ∃ g' x, (x, k) ∈ (A.graph g').nodes
    · obtain ⟨g', x, hx⟩ := hk
      rw [R.outE _ _ _ hx, R.inE _ _ _ hx]
      refine ⟨fun hj => ?_, fun hj => ?_⟩ <;>
      · obtain ⟨hj, -⟩ := List.mem_filter.1 hj
        exact Nat.lt_irrefl _ (R.edgeOk _ _ _ _ _ hj).1
    · have := R.stale k (fun g' x hc => hk ⟨g', x, hc⟩)
      rw [this.1, this.2]
      simp
  refine ⟨_, run_newEdgeObj hs, by simp [edgeMade, upd_ne _ _ hne], by simp [edgeMade, upd_ne _ _ hne, hgr], fun k => hin k, ?_, ?_, ?_⟩
  · simp only [edgeMade, if_pos]
    exact (mem_dvals_dset no).2 (.inl rfl)
  · simp only [edgeMade, if_pos]
    exact (mem_dvals_dset ni).2 (.inl rfl)
  · have hd := run_disconnect (e := e) (s := n') (t := m') (i := ((h.node n').id, (h.node m').id, a.raw))
      (h := edgeMade h g n' m' a)
      (by simp [edgeMade, upd_ne _ _ hne, h1]) (by simp [edgeMade, upd_ne _ _ hne, h2])
      (by simp [edgeMade, edgeId, upd_ne _ _ hne, h1, h2, hraw, hr]) (by simp [edgeMade, dget_dset]) (by simp [edgeMade, dget_dset])
    refine ⟨_, hd, ?_, ?_, ?_⟩
    · simp only [disconnectHeap, edgeMade, cutNodes, if_pos]
      intro hc
      obtain ⟨⟨j, e'⟩, hm, he'⟩ := List.mem_map.1 hc
      obtain ⟨hm, hj⟩ := mem_ddel.1 hm
      simp only at he' hj
      subst he'
      have := dget_of_mem (nodup_dset no) hm
      rw [dget_dset, if_neg (fun hc => hj hc.symm)] at this
      exact (fresh n' j).1 (mem_of_dget this)
    · simp only [disconnectHeap, edgeMade, cutNodes, if_pos]
      intro hc
      obtain ⟨⟨j, e'⟩, hm, he'⟩ := List.mem_map.1 hc
      obtain ⟨hm, hj⟩ := mem_ddel.1 hm
      simp only at he' hj
      subst he'
      have := dget_of_mem (nodup_dset ni) hm
      rw [dget_dset, if_neg (fun hc => hj hc.symm)] at this
      exact (fresh m' j).2 (mem_of_dget this)
    · simp [disconnectHeap, edgeMade, upd_ne _ _ (Ne.symm hne)]

/-- **C83 fails** for every node of another graph: `Edge(...)` accepts it. The edge says that it belongs to one graph and is
listed by a node of the other, and if both its ends are there then no node of its own graph lists it. -/
theorem C83_foreign_violated {h : Heap} (r : Reachable h) {g g' : GRef} (hg : g' ≠ g) {n : NRef} (hn : n ∈ graphNodes h g')
    (m : NRef) {a : EdgeArgs} (hs : a.style = .none) :
    ∃ h', newEdgeObj g n m a h = (.ok h.nE, h') ∧ (h'.edge h.nE).graph = some g ∧ edgeStart h' h.nE = .ok n ∧
      n ∈ graphNodes h' g' ∧ n ∉ graphNodes h' g ∧ h.nE ∈ dvals (h'.node n).outE ∧
      (m ∈ graphNodes h g' → ∀ k ∈ graphNodes h' g, h.nE ∉ dvals (h'.node k).outE ∧ h.nE ∉ dvals (h'.node k).inE) := by
  obtain ⟨A, H⟩ := r.hist
  have R := H.rep
  obtain ⟨x, hx⟩ := (mem_graphNodes R).1 hn
  have no : (dkeys (h.node n).outE).Nodup := by
    rw [R.outE _ _ _ hx]; exact nodup_keys_filter _ (R.idsNodup g')
  have hgn : ∀ k, graphNodes (edgeMade h g n m a) k = graphNodes h k := fun _ => rfl
  refine ⟨_, run_newEdgeObj hs, by simp [edgeMade], by simp [edgeMade, edgeStart], hn, ?_, ?_, ?_⟩
  · rw [hgn]
    intro hc
    obtain ⟨y, hy⟩ := (mem_graphNodes R).1 hc
    exact hg (R.nodeUniq _ _ _ _ _ hx hy)
  · simp only [edgeMade, if_pos]
    exact (mem_dvals_dset no).2 (.inl rfl)
  · intro hm k hk
    obtain ⟨y, hy⟩ := (mem_graphNodes R).1 (show k ∈ graphNodes h g from hk)
    obtain ⟨z, hz⟩ := (mem_graphNodes R).1 hm
    have k1 : k ≠ n := by rintro rfl; exact hg (R.nodeUniq _ _ _ _ _ hx hy)
    have k2 : k ≠ m := by rintro rfl; exact hg (R.nodeUniq _ _ _ _ _ hz hy)
    simp only [edgeMade, if_neg k1, if_neg k2]
    rw [R.outE _ _ _ hy, R.inE _ _ _ hy]
    refine ⟨fun hc => ?_, fun hc => ?_⟩ <;>
    · obtain ⟨⟨j, e'⟩, hj, he'⟩ := List.mem_map.1 hc
      simp only at he'
      subst he'
      exact Nat.lt_irrefl _ (R.edgeOk _ _ _ _ _ (List.mem_filter.1 hj).1).1

/-- In the demo graph: `Edge(graph, a, b, id=None)` pushes out the edge a -> b; `Edge(graph, a, b, id='3')` is like `connect`;
the node a of the other graph can be joined to itself in the name of this one. -/
example : LiveEdge demo 0 0 ∧ edgeStart demo 0 = .ok 0 ∧ edgeEnd demo 0 = .ok 1 ∧ (demo.edge 0).raw = ({} : EdgeArgs).raw ∧
    graphEdges (newEdgeObj 0 0 1 {} demo).2 0 = .ok [5, 3, 2, 1, 4] ∧
    graphEdges (disconnect 0 (newEdgeObj 0 0 1 {} demo).2).2 0 = .ok [3, 2, 1, 4] ∧
    graphEdges (newEdgeObj 0 0 1 { id := some (.str "3") } demo).2 0 = .ok [0, 3, 5, 2, 1, 4] ∧
    4 ∈ graphNodes demo 1 ∧ graphEdges (newEdgeObj 0 4 4 {} demo).2 0 = .ok [0, 3, 2, 1, 4] ∧
    graphEdges (newEdgeObj 0 4 4 {} demo).2 1 = .ok [5] := by
  refine ⟨⟨0, by decide, [0, 3], by decide, by decide⟩, by decide +kernel, by decide +kernel, by decide +kernel,
    by decide +kernel, by decide +kernel, by decide +kernel, by decide +kernel, by decide +kernel, by decide +kernel⟩

end Verif
