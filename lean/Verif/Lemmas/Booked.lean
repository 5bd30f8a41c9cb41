import Verif.Lemmas.Touch
import Verif.Props.Remove
/-!
# The ledger of a graph, call by call

`Booked h A g L`: heap `h` represents the abstract state `A`, whose graph `g`, with what is written on its nodes and edges, is `L`.
-/
namespace Verif
open M

/-- The entry of an edge whose id is known. -/
def entryAs (h : Heap) (p : EdgeId × ERef) : EdgeL := { id := p.1, notes := edgeNotes h p.2 }

structure Booked (h : Heap) (A : Spec) (g : GRef) (L : Ledger) : Prop where
  rep : Rep h A
  lt : g < h.nG
  strict : (h.graph g).strict = L.strict
  ordering : (h.graph g).ordering = L.ordering
  overwrite : (h.graph g).overwrite = L.overwrite
  nodes : (A.graph g).nodes.map (fun p => nodeEntry h p.2) = L.nodes
  edges : (A.graph g).edges.map (entryAs h) = L.edges

namespace Booked
variable {h : Heap} {A : Spec} {g : GRef} {L : Ledger}

theorem names (B : Booked h A g L) : L.names = (A.graph g).names := by
  unfold Ledger.names SGraph.names
  rw [← B.nodes, List.map_map]
  apply List.map_congr_left
  rintro ⟨k, n⟩ hm
  exact (B.rep.nodeOk g k n hm).2.1

theorem ids (B : Booked h A g L) : L.ids = (A.graph g).ids := by
  unfold Ledger.ids SGraph.ids
  rw [← B.edges, List.map_map]
  rfl

theorem mem_names (B : Booked h A g L) {k : Key} : k ∈ L.names ↔ ∃ n, (k, n) ∈ (A.graph g).nodes := by
  rw [B.names]; simp [SGraph.names]

theorem mem_ids (B : Booked h A g L) {i : EdgeId} : i ∈ L.ids ↔ ∃ e, (i, e) ∈ (A.graph g).edges := by
  rw [B.ids]; exact Rep.mem_ids

theorem find_node (B : Booked h A g L) {k : Key} {n : NRef} (hn : (k, n) ∈ (A.graph g).nodes) :
    L.nodes.find? (fun v => decide (v.name = k)) = some (nodeEntry h n) := by
  rw [← B.nodes]
  have hk := B.rep.keysNodup g
  have hid : ∀ p ∈ (A.graph g).nodes, (h.node p.2).id = p.1 := fun p hp => (B.rep.nodeOk g p.1 p.2 hp).2.1
  generalize (A.graph g).nodes = l at hn hk hid
  induction l with
  | nil => simp at hn
  | cons p l ih =>
    simp only [List.map_cons, List.nodup_cons] at hk
    rcases List.mem_cons.1 hn with rfl | hn
    · have := hid (k, n) (by simp)
      simp only [List.map_cons, List.find?_cons, nodeEntry, this, decide_true]
    · have hne : p.1 ≠ k := by
        rintro rfl
        exact hk.1 (List.mem_map.2 ⟨_, hn, rfl⟩)
      have := hid p (by simp)
      simp only [List.map_cons, List.find?_cons, nodeEntry, this, hne, decide_false]
      exact ih hn hk.2 fun q hq => hid q (by simp [hq])

theorem find_edge (B : Booked h A g L) {i : EdgeId} {e : ERef} (he : (i, e) ∈ (A.graph g).edges) :
    L.edges.find? (fun v => decide (v.id = i)) = some (entryAs h (i, e)) := by
  rw [← B.edges]
  have hk := B.rep.idsNodup g
  generalize (A.graph g).edges = l at he hk
  induction l with
  | nil => simp at he
  | cons p l ih =>
    simp only [List.map_cons, List.nodup_cons] at hk
    rcases List.mem_cons.1 he with rfl | he
    · simp [entryAs]
    · have hne : p.1 ≠ i := by
        rintro rfl
        exact hk.1 (List.mem_map.2 ⟨_, he, rfl⟩)
      simp only [List.map_cons, List.find?_cons, entryAs, hne, decide_false]
      exact ih he hk.2

theorem find_no_node {k : Key} (hk : k ∉ L.names) :
    L.nodes.find? (fun v => decide (v.name = k)) = none := by
  rw [List.find?_eq_none]
  intro v hv
  simp only [decide_eq_true_eq]
  rintro rfl
  exact hk (List.mem_map.2 ⟨v, hv, rfl⟩)

theorem find_no_edge {i : EdgeId} (hi : i ∉ L.ids) :
    L.edges.find? (fun v => decide (v.id = i)) = none := by
  rw [List.find?_eq_none]
  intro v hv
  simp only [decide_eq_true_eq]
  rintro rfl
  exact hi (List.mem_map.2 ⟨v, hv, rfl⟩)

/-- The program finds the edge the ledger has. -/
theorem findEdge_ok (B : Booked h A g L) {i : EdgeId} {e : ERef} (he : (i, e) ∈ (A.graph g).edges) :
    findEdge h g i = .ok e := by
  obtain ⟨n, m, -, -, hid, -, -, hn, -⟩ := B.rep.live_edge he
  have hl : ∀ f ∈ ((A.graph g).out i.1).map Prod.snd, (edgeId h f = .ok i ↔ f = e) := by
    intro f hf
    obtain ⟨j, hj, -⟩ := Rep.mem_out_handles.1 hf
    constructor
    · intro hx
      rw [B.rep.edgeId_eq hj] at hx
      cases hx
      exact val_unique (B.rep.idsNodup g) hj he
    · rintro rfl; exact hid
  have hm : e ∈ ((A.graph g).out i.1).map Prod.snd := Rep.mem_out_handles.2 ⟨i, he, rfl⟩
  have : (((A.graph g).out i.1).map Prod.snd).find? (fun f => decide (edgeId h f = .ok i)) = some e := by
    cases hf : (((A.graph g).out i.1).map Prod.snd).find? (fun f => decide (edgeId h f = .ok i)) with
    | none =>
      rw [List.find?_eq_none] at hf
      exact absurd hid (by simpa using hf e hm)
    | some f =>
      have h1 := List.find?_some hf
      simp only [decide_eq_true_eq] at h1
      rw [(hl f (List.mem_of_find?_eq_some hf)).1 h1]
  simp only [findEdge, B.rep.getNode_key.2 hn, B.rep.outwardEdges hn, bind, Except.bind]
  erw [this]

theorem findEdge_none (B : Booked h A g L) {i : EdgeId} (hi : i ∉ L.ids) : findEdge h g i = .error .keyError := by
  unfold findEdge
  cases hn : getNode h g (.key i.1) with
  | error err =>
    simp only [getNode] at hn
    split at hn
    · cases hn
    · cases hn; rfl
  | ok n =>
    have hn' := B.rep.getNode_key.1 hn
    have : (((A.graph g).out i.1).map Prod.snd).find? (fun f => decide (edgeId h f = .ok i)) = none := by
      rw [List.find?_eq_none]
      intro f hf
      obtain ⟨j, hj, -⟩ := Rep.mem_out_handles.1 hf
      simp only [decide_eq_true_eq, B.rep.edgeId_eq hj, Except.ok.injEq]
      rintro rfl
      exact hi (B.mem_ids.2 ⟨f, hj⟩)
    simp only [B.rep.outwardEdges hn', bind, Except.bind]
    erw [this]

theorem getNode_no (B : Booked h A g L) {k : Key} (hk : k ∉ L.names) : getNode h g (.key k) = .error .keyError := by
  simp only [getNode]
  cases hd : dget (h.graph g).nodes k with
  | none => rfl
  | some n =>
    have := mem_of_dget hd
    rw [B.rep.nodes] at this
    exact absurd (B.mem_names.2 ⟨n, this⟩) hk

/-- Writing on a node. -/
theorem touchNode (B : Booked h A g L) {k : Key} {n : NRef} (hn : (k, n) ∈ (A.graph g).nodes) {h' : Heap}
    (t : NodeTouch h h' n) : Booked h' A g
      { L with nodes := L.nodes.map fun u => if u.name = k then { u with notes := nodeNotes h' n } else u } where
  rep := t.same.rep B.rep
  lt := by rw [t.same.nG]; exact B.lt
  strict := by rw [t.graph]; exact B.strict
  ordering := by rw [t.graph]; exact B.ordering
  overwrite := by rw [t.graph]; exact B.overwrite
  nodes := by
    simp only [← B.nodes, List.map_map]
    apply List.map_congr_left
    rintro ⟨k', m⟩ hm
    have e := (B.rep.nodeOk g k' m hm).2.1
    simp only [Function.comp_apply]
    by_cases hmn : m = n
    · subst hmn
      obtain ⟨-, rfl⟩ := B.rep.node_unique hm hn
      simp [nodeEntry, e, t.same.id, t.same.ngraph]
    · have : k' ≠ k := by
        rintro rfl
        exact hmn (val_unique (B.rep.keysNodup g) hm hn)
      simp [nodeEntry, nodeNotes, t.node m hmn, e, this]
  edges := by
    rw [← B.edges]
    apply List.map_congr_left
    intro p _
    simp [entryAs, edgeNotes, t.edge]

/-- Writing on an edge. -/
theorem touchEdge (B : Booked h A g L) {i : EdgeId} {e : ERef} (he : (i, e) ∈ (A.graph g).edges) {h' : Heap}
    (t : EdgeTouch h h' e) : Booked h' A g
      { L with edges := L.edges.map fun u => if u.id = i then { u with notes := edgeNotes h' e } else u } where
  rep := t.same.rep B.rep
  lt := by rw [t.same.nG]; exact B.lt
  strict := by rw [t.graph]; exact B.strict
  ordering := by rw [t.graph]; exact B.ordering
  overwrite := by rw [t.graph]; exact B.overwrite
  nodes := by
    rw [← B.nodes]
    apply List.map_congr_left
    intro p _
    simp [nodeEntry, nodeNotes, t.node]
  edges := by
    simp only [← B.edges, List.map_map]
    apply List.map_congr_left
    rintro ⟨j, f⟩ hj
    simp only [Function.comp_apply]
    by_cases hfe : f = e
    · subst hfe
      obtain ⟨-, rfl⟩ := B.rep.handle_unique hj he
      simp [entryAs]
    · have : j ≠ i := by
        rintro rfl
        exact hfe (val_unique (B.rep.idsNodup g) hj he)
      simp [entryAs, edgeNotes, t.edge f hfe, this]

theorem nodeMay_eq (B : Booked h A g L) {k : Key} {n : NRef} (hn : (k, n) ∈ (A.graph g).nodes) :
    nodeMay h n = if (nodeEntry h n).homeless then none else L.overwrite := by
  unfold nodeMay nodeEntry
  rcases (B.rep.nodeOk g k n hn).2.2 with e | e
  · simp [e, B.overwrite]
  · simp [e]

theorem edgeMay_eq (B : Booked h A g L) {i : EdgeId} {e : ERef} (he : (i, e) ∈ (A.graph g).edges) :
    edgeMay h e = L.overwrite := by
  unfold edgeMay
  rw [B.rep.edge_graph he]
  exact B.overwrite

/-- The node is there: `f` does to the graph what `F` does to the ledger. -/
theorem does_node (B : Booked h A g L) {k : Key} {n : NRef} (hn : (k, n) ∈ (A.graph g).nodes) {f : M Unit}
    {F : Option Bool → Notes → After1 Notes} (d : NodeDoes n f F) :
    (f h).1 = (L.onNode k F).1 ∧ Booked (f h).2 A g (L.onNode k F).2 := by
  obtain ⟨d1, d2, d3⟩ := d h
  rw [B.nodeMay_eq hn] at d1 d2
  have B' := B.touchNode hn d3
  simp only [Ledger.onNode, B.find_node hn]
  rw [d2] at B'
  exact ⟨d1, B'⟩

theorem does_edge (B : Booked h A g L) {i : EdgeId} {e : ERef} (he : (i, e) ∈ (A.graph g).edges) {f : M Unit}
    {F : Option Bool → Notes → After1 Notes} (d : EdgeDoes e f F) :
    (f h).1 = (L.onEdge i F).1 ∧ Booked (f h).2 A g (L.onEdge i F).2 := by
  obtain ⟨d1, d2, d3⟩ := d h
  rw [B.edgeMay_eq he] at d1 d2
  have B' := B.touchEdge he d3
  simp only [Ledger.onEdge, B.find_edge he]
  rw [d2] at B'
  exact ⟨d1, B'⟩

theorem with_node (B : Booked h A g L) (k : Key) {f : NRef → M Unit}
    {F : Option Bool → Notes → After1 Notes} (d : ∀ n, NodeDoes n (f n) F) :
    (withNode g k f h).1 = (L.onNode k F).1 ∧ Booked (withNode g k f h).2 A g (L.onNode k F).2 := by
  by_cases hk : k ∈ L.names
  · obtain ⟨n, hn⟩ := B.mem_names.1 hk
    simp only [withNode, bind_apply, ask_apply, B.rep.getNode_key.2 hn]
    exact B.does_node hn (d n)
  · simp only [withNode, bind_apply, ask_apply, B.getNode_no hk, Ledger.onNode, find_no_node hk]
    exact ⟨trivial, B⟩

theorem with_edge (B : Booked h A g L) (i : EdgeId) {f : ERef → M Unit}
    {F : Option Bool → Notes → After1 Notes} (d : ∀ n, EdgeDoes n (f n) F) :
    (withEdge g i f h).1 = (L.onEdge i F).1 ∧ Booked (withEdge g i f h).2 A g (L.onEdge i F).2 := by
  by_cases hi : i ∈ L.ids
  · obtain ⟨e, he⟩ := B.mem_ids.1 hi
    simp only [withEdge, bind_apply, ask_apply, B.findEdge_ok he]
    exact B.does_edge he (d e)
  · simp only [withEdge, bind_apply, ask_apply, B.findEdge_none hi, Ledger.onEdge, find_no_edge hi]
    exact ⟨trivial, B⟩

end Booked
end Verif
