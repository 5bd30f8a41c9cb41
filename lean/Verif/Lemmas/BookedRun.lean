import Verif.Lemmas.Booked
/-!
# Every deed does to the graph what it does to the ledger
-/
namespace Verif
open M

theorem fits_iff (s : StyleArg) (k : Nat) : Ledger.fits s = (styleResult none k s).isSome := by
  cases s with
  | dict b => cases b <;> rfl
  | _ => rfl

theorem styled_of {s : StyleArg} {k : Nat} {sr : Option SRef} (h : styleResult none k s = some sr) :
    sr.isSome = decide (s ≠ .none) := by
  cases s with
  | none => simp [styleResult] at h; simp [← h]
  | obj s => simp [styleResult] at h; simp [← h]
  | dict b => cases b <;> simp [styleResult] at h; simp [← h]
  | bad => simp [styleResult] at h

namespace Booked
variable {h : Heap} {A : Spec} {g : GRef} {L : Ledger}

/-- A deed in the program and in the ledger. -/
def Goes (h : Heap) (g : GRef) (L : Ledger) (d : Deed) : Prop :=
  (d.run g h).1 = (L.run d).1 ∧ ∃ A', Booked (d.run g h).2 A' g (L.run d).2

theorem addNode (B : Booked h A g L) (x : Key) (a : NodeArgs) (p : IfExists) : Goes h g L (.addNode x a p) := by
  unfold Goes
  cases x with
  | int i => exact ⟨rfl, A, B⟩
  | str x =>
    simp only [Deed.run, Ledger.run]
    by_cases hx : Key.str x ∈ L.names
    · obtain ⟨n, hn⟩ := B.mem_names.1 hx
      have hr : ((Verif.addNode g (.str x) a p >>= fun _ => pure ()) h : Except PyErr Unit × Heap) =
          (p.check .keyError >>= fun _ => nodeUpdate n a.label a.value a.style) h := by
        simp only [bind_apply, B.rep.addNode_old hn a p]
        cases p.check PyErr.keyError h with
        | mk r1 r2 =>
          cases r1 with
          | error e => rfl
          | ok u =>
            simp only
            cases nodeUpdate n a.label a.value a.style r2 with
            | mk q1 q2 => cases q1 <;> rfl
      have := B.does_node hn ((NodeDoes.update n a.label a.value a.style).warned p .keyError)
      rw [hr]
      rw [if_pos hx]
      by_cases hp : p = .error
      · subst hp
        exact ⟨rfl, A, B⟩
      · simp only [hp, ↓reduceIte] at this ⊢
        exact ⟨this.1, A, this.2⟩
    · rw [if_neg hx]
      have hx' : Key.str x ∉ (A.graph g).names := by rw [← B.names]; exact hx
      obtain ⟨h', hr, hR⟩ := B.rep.addNode_new B.lt hx' a p
      rw [fits_iff a.style h.nStyle]
      cases hsr : styleResult none h.nStyle a.style with
      | none =>
        simp only [hsr, Option.elim] at hr hR
        simp only [bind_apply, hr, Option.isSome_none, Bool.false_eq_true, ↓reduceIte]
        refine ⟨trivial, A, ?_⟩
        have hh : h' = (Verif.addNode g (.str x) a p h).2 := by rw [hr]
        have hd : dget (h.graph g).nodes (Key.str x) = none := by
          rw [B.rep.nodes g]; exact dget_none.2 hx'
        simp only [Verif.addNode, bind_apply, look_apply, hd, generateNodeIndex, modGraph, pure_apply, nodeInit,
          run_resolveStyle, hsr] at hh
        refine ⟨hR.rep B.rep, by rw [hR.nG]; exact B.lt, ?_, ?_, ?_, ?_, ?_⟩
        · rw [hh]; simpa using B.strict
        · rw [hh]; simpa using B.ordering
        · rw [hh]; simpa using B.overwrite
        · rw [hh]; exact B.nodes
        · rw [hh]; exact B.edges
      | some sr =>
        simp only [hsr, Option.elim] at hr hR
        obtain ⟨R', e1, e2, e3, -, -, e6⟩ := hR
        have hg : ((A.register g (.str x) h.nN (some g)).graph g) =
            { A.graph g with nodes := (A.graph g).nodes ++ [(.str x, h.nN)] } := by
          simp [Spec.register, hx', SGraph.addNode]
        simp only [bind_apply, hr, Option.isSome_some, ↓reduceIte]
        refine ⟨rfl, _, R', by simp only [pure_apply]; rw [e6]; exact B.lt, ?_, ?_, ?_, ?_, ?_⟩
        · simp only [pure_apply]; rw [e3]; simpa using B.strict
        · simp only [pure_apply]; rw [e3]; simpa using B.ordering
        · simp only [pure_apply]; rw [e3]; simpa using B.overwrite
        · rw [hg]
          simp only [pure_apply, List.map_append, List.map_cons, List.map_nil, ← B.nodes]
          congr 1
          · apply List.map_congr_left
            rintro ⟨k, m⟩ hm
            have hmn : m ≠ h.nN := Nat.ne_of_lt (B.rep.nodeOk g k m hm).1
            simp [nodeEntry, nodeNotes, e1, upd_ne _ _ hmn]
          · simp [nodeEntry, nodeNotes, e1, styled_of hsr]
        · rw [hg]
          simp only [pure_apply, ← B.edges]
          apply List.map_congr_left
          intro p _
          simp [entryAs, edgeNotes, e2]

theorem connect (B : Booked h A g L) (s t : Key) (a : EdgeArgs) (p : IfExists) : Goes h g L (.connect s t a p) := by
  unfold Goes
  simp only [Deed.run, Ledger.run]
  by_cases hs : s ∈ L.names
  · by_cases ht : t ∈ L.names
    · rw [if_neg (by simp [hs, ht])]
      obtain ⟨n, hn⟩ := B.mem_names.1 hs
      obtain ⟨m, hm⟩ := B.mem_names.1 ht
      have gs := B.rep.getNode_key.2 hn
      have gt := B.rep.getNode_key.2 hm
      by_cases hi : (s, t, a.raw) ∈ L.ids
      · rw [if_pos hi]
        obtain ⟨e, he⟩ := B.mem_ids.1 hi
        have hr : ((Verif.connect g (.key s) (.key t) a p >>= fun _ => pure ()) h : Except PyErr Unit × Heap) =
            (p.check (.valueError "already exists") >>= fun _ => edgeUpdate e a.label a.value a.style) h := by
          simp only [bind_apply, B.rep.connect_old gs gt hn hm a p he]
          cases p.check (PyErr.valueError "already exists") h with
          | mk r1 r2 =>
            cases r1 with
            | error e => rfl
            | ok u =>
              simp only
              cases edgeUpdate e a.label a.value a.style r2 with
              | mk q1 q2 => cases q1 <;> rfl
        have := B.does_edge he ((EdgeDoes.update e a.label a.value a.style).warned p (.valueError "already exists"))
        rw [hr]
        by_cases hp : p = .error
        · subst hp
          exact ⟨rfl, A, B⟩
        · simp only [hp, ↓reduceIte] at this ⊢
          exact ⟨this.1, A, this.2⟩
      · rw [if_neg hi, fits_iff a.style h.nStyle]
        have hi' : (s, t, a.raw) ∉ (A.graph g).ids := by rw [← B.ids]; exact hi
        have hr := B.rep.connect_new gs gt hn hm a p hi'
        cases hsr : styleResult none h.nStyle a.style with
        | none =>
          simp only [hsr] at hr
          simp only [bind_apply, hr, Option.isSome_none, Bool.false_eq_true, ↓reduceIte]
          exact ⟨trivial, A, (SameStruct.ofStyle h _).rep B.rep, B.lt, B.strict, B.ordering, B.overwrite, B.nodes, B.edges⟩
        | some sr =>
          simp only [hsr] at hr
          simp only [bind_apply, hr, Option.isSome_some, ↓reduceIte]
          have R' := B.rep.newEdge
            (o := ⟨some g, some n, some m, a.raw, a.value, a.label, a.tooltip, false, a.kwargs, sr⟩)
            (styleCount h.nStyle a.style) hn hm (Rep.raw_ne_cleared a) hi' rfl rfl rfl rfl
          have hg : ((A.on g fun G => G.addEdge (s, t, a.raw) h.nE).graph g) =
              { A.graph g with edges := (A.graph g).edges ++ [((s, t, a.raw), h.nE)] } := by
            simp [Spec.on, hi', SGraph.addEdge]
          refine ⟨rfl, _, R', B.lt, B.strict, B.ordering, B.overwrite, ?_, ?_⟩
          · rw [hg]
            exact B.nodes
          · rw [hg]
            simp only [pure_apply, List.map_append, List.map_cons, List.map_nil, ← B.edges]
            congr 1
            · apply List.map_congr_left
              rintro ⟨i, f⟩ hif
              have hfn : f ≠ h.nE := Nat.ne_of_lt (B.rep.edgeOk g _ _ _ f hif).1
              simp [entryAs, edgeNotes, newEdgeHeap, upd_ne _ _ hfn]
            · simp [entryAs, edgeNotes, newEdgeHeap, styled_of hsr]
    · rw [if_pos (.inr ht)]
      obtain ⟨n, hn⟩ := B.mem_names.1 hs
      have gs := B.rep.getNode_key.2 hn
      simp only [Verif.connect, bind_apply, ask_apply, gs, B.getNode_no ht]
      exact ⟨trivial, A, B⟩
  · rw [if_pos (.inl hs)]
    simp only [Verif.connect, bind_apply, ask_apply, B.getNode_no hs]
    exact ⟨trivial, A, B⟩

theorem removeNode (B : Booked h A g L) (k : Key) : Goes h g L (.removeNode k) := by
  unfold Goes
  simp only [Deed.run, Ledger.run]
  by_cases hk : k ∈ L.names
  · rw [if_pos hk]
    obtain ⟨n, hn⟩ := B.mem_names.1 hk
    obtain ⟨h1, K, hr, R'⟩ := B.rep.removeNode_live (B.rep.getNode_key.2 hn) hn
    rw [hr]
    have hgr : (A.unregister g k).graph g = (A.graph g).delNode k := by simp [Spec.unregister]
    refine ⟨rfl, _, R', by simp only [K.nG]; exact B.lt, ?_, ?_, ?_, ?_, ?_⟩
    · simpa [K.graph] using B.strict
    · simpa [K.graph] using B.ordering
    · simpa [K.graph] using B.overwrite
    · rw [hgr]
      simp only [SGraph.delNode, ← B.nodes, List.filter_map]
      have : (A.graph g).nodes.filter ((fun v : NodeL => decide (v.name ≠ k)) ∘ fun p => nodeEntry h p.2) =
          (A.graph g).nodes.filter fun p => decide (p.1 ≠ k) := by
        apply List.filter_congr
        rintro ⟨k', m⟩ hm
        simp [nodeEntry, (B.rep.nodeOk g k' m hm).2.1]
      rw [this]
      apply List.map_congr_left
      rintro ⟨k', m⟩ hm
      obtain ⟨hm, hne⟩ := List.mem_filter.1 hm
      simp only [decide_eq_true_eq] at hne
      have hmn : m ≠ n := by
        rintro rfl
        exact hne (B.rep.node_unique hm hn).2
      obtain ⟨o, i, hx⟩ := K.node m
      simp [nodeEntry, nodeNotes, upd_ne _ _ hmn, hx]
    · rw [hgr]
      simp only [SGraph.delNode, ← B.edges, List.filter_map]
      have : (A.graph g).edges.filter ((fun v : EdgeL => decide (v.id.1 ≠ k ∧ v.id.2.1 ≠ k)) ∘ entryAs h) =
          (A.graph g).edges.filter fun p => decide (p.1.1 ≠ k ∧ p.1.2.1 ≠ k) := rfl
      rw [this]
      apply List.map_congr_left
      rintro ⟨i, e⟩ hm
      obtain ⟨hm, hne⟩ := List.mem_filter.1 hm
      simp only [decide_eq_true_eq] at hne
      have : h1.edge e = h.edge e := by
        apply K.edge
        simp only [List.mem_append, List.mem_filter, decide_eq_true_eq, Rep.mem_out_handles, Rep.mem_inn_handles, not_or]
        constructor
        · rintro ⟨j, hj, hjk⟩
          obtain ⟨-, rfl⟩ := B.rep.handle_unique hm hj
          exact hne.1 hjk
        · rintro ⟨⟨j, hj, hjk⟩, -⟩
          obtain ⟨-, rfl⟩ := B.rep.handle_unique hm hj
          exact hne.2 hjk
      simp [entryAs, edgeNotes, this]
  · rw [if_neg hk]
    simp only [Verif.removeNode, bind_apply, ask_apply, B.getNode_no hk]
    exact ⟨trivial, A, B⟩

/-- The ledger after an edge was deleted. -/
theorem cut (B : Booked h A g L) {i : EdgeId} {e : ERef} (he : (i, e) ∈ (A.graph g).edges) {h' : Heap}
    (R' : Rep h' (A.on g fun G => G.delEdge e)) (hG : h'.nG = h.nG) (hg : h'.graph = h.graph)
    (hN : ∀ x, nodeEntry h' x = nodeEntry h x) (hE : ∀ x, x ≠ e → h'.edge x = h.edge x) :
    Booked h' (A.on g fun G => G.delEdge e) g { L with edges := L.edges.filter fun v => decide (v.id ≠ i) } where
  rep := R'
  lt := by rw [hG]; exact B.lt
  strict := by rw [hg]; exact B.strict
  ordering := by rw [hg]; exact B.ordering
  overwrite := by rw [hg]; exact B.overwrite
  nodes := by
    simp only [Spec.on_same, SGraph.delEdge, ← B.nodes, hN]
  edges := by
    simp only [Spec.on_same, SGraph.delEdge, ← B.edges, List.filter_map]
    have : (A.graph g).edges.filter ((fun v : EdgeL => decide (v.id ≠ i)) ∘ entryAs h) =
        (A.graph g).edges.filter fun p => decide (p.2 ≠ e) := by
      apply List.filter_congr
      rintro ⟨j, f⟩ hj
      simp only [Function.comp_apply, entryAs]
      congr 1
      apply propext
      constructor
      · rintro h1 rfl
        exact h1 (B.rep.handle_unique hj he).2
      · rintro h1 rfl
        exact h1 (val_unique (B.rep.idsNodup g) hj he)
    rw [this]
    apply List.map_congr_left
    rintro ⟨j, f⟩ hj
    have := (List.mem_filter.1 hj).2
    simp only [decide_eq_true_eq] at this
    simp [entryAs, edgeNotes, hE f this]

theorem disconnect (B : Booked h A g L) (i : EdgeId) : Goes h g L (.disconnect i) := by
  unfold Goes
  simp only [Deed.run, Ledger.run, Ledger.cutEdge]
  by_cases hi : i ∈ L.ids
  · obtain ⟨e, he⟩ := B.mem_ids.1 hi
    obtain ⟨n, m, -, -, hr, R'⟩ := B.rep.disconnect_live he
    simp only [hi, ↓reduceIte, withEdge, bind_apply, ask_apply, B.findEdge_ok he, hr]
    refine ⟨trivial, _, B.cut he R' rfl rfl (fun x => rfl) ?_⟩
    intro x hx
    simp [disconnectHeap, upd_ne _ _ hx]
  · simp only [hi, ↓reduceIte, withEdge, bind_apply, ask_apply, B.findEdge_none hi]
    exact ⟨trivial, A, B⟩

theorem removeSelf (B : Booked h A g L) (i : EdgeId) : Goes h g L (.removeSelf i) := by
  unfold Goes
  simp only [Deed.run, Ledger.run, Ledger.cutEdge]
  by_cases hi : i ∈ L.ids
  · obtain ⟨e, he⟩ := B.mem_ids.1 hi
    obtain ⟨n, m, -, -, hr, R'⟩ := B.rep.removeSelf_live he
    simp only [hi, ↓reduceIte, withEdge, bind_apply, ask_apply, B.findEdge_ok he, hr]
    refine ⟨trivial, _, B.cut he R' rfl rfl (fun x => rfl) ?_⟩
    intro x hx
    simp [removeSelfHeap, upd_ne _ _ hx]
  · simp only [hi, ↓reduceIte, withEdge, bind_apply, ask_apply, B.findEdge_none hi]
    exact ⟨trivial, A, B⟩

/-- Every deed. -/
theorem goes (B : Booked h A g L) (d : Deed) : Goes h g L d := by
  cases d with
  | addNode x a p => exact B.addNode x a p
  | connect s t a p => exact B.connect s t a p
  | removeNode k => exact B.removeNode k
  | disconnect i => exact B.disconnect i
  | removeSelf i => exact B.removeSelf i
  | nodeValue k v => have := B.with_node k fun n => NodeDoes.value n v; exact ⟨this.1, A, this.2⟩
  | nodeLabel k v => have := B.with_node k fun n => NodeDoes.label n v; exact ⟨this.1, A, this.2⟩
  | nodeStyle k v => have := B.with_node k fun n => NodeDoes.style n v; exact ⟨this.1, A, this.2⟩
  | nodeFreeze k v => have := B.with_node k fun n => NodeDoes.freeze n v; exact ⟨this.1, A, this.2⟩
  | nodeParam k x v => have := B.with_node k fun n => NodeDoes.param n x v; exact ⟨this.1, A, this.2⟩
  | edgeValue k v => have := B.with_edge k fun n => EdgeDoes.value n v; exact ⟨this.1, A, this.2⟩
  | edgeLabel k v => have := B.with_edge k fun n => EdgeDoes.label n v; exact ⟨this.1, A, this.2⟩
  | edgeStyle k v => have := B.with_edge k fun n => EdgeDoes.style n v; exact ⟨this.1, A, this.2⟩
  | edgeFreeze k v => have := B.with_edge k fun n => EdgeDoes.freeze n v; exact ⟨this.1, A, this.2⟩
  | edgeParam k x v => have := B.with_edge k fun n => EdgeDoes.param n x v; exact ⟨this.1, A, this.2⟩

end Booked
end Verif
