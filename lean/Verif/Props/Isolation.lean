import Verif.Props.Frozen
/-!
# C10: graphs do not influence each other
-/
namespace Verif
open M

/-- Call `op` is a call on graph `g`: on the graph itself, on one of its nodes, or on one of its edges. -/
def Op.on (h : Heap) (g : GRef) : Op → Prop
  | .newGraph _ _ _ => False
  | .addNode g' _ _ _ => g' = g
  | .addNodeObj g' _ => g' = g
  | .removeNode g' _ => g' = g
  | .connect g' _ _ _ _ => g' = g
  | .connectTo n _ _ _ => (h.node n).graph = some g
  | .connectFrom n _ _ _ => (h.node n).graph = some g
  | .disconnect e => LiveEdge h g e
  | .removeSelf e => LiveEdge h g e
  | .nodeValue n _ => n ∈ graphNodes h g
  | .nodeLabel n _ => n ∈ graphNodes h g
  | .nodeStyle n _ => n ∈ graphNodes h g
  | .nodeFreeze n _ => n ∈ graphNodes h g
  | .nodeParam n _ _ => n ∈ graphNodes h g
  | .edgeValue e _ => LiveEdge h g e
  | .edgeLabel e _ => LiveEdge h g e
  | .edgeStyle e _ => LiveEdge h g e
  | .edgeFreeze e _ => LiveEdge h g e
  | .edgeParam e _ _ => LiveEdge h g e
  | .copy _ => False
  | .setOptions g' _ _ => g' = g

/-- Graph `g` is exactly as it was: the graph object, its node objects, its edge objects, with all their attributes. -/
structure Untouched (h h' : Heap) (g : GRef) : Prop where
  graph : h'.graph g = h.graph g
  nodes : ∀ n ∈ graphNodes h g, h'.node n = h.node n
  edges : ∀ e, LiveEdge h g e → h'.edge e = h.edge e

namespace Untouched

theorem same {h h' : Heap} {g : GRef} (e : h' = h) : Untouched h h' g := by
  subst e; exact ⟨rfl, fun _ _ => rfl, fun _ _ => rfl⟩

theorem onlyNode {α : Type} {n : NRef} {x : M α} (hx : OnlyNode n x) (h : Heap) {g : GRef} (hn : n ∉ graphNodes h g) :
    Untouched h (x h).2 g := by
  obtain ⟨o, k, w, e, -⟩ := hx h
  rw [e]
  refine ⟨rfl, ?_, fun _ _ => rfl⟩
  intro m hm
  have : m ≠ n := by rintro rfl; exact hn hm
  simp [upd_ne _ _ this]

theorem onlyEdge {α : Type} {f : ERef} {x : M α} (hx : OnlyEdge f x) (h : Heap) {g : GRef} (hn : ¬ LiveEdge h g f) :
    Untouched h (x h).2 g := by
  obtain ⟨o, k, w, e, -⟩ := hx h
  rw [e]
  refine ⟨rfl, fun _ _ => rfl, ?_⟩
  intro m hm
  have : m ≠ f := by rintro rfl; exact hn hm
  simp [upd_ne _ _ this]

theorem bindPure {α β : Type} {x : M α} {h : Heap} {f : α → β} {g : GRef} (u : Untouched h (x h).2 g) :
    Untouched h ((x >>= fun a => (Pure.pure (f a) : M β)) h).2 g := by
  simp only [bind_apply]
  cases hx : x h with
  | mk r h' =>
    rw [hx] at u
    cases r <;> exact u

theorem connect {h : Heap} {A : Spec} (R : Rep h A) {g g' : GRef} (hg : g ≠ g') (s t : NodeArg) (a : EdgeArgs)
    (p : IfExists) : Untouched h (connect g s t a p h).2 g' := by
  cases hs : getNode h g s with
  | error err => exact same (by simp [Verif.connect, hs])
  | ok n =>
    cases ht : getNode h g t with
    | error err => exact same (by simp [Verif.connect, hs, ht])
    | ok m =>
      obtain ⟨x, -, hn⟩ := R.getNode_ok.1 hs
      obtain ⟨y, -, hm⟩ := R.getNode_ok.1 ht
      by_cases hnew : (x, y, a.raw) ∈ (A.graph g).ids
      · obtain ⟨e, he⟩ := Rep.mem_ids.1 hnew
        rw [R.connect_old hs ht hn hm a p he]
        refine onlyEdge (f := e) ?_ h ?_
        · exact (OnlyEdge.check _ _).bind fun _ => (OnlyEdge.edgeUpdate _ _ _).bind fun _ => .pure _
        · intro hc
          obtain ⟨j, hj⟩ := (liveEdge_iff R).1 hc
          exact hg (R.handle_unique he hj).1
      · rw [R.connect_new hs ht hn hm a p hnew]
        cases styleResult none h.nStyle a.style with
        | none => exact ⟨rfl, fun _ _ => rfl, fun _ _ => rfl⟩
        | some sr =>
          refine ⟨rfl, ?_, ?_⟩
          · intro z hz
            obtain ⟨k, hk⟩ := (mem_graphNodes R).1 hz
            have h1 : z ≠ n := by rintro rfl; exact hg (R.node_unique hn hk).1
            have h2 : z ≠ m := by rintro rfl; exact hg (R.node_unique hm hk).1
            simp [newEdgeHeap, h1, h2]
          · intro e he
            obtain ⟨j, hj⟩ := (liveEdge_iff R).1 he
            obtain ⟨u, v, w⟩ := j
            have := (R.edgeOk _ _ _ _ _ hj).1
            simp [newEdgeHeap, upd_ne _ _ (Nat.ne_of_lt this)]

theorem cut {h : Heap} {A : Spec} (R : Rep h A) {g g' : GRef} (hg : g ≠ g') {i : EdgeId} {e : ERef}
    (he : (i, e) ∈ (A.graph g).edges) {n m : NRef} (h1 : (h.edge e).start = some n) (h2 : (h.edge e).stop = some m)
    (o : EdgeObj) : Untouched h { h with node := cutNodes h n m i, edge := upd h.edge e o } g' := by
  obtain ⟨n', m', a1, a2, -, -, -, a6, a7⟩ := R.live_edge he
  rw [h1] at a1; rw [h2] at a2
  cases a1; cases a2
  refine ⟨rfl, ?_, ?_⟩
  · intro z hz
    obtain ⟨k, hk⟩ := (mem_graphNodes R).1 hz
    have h1 : z ≠ n := by rintro rfl; exact hg (R.node_unique a6 hk).1
    have h2 : z ≠ m := by rintro rfl; exact hg (R.node_unique a7 hk).1
    simp [cutNodes, h1, h2]
  · intro f hf
    obtain ⟨j, hj⟩ := (liveEdge_iff R).1 hf
    have : f ≠ e := by rintro rfl; exact hg (R.handle_unique he hj).1
    simp [upd_ne _ _ this]

end Untouched

/-- **C10.** In every reachable state, a call that is not a call on graph `g` leaves `g` exactly as it was, whatever
nodes it is handed. -/
theorem C10_isolated {h : Heap} (r : Reachable h) (op : Op) (ok : op.Ok h) {g : GRef} (hg : g < h.nG)
    (hno : ¬ op.on h g) : Untouched h (op.step h).2 g := by
  obtain ⟨A, H⟩ := r.hist
  have R := H.rep
  cases op with
  | newGraph s o w =>
    refine ⟨?_, fun _ _ => rfl, fun _ _ => rfl⟩
    simp [Op.step, graphInit, newGraph, upd_ne _ _ (Nat.ne_of_lt hg)]
  | addNode g' x a p =>
    refine .bindPure ?_
    simp only [Op.on] at hno
    cases x with
    | int i => exact .same rfl
    | str x =>
      by_cases hk : Key.str x ∈ dkeys (h.graph g').nodes
      · have hk' := hk
        unfold dkeys at hk'
        rw [R.nodes] at hk'
        obtain ⟨⟨k, n⟩, hn, rfl⟩ := List.mem_map.1 hk'
        rw [R.addNode_old hn a p]
        refine .onlyNode (n := n) ?_ h ?_
        · exact (OnlyNode.check _ _).bind fun _ => (OnlyNode.nodeUpdate _ _ _).bind fun _ => .pure _
        · intro hc
          obtain ⟨k', hk'⟩ := (mem_graphNodes R).1 hc
          exact hno (R.node_unique hn hk').1
      · by_cases hst : a.style.Valid
        · obtain ⟨h', s, e, hnot, -, -, -, hn, he, hgr, -⟩ := C08_new r ok hk a p hst
          rw [e]
          refine ⟨hgr g (Ne.symm hno), ?_, fun _ _ => by rw [he]⟩
          intro n hnn
          refine hn n ?_
          rintro rfl
          obtain ⟨k', hk'⟩ := (mem_graphNodes R).1 hnn
          exact Nat.lt_irrefl _ (R.nodeOk _ _ _ hk').1
        · have hd := dget_none.2 hk
          have hsr : styleResult none h.nStyle a.style = none := by
            cases hs : a.style with
            | dict v => cases v <;> simp_all [StyleArg.Valid, styleResult]
            | _ => simp_all [StyleArg.Valid, styleResult]
          have hrun : addNode g' (.str x) a p h = (.error .typeError,
              { h with graph := upd h.graph g' { h.graph g' with counter := (h.graph g').counter + 1 },
                       nStyle := styleCount h.nStyle a.style }) := by
            simp [addNode, hd, generateNodeIndex, modGraph, nodeInit, run_resolveStyle, hsr]
          rw [hrun]
          exact ⟨by simp [upd_ne _ _ (Ne.symm hno)], fun _ _ => rfl, fun _ _ => rfl⟩
  | addNodeObj g' n =>
    simp only [Op.on] at hno
    simp only [Op.step, bind_apply]
    have key : Untouched h (addNodeObj g' n h).2 g := by
      simp only [addNodeObj, bind_apply, look_apply]
      cases dget (h.graph g').nodes (h.node n).id with
      | some m =>
        by_cases hc : (h.node n).graph = some g' ∧ m = n
        · simp only [if_pos hc]; exact .same rfl
        · simp only [if_neg hc]; exact .same rfl
      | none =>
        by_cases hc : (h.node n).graph ≠ none
        · simp only [if_pos hc]; exact .same rfl
        · simp only [if_neg hc]
          exact ⟨by simp [modGraph, upd_ne _ _ (Ne.symm hno)], fun _ _ => rfl, fun _ _ => rfl⟩
    cases hx : addNodeObj g' n h with
    | mk r h' =>
      rw [hx] at key
      cases r with
      | error err => exact key
      | ok o => cases o <;> exact key
  | removeNode g' a =>
    refine .bindPure (x := removeNode g' a) ?_
    simp only [Op.on] at hno
    cases hn : getNode h g' a with
    | error err => exact .same (by simp [removeNode, hn])
    | ok n =>
      obtain ⟨h', e, -, -, -, ⟨os, is, ho, hi, -, hE⟩, -, -, hN, hG, -⟩ := C06_remove_node r hn
      obtain ⟨kn, -, hkn⟩ := R.getNode_ok.1 hn
      rw [e]
      refine ⟨hG g (Ne.symm hno), ?_, ?_⟩
      · intro m hm
        refine hN m ?_
        intro hc
        obtain ⟨k, hk⟩ := (mem_graphNodes R).1 hm
        obtain ⟨k', hk'⟩ := (mem_graphNodes R).1 hc
        exact hno (R.node_unique hk' hk).1
      · intro e he
        obtain ⟨j, hj⟩ := (liveEdge_iff R).1 he
        refine hE e ?_ ?_
        · intro hc
          rw [R.outwardEdges hkn] at ho
          cases ho
          obtain ⟨i, hi, -⟩ := Rep.mem_out_handles.1 hc
          exact hno (R.handle_unique hi hj).1
        · intro hc
          rw [R.inwardEdges hkn] at hi
          cases hi
          obtain ⟨i, hi, -⟩ := Rep.mem_inn_handles.1 hc
          exact hno (R.handle_unique hi hj).1
  | connect g' s t a p => exact .bindPure (.connect R hno s t a p)
  | connectTo n t a p =>
    refine .bindPure (x := connectTo n t a p) ?_
    simp only [Op.on] at hno
    simp only [connectTo, bind_apply, ask_apply, nodeGraph]
    cases hgr : (h.node n).graph with
    | none => exact .same rfl
    | some g' => exact .connect R (by rintro rfl; exact hno hgr) _ _ _ _
  | connectFrom n t a p =>
    refine .bindPure (x := connectFrom n t a p) ?_
    simp only [Op.on] at hno
    simp only [connectFrom, bind_apply, ask_apply, nodeGraph]
    cases hgr : (h.node n).graph with
    | none => exact .same rfl
    | some g' => exact .connect R (by rintro rfl; exact hno hgr) _ _ _ _
  | disconnect e =>
    refine .bindPure (x := Verif.disconnect e) ?_
    by_cases he : ∃ g', LiveEdge h g' e
    · obtain ⟨g', he⟩ := he
      obtain ⟨i, hi⟩ := (liveEdge_iff R).1 he
      obtain ⟨n, m, h1, h2, hrun, -⟩ := R.disconnect_live hi
      rw [hrun]
      exact .cut R (by rintro rfl; exact hno he) hi h1 h2 _
    · obtain ⟨err, hrun⟩ := (C07_dead r (fun g hc => he ⟨g, hc⟩)).1
      exact .same (by rw [hrun])
  | removeSelf e =>
    refine .bindPure (x := Verif.edgeRemoveSelf e) ?_
    by_cases he : ∃ g', LiveEdge h g' e
    · obtain ⟨g', he⟩ := he
      obtain ⟨i, hi⟩ := (liveEdge_iff R).1 he
      obtain ⟨n, m, h1, h2, hrun, -⟩ := R.removeSelf_live hi
      rw [hrun]
      exact .cut R (by rintro rfl; exact hno he) hi h1 h2 _
    · obtain ⟨err, hrun⟩ := (C07_dead r (fun g hc => he ⟨g, hc⟩)).2
      exact .same (by rw [hrun])
  | nodeValue n v => exact .bindPure (x := nodeSetValue n v) (.onlyNode (OnlyNode.nodeSetValue v) h hno)
  | nodeLabel n v => exact .bindPure (x := nodeSetLabel n v) (.onlyNode (OnlyNode.nodeSetLabel v) h hno)
  | nodeStyle n s => exact .bindPure (x := nodeSetStyle n s) (.onlyNode (OnlyNode.nodeSetStyle s) h hno)
  | nodeFreeze n b => exact .bindPure (x := nodeFreeze n b) (.onlyNode (OnlyNode.nodeFreeze b) h hno)
  | nodeParam n k v => exact .bindPure (x := nodeSetParam n k v) (.onlyNode (OnlyNode.nodeSetParam k v) h hno)
  | edgeValue n v => exact .bindPure (x := edgeSetValue n v) (.onlyEdge (OnlyEdge.edgeSetValue v) h hno)
  | edgeLabel n v => exact .bindPure (x := edgeSetLabel n v) (.onlyEdge (OnlyEdge.edgeSetLabel v) h hno)
  | edgeStyle n s => exact .bindPure (x := edgeSetStyle n s) (.onlyEdge (OnlyEdge.edgeSetStyle s) h hno)
  | edgeFreeze n b => exact .bindPure (x := edgeFreeze n b) (.onlyEdge (OnlyEdge.edgeFreeze b) h hno)
  | edgeParam n k v => exact .bindPure (x := edgeSetParam n k v) (.onlyEdge (OnlyEdge.edgeSetParam k v) h hno)
  | setOptions g' s o =>
    refine .bindPure (x := graphSetOptions g' s o) ⟨?_, fun _ _ => rfl, fun _ _ => rfl⟩
    simp only [Op.on] at hno
    simp [graphSetOptions, modGraph, upd_ne _ _ (Ne.symm hno)]
  | copy g' =>
    refine .bindPure (x := graphCopy g') ?_
    obtain ⟨m, F⟩ := graphCopy_fresh g' h
    refine ⟨F.graph g hg, ?_, ?_⟩
    · intro n hn
      obtain ⟨k, hk⟩ := (mem_graphNodes R).1 hn
      exact F.node n (R.nodeOk _ _ _ hk).1
    · intro e he
      obtain ⟨j, hj⟩ := (liveEdge_iff R).1 he
      exact F.edge e (R.edgeOk _ _ _ _ _ hj).1

/-- Connecting in graph 0 with a node of graph 1 as an argument leaves graph 1 alone. -/
example : Untouched demo ((Op.connect 0 (.key (.str "b")) (.node 4) {} .warn).step demo).2 1 :=
  C10_isolated demo_reachable _ (by simp only [Op.Ok]; decide) (by decide) (by simp [Op.on])

end Verif
