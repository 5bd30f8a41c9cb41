import Verif.Lemmas.Neighbours
import Verif.Props.AddNode
/-!
# C12, C17, C55, C56: places where the library does not keep its promise

Each property is refuted by a theorem about the model (a concrete history, or a fact about every history), and a
`_partial` theorem says what does hold.
-/
namespace Verif
open M

/-! ## C12: adding a removed node back -/

/-- What `add_node(node)` does when it registers the object: the graph gets the entry, the node object is untouched. -/
theorem addNodeObj_registers {h h' : Heap} {g : GRef} {n m : NRef} (hr : addNodeObj g n h = (.ok (some m), h')) :
    m = n ∧ (h.node n).graph = none ∧ dget (h.graph g).nodes (h.node n).id = none ∧
    h' = { h with graph := upd h.graph g { h.graph g with nodes := dset (h.graph g).nodes (h.node n).id n } } := by
  simp only [addNodeObj, bind_apply, look_apply] at hr
  cases hd : dget (h.graph g).nodes (h.node n).id with
  | some k =>
    rw [hd] at hr
    simp only at hr
    split at hr <;> simp at hr
  | none =>
    rw [hd] at hr
    by_cases hc : (h.node n).graph ≠ none
    · simp only [if_pos hc] at hr; simp at hr
    · have hc' : (h.node n).graph = none := Decidable.byContradiction fun x => hc x
      simp only [if_neg hc, bind_apply, modGraph, pure_apply, Prod.mk.injEq, Except.ok.injEq, Option.some.injEq] at hr
      exact ⟨hr.1.symm, hc', rfl, hr.2.symm⟩

/-- **C12 fails**, always: whenever `add_node` registers an existing node object, in whatever heap, the object still has no
graph afterwards and `node.children`, `node.parents` and `node.connect_to` raise `AttributeError`. -/
theorem C12_readded_has_no_graph {h h' : Heap} {g : GRef} {n m : NRef} (hr : addNodeObj g n h = (.ok (some m), h'))
    (t : NodeArg) (a : EdgeArgs) (p : IfExists) :
    n ∈ graphNodes h' g ∧ (h'.node n).graph = none ∧ nodeChildren h' n = .error .attributeError ∧
    nodeParents h' n = .error .attributeError ∧ (connectTo n t a p h').1 = .error .attributeError := by
  obtain ⟨-, hg, hd, rfl⟩ := addNodeObj_registers hr
  have hg' : nodeGraph { h with graph := upd h.graph g { h.graph g with nodes := dset (h.graph g).nodes (h.node n).id n } } n =
      .error .attributeError := by simp [nodeGraph, hg]
  refine ⟨?_, hg, ?_, ?_, ?_⟩
  · simp only [graphNodes, dvals, upd_same]
    rw [dset_of_not_mem (dget_none.1 hd)]
    simp
  · unfold nodeChildren; rw [hg']; rfl
  · unfold nodeParents; rw [hg']; rfl
  · simp only [connectTo, bind_apply, ask_apply, hg']

/-- The demo graph after `remove_node('b')`. -/
def removedDemo : Heap := (Op.step (.removeNode 0 (.key (.str "b"))) demo).2

example : (addNodeObj 0 1 removedDemo).1 = .ok (some 1) := by decide +kernel

/-- **C12**, what holds: removing a registered node and adding the object back succeeds, the result is again a reachable
state, the node is last in the graph and is found by name and by object, and `graph.get_children` / `graph.get_parents`
report no edges. Missing: `x.graph` is the graph, and everything that goes through it (`C12_readded_has_no_graph`). -/
theorem C12_readd_partial {h : Heap} (r : Reachable h) {g : GRef} {n : NRef} (hg : g < h.nG) (hn : n ∈ graphNodes h g) :
    ∃ h1 h2, removeNode g (.node n) h = (.ok (), h1) ∧ addNodeObj g n h1 = (.ok (some n), h2) ∧ Reachable h2 ∧
      graphNodes h2 g = (graphNodes h g).filter (fun m => decide (m ≠ n)) ++ [n] ∧
      getNode h2 g (.node n) = .ok n ∧ getNode h2 g (.key (h.node n).id) = .ok n ∧
      getChildren h2 g (.node n) = .ok [] ∧ getParents h2 g (.node n) = .ok [] := by
  have hself := getNode_self r hn
  obtain ⟨h1, hrun, hnodes, hkeys, -, -, hnode, -, -, hother, -⟩ := C06_remove_node r hself
  have r1 : Reachable h1 := by
    have := Reachable.step (.removeNode g (.node n)) r hg
    simp only [Op.step, bind_apply, hrun] at this
    exact this
  have hid : (h1.node n).id = (h.node n).id := by rw [hnode]
  have hd : dget (h1.graph g).nodes (h1.node n).id = none := by
    rw [dget_none, hid]
    unfold dkeys at hkeys
    rw [hkeys]
    simp
  have hgr : (h1.node n).graph = none := by rw [hnode]
  have hnG : h1.nG = h.nG := by
    obtain ⟨A, H⟩ := r.hist
    obtain ⟨k, hk⟩ := (mem_graphNodes H.rep).1 hn
    obtain ⟨h1', K, hrun', -⟩ := H.rep.removeNode_live hself hk
    rw [hrun] at hrun'
    cases hrun'
    exact K.nG
  have hnot : ∀ g', n ∉ graphNodes h1 g' := by
    intro g' hc
    by_cases e : g' = g
    · subst e; rw [hnodes] at hc; simp at hc
    · have : n ∈ graphNodes h g' := by unfold graphNodes at hc ⊢; rwa [hother g' e] at hc
      exact e ((C01_registered r g).2.2.2.1 g' n hn this).symm
  have hnN : n < h1.nN := by
    obtain ⟨A, H⟩ := r.hist
    obtain ⟨k, hk⟩ := (mem_graphNodes H.rep).1 hn
    obtain ⟨h1', K, hrun', -⟩ := H.rep.removeNode_live hself hk
    rw [hrun] at hrun'
    cases hrun'
    show n < h1'.nN
    rw [K.nN]
    exact (H.rep.nodeOk g k n hk).1
  have hadd : addNodeObj g n h1 = (.ok (some n),
      { h1 with graph := upd h1.graph g { h1.graph g with nodes := dset (h1.graph g).nodes (h1.node n).id n } }) := by
    have hc : ¬ ((h1.node n).graph ≠ none) := by simp [hgr]
    simp only [addNodeObj, bind_apply, look_apply, hd, if_neg hc, modGraph, pure_apply]
  have r2 := Reachable.step (.addNodeObj g n) r1 ⟨by rw [hnG]; exact hg, hnN, fun _ g' k hk => absurd (List.mem_map.2 ⟨_, hk, rfl⟩) (hnot g')⟩
  simp only [Op.step, bind_apply, hadd, pure_apply] at r2
  refine ⟨h1, _, hrun, hadd, r2, ?_, ?_⟩
  · have e : graphNodes { h1 with graph := upd h1.graph g { h1.graph g with nodes := dset (h1.graph g).nodes (h1.node n).id n } } g =
        graphNodes h1 g ++ [n] := by
      simp only [graphNodes, dvals, upd_same]
      rw [dset_of_not_mem (dget_none.1 hd)]
      simp
    rw [e, hnodes]
  · generalize hh2 : ({ h1 with graph := upd h1.graph g { h1.graph g with nodes := dset (h1.graph g).nodes (h1.node n).id n } } : Heap) = h2 at r2
    have hnode2 : h2.node n = h1.node n := by rw [← hh2]
    have hmem : n ∈ graphNodes h2 g := by
      rw [← hh2]
      simp only [graphNodes, dvals, upd_same]
      rw [dset_of_not_mem (dget_none.1 hd)]
      simp
    have hget := getNode_self r2 hmem
    refine ⟨hget, ?_, ?_, ?_⟩
    · have : (h2.node n).id = (h.node n).id := by rw [hnode2, hid]
      rw [← this]
      exact hget
    · rw [getChildren_eq r2 hget]
      simp [kids, hnode2, hnode]
    · rw [getParents_eq r2 hget]
      simp [pars, hnode2, hnode]

example : (0 : GRef) < demo.nG ∧ (1 : NRef) ∈ graphNodes demo 0 := by decide

/-! ## C17: `strict` -/

/-- **C17 fails**: a graph created with `strict=True` gets two edges from `a` to `b`. -/
theorem C17_strict_not_enforced : ∃ h e f, Reachable h ∧ (h.graph 0).strict = true ∧ LiveEdge h 0 e ∧ LiveEdge h 0 f ∧
    e ≠ f ∧ edgeStart h e = edgeStart h f ∧ edgeEnd h e = edgeEnd h f := by
  refine ⟨runOps [.newGraph true true false, .add 0 "a", .add 0 "b", .link 0 "a" "b", .link 0 "a" "b" (some (.str "2"))]
    Heap.init, 0, 1, Reachable.runOps .init _ ?_, by decide, ⟨0, by decide, [0, 1], by decide, by decide⟩,
    ⟨0, by decide, [0, 1], by decide, by decide⟩, by decide, by decide, by decide⟩
  simp only [AllOk, Op.Ok, Op.add, Op.link]
  decide

/-- **C17 fails in every graph, strict or not**: given an edge between two nodes, a `connect` call for the same two nodes with
an extra id that no edge between them has adds a second edge. `strict` is still set afterwards. -/
theorem C17_parallel_violated {h : Heap} (r : Reachable h) {g : GRef} {s t : NodeArg} {n m : NRef} {e : ERef}
    (hs : getNode h g s = .ok n) (ht : getNode h g t = .ok m) (he : LiveEdge h g e) (hes : edgeStart h e = .ok n)
    (hee : edgeEnd h e = .ok m) {k : Key}
    (hk : ∀ f, LiveEdge h g f → edgeStart h f = .ok n → edgeEnd h f = .ok m → (h.edge f).raw ≠ .key k)
    (p : IfExists) :
    ∃ f h', connect g s t { id := some k } p h = (.ok f, h') ∧ (h'.graph g).strict = (h.graph g).strict ∧
      LiveEdge h' g e ∧ LiveEdge h' g f ∧ e ≠ f ∧ edgeStart h' e = edgeStart h' f ∧ edgeEnd h' e = edgeEnd h' f := by
  obtain ⟨A, H⟩ := r.hist
  have R := H.rep
  obtain ⟨i, hi⟩ := (liveEdge_iff R).1 he
  obtain ⟨x, hx, hn⟩ := R.getNode_ok.1 hs
  obtain ⟨y, hy, hm⟩ := R.getNode_ok.1 ht
  have hnew : (x, y, RawId.key k) ∉ (A.graph g).ids := by
    intro hc
    obtain ⟨f, hf⟩ := Rep.mem_ids.1 hc
    obtain ⟨-, -, -, hraw, n', m', hn', hm', hst, hsp⟩ := R.edgeOk _ _ _ _ _ hf
    rw [val_unique (R.keysNodup g) hn' hn] at hst
    rw [val_unique (R.keysNodup g) hm' hm] at hsp
    exact hk f ((liveEdge_iff R).2 ⟨_, hf⟩) (by simp [edgeStart, hst]) (by simp [edgeEnd, hsp]) hraw
  have hrun := R.connect_new hs ht hn hm { id := some k } p hnew
  have hlt : e < h.nE := (R.edgeOk _ _ _ _ _ hi).1
  have R' := R.newEdge (o := { graph := some g, start := some n, stop := some m, raw := .key k, value := .none,
                               label := .none, tooltip := .none, params := [], style := none })
    (i := .key k) h.nStyle hn hm (by simp) hnew rfl rfl rfl rfl
  have hne : e ≠ h.nE := Nat.ne_of_lt hlt
  refine ⟨h.nE, _, hrun, rfl, (liveEdge_iff R').2 ⟨i, ?_⟩, (liveEdge_iff R').2 ⟨(x, y, .key k), ?_⟩, hne, ?_, ?_⟩
  · simp [SGraph.addEdge, hnew, hi]
  · simp [SGraph.addEdge, hnew]
  · simp only [edgeStart] at hes
    simp [edgeStart, newEdgeHeap, upd_ne _ _ hne, hes]
  · simp only [edgeEnd] at hee
    simp [edgeEnd, newEdgeHeap, upd_ne _ _ hne, hee]

/-- The hypotheses hold in the demo graph, for the edge from `a` to `b` and the extra id 7. -/
example : getNode demo 0 (.key (.str "a")) = .ok 0 ∧ getNode demo 0 (.key (.str "b")) = .ok 1 ∧ LiveEdge demo 0 0 ∧
    edgeStart demo 0 = .ok 0 ∧ edgeEnd demo 0 = .ok 1 ∧
    ∀ f, LiveEdge demo 0 f → edgeStart demo f = .ok 0 → edgeEnd demo f = .ok 1 → (demo.edge f).raw ≠ .key (.int 7) := by
  refine ⟨by decide, by decide, ⟨0, by decide, [0, 3], by decide, by decide⟩, by decide, by decide, ?_⟩
  rintro f ⟨n, hn, os, hos, hf⟩ - -
  have all : ∀ n ∈ graphNodes demo 0, ∀ f ∈ (outwardEdges demo n).toOption.getD [], (demo.edge f).raw ≠ .key (.int 7) := by
    decide
  exact all n hn f (by rw [hos]; exact hf)

/-- The call gives no edge id. -/
def Op.NoId : Op → Prop
  | .connect _ _ _ a _ => a.id = none
  | .connectTo _ _ a _ => a.id = none
  | .connectFrom _ _ a _ => a.id = none
  | _ => True

theorem Spec.connect_noId {A : Spec} {g : GRef} {s t : NodeArg} {e : ERef}
    (hA : ∀ g i f, (i, f) ∈ (A.graph g).edges → i.2.2 = RawId.none) :
    ∀ g' i f, (i, f) ∈ ((A.connect g s t .none e).graph g').edges → i.2.2 = RawId.none := by
  intro g' i f hf
  unfold Spec.connect at hf
  split at hf
  · next j hj =>
    have hj2 : j.2.2 = .none := by
      unfold Spec.connectId at hj
      split at hj
      · cases hj; rfl
      · cases hj
    by_cases hg : g' = g
    · subst hg
      simp only [Spec.on, upd_same, SGraph.addEdge] at hf
      split at hf
      · exact hA _ _ _ hf
      · rcases List.mem_append.1 hf with hf | hf
        · exact hA _ _ _ hf
        · simp only [List.mem_singleton, Prod.mk.injEq] at hf
          rw [hf.1]; exact hj2
    · simp only [Spec.on, upd_ne _ _ hg] at hf
      exact hA _ _ _ hf
  · exact hA _ _ _ hf

theorem Spec.step_noId {A : Spec} {op : Op} (r : Except PyErr Out) (ho : op.NoId)
    (hA : ∀ g i f, (i, f) ∈ (A.graph g).edges → i.2.2 = RawId.none) :
    ∀ g i f, (i, f) ∈ ((A.step op r).graph g).edges → i.2.2 = RawId.none := by
  have reg : ∀ g k n hm, ∀ g' i f, (i, f) ∈ ((A.register g k n hm).graph g').edges → i.2.2 = RawId.none := by
    intro g k n hm g' i f hf
    unfold Spec.register at hf
    split at hf
    · exact hA _ _ _ hf
    · by_cases hg : g' = g
      · subst hg
        simp only [upd_same, SGraph.addNode] at hf
        split at hf <;> exact hA _ _ _ hf
      · simp only [upd_ne _ _ hg] at hf
        exact hA _ _ _ hf
  cases r with
  | error e => exact hA
  | ok out =>
    cases op with
    | addNode g x a p => cases out <;> first | exact hA | exact reg _ _ _ _
    | addNodeObj g n => exact reg _ _ _ _
    | copy g =>
      cases out with
      | copied g' m =>
        intro x i f hf
        by_cases hx : x = g'
        · subst hx
          simp only [Spec.step, Spec.copy, upd_same] at hf
          obtain ⟨p, hp, e⟩ := List.mem_map.1 hf
          cases e
          exact hA _ _ _ hp
        · simp only [Spec.step, Spec.copy, upd_ne _ _ hx] at hf
          exact hA _ _ _ hf
      | _ => exact hA
    | removeNode g a =>
      simp only [Spec.step]
      split
      · intro g' i f hf
        by_cases hg : g' = g
        · subst hg
          simp only [Spec.unregister, upd_same, SGraph.delNode] at hf
          exact hA _ _ _ (List.mem_filter.1 hf).1
        · simp only [Spec.unregister, upd_ne _ _ hg] at hf
          exact hA _ _ _ hf
      · exact hA
    | connect g s t a p =>
      cases out with
      | edge e =>
        have : a.raw = .none := by simp only [Op.NoId] at ho; simp [EdgeArgs.raw, ho]
        simp only [Spec.step, this]
        exact Spec.connect_noId hA
      | _ => exact hA
    | connectTo n t a p =>
      cases out with
      | edge e =>
        have : a.raw = .none := by simp only [Op.NoId] at ho; simp [EdgeArgs.raw, ho]
        simp only [Spec.step, this]
        split
        · exact Spec.connect_noId hA
        · exact hA
      | _ => exact hA
    | connectFrom n t a p =>
      cases out with
      | edge e =>
        have : a.raw = .none := by simp only [Op.NoId] at ho; simp [EdgeArgs.raw, ho]
        simp only [Spec.step, this]
        split
        · exact Spec.connect_noId hA
        · exact hA
      | _ => exact hA
    | disconnect e => intro g i f hf; exact hA _ _ _ (List.mem_filter.1 hf).1
    | removeSelf e => intro g i f hf; exact hA _ _ _ (List.mem_filter.1 hf).1
    | _ => exact hA

theorem hist_noId {h : Heap} {A : Spec} (H : Hist h A) (hA : ∀ g i f, (i, f) ∈ (A.graph g).edges → i.2.2 = RawId.none)
    (ops : List Op) (ok : AllOk ops h) (hno : ∀ op ∈ ops, op.NoId) :
    ∃ A', Hist (runOps ops h) A' ∧ ∀ g i f, (i, f) ∈ (A'.graph g).edges → i.2.2 = RawId.none := by
  induction ops generalizing h A with
  | nil => exact ⟨A, H, hA⟩
  | cons op ops ih =>
    exact ih (.step op H ok.1) (Spec.step_noId _ (hno op (by simp)) hA) ok.2 (fun o ho => hno o (by simp [ho]))

/-- **C17**, what holds: in a history in which no `connect` call passes an `id`, there is at most one edge between an
ordered pair of nodes, in every graph, strict or not. Missing: calls with an id on a strict graph
(`C17_strict_not_enforced`). -/
theorem C17_no_parallel_partial (ops : List Op) (ok : AllOk ops Heap.init) (hno : ∀ op ∈ ops, op.NoId) {g : GRef}
    {e f : ERef} {n m : NRef} (he : LiveEdge (runOps ops Heap.init) g e) (hf : LiveEdge (runOps ops Heap.init) g f)
    (hes : edgeStart (runOps ops Heap.init) e = .ok n) (hfs : edgeStart (runOps ops Heap.init) f = .ok n)
    (hee : edgeEnd (runOps ops Heap.init) e = .ok m) (hfe : edgeEnd (runOps ops Heap.init) f = .ok m) : e = f := by
  obtain ⟨A, H, hA⟩ := hist_noId .init (by simp [Spec.init]) ops ok hno
  have R := H.rep
  obtain ⟨i, hi⟩ := (liveEdge_iff R).1 he
  obtain ⟨j, hj⟩ := (liveEdge_iff R).1 hf
  have hij : i = j := by
    obtain ⟨n1, m1, a1, a2, a3, -⟩ := R.live_edge hi
    obtain ⟨n2, m2, b1, b2, b3, -⟩ := R.live_edge hj
    have e1 := hA _ _ _ hi
    have e2 := hA _ _ _ hj
    simp only [edgeStart, a1, b1, edgeEnd, a2, b2, Except.ok.injEq] at hes hfs hee hfe
    subst hes hee
    obtain rfl := hfs
    obtain rfl := hfe
    simp only [edgeId, a1, a2, b1, b2, Except.ok.injEq] at a3 b3
    subst a3 b3
    simp only at e1 e2
    simp only [e1, e2]
  subst hij
  exact val_unique (R.idsNodup g) hi hj

example : ∃ ops, AllOk ops Heap.init ∧ (∀ op ∈ ops, op.NoId) ∧ LiveEdge (runOps ops Heap.init) 0 0 := by
  refine ⟨[.newGraph true true false, .add 0 "a", .add 0 "b", .link 0 "a" "b", .link 0 "a" "b"], ?_, ?_, ?_⟩
  · simp only [AllOk, Op.Ok, Op.add, Op.link]; decide
  · simp [Op.NoId, Op.add, Op.link]
  · exact ⟨0, by decide, [0], by decide, by decide⟩

/-! ## C55: the `Node` constructor -/

/-- The demo graph after `Node(graph=g, name='a')` although `a` exists. -/
def clobberedDemo : Heap := (nodeInit 0 (.str "a") .none .none .none .none 0 [] demo).2

/-- **C55 fails**: constructing a `Node` with a taken name replaces the registered node. The old edges then start at an
object that is not in the graph, and connecting the same pair again raises, although both names are registered. -/
theorem C55_clobbers : graphNodes clobberedDemo 0 = [5, 1, 2, 3] ∧ inwardEdges clobberedDemo 1 = .ok [0, 3] ∧
    edgeStart clobberedDemo 0 = .ok 0 ∧ outwardEdges clobberedDemo 5 = .ok [] ∧
    (connect 0 (.key (.str "a")) (.key (.str "b")) {} .warn clobberedDemo).1 =
      .error (.valueError "This is very weird! (inward)") := by decide

theorem dvals_dset_replace {d : Dict Key NRef} {k : Key} {n x : NRef} (hk : (k, n) ∈ d) (hnd : (dkeys d).Nodup)
    (hinj : ∀ k', (k', n) ∈ d → k' = k) : dvals (dset d k x) = (dvals d).map (fun y => if y = n then x else y) := by
  induction d with
  | nil => simp at hk
  | cons q d ih =>
    obtain ⟨k', n'⟩ := q
    simp only [dkeys, List.map_cons, List.nodup_cons] at hnd
    by_cases e : k' = k
    · subst e
      have hn' : n' = n := by
        rcases List.mem_cons.1 hk with hk | hk
        · cases hk; rfl
        · exact absurd (List.mem_map.2 ⟨_, hk, rfl⟩) hnd.1
      subst hn'
      have : ∀ y ∈ dvals d, y ≠ n' := by
        intro y hy hc
        subst hc
        obtain ⟨⟨k2, _⟩, h2, rfl⟩ := List.mem_map.1 hy
        have := hinj k2 (List.mem_cons_of_mem _ h2)
        subst this
        exact hnd.1 (List.mem_map.2 ⟨_, h2, rfl⟩)
      simp only [dset, dvals, ↓reduceIte, List.map_cons, List.cons.injEq, true_and]
      symm
      rw [List.map_congr_left (g := id)]
      · simp
      · intro y hy; simp [this y hy]
    · have hk' : (k, n) ∈ d := by
        rcases List.mem_cons.1 hk with hk | hk
        · cases hk; exact absurd rfl e
        · exact hk
      have hn' : n' ≠ n := fun hc => e (hinj k' (by rw [hc]; simp))
      have := ih hk' hnd.2 fun k2 h2 => hinj k2 (List.mem_cons_of_mem _ h2)
      simp only [dvals] at this
      simp only [dset, if_neg e, dvals, List.map_cons, if_neg hn', this]

/-- `outward_edges` and `inward_edges` look only at the edges they list. -/
theorem dedupEdges_congr {h h' : Heap} {l acc : List ERef} (he : h'.edge = h.edge)
    (hid : ∀ e, e ∈ l ∨ e ∈ acc → edgeId h' e = edgeId h e) : dedupEdges h' l acc = dedupEdges h l acc := by
  have heq : ∀ {a b}, edgeId h' a = edgeId h a → edgeId h' b = edgeId h b → edgeEq h' a b = edgeEq h a b := by
    intro a b ha hb
    simp only [edgeEq, he, ha, hb]
  have hmem : ∀ (acc : List ERef) x, edgeId h' x = edgeId h x → (∀ e ∈ acc, edgeId h' e = edgeId h e) →
      memEdge h' x acc = memEdge h x acc := by
    intro acc x hx hacc
    induction acc with
    | nil => rfl
    | cons a acc ih =>
      simp only [memEdge, heq (hacc a (by simp)) hx, ih fun e h1 => hacc e (by simp [h1])]
  induction l generalizing acc with
  | nil => rfl
  | cons x l ih =>
    simp only [dedupEdges]
    rw [hmem acc x (hid x (by simp)) fun e h1 => hid e (by simp [h1])]
    congr 1
    funext b
    cases b
    · exact ih fun e h1 => hid e (by simp only [List.mem_append, List.mem_cons, List.not_mem_nil, or_false] at h1 ⊢; grind)
    · exact ih fun e h1 => hid e (by simp only [List.mem_cons] at h1 ⊢; grind)

/-- **C55 fails in every graph, for every taken name**: constructing a `Node` with the name of a node of the graph takes the
old node out and puts one without edges in its place. Every edge that leaves the old node for another one still starts at it,
is still listed at its end, and a `connect` call with the two names and the id of the edge raises. -/
theorem C55_taken_violated {h : Heap} (r : Reachable h) {g : GRef} {k : Key} {n : NRef} (hk : getNode h g (.key k) = .ok n)
    (value label tooltip : Val) (style : StyleArg) (index : Nat) (kwargs : Dict String Val) (hst : style.Valid) :
    ∃ h', nodeInit g k value label tooltip style index kwargs h = (.ok h.nN, h') ∧
      graphNodes h' g = (graphNodes h g).map (fun x => if x = n then h.nN else x) ∧ n ∉ graphNodes h' g ∧
      outwardEdges h' h.nN = .ok [] ∧ inwardEdges h' h.nN = .ok [] ∧
      ∀ e m, LiveEdge h g e → edgeStart h e = .ok n → edgeEnd h e = .ok m → m ≠ n →
        m ∈ graphNodes h' g ∧ edgeStart h' e = .ok n ∧ (∃ is, inwardEdges h' m = .ok is ∧ e ∈ is) ∧
        ∀ (a : EdgeArgs) (p : IfExists), a.raw = (h.edge e).raw →
          connect g (.key k) (.key (h.node m).id) a p h' = (.error (.valueError "This is very weird! (inward)"), h') := by
  obtain ⟨sr, hsr⟩ := styleResult_valid hst h.nStyle
  obtain ⟨A, H⟩ := r.hist
  have R := H.rep
  let o : NodeObj := { graph := some g, id := k, value := value, label := label, tooltip := tooltip, params := kwargs,
                       style := sr, index := index }
  have hkn : (k, n) ∈ (A.graph g).nodes := by
    simp only [getNode] at hk
    split at hk
    · next x hx => cases hk; rw [← R.nodes]; exact mem_of_dget hx
    · cases hk
  have hlt : ∀ x ∈ graphNodes h g, x ≠ h.nN := by
    intro x hx hc
    obtain ⟨k', hk'⟩ := (mem_graphNodes R).1 hx
    exact Nat.ne_of_lt (R.nodeOk g k' x hk').1 hc
  have hnN : n ≠ h.nN := hlt n ((mem_graphNodes R).2 ⟨k, hkn⟩)
  have hidn := (R.nodeOk g k n hkn).2.1
  have hvals : dvals (dset (h.graph g).nodes k h.nN) = (graphNodes h g).map (fun x => if x = n then h.nN else x) := by
    rw [graphNodes, R.nodes]
    refine dvals_dset_replace hkn (R.keysNodup g) fun k' hk' => ?_
    rw [← (R.nodeOk g k' n hk').2.1, hidn]
  refine ⟨{ h with graph := upd h.graph g { h.graph g with nodes := dset (h.graph g).nodes k h.nN },
                   node := upd h.node h.nN o, nN := h.nN + 1, nStyle := styleCount h.nStyle style },
    by simp only [nodeInit, bind_apply, run_resolveStyle, hsr, newNode, modGraph, pure_apply, Option.elim]; rfl, ?_, ?_, ?_, ?_, ?_⟩
  · simp only [graphNodes, upd_same] at hvals ⊢
    exact hvals
  · simp only [graphNodes, upd_same, hvals]
    intro hc
    obtain ⟨y, hy, hyn⟩ := List.mem_map.1 hc
    split at hyn
    · exact hnN hyn.symm
    · contradiction
  · simp [outwardEdges, dvals, dedupEdges, o]
  · simp [inwardEdges, dvals, dedupEdges, o]
  · intro e m he hes hee hmn
    obtain ⟨i, hi⟩ := (liveEdge_iff R).1 he
    obtain ⟨x, y, raw⟩ := i
    obtain ⟨-, -, hg, hraw, n', m', hn', hm', hs', ht'⟩ := R.edgeOk _ _ _ _ _ hi
    simp only [edgeStart, hs', edgeEnd, ht', Except.ok.injEq] at hes hee
    subst hes hee
    have hmN : m' ≠ h.nN := hlt m' ((mem_graphNodes R).2 ⟨_, hm'⟩)
    have hidm := (R.nodeOk g _ m' hm').2.1
    have hq := (R.dget_in hm' x raw e).2 hi
    have hxk : x = k := by rw [← (R.nodeOk g x n' hn').2.1, hidn]
    subst hxk
    have hyx : y ≠ x := by
      rintro rfl
      exact hmn (val_unique (R.keysNodup g) hm' hkn)
    have hgy : dget (dset (h.graph g).nodes x h.nN) y = some m' := by
      rw [dget_dset, if_neg (Ne.symm hyx), R.nodes]
      exact dget_of_mem (R.keysNodup g) hm'
    refine ⟨?_, by simp [edgeStart, hs'], ⟨((A.graph g).inn y).map Prod.snd, ?_, ?_⟩, fun a p ha => ?_⟩
    · simp only [graphNodes, upd_same]
      exact List.mem_map.2 ⟨_, mem_of_dget hgy, rfl⟩
    · rw [← R.inwardEdges hm']
      simp only [inwardEdges, upd_ne _ _ hmN]
      refine dedupEdges_congr rfl fun f hf => ?_
      have hf' : f ∈ (A.graph g).handles := by
        rw [R.inE g y m' hm'] at hf
        refine Rep.inn_handles (k := y) f ?_
        simpa [dvals] using hf
      obtain ⟨⟨x1, y1, r1⟩, hj⟩ := Rep.mem_handles.1 hf'
      obtain ⟨-, -, -, -, n1, m1, hn1, hm1, hs1, ht1⟩ := R.edgeOk _ _ _ _ _ hj
      simp only [edgeId, hs1, ht1, upd_ne _ _ (hlt n1 ((mem_graphNodes R).2 ⟨_, hn1⟩)), upd_ne _ _ (hlt m1 ((mem_graphNodes R).2 ⟨_, hm1⟩))]
    · simp only [SGraph.inn]
      exact List.mem_map.2 ⟨((x, y, raw), e), List.mem_filter.2 ⟨hi, by simp⟩, rfl⟩
    · have g1 : dget (dset (h.graph g).nodes x h.nN) x = some h.nN := by rw [dget_dset, if_pos rfl]
      have hao : dget o.outE (x, y, a.raw) = none := rfl
      have hai : dget (h.node m').inE (x, y, a.raw) = some e := by rw [ha, hraw]; exact hq
      have hoe : o.outE = [] := rfl
      simp only [connect, bind_apply, ask_apply, getNode, upd_same, g1, hgy, hidm, look_apply, upd_ne _ _ hmN]
      rw [if_neg (fun hc => by rw [hai] at hc; exact absurd hc.2 (by simp)), if_neg (fun hc => hc.1 hao)]
      simp only [bind_apply, ask_apply, outwardEdges, upd_same, hoe, dvals, List.map_nil, dedupEdges, tupleInEdges, ↓reduceIte,
        Bool.false_eq_true]
      rfl

example : getNode demo 0 (.key (.str "a")) = .ok 0 ∧ LiveEdge demo 0 0 ∧ edgeStart demo 0 = .ok 0 ∧ edgeEnd demo 0 = .ok 1 :=
  ⟨by decide, ⟨0, by decide, [0, 3], by decide, by decide⟩, by decide, by decide⟩

/-- **C55**, what holds: with a name that is not taken and an acceptable style the constructor appends a node without
edges and changes nothing else. Missing: taken names (`C55_clobbers`). -/
theorem C55_new_name_partial {h : Heap} (r : Reachable h) {g : GRef} {k : Key} (hk : k ∉ dkeys (h.graph g).nodes)
    (value label tooltip : Val) (style : StyleArg) (index : Nat) (kwargs : Dict String Val) (hst : style.Valid) :
    ∃ h', nodeInit g k value label tooltip style index kwargs h = (.ok h.nN, h') ∧ h.nN ∉ graphNodes h g ∧
      graphNodes h' g = graphNodes h g ++ [h.nN] ∧ (∀ g', g' ≠ g → h'.graph g' = h.graph g') ∧
      (∀ n, n ≠ h.nN → h'.node n = h.node n) ∧ h'.edge = h.edge ∧
      (h'.node h.nN).id = k ∧ (h'.node h.nN).graph = some g ∧
      outwardEdges h' h.nN = .ok [] ∧ inwardEdges h' h.nN = .ok [] := by
  obtain ⟨sr, hsr⟩ := styleResult_valid hst h.nStyle
  obtain ⟨A, H⟩ := r.hist
  let o : NodeObj := { graph := some g, id := k, value := value, label := label, tooltip := tooltip, params := kwargs,
                       style := sr, index := index }
  refine ⟨{ h with graph := upd h.graph g { h.graph g with nodes := dset (h.graph g).nodes k h.nN },
                   node := upd h.node h.nN o, nN := h.nN + 1, nStyle := styleCount h.nStyle style },
    by simp only [nodeInit, bind_apply, run_resolveStyle, hsr, newNode, modGraph, pure_apply, Option.elim]; rfl, ?_, ?_,
    fun g' hg' => by simp [upd_ne _ _ hg'], fun n hn => by simp [upd_ne _ _ hn], rfl, by simp [o], by simp [o], ?_, ?_⟩
  · intro hc
    obtain ⟨k, hk⟩ := (mem_graphNodes H.rep).1 hc
    exact Nat.lt_irrefl _ (H.rep.nodeOk g k _ hk).1
  · simp only [graphNodes, dvals, upd_same]
    rw [dset_of_not_mem hk]
    simp
  · simp [outwardEdges, dvals, dedupEdges, o]
  · simp [inwardEdges, dvals, dedupEdges, o]

example : Key.str "e" ∉ dkeys (demo.graph 0).nodes ∧ Key.int 7 ∉ dkeys (demo.graph 0).nodes := by decide

/-! ## C56: one graph per node object -/

/-- Two graphs; `x` and `y` in graph 0; `x` is removed and added back; then the object is added to graph 1 as well. The
last call is accepted because the re-added `x` has no `graph`. -/
def sharedDemo : Heap := runOps [.newGraph false true false, .newGraph false true false, .add 0 "x", .add 0 "y",
  .removeNode 0 (.key (.str "x")), .addNodeObj 0 0, .addNodeObj 1 0] Heap.init

/-- **C56 fails**: a node object can be in two graphs, and then a `connect` call on the one changes the other, which ends
up with an edge to a node it does not contain. -/
theorem C56_shared_node : graphNodes sharedDemo 0 = [1, 0] ∧ graphNodes sharedDemo 1 = [0] ∧
    getChildren sharedDemo 1 (.key (.str "x")) = .ok [] ∧
    (connect 0 (.key (.str "x")) (.key (.str "y")) {} .warn sharedDemo).1 = .ok 0 ∧
    getChildren (connect 0 (.key (.str "x")) (.key (.str "y")) {} .warn sharedDemo).2 1 (.key (.str "x")) = .ok [1] ∧
    getNode (connect 0 (.key (.str "x")) (.key (.str "y")) {} .warn sharedDemo).2 1 (.node 1) = .error .keyError := by
  decide +kernel

/-- **C56**, what holds: as long as no node object is added to a graph while it has no `graph` but is registered in
another one, no node object is registered in two graphs. Missing: exactly that call (`C56_shared_node`). -/
theorem C56_one_graph_partial {h : Heap} (r : Reachable h) {g g' : GRef} {n : NRef} (hn : n ∈ graphNodes h g)
    (hn' : n ∈ graphNodes h g') : g = g' := (C01_registered r g).2.2.2.1 g' n hn hn'

example : (0 : NRef) ∈ graphNodes demo 0 := by decide

/-- **C56 fails in every state**: take any node `n` of a graph `g`, remove it, add it back, and add it to another graph `g'` that has no
node of its name. Every call succeeds and `n` is in both graphs. A `connect` call in `g` from `n` to any other node `m` of `g` then
gives `n` a child in `g'` that `g'` does not have. -/
theorem C56_violated {h : Heap} (r : Reachable h) {g g' : GRef} (hg : g < h.nG) (hgg : g' ≠ g) {n : NRef} (hn : n ∈ graphNodes h g)
    (hfree : (h.node n).id ∉ dkeys (h.graph g').nodes) :
    ∃ h1 h2 h3, removeNode g (.node n) h = (.ok (), h1) ∧ addNodeObj g n h1 = (.ok (some n), h2) ∧
      addNodeObj g' n h2 = (.ok (some n), h3) ∧ n ∈ graphNodes h3 g ∧ n ∈ graphNodes h3 g' ∧
      ∀ m ∈ graphNodes h g, m ≠ n → ∃ e h4, connect g (.node n) (.node m) {} .warn h3 = (.ok e, h4) ∧
        getChildren h4 g' (.node n) = .ok [m] ∧ m ∉ graphNodes h4 g' := by
  obtain ⟨h1, h2, e1, e2, r2, hnodes, hget, -⟩ := C12_readd_partial r hg hn
  obtain ⟨-, hgr, hd, hh2⟩ := addNodeObj_registers e2
  obtain ⟨h1', e1', -, -, -, -, hnode, hothers, -, hgraphs, -⟩ := C06_remove_node r (getNode_self r hn)
  rw [e1] at e1'
  cases e1'
  have hn2 : h2.node = h1.node := by rw [hh2]
  have hid : (h2.node n).id = (h.node n).id := by rw [hn2, hnode]
  have hgr2 : h2.graph g' = h.graph g' := by rw [hh2]; simp only [upd_ne _ _ hgg]; exact hgraphs g' hgg
  have hnone : dget (h2.graph g').nodes (h2.node n).id = none := by rw [hgr2, hid]; exact dget_none.2 hfree
  have hg2 : (h2.node n).graph = none := by rw [hn2]; exact hgr
  have e3 : addNodeObj g' n h2 = (.ok (some n),
      { h2 with graph := upd h2.graph g' { h2.graph g' with nodes := dset (h2.graph g').nodes (h2.node n).id n } }) := by
    have hc : ¬ ((h2.node n).graph ≠ none) := by simp [hg2]
    simp only [addNodeObj, bind_apply, look_apply, hnone, if_neg hc, modGraph, pure_apply]
  generalize hh3 : ({ h2 with graph := upd h2.graph g' { h2.graph g' with nodes := dset (h2.graph g').nodes (h2.node n).id n } } : Heap) = h3 at e3
  have g3 : h3.graph g = h2.graph g := by rw [← hh3]; simp [upd_ne _ _ hgg.symm]
  have g3' : graphNodes h3 g' = graphNodes h g' ++ [n] := by
    rw [← hh3]
    simp only [graphNodes, dvals, upd_same]
    rw [dset_of_not_mem (dget_none.1 hnone), hgr2]
    simp
  have n3 : h3.node = h2.node := by rw [← hh3]
  have m2 : n ∈ graphNodes h2 g := by rw [hnodes]; simp
  refine ⟨h1, h2, h3, e1, e2, e3, ?_, by rw [g3']; simp, ?_⟩
  · unfold graphNodes at m2 ⊢; rw [g3]; exact m2
  intro m hm hmn
  have hm2 : m ∈ graphNodes h2 g := by rw [hnodes]; simp [hm, hmn]
  obtain ⟨A, H⟩ := r2.hist
  have R := H.rep
  obtain ⟨k, hk⟩ := (mem_graphNodes R).1 m2
  obtain ⟨k', hk'⟩ := (mem_graphNodes R).1 hm2
  have i1 := (R.nodeOk g k n hk).2.1
  have i2 := (R.nodeOk g k' m hk').2.1
  have ho : (h2.node n).outE = [] := by rw [hn2, hnode]
  have hi : dget (h2.node m).inE ((h2.node n).id, (h2.node m).id, RawId.none) = none := by
    refine Decidable.byContradiction fun hc => ?_
    obtain ⟨e, he⟩ := Option.ne_none_iff_exists'.1 hc
    rw [i1, i2] at he
    have := (R.dget_in hk' k _ e).1 he
    have := (R.dget_out hk k' _ e).2 this
    rw [ho] at this
    cases this
  have q1 : getNode h3 g (.node n) = .ok n := by
    have := getNode_self r2 m2
    simp only [getNode] at this ⊢
    rw [g3, n3]; exact this
  have q2 : getNode h3 g (.node m) = .ok m := by
    have := getNode_self r2 hm2
    simp only [getNode] at this ⊢
    rw [g3, n3]; exact this
  have run := run_edgeInit (h := h3) (g := g) (n := n) (m := m) (raw := .none) (v := .none) (l := .none) (tt := .none) (st := .none)
    (kw := []) (by rw [n3, ho]; rfl) (by rw [n3]; exact hi)
  simp only [styleResult] at run
  generalize hh4 : newEdgeHeap h3 n m ((h3.node n).id, (h3.node m).id, .none)
        { graph := some g, start := some n, stop := some m, raw := .none, value := .none, label := .none, tooltip := .none, params := [],
          style := none } (styleCount h3.nStyle .none) = h4 at run
  have hnm : n ≠ m := fun hc => hmn hc.symm
  have gr4 : h4.graph = h3.graph := by rw [← hh4]; rfl
  refine ⟨h3.nE, h4, ?_, ?_, ?_⟩
  · have cond : dget (h3.node n).outE ((h3.node n).id, (h3.node m).id, RawId.none) = none ∧
        dget (h3.node m).inE ((h3.node n).id, (h3.node m).id, RawId.none) = none := by
      rw [n3, ho]; exact ⟨rfl, hi⟩
    simp only [connect, bind_apply, ask_apply, q1, q2, look_apply]
    rw [if_pos (by exact cond)]
    exact run
  · have qn : getNode h4 g' (.node n) = .ok n := by
      have e4 : (h4.node n).id = (h2.node n).id := by rw [← hh4]; show (h3.node n).id = _; rw [n3]
      simp only [getNode]
      rw [gr4, e4, ← hh3]
      simp only [upd_same]
      rw [dget_dset, if_pos rfl]
    have ho4 : (h4.node n).outE = [(((h3.node n).id, (h3.node m).id, .none), h3.nE)] := by
      rw [← hh4]; simp [newEdgeHeap, n3, ho]
    have hs4 : (h4.edge h3.nE).stop = some m := by rw [← hh4]; simp [newEdgeHeap, upd_same]
    simp [getChildren, getOutwardEdges, qn, bind, Except.bind, outwardEdges, ho4, dvals, dedupEdges, memEdge, pure, Except.pure,
      edgeEnd, hs4]
  · unfold graphNodes at g3' ⊢
    rw [gr4, g3']
    change m ∉ graphNodes h g' ++ [n]
    intro hc
    rcases List.mem_append.1 hc with hc | hc
    · exact hgg ((C01_registered r g).2.2.2.1 g' m hm hc).symm
    · exact hmn (List.mem_singleton.1 hc)

/-- `b` of the first graph of the demo, and its second graph. -/
example := C56_violated demo_reachable (g := 0) (g' := 1) (by decide) (by decide) (n := 1) (by decide) (by decide)

end Verif
