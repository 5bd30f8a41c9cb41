import Verif.Lemmas.Run
/-!
# Running `connect`, `add_node`, `remove_node`
-/
namespace Verif
open M

/-- Which style reference a style argument yields on a heap whose style counter is `k`; `none`: it raises. -/
def styleResult (old : Option SRef) (k : Nat) : StyleArg → Option (Option SRef)
  | .none => some old
  | .obj s => some (some s)
  | .dict true => some (some k)
  | .dict false => none
  | .bad => none

/-- The style counter afterwards. -/
def styleCount (k : Nat) : StyleArg → Nat
  | .dict true => k + 1
  | _ => k

theorem run_resolveStyle (old : Option SRef) (s : StyleArg) (h : Heap) :
    resolveStyle old s h = ((styleResult old h.nStyle s).elim (.error .typeError) .ok, { h with nStyle := styleCount h.nStyle s }) := by
  cases s with
  | dict v => cases v <;> rfl
  | _ => rfl

/-- The heap after a new edge `i` from `n` to `m`. -/
def newEdgeHeap (h : Heap) (n m : NRef) (i : EdgeId) (o : EdgeObj) (k : Nat) : Heap :=
  { h with
    node := fun x => { h.node x with
      outE := if x = n then (h.node x).outE ++ [(i, h.nE)] else (h.node x).outE
      inE := if x = m then (h.node x).inE ++ [(i, h.nE)] else (h.node x).inE }
    edge := upd h.edge h.nE o
    nE := h.nE + 1
    nStyle := k }

theorem upd_new (h : Heap) (n m : NRef) (i : EdgeId) (e : ERef) (ho : dget (h.node n).outE i = none)
    (hi : dget (h.node m).inE i = none) :
    upd (upd h.node n { h.node n with outE := dset (h.node n).outE i e }) m
      { upd h.node n { h.node n with outE := dset (h.node n).outE i e } m with
        inE := dset (upd h.node n { h.node n with outE := dset (h.node n).outE i e } m).inE i e } =
    fun x => { h.node x with
      outE := if x = n then (h.node x).outE ++ [(i, e)] else (h.node x).outE
      inE := if x = m then (h.node x).inE ++ [(i, e)] else (h.node x).inE } := by
  have ho := dset_of_not_mem (v := e) (dget_none.1 ho)
  have hi := dset_of_not_mem (v := e) (dget_none.1 hi)
  funext x
  by_cases h1 : x = m
  · subst h1
    rw [upd_same]
    by_cases h2 : x = n
    · subst h2; simp [ho, hi]
    · simp [h2, hi]
  · rw [upd_ne _ _ h1]
    by_cases h2 : x = n
    · subst h2; simp [h1, ho]
    · rw [upd_ne _ _ h2]; simp [h1, h2]

theorem run_edgeInit {h : Heap} {g : GRef} {n m : NRef} {raw : RawId} {v l tt : Val} {st : StyleArg}
    {kw : Dict String Val} (ho : dget (h.node n).outE ((h.node n).id, (h.node m).id, raw) = none)
    (hi : dget (h.node m).inE ((h.node n).id, (h.node m).id, raw) = none) :
    edgeInit g n m raw v l tt st kw h =
      match styleResult none h.nStyle st with
      | none => (.error .typeError, { h with nStyle := styleCount h.nStyle st })
      | some sr => (.ok h.nE, newEdgeHeap h n m ((h.node n).id, (h.node m).id, raw)
          { graph := some g, start := some n, stop := some m, raw := raw, value := v, label := l, tooltip := tt,
            params := kw, style := sr } (styleCount h.nStyle st)) := by
  simp only [edgeInit, bind_apply, run_resolveStyle]
  cases styleResult none h.nStyle st with
  | none => rfl
  | some sr =>
    simp only [Option.elim, newEdge, ask_apply, edgeId, upd_same, modNode, pure_apply]
    have : ∀ x i, (upd h.node n { h.node n with outE := dset (h.node n).outE i h.nE } x).id = (h.node x).id := by
      intro x i; by_cases hx : x = n
      · subst hx; simp
      · rw [upd_ne _ _ hx]
    simp only [this, newEdgeHeap]
    congr 2
    have hnew := upd_new h n m _ h.nE ho hi
    simp only [this] at hnew
    exact hnew

namespace Rep
variable {h : Heap} {A : Spec}

theorem dget_out (R : Rep h A) {g : GRef} {s : Key} {n : NRef} (hn : (s, n) ∈ (A.graph g).nodes) (t : Key) (r : RawId)
    (e : ERef) : dget (h.node n).outE (s, t, r) = some e ↔ ((s, t, r), e) ∈ (A.graph g).edges := by
  rw [R.outE g s n hn]
  unfold SGraph.out
  rw [dget_iff (nodup_keys_filter _ (R.idsNodup g))]
  simp

theorem dget_in (R : Rep h A) {g : GRef} {t : Key} {m : NRef} (hm : (t, m) ∈ (A.graph g).nodes) (s : Key) (r : RawId)
    (e : ERef) : dget (h.node m).inE (s, t, r) = some e ↔ ((s, t, r), e) ∈ (A.graph g).edges := by
  rw [R.inE g t m hm]
  unfold SGraph.inn
  rw [dget_iff (nodup_keys_filter _ (R.idsNodup g))]
  simp

theorem mem_ids {g : GRef} {i : EdgeId} : i ∈ (A.graph g).ids ↔ ∃ e, (i, e) ∈ (A.graph g).edges := by
  simp [SGraph.ids]

/-- The result of `connect` between two registered nodes when the id is new. -/
theorem connect_new (R : Rep h A) {g : GRef} {a b : NodeArg} {s t : Key} {n m : NRef}
    (ha : getNode h g a = .ok n) (hb : getNode h g b = .ok m)
    (hn : (s, n) ∈ (A.graph g).nodes) (hm : (t, m) ∈ (A.graph g).nodes) (args : EdgeArgs) (p : IfExists)
    (hnew : (s, t, args.raw) ∉ (A.graph g).ids) :
    connect g a b args p h =
      match styleResult none h.nStyle args.style with
      | none => (.error .typeError, { h with nStyle := styleCount h.nStyle args.style })
      | some sr => (.ok h.nE, newEdgeHeap h n m (s, t, args.raw)
          { graph := some g, start := some n, stop := some m, raw := args.raw, value := args.value,
            label := args.label, tooltip := args.tooltip, params := args.kwargs, style := sr }
            (styleCount h.nStyle args.style)) := by
  have e1 := (R.nodeOk g s n hn).2.1
  have e2 := (R.nodeOk g t m hm).2.1
  have ho : dget (h.node n).outE (s, t, args.raw) = none := by
    refine Decidable.byContradiction fun hc => ?_
    obtain ⟨e, he⟩ := Option.ne_none_iff_exists'.1 hc
    exact hnew (mem_ids.2 ⟨e, (R.dget_out hn t _ e).1 he⟩)
  have hi : dget (h.node m).inE (s, t, args.raw) = none := by
    refine Decidable.byContradiction fun hc => ?_
    obtain ⟨e, he⟩ := Option.ne_none_iff_exists'.1 hc
    exact hnew (mem_ids.2 ⟨e, (R.dget_in hm s _ e).1 he⟩)
  simp only [connect, bind_apply, ask_apply, ha, hb, look_apply, e1, e2, ho, hi, and_self, ↓reduceIte]
  have := run_edgeInit (h := h) (g := g) (n := n) (m := m) (raw := args.raw) (v := args.value) (l := args.label)
    (tt := args.tooltip) (st := args.style) (kw := args.kwargs) (by rw [e1, e2]; exact ho) (by rw [e1, e2]; exact hi)
  rw [e1, e2] at this
  exact this

/-- The result of `connect` when the edge exists. -/
theorem connect_old (R : Rep h A) {g : GRef} {a b : NodeArg} {s t : Key} {n m : NRef} {e : ERef}
    (ha : getNode h g a = .ok n) (hb : getNode h g b = .ok m)
    (hn : (s, n) ∈ (A.graph g).nodes) (hm : (t, m) ∈ (A.graph g).nodes) (args : EdgeArgs) (p : IfExists)
    (hold : ((s, t, args.raw), e) ∈ (A.graph g).edges) :
    connect g a b args p h =
      (p.check (.valueError "already exists") >>= fun _ =>
        edgeUpdate e args.label args.value args.style >>= fun _ => pure e) h := by
  have e1 := (R.nodeOk g s n hn).2.1
  have e2 := (R.nodeOk g t m hm).2.1
  have ho := (R.dget_out hn t args.raw e).2 hold
  have hi := (R.dget_in hm s args.raw e).2 hold
  simp only [connect, bind_apply, ask_apply, ha, hb, look_apply, e1, e2, ho, hi, and_self, ↓reduceIte, ne_eq,
    reduceCtorEq, not_false_eq_true]

theorem raw_ne_cleared (a : EdgeArgs) : a.raw ≠ .cleared := by
  unfold EdgeArgs.raw; split <;> simp

/-- The new edge is represented. -/
theorem newEdge (R : Rep h A) {g : GRef} {s t : Key} {n m : NRef} {i : RawId} {o : EdgeObj} (k : Nat)
    (hn : (s, n) ∈ (A.graph g).nodes) (hm : (t, m) ∈ (A.graph g).nodes) (hi : i ≠ .cleared)
    (hnew : (s, t, i) ∉ (A.graph g).ids) (h1 : o.graph = some g) (h2 : o.raw = i) (h3 : o.start = some n)
    (h4 : o.stop = some m) :
    Rep (newEdgeHeap h n m (s, t, i) o k) (A.on g (fun G => G.addEdge (s, t, i) h.nE)) := by
  refine R.addEdge hn hm hi hnew (by intro _; rfl) (by intro _; rfl) (by intro _; rfl) (by intro _; rfl)
    (by intro _; rfl) ?_ ?_ rfl rfl rfl
  · intro e he; simp [newEdgeHeap, upd_ne _ _ he]
  · simp [newEdgeHeap, h1, h2, h3, h4]

theorem mem_out_handles {G : SGraph} {k : Key} {e : ERef} :
    e ∈ (G.out k).map Prod.snd ↔ ∃ i, (i, e) ∈ G.edges ∧ i.1 = k := by
  constructor
  · intro h
    obtain ⟨⟨i, e⟩, hp, rfl⟩ := List.mem_map.1 h
    have := List.mem_filter.1 hp
    exact ⟨i, this.1, by simpa using this.2⟩
  · rintro ⟨i, h1, h2⟩
    exact List.mem_map.2 ⟨(i, e), List.mem_filter.2 ⟨h1, by simpa using h2⟩, rfl⟩

theorem mem_inn_handles {G : SGraph} {k : Key} {e : ERef} :
    e ∈ (G.inn k).map Prod.snd ↔ ∃ i, (i, e) ∈ G.edges ∧ i.2.1 = k := by
  constructor
  · intro h
    obtain ⟨⟨i, e⟩, hp, rfl⟩ := List.mem_map.1 h
    have := List.mem_filter.1 hp
    exact ⟨i, this.1, by simpa using this.2⟩
  · rintro ⟨i, h1, h2⟩
    exact List.mem_map.2 ⟨(i, e), List.mem_filter.2 ⟨h1, by simpa using h2⟩, rfl⟩

/-- The heap after `remove_node`. -/
theorem removeNode_live (R : Rep h A) {g : GRef} {a : NodeArg} {k : Key} {n : NRef}
    (ha : getNode h g a = .ok n) (hn : (k, n) ∈ (A.graph g).nodes) :
    ∃ h1, Kept h h1 (((A.graph g).out k).map Prod.snd ++
      (((A.graph g).inn k).map Prod.snd).filter (fun e => decide (e ∉ ((A.graph g).out k).map Prod.snd))) ∧
      removeNode g a h = (.ok (), { h1 with
        node := upd h1.node n { h1.node n with graph := none }
        graph := upd h1.graph g { h1.graph g with nodes := ddel (h1.graph g).nodes k } }) ∧
      Rep { h1 with
        node := upd h1.node n { h1.node n with graph := none }
        graph := upd h1.graph g { h1.graph g with nodes := ddel (h1.graph g).nodes k } }
        (A.unregister g k) := by
  have hes := R.nodeEdges hn
  generalize hE : (((A.graph g).out k).map Prod.snd ++
      (((A.graph g).inn k).map Prod.snd).filter (fun e => decide (e ∉ ((A.graph g).out k).map Prod.snd))) = es at hes
  have hnd : es.Nodup := by
    rw [← hE, List.nodup_append]
    refine ⟨R.out_nodup g k, (R.inn_nodup g k).filter _, ?_⟩
    rintro x hx y hy rfl
    simp only [List.mem_filter, decide_eq_true_eq] at hy
    exact hy.2 hx
  have hmemes : ∀ e, e ∈ es ↔ ∃ i, (i, e) ∈ (A.graph g).edges ∧ (i.1 = k ∨ i.2.1 = k) := by
    intro e
    rw [← hE]
    rw [List.mem_append, List.mem_filter, decide_eq_true_eq, mem_out_handles, mem_inn_handles]
    constructor
    · rintro (⟨i, h1, h2⟩ | ⟨⟨i, h1, h2⟩, -⟩)
      · exact ⟨i, h1, .inl h2⟩
      · exact ⟨i, h1, .inr h2⟩
    · rintro ⟨i, h1, h2⟩
      by_cases h3 : i.1 = k
      · exact .inl ⟨i, h1, h3⟩
      · refine .inr ⟨⟨i, h1, h2.resolve_left h3⟩, ?_⟩
        rintro ⟨i', h1', h3'⟩
        obtain ⟨_, rfl⟩ := R.handle_unique h1 h1'
        exact h3 h3'
  have hlive : ∀ e ∈ es, e ∈ (A.graph g).handles := by
    intro e he
    obtain ⟨i, hi, -⟩ := (hmemes e).1 he
    exact mem_handles.2 ⟨i, hi⟩
  obtain ⟨h1, r, K, R1⟩ := removeAll_live es R hnd hlive
  have hid : ∀ x, (h1.node x).id = (h.node x).id := by
    intro x; obtain ⟨o, i, hx⟩ := K.node x; rw [hx]
  have hk : (h.node n).id = k := (R.nodeOk g k n hn).2.1
  refine ⟨h1, K, ?_, ?_⟩
  · have hd : dget (h1.graph g).nodes k = some n := by
      rw [K.graph, R.nodes g]; exact dget_of_mem (R.keysNodup g) hn
    simp only [removeNode, bind_apply, ask_apply, ha, removeEdges, hes, r, modNode, look_apply, upd_same, hid, hk, hd,
      modGraph]
  · generalize hA1 : (A.on g fun G => { G with edges := G.edges.filter fun p => decide (p.2 ∉ es) }) = A1 at R1
    have hn1 : (k, n) ∈ (A1.graph g).nodes := by rw [← hA1]; simpa using hn
    have hed : (A1.graph g).edges = (A.graph g).edges.filter fun p => decide (p.1.1 ≠ k ∧ p.1.2.1 ≠ k) := by
      rw [← hA1]
      simp only [Spec.on_same]
      apply List.filter_congr
      rintro ⟨i, e⟩ hp
      have : e ∈ es ↔ (i.1 = k ∨ i.2.1 = k) := by
        rw [hmemes]
        constructor
        · rintro ⟨j, hj, h2⟩
          obtain ⟨_, rfl⟩ := R.handle_unique hp hj
          exact h2
        · intro h2; exact ⟨i, hp, h2⟩
      simp [this, not_or]
    have e0 : A.unregister g k = A1.unregister g k := by
      have e1 : A.on g (fun G => G.delNode k) = A1.on g (fun G => G.delNode k) := by
        rw [← hA1, on_on]
        simp only [Spec.on]
        congr 2
        rw [← hA1, Spec.on_same] at hed
        simp only [SGraph.delNode]
        congr 1
        simp only at hed
        rw [hed, List.filter_filter]
        simp
      have e2 : (A.graph g).nodes = (A1.graph g).nodes := by rw [← hA1]; simp
      have e3 : A1.home = A.home := by rw [← hA1]; rfl
      have e4 : A1.name = A.name := by rw [← hA1]; rfl
      have e5 := congrArg Spec.graph e1
      simp only [Spec.on] at e5
      simp only [Spec.unregister, e2, e3, e4, e5]
    rw [e0]
    refine R1.delNode hn1 ?_ ?_ ?_ ?_ ?_ ?_ (fun _ => ⟨rfl, rfl, rfl, rfl⟩) rfl rfl rfl
    · refine List.filter_eq_nil_iff.2 ?_
      intro p hp
      rw [hed] at hp
      have := (List.mem_filter.1 hp).2
      simp at this
      simp [this.1]
    · refine List.filter_eq_nil_iff.2 ?_
      intro p hp
      rw [hed] at hp
      have := (List.mem_filter.1 hp).2
      simp at this
      simp [this.2]
    · intro g'
      by_cases hg' : g' = g
      · subst hg'; simp
      · simp [hg']
    · intro x
      by_cases hx : x = n
      · subst hx; simp
      · simp [upd_ne _ _ hx]
    · intro x
      by_cases hx : x = n
      · subst hx; simp
      · simp [hx]
    · intro x
      by_cases hx : x = n
      · subst hx; simp
      · simp [upd_ne _ _ hx]

/-- `add_node` with a new name. -/
theorem addNode_new (R : Rep h A) {g : GRef} {x : String} (hg : g < h.nG) (hk : Key.str x ∉ (A.graph g).names)
    (args : NodeArgs) (p : IfExists) :
    ∃ h', Verif.addNode g (.str x) args p h =
        ((styleResult none h.nStyle args.style).elim (.error .typeError) (fun _ => .ok h.nN), h') ∧
      (match styleResult none h.nStyle args.style with
       | none => SameStruct h h'
       | some sr => Rep h' (A.register g (.str x) h.nN (some g)) ∧
          h'.node = upd h.node h.nN
            { graph := some g, id := .str x, value := args.value, label := args.label,
              tooltip := args.tooltip, params := args.kwargs, style := sr, index := (h.graph g).counter } ∧
          h'.edge = h.edge ∧
          h'.graph = upd h.graph g
            { h.graph g with nodes := (h.graph g).nodes ++ [(.str x, h.nN)], counter := (h.graph g).counter + 1 } ∧ h'.nN = h.nN + 1 ∧ h'.nE = h.nE ∧ h'.nG = h.nG) := by
  have hd : dget (h.graph g).nodes (Key.str x) = none := by
    rw [R.nodes g]; exact dget_none.2 hk
  have hdn : Key.str x ∉ (h.graph g).nodes.map Prod.fst := dget_none.1 hd
  simp only [Verif.addNode, bind_apply, look_apply, hd, generateNodeIndex, modGraph, pure_apply, nodeInit,
    run_resolveStyle]
  cases hs : styleResult none h.nStyle args.style with
  | none =>
    refine ⟨_, rfl, ?_⟩
    exact (SameStruct.ofGraph h g { h.graph g with counter := (h.graph g).counter + 1 } rfl).trans
      (SameStruct.ofStyle _ _)
  | some sr =>
    have hfresh : ∀ g k, (k, h.nN) ∉ (A.graph g).nodes := by
      intro g k hc; exact Nat.lt_irrefl _ (R.nodeOk g k _ hc).1
    simp only [Option.elim, newNode, upd_same]
    refine ⟨_, rfl, ?_⟩
    have hupd : ∀ (a b : GraphObj), upd (upd (upd h.graph g a) g b) g b = upd h.graph g b := by
      intro a b; funext y; by_cases hy : y = g
      · subst hy; simp
      · simp [upd_ne _ _ hy]
    have hds : dset (dset (h.graph g).nodes (Key.str x) h.nN) (Key.str x) h.nN =
        (h.graph g).nodes ++ [(.str x, h.nN)] := by
      rw [dset_of_not_mem hdn, ← dset_of_not_mem (v := h.nN) hdn]
      exact dset_same (by rw [dget_dset]; simp)
    have hgraph : upd (upd (upd h.graph g { h.graph g with counter := (h.graph g).counter + 1 }) g
        { h.graph g with nodes := dset (h.graph g).nodes (Key.str x) h.nN, counter := (h.graph g).counter + 1 }) g
        { h.graph g with nodes := dset (dset (h.graph g).nodes (Key.str x) h.nN) (Key.str x) h.nN,
                         counter := (h.graph g).counter + 1 } =
        upd h.graph g
          { h.graph g with nodes := (h.graph g).nodes ++ [(.str x, h.nN)], counter := (h.graph g).counter + 1 } := by
      rw [hds, dset_of_not_mem hdn]; exact hupd _ _
    refine ⟨?_, rfl, rfl, hgraph, rfl, rfl, rfl⟩
    refine R.addNode hg hfresh hk ?_ (by simp) ?_ (by simp) (.inl rfl) ?_ (by simp) ?_ (fun _ => ⟨rfl, rfl, rfl, rfl⟩)
      ⟨Nat.le_succ _, Nat.lt_succ_self _⟩ rfl rfl
    · intro g'
      rw [hgraph]
      by_cases hg' : g' = g
      · subst hg'; simp
      · simp [hg']
    · intro y hy; simp [upd_ne _ _ hy]
    · intro y hy; simp [upd_ne _ _ hy]
    · intro y hy; simp [upd_ne _ _ hy]

/-- `add_node` with an existing name. -/
theorem addNode_old (R : Rep h A) {g : GRef} {x : String} {n : NRef} (hn : (Key.str x, n) ∈ (A.graph g).nodes)
    (args : NodeArgs) (p : IfExists) :
    Verif.addNode g (.str x) args p h =
      (p.check .keyError >>= fun _ => nodeUpdate n args.label args.value args.style >>= fun _ => pure n) h := by
  have hd : dget (h.graph g).nodes (Key.str x) = some n := by
    rw [R.nodes g]; exact dget_of_mem (R.keysNodup g) hn
  simp only [Verif.addNode, bind_apply, look_apply, hd]
  cases p <;> simp [IfExists.check, M.warn, getNode, hd]

end Rep
end Verif
