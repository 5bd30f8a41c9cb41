import Verif.Props.Copy
/-!
# Building a graph call by call

`Drawn h0 h A g d`: some legal history led from `h0` to `h`, the graph `g` looks like `d`, and the other graphs of `h0` are as
they were.
-/
namespace Verif
open M

/-- What is seen of an edge whose id is known. -/
def seenAs (h : Heap) (p : EdgeId × ERef) : EdgeD :=
  { id := p.1, label := (h.edge p.2).label, value := (h.edge p.2).value, tooltip := (h.edge p.2).tooltip,
    params := (h.edge p.2).params, styled := (h.edge p.2).style.isSome }

structure Drawn (h0 h : Heap) (A : Spec) (g : GRef) (d : Draft) : Prop where
  hist : Hist h A
  base : Reachable h0
  grow : h0.nG ≤ h.nG
  lt : g < h.nG
  strict : (h.graph g).strict = d.strict
  ordering : (h.graph g).ordering = d.ordering
  nodes : (A.graph g).nodes.map (fun p => seenNode h p.2) = d.nodes
  edges : (A.graph g).edges.map (seenAs h) = d.edges
  node : ∀ k n, (k, n) ∈ (A.graph g).nodes → (h.node n).graph = some g ∧ (h.node n).frozen = false
  edge : ∀ i e, (i, e) ∈ (A.graph g).edges → (h.edge e).frozen = false
  others : ∀ g', g' < h0.nG → g' ≠ g → Untouched h0 h g'

namespace Drawn
variable {h0 h : Heap} {A : Spec} {g : GRef} {d : Draft}

theorem names (D : Drawn h0 h A g d) : d.names = (A.graph g).names := by
  unfold Draft.names SGraph.names
  rw [← D.nodes, List.map_map]
  apply List.map_congr_left
  rintro ⟨k, n⟩ hm
  exact (D.hist.rep.nodeOk g k n hm).2.1

theorem ids (D : Drawn h0 h A g d) : d.ids = (A.graph g).ids := by
  unfold Draft.ids SGraph.ids
  rw [← D.edges, List.map_map]
  rfl

theorem reachable (D : Drawn h0 h A g d) : Reachable h := D.hist.reachable

/-- What a user sees. -/
theorem draws (D : Drawn h0 h A g d) : Draws h g d := by
  have R := D.hist.rep
  refine ⟨D.strict, D.ordering, ?_, (A.graph g).edges.map Prod.snd, ?_, ?_, ?_, ?_⟩
  · unfold graphNodes dvals
    rw [R.nodes, List.map_map]
    exact D.nodes
  · exact R.handles_nodup g
  · rw [← D.edges, List.map_map, List.map_map]
    apply List.map_congr_left
    rintro ⟨i, e⟩ hm
    simp only [Function.comp_apply, seenEdge, R.edgeId_eq hm, seenAs]
    rfl
  · intro n hn
    obtain ⟨k, hk⟩ := (mem_graphNodes R).1 hn
    refine ⟨(D.node k n hk).1, ?_, ?_⟩
    · rw [R.outwardEdges hk, SGraph.out, filter_handles]
      rintro ⟨i, e⟩ hm
      simp only [(edge_ends R hk hm).1]
    · rw [R.inwardEdges hk, SGraph.inn, filter_handles]
      rintro ⟨i, e⟩ hm
      simp only [(edge_ends R hk hm).2]
  · intro e he
    obtain ⟨⟨i, e'⟩, hm, rfl⟩ := List.mem_map.1 he
    obtain ⟨n, m, h1, h2, -, -, -, h6, h7⟩ := R.live_edge hm
    refine ⟨R.edge_graph hm, ⟨n, (mem_graphNodes R).2 ⟨_, h6⟩, ?_⟩, ⟨m, (mem_graphNodes R).2 ⟨_, h7⟩, ?_⟩⟩
    · simp [edgeStart, h1]
    · simp [edgeEnd, h2]

end Drawn

/-- A new graph. -/
theorem Drawn.new {h : Heap} (r : Reachable h) (s o w : Bool) :
    ∃ h' A', graphInit s o w h = (.ok h.nG, h') ∧ h'.nG = h.nG + 1 ∧
      Drawn h h' A' h.nG { strict := s, ordering := o } := by
  obtain ⟨A, H⟩ := r.hist
  have H' : Hist _ A := Hist.step (.newGraph s o w) H trivial
  obtain ⟨g1, g2⟩ := H.rep.graphs h.nG (Nat.le_refl _)
  refine ⟨_, A, rfl, rfl, H', r, Nat.le_succ _, Nat.lt_succ_self _, ?_, ?_, ?_, ?_, ?_, ?_, ?_⟩
  · simp
  · simp
  · rw [g1]; rfl
  · rw [g2]; rfl
  · rw [g1]; simp
  · rw [g2]; simp
  · intro g' hg' _
    exact C10_isolated r (.newGraph s o w) trivial hg' (by simp [Op.on])

theorem check_ok {p : IfExists} (hp : p ≠ .error) (err : PyErr) (h : Heap) :
    ∃ w, p.check err h = (.ok (), { h with warns := w }) := by
  cases p with
  | ignore => exact ⟨_, rfl⟩
  | warn => exact ⟨_, rfl⟩
  | error => exact absurd rfl hp

theorem nodeUpdate_plain {h : Heap} {n : NRef} (hf : (h.node n).frozen = false) (l v : Val) :
    nodeUpdate n l v .none h = (.ok (), { h with node := upd h.node n ({ h.node n with
      label := given l (h.node n).label, value := given v (h.node n).value }) }) := by
  simp only [nodeUpdate, bind_apply, onlyIf, ne_eq, not_true_eq_false, ↓reduceIte, pure_apply]
  by_cases hl : l = .none <;> by_cases hv : v = .none
  · simp only [hl, hv, given, not_true_eq_false, ↓reduceIte, pure_apply]
    exact congrArg (Prod.mk _) (congrArg (fun f => { h with node := f }) (upd_self h.node n).symm)
  all_goals simp [hl, hv, given, nodeSetLabel, nodeSetValue, modNode, upd_upd, hf]

theorem edgeUpdate_plain {h : Heap} {n : ERef} (hf : (h.edge n).frozen = false) (l v : Val) :
    edgeUpdate n l v .none h = (.ok (), { h with edge := upd h.edge n ({ h.edge n with
      label := given l (h.edge n).label, value := given v (h.edge n).value }) }) := by
  simp only [edgeUpdate, bind_apply, onlyIf, ne_eq, not_true_eq_false, ↓reduceIte, pure_apply]
  by_cases hl : l = .none <;> by_cases hv : v = .none
  · simp only [hl, hv, given, not_true_eq_false, ↓reduceIte, pure_apply]
    exact congrArg (Prod.mk _) (congrArg (fun f => { h with edge := f }) (upd_self h.edge n).symm)
  all_goals simp [hl, hv, given, edgeSetLabel, edgeSetValue, modEdge, upd_upd, hf]

/-- When `add_node` succeeds on a draft: a new name and a proper style, or a known name, no style, and not `'error'`. -/
def Draft.NodeFits (d : Draft) (x : String) (a : NodeArgs) (p : IfExists) : Prop :=
  if Key.str x ∈ d.names then p ≠ .error ∧ a.style = .none else a.style.Valid

/-- When `connect` succeeds on a draft. -/
def Draft.EdgeFits (d : Draft) (s t : Key) (a : EdgeArgs) (p : IfExists) : Prop :=
  s ∈ d.names ∧ t ∈ d.names ∧ if (s, t, a.raw) ∈ d.ids then p ≠ .error ∧ a.style = .none else a.style.Valid

theorem styleResult_isSome {s : StyleArg} {k : Nat} {sr : Option SRef} (h : styleResult none k s = some sr) :
    sr.isSome = decide (s ≠ .none) := by
  cases s with
  | none => simp [styleResult] at h; simp [← h]
  | obj s => simp [styleResult] at h; simp [← h]
  | dict b => cases b <;> simp [styleResult] at h; simp [← h]
  | bad => simp [styleResult] at h

theorem styleResult_some {s : StyleArg} (hs : s.Valid) (k : Nat) : ∃ sr, styleResult none k s = some sr := by
  cases s with
  | dict b => cases b <;> simp_all [styleResult, StyleArg.Valid]
  | bad => simp [StyleArg.Valid] at hs
  | _ => simp [styleResult]

namespace Drawn
variable {h0 h : Heap} {A : Spec} {g : GRef} {d : Draft}

/-- `add_node` does to the graph what `Draft.addNode` does to the draft. -/
theorem addNode (D : Drawn h0 h A g d) {x : String} {a : NodeArgs} {p : IfExists} (hok : d.NodeFits x a p) :
    ∃ n h' A', Verif.addNode g (.str x) a p h = (.ok n, h') ∧ Drawn h0 h' A' g (d.addNode x a) ∧
      (Key.str x, n) ∈ (A'.graph g).nodes ∧ (∀ q ∈ (A.graph g).nodes, q ∈ (A'.graph g).nodes) ∧ h'.nG = h.nG := by
  have R := D.hist.rep
  have others : ∀ n h' A', Verif.addNode g (.str x) a p h = (.ok n, h') → Hist h' A' → ∀ g', g' < h0.nG → g' ≠ g →
      Untouched h0 h' g' := by
    intro n h' A' hr H' g' hg' hne
    refine (D.others g' hg' hne).trans D.base D.reachable ?_
    have := C10_isolated D.reachable (.addNode g (.str x) a p) D.lt (g := g') (Nat.lt_of_lt_of_le hg' D.grow)
      (by simp only [Op.on]; exact Ne.symm hne)
    simpa only [Op.step, bind_apply, hr, pure_apply] using this
  have hist : ∀ n h', Verif.addNode g (.str x) a p h = (.ok n, h') → Hist h' (A.register g (.str x) n (some g)) := by
    intro n h' hr
    have := Hist.step (.addNode g (.str x) a p) D.hist D.lt
    simpa only [Op.step, bind_apply, hr, pure_apply, Spec.step] using this
  unfold Draft.NodeFits at hok
  unfold Draft.addNode
  rw [D.names] at hok ⊢
  by_cases hx : Key.str x ∈ (A.graph g).names
  · rw [if_pos hx] at hok ⊢
    obtain ⟨⟨k, n⟩, hn, rfl⟩ := List.mem_map.1 hx
    obtain ⟨w, hw⟩ := check_ok hok.1 .keyError h
    have hf := (D.node _ _ hn).2
    have hr : Verif.addNode g (.str x) a p h = (.ok n, { h with warns := w, node := upd h.node n { h.node n with
        label := given a.label (h.node n).label, value := given a.value (h.node n).value } }) := by
      rw [R.addNode_old hn a p]
      simp only [bind_apply, hw, hok.2]
      rw [nodeUpdate_plain (h := { h with warns := w }) hf]
      rfl
    have H' := hist _ _ hr
    rw [Rep.register_old hn] at H'
    have oth := others _ _ _ hr H'
    refine ⟨n, _, A, hr, ⟨H', D.base, D.grow, D.lt, D.strict, D.ordering, ?_, D.edges, ?_, D.edge, oth⟩, hn,
      fun q hq => hq, rfl⟩
    · rw [← D.nodes, List.map_map]
      apply List.map_congr_left
      rintro ⟨k, m⟩ hm
      have e := (R.nodeOk g k m hm).2.1
      simp only [Function.comp_apply, seenNode, e]
      by_cases hmn : m = n
      · subst hmn
        obtain ⟨-, rfl⟩ := R.node_unique hm hn
        simp [e]
      · have : k ≠ .str x := by
          rintro rfl
          exact hmn (val_unique (R.keysNodup g) hm hn)
        simp [upd_ne _ _ hmn, this, e]
    · intro k m hm
      have := D.node k m hm
      by_cases hmn : m = n
      · subst hmn; simpa using this
      · simpa [upd_ne _ _ hmn] using this
  · rw [if_neg hx] at hok ⊢
    obtain ⟨sr, hsr⟩ := styleResult_some hok h.nStyle
    obtain ⟨h', hr, hR⟩ := R.addNode_new D.lt hx a p
    rw [hsr] at hr hR
    simp only [Option.elim] at hr
    obtain ⟨-, e1, e2, e3, -, -, e6⟩ := hR
    have H' := hist _ _ hr
    have oth := others _ _ _ hr H'
    have hg : ((A.register g (.str x) h.nN (some g)).graph g) = { A.graph g with nodes := (A.graph g).nodes ++ [(.str x, h.nN)] } := by
      simp [Spec.register, hx, SGraph.addNode]
    refine ⟨h.nN, h', _, hr, ⟨H', D.base, by rw [e6]; exact D.grow, by rw [e6]; exact D.lt, ?_, ?_, ?_, ?_, ?_, ?_, oth⟩, ?_, ?_, e6⟩
    · rw [e3]; simpa using D.strict
    · rw [e3]; simpa using D.ordering
    · rw [hg]
      simp only [List.map_append, List.map_cons, List.map_nil, ← D.nodes]
      congr 1
      · apply List.map_congr_left
        rintro ⟨k, m⟩ hm
        have hmn : m ≠ h.nN := Nat.ne_of_lt (R.nodeOk g k m hm).1
        simp [seenNode, e1, upd_ne _ _ hmn]
      · simp [seenNode, e1, styleResult_isSome hsr]
    · rw [hg]
      simp only [← D.edges]
      apply List.map_congr_left
      intro p _
      simp [seenAs, e2]
    · rw [hg]
      intro k m hm
      rcases List.mem_append.1 hm with hm | hm
      · have hmn : m ≠ h.nN := Nat.ne_of_lt (R.nodeOk g k m hm).1
        rw [e1, upd_ne _ _ hmn]
        exact D.node k m hm
      · simp only [List.mem_singleton, Prod.mk.injEq] at hm
        obtain ⟨rfl, rfl⟩ := hm
        simp [e1]
    · rw [hg]
      intro i e hm
      rw [e2]
      exact D.edge i e hm
    · rw [hg]; simp
    · rw [hg]; intro q hq; simp [hq]

/-- `connect` does to the graph what `Draft.connect` does to the draft. The ends are names, or nodes of the graph. -/
theorem connect (D : Drawn h0 h A g d) {s t : Key} {sa ta : NodeArg} {a : EdgeArgs} {p : IfExists}
    (hs : A.argName sa = some s) (ht : A.argName ta = some t) (hok : d.EdgeFits s t a p) :
    ∃ e h' A', Verif.connect g sa ta a p h = (.ok e, h') ∧ Drawn h0 h' A' g (d.connect s t a) ∧
      ((s, t, a.raw), e) ∈ (A'.graph g).edges ∧ (A'.graph g).nodes = (A.graph g).nodes ∧ A'.name = A.name ∧ h'.nG = h.nG := by
  have R := D.hist.rep
  obtain ⟨hs1, ht1, hok⟩ := hok
  rw [D.names] at hs1 ht1
  obtain ⟨⟨s', n⟩, hn, rfl⟩ := List.mem_map.1 hs1
  obtain ⟨⟨t', m⟩, hm, rfl⟩ := List.mem_map.1 ht1
  simp only at hs ht hok ⊢
  have gs : getNode h g sa = .ok n := R.getNode_ok.2 ⟨s', by rw [Rep.argName_eq]; exact hs, hn⟩
  have gt : getNode h g ta = .ok m := R.getNode_ok.2 ⟨t', by rw [Rep.argName_eq]; exact ht, hm⟩
  have others : ∀ e h' A', Verif.connect g sa ta a p h = (.ok e, h') → Hist h' A' → ∀ g', g' < h0.nG → g' ≠ g →
      Untouched h0 h' g' := by
    intro n h' A' hr H' g' hg' hne
    refine (D.others g' hg' hne).trans D.base D.reachable ?_
    have := C10_isolated D.reachable (.connect g sa ta a p) D.lt (g := g') (Nat.lt_of_lt_of_le hg' D.grow)
      (by simp only [Op.on]; exact Ne.symm hne)
    simpa only [Op.step, bind_apply, hr, pure_apply] using this
  have hist : ∀ e h', Verif.connect g sa ta a p h = (.ok e, h') → Hist h' (A.on g fun G => G.addEdge (s', t', a.raw) e) := by
    intro n h' hr
    have := Hist.step (.connect g sa ta a p) D.hist D.lt
    simpa only [Op.step, bind_apply, hr, pure_apply, Spec.step, Spec.connect, Spec.connectId, hs, ht] using this
  unfold Draft.connect
  rw [D.ids] at hok ⊢
  by_cases hi : (s', t', a.raw) ∈ (A.graph g).ids
  · rw [if_pos hi] at hok ⊢
    obtain ⟨e, he⟩ := Rep.mem_ids.1 hi
    obtain ⟨w, hw⟩ := check_ok hok.1 (.valueError "already exists") h
    have hf := D.edge _ _ he
    have hr : Verif.connect g sa ta a p h = (.ok e, { h with warns := w, edge := upd h.edge e { h.edge e with
        label := given a.label (h.edge e).label, value := given a.value (h.edge e).value } }) := by
      rw [R.connect_old gs gt hn hm a p he]
      simp only [bind_apply, hw, hok.2]
      rw [edgeUpdate_plain (h := { h with warns := w }) hf]
      rfl
    have H' := hist _ _ hr
    rw [Rep.on_id (Rep.addEdge_old he)] at H'
    have oth := others _ _ _ hr H'
    refine ⟨e, _, A, hr, ⟨H', D.base, D.grow, D.lt, D.strict, D.ordering, D.nodes, ?_, D.node, ?_, oth⟩, he, rfl, rfl, rfl⟩
    · rw [← D.edges, List.map_map]
      apply List.map_congr_left
      rintro ⟨i, f⟩ hif
      simp only [Function.comp_apply, seenAs]
      by_cases hfe : f = e
      · subst hfe
        obtain ⟨-, rfl⟩ := R.handle_unique hif he
        simp
      · have : i ≠ (s', t', a.raw) := by
          rintro rfl
          exact hfe (val_unique (R.idsNodup g) hif he)
        simp [upd_ne _ _ hfe, this]
    · intro i f hif
      have := D.edge i f hif
      by_cases hfe : f = e
      · subst hfe; simpa using this
      · simpa [upd_ne _ _ hfe] using this
  · rw [if_neg hi] at hok ⊢
    obtain ⟨sr, hsr⟩ := styleResult_some hok h.nStyle
    have hr := R.connect_new gs gt hn hm a p hi
    rw [hsr] at hr
    simp only at hr
    have H' := hist _ _ hr
    have oth := others _ _ _ hr H'
    have hg : ((A.on g fun G => G.addEdge (s', t', a.raw) h.nE).graph g) =
        { A.graph g with edges := (A.graph g).edges ++ [((s', t', a.raw), h.nE)] } := by
      simp [Spec.on, hi, SGraph.addEdge]
    refine ⟨h.nE, _, _, hr, ⟨H', D.base, D.grow, D.lt, D.strict, D.ordering, ?_, ?_, ?_, ?_, oth⟩, ?_, ?_, rfl, rfl⟩
    · rw [hg]
      exact D.nodes
    · rw [hg]
      simp only [List.map_append, List.map_cons, List.map_nil, ← D.edges]
      congr 1
      · apply List.map_congr_left
        rintro ⟨i, f⟩ hif
        have hfn : f ≠ h.nE := Nat.ne_of_lt (R.edgeOk g _ _ _ f hif).1
        simp [seenAs, newEdgeHeap, upd_ne _ _ hfn]
      · simp [seenAs, newEdgeHeap, styleResult_isSome hsr]
    · rw [hg]
      intro k n hn
      exact D.node k n hn
    · rw [hg]
      intro i f hif
      rcases List.mem_append.1 hif with hif | hif
      · have hfn : f ≠ h.nE := Nat.ne_of_lt (R.edgeOk g _ _ _ f hif).1
        simp only [newEdgeHeap, upd_ne _ _ hfn]
        exact D.edge i f hif
      · simp only [List.mem_singleton, Prod.mk.injEq] at hif
        obtain ⟨rfl, rfl⟩ := hif
        simp [newEdgeHeap]
    · rw [hg]; simp
    · rw [hg]

/-- `append` sets options. -/
theorem setOptions (D : Drawn h0 h A g d) (s o : Option Bool) :
    ∃ h', graphSetOptions g s o h = (.ok (), h') ∧ h'.nG = h.nG ∧
      Drawn h0 h' A g { d with strict := s.getD d.strict, ordering := o.getD d.ordering } := by
  have H' := Hist.step (.setOptions g s o) D.hist D.lt
  refine ⟨_, rfl, rfl, H', D.base, D.grow, D.lt, ?_, ?_, D.nodes, D.edges, D.node, D.edge, ?_⟩
  · simp [D.strict]
  · simp [D.ordering]
  · intro g' hg' hne
    refine (D.others g' hg' hne).trans D.base D.reachable ?_
    exact C10_isolated D.reachable (.setOptions g s o) D.lt (g := g') (Nat.lt_of_lt_of_le hg' D.grow)
      (by simp only [Op.on]; exact Ne.symm hne)

end Drawn
end Verif
