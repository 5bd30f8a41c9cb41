import Verif.Model.Filter
import Verif.Props.Copy
import Verif.Props.Traverse
/-!
# C34, C35: `filter`
-/
namespace Verif
open M

/-- `remove_node` name by name. -/
theorem removeNames_run {g : GRef} : ∀ (ks : List Key) {h : Heap} {A : Spec}, Hist h A → g < h.nG → ks.Nodup →
    (∀ k ∈ ks, k ∈ (A.graph g).names) →
    ∃ h' A', removeNames g ks h = (.ok (), h') ∧ Hist h' A' ∧
      (A'.graph g).nodes = (A.graph g).nodes.filter (fun p => decide (p.1 ∉ ks)) ∧
      (A'.graph g).edges = (A.graph g).edges.filter (fun p => decide (p.1.1 ∉ ks ∧ p.1.2.1 ∉ ks)) ∧
      (∀ k n, (k, n) ∈ (A.graph g).nodes → k ∉ ks → ∃ o i, h'.node n = { h.node n with outE := o, inE := i }) ∧
      (∀ i e, (i, e) ∈ (A'.graph g).edges → h'.edge e = h.edge e) ∧
      h'.graph g = { h.graph g with nodes := (h'.graph g).nodes } ∧
      (∀ x, x ≠ g → x < h.nG → Untouched h h' x) ∧ h.nG ≤ h'.nG := by
  intro ks
  induction ks with
  | nil =>
    intro h A H hg _ _
    refine ⟨h, A, rfl, H, ?_, ?_, fun k n _ _ => ⟨_, _, rfl⟩, fun _ _ _ => rfl, rfl, fun x _ _ => .refl h x, Nat.le_refl _⟩
    · simp
    · simp
  | cons k ks ih =>
    intro h A H hg hnd hmem
    have R := H.rep
    obtain ⟨⟨k', n⟩, hn, rfl⟩ := List.mem_map.1 (hmem k (List.mem_cons_self ..))
    have hget : getNode h g (.key k') = .ok n := R.getNode_key.2 hn
    obtain ⟨h1, hrun, -, -, -, ⟨os, is, ho, hi, -, hedge⟩, -, hother, -, -, hgr⟩ := C06_remove_node H.reachable hget
    have hstep : (Op.step (.removeNode g (.key k')) h) = (.ok .none, h1) := by simp [Op.step, hrun]
    have H1 := Hist.step (.removeNode g (.key k')) H hg
    rw [hstep] at H1
    simp only [Spec.step, Spec.argName] at H1
    have hG1 : h.nG ≤ h1.nG := by have := (Grows.step (.removeNode g (.key k')) h).nG; rwa [hstep] at this
    have hnames : ∀ x ∈ ks, x ∈ ((A.unregister g k').graph g).names := by
      intro x hx
      obtain ⟨⟨x', m⟩, hm, rfl⟩ := List.mem_map.1 (hmem x (List.mem_cons_of_mem _ hx))
      refine List.mem_map.2 ⟨(x', m), ?_, rfl⟩
      simp only [Spec.unregister, upd_same, SGraph.delNode, List.mem_filter, decide_eq_true_eq]
      refine ⟨hm, ?_⟩
      rintro rfl
      exact (List.nodup_cons.1 hnd).1 hx
    obtain ⟨h2, A2, hrun2, H2, hno, hed, hnode, hedge2, hgr2, hunt, hG2⟩ :=
      ih H1 (Nat.lt_of_lt_of_le hg hG1) (List.nodup_cons.1 hnd).2 hnames
    refine ⟨h2, A2, ?_, H2, ?_, ?_, ?_, ?_, ?_, ?_, Nat.le_trans hG1 hG2⟩
    · simp [removeNames, hrun, hrun2]
    · rw [hno]
      simp only [Spec.unregister, upd_same, SGraph.delNode, List.filter_filter]
      refine List.filter_congr ?_
      intro p _
      simp only [List.mem_cons, not_or]
      by_cases a : p.1 = k' <;> simp [a]
    · rw [hed]
      simp only [Spec.unregister, upd_same, SGraph.delNode, List.filter_filter]
      refine List.filter_congr ?_
      intro p _
      simp only [List.mem_cons, not_or]
      by_cases a : p.1.1 = k' <;> by_cases b : p.1.2.1 = k' <;> simp [a, b]
    · intro x m hm hx
      have hx1 : x ≠ k' := by rintro rfl; exact hx (List.mem_cons_self ..)
      have hmn : m ≠ n := by rintro rfl; exact hx1 (R.node_unique hm hn).2
      obtain ⟨o, i, e1⟩ := hother m hmn
      obtain ⟨o', i', e2⟩ := hnode x m (by
        simp only [Spec.unregister, upd_same, SGraph.delNode, List.mem_filter, decide_eq_true_eq]
        exact ⟨hm, hx1⟩) (fun hc => hx (List.mem_cons_of_mem _ hc))
      exact ⟨o', i', by rw [e2, e1]⟩
    · intro i e he
      rw [hedge2 i e he]
      have he1 : (i, e) ∈ ((A.unregister g k').graph g).edges := by
        rw [hed] at he; exact (List.mem_filter.1 he).1
      simp only [Spec.unregister, upd_same, SGraph.delNode, List.mem_filter, decide_eq_true_eq] at he1
      rw [R.outwardEdges hn] at ho
      rw [R.inwardEdges hn] at hi
      cases ho
      cases hi
      refine hedge e ?_ ?_
      · intro hc
        obtain ⟨j, hj, hjk⟩ := Rep.mem_out_handles.1 hc
        obtain ⟨_, rfl⟩ := R.handle_unique hj he1.1
        exact he1.2.1 hjk
      · intro hc
        obtain ⟨j, hj, hjk⟩ := Rep.mem_inn_handles.1 hc
        obtain ⟨_, rfl⟩ := R.handle_unique hj he1.1
        exact he1.2.2 hjk
    · rw [hgr2, hgr]
    · intro x hx hxl
      have u := C10_isolated H.reachable (.removeNode g (.key k')) hg hxl (by simp only [Op.on]; exact fun hc => hx hc.symm)
      rw [hstep] at u
      exact u.trans H.reachable H1.reachable (hunt x hx (Nat.lt_of_lt_of_le hxl hG1))

/-- The nodes of graph `g` that `filter(nodes, ...)` is about: the given ones, those with a path to one of them, and those with
a path from one of them. -/
def Related (h : Heap) (g : GRef) (nodes : List NodeArg) (n : NRef) : Prop :=
  ∃ a ∈ nodes, ∃ x, getNode h g a = .ok x ∧ (n = x ∨ Path h g n x ∨ Path h g x n)

/-- `keep` of the node a query returned. -/
def onOk (keep : NRef → Bool) : Except PyErr NRef → Bool
  | .ok n => keep n
  | .error _ => false

/-- `g'` in heap `h'` is the subgraph of `g` in heap `h` induced by the nodes satisfying `keep`, with the node objects replaced
by `φ` and the edge objects by `ψ`: those nodes in the same order with the same attributes, and of their outward and inward
edges, in the same order with the same attributes, those whose other end is kept. -/
structure InducedOf (h h' : Heap) (g g' : GRef) (keep : NRef → Bool) (φ : NRef → NRef) (ψ : ERef → ERef) : Prop where
  names : dkeys (h'.graph g').nodes = ((graphNodes h g).filter keep).map (fun n => (h.node n).id)
  nodes : graphNodes h' g' = ((graphNodes h g).filter keep).map φ
  flags : (h'.graph g').strict = (h.graph g).strict ∧ (h'.graph g').ordering = (h.graph g).ordering ∧
    (h'.graph g').counter = (h.graph g).counter
  node : ∀ n ∈ graphNodes h g, keep n = true → (h'.node (φ n)).graph = some g' ∧ (h'.node (φ n)).id = (h.node n).id ∧
    (h'.node (φ n)).index = (h.node n).index ∧ (h'.node (φ n)).value = (h.node n).value ∧
    (h'.node (φ n)).label = (h.node n).label ∧ (h'.node (φ n)).tooltip = (h.node n).tooltip ∧
    (h'.node (φ n)).params = (h.node n).params ∧ (h'.node (φ n)).frozen = (h.node n).frozen ∧
    (h'.node (φ n)).style = (h.node n).style
  edges : ∀ n ∈ graphNodes h g, keep n = true → ∃ os is, outwardEdges h n = .ok os ∧ inwardEdges h n = .ok is ∧
    outwardEdges h' (φ n) = .ok ((os.filter (fun e => onOk keep (edgeEnd h e))).map ψ) ∧
    inwardEdges h' (φ n) = .ok ((is.filter (fun e => onOk keep (edgeStart h e))).map ψ)
  edge : ∀ e s t, LiveEdge h g e → edgeStart h e = .ok s → edgeEnd h e = .ok t → keep s = true → keep t = true →
    edgeStart h' (ψ e) = .ok (φ s) ∧ edgeEnd h' (ψ e) = .ok (φ t) ∧ edgeId h' (ψ e) = edgeId h e ∧
    (h'.edge (ψ e)).graph = some g' ∧ (h'.edge (ψ e)).value = (h.edge e).value ∧ (h'.edge (ψ e)).label = (h.edge e).label ∧
    (h'.edge (ψ e)).tooltip = (h.edge e).tooltip ∧ (h'.edge (ψ e)).params = (h.edge e).params ∧
    (h'.edge (ψ e)).frozen = (h.edge e).frozen ∧ ((h'.edge (ψ e)).style = none ↔ (h.edge e).style = none)

/-- Copying and then removing names. -/
theorem induced_run {h : Heap} {A : Spec} (H : Hist h A) {g : GRef} (hg : g < h.nG)
    (hst : ∀ n ∈ graphNodes h g, (h.node n).style = none) {del : List Key} (hnd : del.Nodup)
    (hmem : ∀ k ∈ del, k ∈ (A.graph g).names) :
    ∃ m h', ((do let r ← graphCopy g; removeNames r.1 del; return r : M (GRef × Memo)) h) = (.ok (h.nG, m), h') ∧
      Reachable h' ∧ h.nG < h'.nG ∧ (∀ x, x < h.nG → Untouched h h' x) ∧
      InducedOf h h' g h.nG (fun n => decide ((h.node n).id ∉ del)) m.node m.edge := by
  obtain ⟨m, h1, hr, P, H1⟩ := copy_run H hg hst
  have R := H.rep
  have hlt : h.nG < h1.nG := by rw [P.nG]; exact Nat.lt_succ_self _
  have hspec : (A.copy g h.nG m).graph h.nG = { nodes := (A.graph g).nodes.map (fun p => (p.1, m.node p.2)),
                                                edges := (A.graph g).edges.map (fun p => (p.1, m.edge p.2)) } :=
    Spec.copy_graph_same ..
  obtain ⟨h', A', hr', H', hno, hed, hnode, hedge, hgr, hunt, hG⟩ := removeNames_run del H1 hlt hnd (by
    intro k hk
    have := hmem k hk
    rw [hspec]
    simpa [SGraph.names] using this)
  have R1 := H1.rep
  have R' := H'.rep
  rw [hspec] at hno hed hnode
  simp only [List.filter_map] at hno hed
  have hN : ∀ {k n}, (k, n) ∈ (A.graph g).nodes → k ∉ del → (k, m.node n) ∈ (A'.graph h.nG).nodes := by
    intro k n hn hk
    rw [hno]
    exact List.mem_map.2 ⟨(k, n), List.mem_filter.2 ⟨hn, by simpa using hk⟩, rfl⟩
  have hE : ∀ {i e}, (i, e) ∈ (A.graph g).edges → i.1 ∉ del → i.2.1 ∉ del → (i, m.edge e) ∈ (A'.graph h.nG).edges := by
    intro i e hi h1 h2
    rw [hed]
    exact List.mem_map.2 ⟨(i, e), List.mem_filter.2 ⟨hi, by simp [h1, h2]⟩, rfl⟩
  have hid : ∀ {k n}, (k, n) ∈ (A.graph g).nodes → (h.node n).id = k := fun hn => (R.nodeOk g _ _ hn).2.1
  have hnodes : (A.graph g).nodes.filter (fun p => decide (p.1 ∉ del)) =
      (A.graph g).nodes.filter (fun p => decide ((h.node p.2).id ∉ del)) := by
    refine List.filter_congr ?_
    rintro ⟨k, n⟩ hp
    simp [hid hp]
  refine ⟨m, h', ?_, H'.reachable, Nat.lt_of_lt_of_le hlt hG, ?_, ?_⟩
  · simp [hr, hr']
  · intro x hx
    have u := C32_original H.reachable hg hx
    rw [hr] at u
    exact u.trans H.reachable H1.reachable (hunt x (Nat.ne_of_lt hx) (Nat.lt_trans hx hlt))
  constructor
  · unfold graphNodes dvals
    rw [R'.nodes, R.nodes, hno, List.filter_map, List.map_map]
    show dkeys _ = _
    simp only [dkeys, List.map_map]
    have : (fun p : Key × NRef => decide (p.1 ∉ del)) ∘ (fun p : Key × NRef => (p.1, m.node p.2)) =
      fun p => decide (p.1 ∉ del) := rfl
    rw [this, hnodes]
    refine List.map_congr_left ?_
    rintro ⟨k, n⟩ hp
    simp [hid (List.mem_filter.1 hp).1]
  · unfold graphNodes dvals
    rw [R'.nodes, R.nodes, hno, List.filter_map, List.map_map, List.map_map]
    have : (fun p : Key × NRef => decide (p.1 ∉ del)) ∘ (fun p : Key × NRef => (p.1, m.node p.2)) =
      fun p => decide (p.1 ∉ del) := rfl
    rw [this, hnodes]
    rfl
  · rw [hgr, P.graphNew]; exact ⟨rfl, rfl, rfl⟩
  · intro n hn hk
    obtain ⟨k, hk'⟩ := (mem_graphNodes R).1 hn
    simp only [hid hk', decide_eq_true_eq] at hk
    obtain ⟨o, i, e⟩ := hnode k (m.node n) (List.mem_map.2 ⟨_, hk', rfl⟩) hk
    rw [e, (P.node_of hk').2.2]
    exact ⟨rfl, rfl, rfl, rfl, rfl, rfl, rfl, rfl, rfl⟩
  · intro n hn hk
    obtain ⟨k, hk'⟩ := (mem_graphNodes R).1 hn
    simp only [hid hk', decide_eq_true_eq] at hk
    refine ⟨_, _, R.outwardEdges hk', R.inwardEdges hk', ?_, ?_⟩
    · rw [R'.outwardEdges (hN hk' hk)]
      unfold SGraph.out
      rw [hed, ← filter_handles (p := fun p => decide (p.1.2.1 ∉ del))]
      · simp only [List.filter_map, List.map_map, List.filter_filter]
        congr 2
        refine List.filter_congr ?_
        rintro ⟨⟨s, t, i⟩, e⟩ _
        by_cases hs : s = k
        · subst hs; simp [hk]
        · simp [hs]
      · rintro ⟨i, e⟩ he
        obtain ⟨s, t, q1, q2, -, -, -, q6, q7⟩ := R.live_edge (List.mem_filter.1 he).1
        simp [edgeEnd, q2, onOk, hid q7]
    · rw [R'.inwardEdges (hN hk' hk)]
      unfold SGraph.inn
      rw [hed, ← filter_handles (p := fun p => decide (p.1.1 ∉ del))]
      · simp only [List.filter_map, List.map_map, List.filter_filter]
        congr 2
        refine List.filter_congr ?_
        rintro ⟨⟨s, t, i⟩, e⟩ _
        by_cases hs : t = k
        · subst hs; simp [hk]
        · simp [hs]
      · rintro ⟨i, e⟩ he
        obtain ⟨s, t, q1, q2, -, -, -, q6, q7⟩ := R.live_edge (List.mem_filter.1 he).1
        simp [edgeStart, q1, onOk, hid q6]
  · intro e s t he hs ht ks kt
    obtain ⟨i, hi⟩ := (liveEdge_iff R).1 he
    obtain ⟨_, _, st, h3, h4⟩ := P.edge_of hi
    obtain ⟨s', t', q1, q2, q3, -, -, q6, q7⟩ := R.live_edge hi
    simp only [edgeStart, q1, Except.ok.injEq] at hs
    simp only [edgeEnd, q2, Except.ok.injEq] at ht
    subst hs ht
    simp only [hid q6, hid q7, decide_eq_true_eq] at ks kt
    have hm := hE hi ks kt
    have heq := hedge i (m.edge e) hm
    rw [q3, R'.edgeId_eq hm]
    refine ⟨?_, ?_, rfl, ?_⟩
    · simp [edgeStart, heq, h3, q1]
    · simp [edgeEnd, heq, h3, q2]
    · rw [heq, h3]; exact ⟨rfl, rfl, rfl, rfl, rfl, rfl, h4⟩

theorem addNames_keys (h : Heap) : ∀ (l : List NRef) (d : Dict Key Nat), (dkeys d).Nodup →
    (dkeys (addNames h l d)).Nodup ∧ ∀ k, k ∈ dkeys (addNames h l d) ↔ k ∈ dkeys d ∨ ∃ y ∈ l, (h.node y).id = k := by
  intro l
  induction l with
  | nil => intro d hd; exact ⟨hd, by simp [addNames]⟩
  | cons y l ih =>
    intro d hd
    obtain ⟨h1, h2⟩ := ih (dset d (h.node y).id 1) (nodup_dset hd)
    refine ⟨h1, fun k => ?_⟩
    have := h2 k
    simp only [addNames, List.foldl_cons] at this ⊢
    rw [this, dkeys_dset]
    simp only [List.mem_cons, exists_eq_or_imp]
    grind

/-- One round of the loop selects the given node and its relatives in both directions, whatever `direction` is. -/
theorem filterRound_ok {h : Heap} (r : Reachable h) {g : GRef} (hown : ∀ n ∈ graphNodes h g, (h.node n).graph = some g)
    {lim : Nat} (hlim : (graphNodes h g).length ≤ lim) (dir : String) {a : NodeArg} {x : NRef} (ha : getNode h g a = .ok x)
    {d : Dict Key Nat} (hd : (dkeys d).Nodup) :
    ∃ d', filterRound lim h g dir d a = .ok d' ∧ (dkeys d').Nodup ∧
      ∀ k, k ∈ dkeys d' ↔ k ∈ dkeys d ∨ ∃ n, (h.node n).id = k ∧ (n = x ∨ Path h g n x ∨ Path h g x n) := by
  have hx := getNode_mem r ha
  obtain ⟨⟨as, _, _, _, e1, _⟩, ⟨ds, _, _, _, e2, _⟩⟩ := C21_terminates r (getNode_self r hx) hlim
  have f1 : nodeAncestors lim h x = .ok as := by simp [nodeAncestors, nodeGraph, hown x hx, e1, bind, Except.bind]
  have f2 : nodeDescendants lim h x = .ok ds := by simp [nodeDescendants, nodeGraph, hown x hx, e2, bind, Except.bind]
  have q1 := (C18_node_ancestors r hx (hown x hx) f1).2
  have q2 := (C19_node_descendants r hx (hown x hx) f2).2
  have hor : ∀ b, orLiteral b "to_and_from" = true := by intro b; cases b <;> decide
  obtain ⟨a1, a2⟩ := addNames_keys h as (dset d (h.node x).id 1) (nodup_dset hd)
  obtain ⟨b1, b2⟩ := addNames_keys h ds (addNames h as (dset d (h.node x).id 1)) a1
  refine ⟨addNames h ds (addNames h as (dset d (h.node x).id 1)), ?_, b1, ?_⟩
  · simp [filterRound, ha, hor, f1, f2, bind, Except.bind]
  · intro k
    rw [b2, a2, dkeys_dset]
    constructor
    · rintro (((rfl | hk) | ⟨y, hy, rfl⟩) | ⟨y, hy, rfl⟩)
      · exact .inr ⟨x, rfl, .inl rfl⟩
      · exact .inl hk
      · exact .inr ⟨y, rfl, .inr (.inl ((q1 y).1 hy))⟩
      · exact .inr ⟨y, rfl, .inr (.inr ((q2 y).1 hy).2)⟩
    · rintro (hk | ⟨n, rfl, (rfl | hp | hp)⟩)
      · exact .inl (.inl (.inr hk))
      · exact .inl (.inl (.inl rfl))
      · exact .inl (.inr ⟨n, (q1 n).2 hp, rfl⟩)
      · by_cases hn : n = x
        · subst hn; exact .inl (.inl (.inl rfl))
        · exact .inr ⟨n, (q2 n).2 ⟨hn, hp⟩, rfl⟩

/-- The dictionary of relatives holds exactly the names of the related nodes. -/
theorem filterRelatives_ok {h : Heap} (r : Reachable h) {g : GRef} (hown : ∀ n ∈ graphNodes h g, (h.node n).graph = some g)
    {lim : Nat} (hlim : (graphNodes h g).length ≤ lim) (dir : String) : ∀ (nodes : List NodeArg) (d : Dict Key Nat),
    (dkeys d).Nodup → (∀ a ∈ nodes, ∃ x, getNode h g a = .ok x) →
    ∃ d', nodes.foldlM (m := Except PyErr) (filterRound lim h g dir) d = .ok d' ∧ (dkeys d').Nodup ∧
      ∀ k, k ∈ dkeys d' ↔ k ∈ dkeys d ∨ ∃ n, (h.node n).id = k ∧ Related h g nodes n := by
  intro nodes
  induction nodes with
  | nil => intro d hd _; exact ⟨d, rfl, hd, by simp [Related]⟩
  | cons a nodes ih =>
    intro d hd hall
    obtain ⟨x, hx⟩ := hall a (List.mem_cons_self ..)
    obtain ⟨d1, e1, n1, m1⟩ := filterRound_ok r hown hlim dir hx hd
    obtain ⟨d2, e2, n2, m2⟩ := ih d1 n1 (fun b hb => hall b (List.mem_cons_of_mem _ hb))
    refine ⟨d2, by simp [List.foldlM_cons, e1, bind, Except.bind]; exact e2, n2, fun k => ?_⟩
    rw [m2, m1, or_assoc]
    refine or_congr Iff.rfl ?_
    constructor
    · rintro (⟨n, hk, hn⟩ | ⟨n, hk, b, hb, y, hy, hn⟩)
      · exact ⟨n, hk, a, List.mem_cons_self .., x, hx, hn⟩
      · exact ⟨n, hk, b, List.mem_cons_of_mem _ hb, y, hy, hn⟩
    · rintro ⟨n, hk, b, hb, y, hy, hn⟩
      rcases List.mem_cons.1 hb with rfl | hb
      · rw [hx] at hy
        cases hy
        exact .inl ⟨n, hk, hn⟩
      · exact .inr ⟨n, hk, b, hb, y, hy, hn⟩

theorem Related.mem {h : Heap} (r : Reachable h) {g : GRef} {nodes : List NodeArg} {n : NRef} (hn : Related h g nodes n) :
    n ∈ graphNodes h g := by
  obtain ⟨a, _, x, hx, rfl | hp | hp⟩ := hn
  · exact getNode_mem r hx
  · exact (hp.mem r).1
  · exact (hp.mem r).2

/-- Both kinds of filter. -/
theorem filter_run {h : Heap} (r : Reachable h) {g : GRef} (hg : g < h.nG)
    (hown : ∀ n ∈ graphNodes h g, (h.node n).graph = some g) (hst : ∀ n ∈ graphNodes h g, (h.node n).style = none)
    {lim : Nat} (hlim : (graphNodes h g).length ≤ lim) {nodes : List NodeArg}
    (hnodes : ∀ a ∈ nodes, ∃ x, getNode h g a = .ok x) (direction filterType : String) :
    ∃ g' m h' keep, graphFilter lim g nodes direction filterType h = (.ok (g', m), h') ∧ Reachable h' ∧ g' < h'.nG ∧
      h.nG ≤ g' ∧ (∀ x, x < h.nG → Untouched h h' x) ∧
      (∀ n ∈ graphNodes h g, keep n = true ↔
        if filterType = "include" then Related h g nodes n else ¬ Related h g nodes n) ∧
      InducedOf h h' g g' keep m.node m.edge := by
  obtain ⟨A, H⟩ := r.hist
  have R := H.rep
  obtain ⟨d, e, hdn, hdm⟩ := filterRelatives_ok r hown hlim direction nodes [] (by simp [dkeys]) hnodes
  have hrel : ∀ n ∈ graphNodes h g, (h.node n).id ∈ dkeys d ↔ Related h g nodes n := by
    intro n hn
    rw [hdm]
    constructor
    · rintro (hc | ⟨n', hid, hr⟩)
      · simp [dkeys] at hc
      · obtain ⟨k, hk⟩ := (mem_graphNodes R).1 hn
        obtain ⟨k', hk'⟩ := (mem_graphNodes R).1 (hr.mem r)
        have e1 := (R.nodeOk g _ _ hk).2.1
        have e2 := (R.nodeOk g _ _ hk').2.1
        rw [hid, e1] at e2
        subst e2
        obtain rfl := val_unique (R.keysNodup g) hk hk'
        exact hr
    · exact fun hr => .inr ⟨n, rfl, hr⟩
  have hkeys : dkeys (h.graph g).nodes = (A.graph g).names := by unfold dkeys SGraph.names; rw [R.nodes]
  have hdel : (filterDelete h g filterType d).Nodup ∧ ∀ k ∈ filterDelete h g filterType d, k ∈ (A.graph g).names := by
    unfold filterDelete
    split
    · rw [hkeys]
      exact ⟨(R.keysNodup g).filter _, fun k hk => (List.mem_filter.1 hk).1⟩
    · refine ⟨hdn, fun k hk => ?_⟩
      rcases (hdm k).1 hk with hc | ⟨n, rfl, hr⟩
      · simp [dkeys] at hc
      · obtain ⟨k, hk⟩ := (mem_graphNodes R).1 (hr.mem r)
        rw [(R.nodeOk g _ _ hk).2.1]
        exact List.mem_map.2 ⟨_, hk, rfl⟩
  obtain ⟨m, h', hr, r', hlt, hunt, hind⟩ := induced_run H hg hst hdel.1 hdel.2
  refine ⟨h.nG, m, h', _, ?_, r', hlt, Nat.le_refl _, hunt, ?_, hind⟩
  · simp only [bind_apply] at hr
    simp only [graphFilter, bind_apply, ask_apply, look_apply, filterRelatives, e]
    exact hr
  · intro n hn
    rw [← hrel n hn, decide_eq_true_eq]
    unfold filterDelete
    obtain ⟨k, hk⟩ := (mem_graphNodes R).1 hn
    have hmem : (h.node n).id ∈ dkeys (h.graph g).nodes := by
      rw [hkeys, (R.nodeOk g _ _ hk).2.1]
      exact List.mem_map.2 ⟨_, hk, rfl⟩
    split
    · simp only [List.mem_filter, hmem, true_and, Option.isNone_iff_eq_none, dget_none]
      exact Classical.not_not
    · exact Iff.rfl

/-- **C34**, for graphs without node styles: `filter(nodes, filter_type='include')` returns a new graph, the subgraph induced by
the given nodes, their ancestors and their descendants; every existing graph stays as it was. Missing: graphs with styled nodes,
for which `copy` raises (`C34_violated`). -/
theorem C34_include_partial {h : Heap} (r : Reachable h) {g : GRef} (hg : g < h.nG)
    (hown : ∀ n ∈ graphNodes h g, (h.node n).graph = some g) (hst : ∀ n ∈ graphNodes h g, (h.node n).style = none)
    {lim : Nat} (hlim : (graphNodes h g).length ≤ lim) {nodes : List NodeArg}
    (hnodes : ∀ a ∈ nodes, ∃ x, getNode h g a = .ok x) (direction : String) :
    ∃ g' m h' keep, graphFilter lim g nodes direction "include" h = (.ok (g', m), h') ∧ Reachable h' ∧ g' < h'.nG ∧
      h.nG ≤ g' ∧ (∀ x, x < h.nG → Untouched h h' x) ∧ (∀ n ∈ graphNodes h g, keep n = true ↔ Related h g nodes n) ∧
      InducedOf h h' g g' keep m.node m.edge := by
  simpa using filter_run r hg hown hst hlim hnodes direction "include"

/-- **C34**, for graphs without node styles: `filter_type='exclude'` (like any other value) keeps exactly the other nodes. -/
theorem C34_exclude_partial {h : Heap} (r : Reachable h) {g : GRef} (hg : g < h.nG)
    (hown : ∀ n ∈ graphNodes h g, (h.node n).graph = some g) (hst : ∀ n ∈ graphNodes h g, (h.node n).style = none)
    {lim : Nat} (hlim : (graphNodes h g).length ≤ lim) {nodes : List NodeArg}
    (hnodes : ∀ a ∈ nodes, ∃ x, getNode h g a = .ok x) (direction : String) {filterType : String} (hft : filterType ≠ "include") :
    ∃ g' m h' keep, graphFilter lim g nodes direction filterType h = (.ok (g', m), h') ∧ Reachable h' ∧ g' < h'.nG ∧
      h.nG ≤ g' ∧ (∀ x, x < h.nG → Untouched h h' x) ∧ (∀ n ∈ graphNodes h g, keep n = true ↔ ¬ Related h g nodes n) ∧
      InducedOf h h' g g' keep m.node m.edge := by
  simpa [hft] using filter_run r hg hown hst hlim hnodes direction filterType

/-- **C34**: if one of the nodes is not in the graph, `filter` raises `KeyError` and nothing has changed. -/
theorem C34_unknown {h : Heap} (r : Reachable h) {g : GRef} (hown : ∀ n ∈ graphNodes h g, (h.node n).graph = some g)
    {lim : Nat} (hlim : (graphNodes h g).length ≤ lim) {pre : List NodeArg} {a : NodeArg} {err : PyErr} (post : List NodeArg)
    (hpre : ∀ b ∈ pre, ∃ x, getNode h g b = .ok x) (ha : getNode h g a = .error err) (direction filterType : String) :
    graphFilter lim g (pre ++ a :: post) direction filterType h = (.error err, h) := by
  obtain ⟨d, e, -⟩ := filterRelatives_ok r hown hlim direction pre [] (by simp [dkeys]) hpre
  have : filterRelatives lim h g direction (pre ++ a :: post) = .error err := by
    unfold filterRelatives
    rw [List.foldlM_append, e]
    simp [List.foldlM_cons, filterRound, ha, bind, Except.bind]
  simp [graphFilter, this]

/-- **C34 as stated is violated**: with a styled node in the graph, `filter` never returns. -/
theorem C34_violated {h : Heap} {g : GRef} {n : NRef} (hn : n ∈ graphNodes h g) (hs : (h.node n).style ≠ none) (lim : Nat)
    (nodes : List NodeArg) (direction filterType : String) :
    ∃ err, graphFilter lim g nodes direction filterType h = (.error err, h) := by
  cases e : filterRelatives lim h g direction nodes with
  | error err => exact ⟨err, by simp [graphFilter, e]⟩
  | ok d => exact ⟨.keyError, by simp [graphFilter, e, C33_violated hn hs]⟩

/-- A chain `a → b → c` and `x → b`, and an unrelated `y → y`. -/
def chain : Heap := runOps [.newGraph false true false, .add 0 "a", .add 0 "b", .add 0 "c", .add 0 "x", .add 0 "y",
  .link 0 "a" "b", .link 0 "b" "c", .link 0 "x" "b", .link 0 "y" "y"] Heap.init

theorem chain_reachable : Reachable chain := by
  refine Reachable.runOps .init _ ⟨trivial, ?_⟩
  simp only [AllOk, Op.Ok, Op.add, Op.link]
  decide

/-- Relatives of `a` are `a b c`; the edge `x → b` is cut off. -/
example : ((do let r ← graphFilter 10 0 [.key (.str "a")] "to_and_from" "include"; look (fun h => graphNodes h r.1) : M _) chain).1 =
      .ok [5, 6, 7] ∧
    ((do let _ ← graphFilter 10 0 [.key (.str "a")] "to_and_from" "include"; ask (fun h => inwardEdges h 6) : M _) chain).1 =
      .ok [4] ∧
    ((do let r ← graphFilter 10 0 [.key (.str "a")] "to_and_from" "exclude"; look (fun h => graphNodes h r.1) : M _) chain).1 =
      .ok [8, 9] := by decide +kernel

example : ∃ g' m h' keep, graphFilter 10 0 [.key (.str "a")] "to_and_from" "include" chain = (.ok (g', m), h') ∧ Reachable h' ∧
    g' < h'.nG ∧ chain.nG ≤ g' ∧ (∀ x, x < chain.nG → Untouched chain h' x) ∧
    (∀ n ∈ graphNodes chain 0, keep n = true ↔ Related chain 0 [.key (.str "a")] n) ∧
    InducedOf chain h' 0 g' keep m.node m.edge :=
  C34_include_partial chain_reachable (by decide) (by decide +kernel) (by decide +kernel) (by decide +kernel) (by
    intro a ha
    rw [List.mem_singleton.1 ha]
    exact ⟨0, by decide +kernel⟩) _

/-! ## C35 -/

/-- The given nodes and their ancestors. -/
def Upward (h : Heap) (g : GRef) (nodes : List NodeArg) (n : NRef) : Prop :=
  ∃ a ∈ nodes, ∃ x, getNode h g a = .ok x ∧ (n = x ∨ Path h g n x)

/-- The given nodes and their descendants. -/
def Downward (h : Heap) (g : GRef) (nodes : List NodeArg) (n : NRef) : Prop :=
  ∃ a ∈ nodes, ∃ x, getNode h g a = .ok x ∧ (n = x ∨ Path h g x n)

/-- **C35**, the part that holds: `direction='to'` selects the given nodes and their ancestors if nothing else can be reached
from the given nodes. Missing: all other cases (`C35_violated_witness`). -/
theorem C35_to_partial {h : Heap} (r : Reachable h) {g : GRef} (hg : g < h.nG)
    (hown : ∀ n ∈ graphNodes h g, (h.node n).graph = some g) (hst : ∀ n ∈ graphNodes h g, (h.node n).style = none)
    {lim : Nat} (hlim : (graphNodes h g).length ≤ lim) {nodes : List NodeArg}
    (hnodes : ∀ a ∈ nodes, ∃ x, getNode h g a = .ok x) (hclosed : ∀ n, Downward h g nodes n → Upward h g nodes n) :
    ∃ g' m h' keep, graphFilter lim g nodes "to" "include" h = (.ok (g', m), h') ∧ Reachable h' ∧
      (∀ n ∈ graphNodes h g, keep n = true ↔ Upward h g nodes n) ∧ InducedOf h h' g g' keep m.node m.edge := by
  obtain ⟨g', m, h', keep, e, r', -, -, -, hk, hi⟩ := C34_include_partial r hg hown hst hlim hnodes "to"
  refine ⟨g', m, h', keep, e, r', fun n hn => (hk n hn).trans ⟨?_, ?_⟩, hi⟩
  · rintro ⟨a, ha, x, hx, rfl | hp | hp⟩
    · exact ⟨a, ha, n, hx, .inl rfl⟩
    · exact ⟨a, ha, x, hx, .inr hp⟩
    · exact hclosed n ⟨a, ha, x, hx, .inr hp⟩
  · rintro ⟨a, ha, x, hx, rfl | hp⟩
    · exact ⟨a, ha, n, hx, .inl rfl⟩
    · exact ⟨a, ha, x, hx, .inr (.inl hp)⟩

/-- **C35**, the part that holds: the same for `direction='from'`. -/
theorem C35_from_partial {h : Heap} (r : Reachable h) {g : GRef} (hg : g < h.nG)
    (hown : ∀ n ∈ graphNodes h g, (h.node n).graph = some g) (hst : ∀ n ∈ graphNodes h g, (h.node n).style = none)
    {lim : Nat} (hlim : (graphNodes h g).length ≤ lim) {nodes : List NodeArg}
    (hnodes : ∀ a ∈ nodes, ∃ x, getNode h g a = .ok x) (hclosed : ∀ n, Upward h g nodes n → Downward h g nodes n) :
    ∃ g' m h' keep, graphFilter lim g nodes "from" "include" h = (.ok (g', m), h') ∧ Reachable h' ∧
      (∀ n ∈ graphNodes h g, keep n = true ↔ Downward h g nodes n) ∧ InducedOf h h' g g' keep m.node m.edge := by
  obtain ⟨g', m, h', keep, e, r', -, -, -, hk, hi⟩ := C34_include_partial r hg hown hst hlim hnodes "from"
  refine ⟨g', m, h', keep, e, r', fun n hn => (hk n hn).trans ⟨?_, ?_⟩, hi⟩
  · rintro ⟨a, ha, x, hx, rfl | hp | hp⟩
    · exact ⟨a, ha, n, hx, .inl rfl⟩
    · exact hclosed n ⟨a, ha, x, hx, .inr hp⟩
    · exact ⟨a, ha, x, hx, .inr hp⟩
  · rintro ⟨a, ha, x, hx, rfl | hp⟩
    · exact ⟨a, ha, n, hx, .inl rfl⟩
    · exact ⟨a, ha, x, hx, .inr (.inr hp)⟩

/-- `c` is a leaf of the chain, so nothing else can be reached from it. -/
example : ∀ n, Downward chain 0 [.key (.str "c")] n → Upward chain 0 [.key (.str "c")] n := by
  rintro n ⟨a, ha, x, hx, rfl | hp⟩
  · exact ⟨a, ha, n, hx, .inl rfl⟩
  · rw [List.mem_singleton.1 ha, show getNode chain 0 (.key (.str "c")) = .ok 2 by decide +kernel] at hx
    cases hx
    by_cases hn : n = 2
    · subst hn; exact ⟨a, ha, 2, by rw [List.mem_singleton.1 ha]; decide +kernel, .inl rfl⟩
    · have := (C19_node_descendants chain_reachable (g := 0) (x := 2) (lim := 10) (l := []) (by decide +kernel)
        (by decide +kernel) (by decide +kernel)).2 n
      exact absurd (this.2 ⟨hn, hp⟩) (by simp)

/-- **C35 as stated is violated, always**: `direction` has no effect whatsoever. -/
theorem C35_violated (lim : Nat) (g : GRef) (nodes : List NodeArg) (d1 d2 filterType : String) :
    graphFilter lim g nodes d1 filterType = graphFilter lim g nodes d2 filterType := by
  have hor : ∀ b, orLiteral b "to_and_from" = true := by intro b; cases b <;> decide
  funext h
  have : filterRelatives lim h g d1 nodes = filterRelatives lim h g d2 nodes := by
    unfold filterRelatives
    congr 1
    funext d a
    simp [filterRound, hor]
  simp [graphFilter, this]

/-- So `filter(['b'], direction='to')` on the chain also keeps `c`, which has no path to `b`. -/
theorem C35_violated_witness : ∃ h, Reachable h ∧
    ((do let r ← graphFilter 10 0 [.key (.str "b")] "to" "include"; look (fun h => dkeys (h.graph r.1).nodes) : M _) h).1 =
      .ok [.str "a", .str "b", .str "c", .str "x"] ∧
    ∃ b ∈ graphNodes h 0, ∃ c ∈ graphNodes h 0, (h.node b).id = .str "b" ∧ (h.node c).id = .str "c" ∧ c ≠ b ∧ ¬ Path h 0 c b := by
  refine ⟨chain, chain_reachable, by decide +kernel, 1, by decide +kernel, 2, by decide +kernel, by decide +kernel,
    by decide +kernel, by decide, ?_⟩
  rw [← (C18_node_ancestors chain_reachable (lim := 10) (l := [0, 3]) (by decide +kernel) (by decide +kernel)
    (by decide +kernel)).2]
  decide

end Verif
