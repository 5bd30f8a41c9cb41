import Verif.Lemmas.DraftGraph
import Verif.Lemmas.Later
import Verif.Props.Builders
/-!
# C37, C38: `append` and `from_dict`
-/
namespace Verif
open M

/-! ## One dictionary -/

@[simp] theorem Draft.addKey_str (d : Draft) (x : String) (a : NodeArgs) : d.addKey (.str x) a = d.addNode x a := rfl

/-- When all nodes can be added, one after the other. -/
def Draft.NodesFit (d : Draft) : List (Key × NodeArgs × IfExists) → Prop
  | [] => True
  | (x, a, p) :: l => (∃ s, x = .str s ∧ d.NodeFits s a p) ∧ Draft.NodesFit (d.addKey x a) l

/-- When all edges can be added, one after the other. -/
def Draft.ItemsFit (d : Draft) : List EdgeItem → Prop
  | [] => True
  | x :: l => (∃ s t a p, x.args = some (s, t, a, p) ∧ d.EdgeFits s t a p) ∧ Draft.ItemsFit (d.addItem x) l

theorem Drawn.nodeDict {h0 h : Heap} {A : Spec} {g : GRef} (l : List (Key × NodeArgs × IfExists)) {d : Draft}
    (D : Drawn h0 h A g d) (hok : d.NodesFit l) :
    ∃ h' A', appendNodeDict g l h = (.ok (), h') ∧ Drawn h0 h' A' g (l.foldl (fun d q => d.addKey q.1 q.2.1) d) := by
  induction l generalizing h A d with
  | nil => exact ⟨h, A, rfl, D⟩
  | cons q l ih =>
    obtain ⟨x, a, p⟩ := q
    obtain ⟨⟨s, rfl, hf⟩, hok⟩ := hok
    obtain ⟨n, h1, A1, e1, D1, -⟩ := D.addNode hf
    obtain ⟨h2, A2, e2, D2⟩ := ih D1 hok
    exact ⟨h2, A2, by simp only [appendNodeDict, bind_apply, e1, e2], D2⟩

theorem appendNodes_eq (g : GRef) (N : NodesArg) : appendNodes g (some N) = appendNodeDict g N.toList := by
  cases N <;> rfl

/-- The pairs of names under which edges were remembered. -/
def itemPairs (l : List EdgeItem) : List (Key × Key) := l.filterMap fun x => x.args.map fun q => (q.1, q.2.1)

theorem Drawn.edgeList {h0 h : Heap} {A : Spec} {g : GRef} (l : List EdgeItem) (known : List (Key × Key)) {d : Draft}
    (D : Drawn h0 h A g d) (hok : d.ItemsFit l) :
    ∃ h' A', appendEdgeList g l known h = (.ok ((itemPairs l).reverse ++ known), h') ∧
      Drawn h0 h' A' g (l.foldl Draft.addItem d) := by
  induction l generalizing h A d known with
  | nil => exact ⟨h, A, by simp [appendEdgeList, itemPairs], D⟩
  | cons x l ih =>
    obtain ⟨⟨s, t, a, p, hx, hf⟩, hok⟩ := hok
    obtain ⟨e, h1, A1, e1, D1, m1, -⟩ := D.connect (sa := .key s) (ta := .key t) rfl rfl hf
    have hadd : d.addItem x = d.connect s t a := by simp [Draft.addItem, hx]
    rw [← hadd] at D1
    obtain ⟨h2, A2, e2, D2⟩ := ih ((s, t) :: known) D1 hok
    refine ⟨h2, A2, ?_, D2⟩
    have hid : edgeId h1 e = .ok (s, t, a.raw) := D1.hist.rep.edgeId_eq m1
    have hres : (itemPairs (x :: l)).reverse ++ known = (itemPairs l).reverse ++ (s, t) :: known := by
      simp [itemPairs, hx]
    rw [hres]
    cases x with
    | two s' t' =>
      simp only [EdgeItem.args, Option.some.injEq, Prod.mk.injEq] at hx
      obtain ⟨rfl, rfl, rfl, rfl⟩ := hx
      simp only [appendEdgeList, bind_apply, e1, ask_apply, hid, e2]
    | three s' t' a' p' =>
      simp only [EdgeItem.args, Option.some.injEq, Prod.mk.injEq] at hx
      obtain ⟨rfl, rfl, rfl, rfl⟩ := hx
      simp only [appendEdgeList, bind_apply, e1, ask_apply, hid, e2]
    | few => simp [EdgeItem.args] at hx
    | many => simp [EdgeItem.args] at hx

theorem appendLookups_run (known l : List (Key × Key)) (hl : ∀ k ∈ l, k ∈ known) (h : Heap) :
    appendLookups known l h = (.ok (), h) := by
  induction l with
  | nil => rfl
  | cons k l ih =>
    rw [appendLookups, if_pos (hl k (by simp))]
    exact ih fun k hk => hl k (by simp [hk])

/-- When a dictionary can be appended to a graph that looks like `d`. -/
def Draft.DictFits (d : Draft) (D : GDict) : Prop :=
  (∀ v, D.label = some v → ∃ s, v = .str s) ∧
  ∃ N E, D.nodes = some N ∧ D.edges = some E ∧
    Draft.NodesFit { d with strict := D.strict.getD d.strict, ordering := D.ordering.getD d.ordering } N.toList ∧
    Draft.ItemsFit (N.toList.foldl (fun d q => d.addKey q.1 q.2.1)
      { d with strict := D.strict.getD d.strict, ordering := D.ordering.getD d.ordering }) E ∧
    ∀ k, k ∈ D.edgeStyles ∨ k ∈ D.edgeColours → k ∈ itemPairs E

theorem labelCheck_run {v : Option Val} (hv : ∀ x, v = some x → ∃ s, x = .str s) (h : Heap) : labelCheck v h = (.ok (), h) := by
  cases v with
  | none => rfl
  | some x => obtain ⟨s, rfl⟩ := hv x rfl; rfl

theorem Drawn.appendDict {h0 h : Heap} {A : Spec} {g : GRef} {d : Draft} (D : Drawn h0 h A g d) {G : GDict} (hok : d.DictFits G) :
    ∃ h' A', Verif.appendDict g G h = (.ok (), h') ∧ Drawn h0 h' A' g (d.appendDict G) := by
  obtain ⟨hl, N, E, hN, hE, hn, he, hk⟩ := hok
  obtain ⟨h1, e1, -, D1⟩ := D.setOptions G.strict G.ordering
  obtain ⟨h2, A2, e2, D2⟩ := D1.nodeDict N.toList hn
  obtain ⟨h3, A3, e3, D3⟩ := D2.edgeList E [] he
  refine ⟨h3, A3, ?_, ?_⟩
  · simp only [Verif.appendDict, bind_apply, e1, labelCheck_run hl, hN, appendNodes_eq, e2, hE, appendEdges, e3]
    rw [appendLookups_run _ _ (fun k hk' => by simpa using hk k (.inl hk'))]
    simp only
    rw [appendLookups_run _ _ (fun k hk' => by simpa using hk k (.inr hk'))]
  · simpa [Draft.appendDict, hN, hE] using D3

/-! ## C37 -/

theorem Draft.addNode_new {d : Draft} {x : String} (hx : Key.str x ∉ d.names) (a : NodeArgs) :
    d.addNode x a = { d with nodes := d.nodes ++ [{ name := .str x, label := a.label, value := a.value, tooltip := a.tooltip,
                                                    params := a.kwargs, styled := decide (a.style ≠ .none) }] } := by
  unfold Draft.addNode; rw [if_neg hx]

/-- The nodes of a dictionary without repeated names. -/
def dictNodes (l : List (String × NodeArgs × IfExists)) : List NodeD :=
  l.map fun q => { name := .str q.1, label := q.2.1.label, value := q.2.1.value, tooltip := q.2.1.tooltip,
                   params := q.2.1.kwargs, styled := decide (q.2.1.style ≠ .none) }

theorem nodesFit_nodup (l : List (String × NodeArgs × IfExists)) (d : Draft) (hnd : (l.map Prod.fst).Nodup)
    (hnew : ∀ q ∈ l, Key.str q.1 ∉ d.names) (hst : ∀ q ∈ l, q.2.1.style.Valid) :
    d.NodesFit (l.map fun q => (.str q.1, q.2)) ∧
      (l.map fun q => (Key.str q.1, q.2)).foldl (fun d q => d.addKey q.1 q.2.1) d = { d with nodes := d.nodes ++ dictNodes l } := by
  induction l generalizing d with
  | nil => exact ⟨trivial, by simp [dictNodes]⟩
  | cons q l ih =>
    obtain ⟨x, a, p⟩ := q
    have hx := hnew (x, a, p) (by simp)
    have hs := hst (x, a, p) (by simp)
    simp only [List.map_cons, List.nodup_cons] at hnd
    have key := ih (d.addNode x a) hnd.2 (by
      intro q hq
      rw [Draft.addNode_new hx]
      have := hnew q (by simp [hq])
      have hne : q.1 ≠ x := by rintro rfl; exact hnd.1 (List.mem_map.2 ⟨q, hq, rfl⟩)
      simp only [Draft.names, List.map_append, List.mem_append] at this ⊢
      simp [this, hne]) (fun q hq => hst q (by simp [hq]))
    refine ⟨⟨⟨x, rfl, ?_⟩, key.1⟩, ?_⟩
    · unfold Draft.NodeFits; rw [if_neg hx]; exact hs
    · simp only [List.map_cons, List.foldl_cons, Draft.addKey_str]
      rw [key.2, Draft.addNode_new hx]
      simp [dictNodes]

/-- The edge is described properly: two or three elements, both ends among `names`, and nothing that could fail on an edge
that is there already (`if_edge_exists='error'`, a style) or on a new one (a style that is none). -/
def EdgeItem.Good (names : List Key) (x : EdgeItem) : Prop :=
  ∃ s t a p, x.args = some (s, t, a, p) ∧ s ∈ names ∧ t ∈ names ∧ p ≠ .error ∧ a.style = .none

theorem Draft.connect_names (d : Draft) (s t : Key) (a : EdgeArgs) : (d.connect s t a).names = d.names := by
  unfold Draft.connect; split <;> rfl

theorem Draft.addItem_names (d : Draft) (x : EdgeItem) : (d.addItem x).names = d.names := by
  unfold Draft.addItem; split
  · exact Draft.connect_names _ _ _ _
  · rfl

theorem itemsFit_good (l : List EdgeItem) (d : Draft) (hl : ∀ x ∈ l, x.Good d.names) : d.ItemsFit l := by
  induction l generalizing d with
  | nil => trivial
  | cons x l ih =>
    obtain ⟨s, t, a, p, hx, hs, ht, hp, ha⟩ := hl x (by simp)
    refine ⟨⟨s, t, a, p, hx, hs, ht, ?_⟩, ih _ (by rw [Draft.addItem_names]; exact fun x hx => hl x (by simp [hx]))⟩
    split
    · exact ⟨hp, ha⟩
    · rw [ha]; trivial

theorem fold_items_nodes (l : List EdgeItem) (d : Draft) :
    (l.foldl Draft.addItem d).nodes = d.nodes ∧ (l.foldl Draft.addItem d).strict = d.strict ∧
      (l.foldl Draft.addItem d).ordering = d.ordering := by
  induction l generalizing d with
  | nil => exact ⟨rfl, rfl, rfl⟩
  | cons x l ih =>
    obtain ⟨h1, h2, h3⟩ := ih (d.addItem x)
    simp only [List.foldl_cons, h1, h2, h3]
    unfold Draft.addItem Draft.connect
    split
    · split <;> exact ⟨rfl, rfl, rfl⟩
    · exact ⟨rfl, rfl, rfl⟩

/-- **C37**, the edges: adding edges to a graph without edges gives the distinct ids in order of first appearance. -/
theorem C37_ids (l : List EdgeItem) (d : Draft) (hd : d.edges = []) :
    (l.foldl Draft.addItem d).ids = firsts (l.filterMap EdgeItem.id) := by
  suffices h : ∀ (l : List EdgeItem) (d : Draft) (seen : List EdgeId), d.ids = firsts seen →
      (l.foldl Draft.addItem d).ids = firsts (seen ++ l.filterMap EdgeItem.id) by
    have := h l d [] (by simp [Draft.ids, hd, firsts])
    simpa using this
  intro l
  induction l with
  | nil => intro d seen h; simpa using h
  | cons x l ih =>
    intro d seen h
    rw [List.foldl_cons]
    cases hx : x.args with
    | none =>
      have e1 : d.addItem x = d := by simp [Draft.addItem, hx]
      have e2 : (x :: l).filterMap EdgeItem.id = l.filterMap EdgeItem.id := by simp [EdgeItem.id, hx]
      rw [e1, e2]
      exact ih d seen h
    | some q =>
      obtain ⟨s, t, a, p⟩ := q
      have e1 : d.addItem x = d.connect s t a := by simp [Draft.addItem, hx]
      have e2 : (x :: l).filterMap EdgeItem.id = [(s, t, a.raw)] ++ l.filterMap EdgeItem.id := by simp [EdgeItem.id, hx]
      rw [e1, e2, ← List.append_assoc]
      apply ih
      rw [firsts_append, Draft.connect, h]
      simp only [mem_firsts]
      split
      · rw [← h]
        simp only [Draft.ids, List.map_map]
        apply List.map_congr_left
        intro v _
        simp only [Function.comp_apply]
        split <;> simp_all
      · simp [Draft.ids, ← h]

theorem fromDict_run {h : Heap} (r : Reachable h) {G : GDict} (hok : Draft.DictFits {} G) :
    ∃ h' A', fromDict (.dict G) h = (.ok h.nG, h') ∧ Drawn h h' A' h.nG (Draft.appendDict {} G) := by
  obtain ⟨h1, A1, e1, n1, D1⟩ := Drawn.new r false true false
  obtain ⟨h2, A2, e2, D2⟩ := D1.appendDict hok
  exact ⟨h2, A2, by simp only [fromDict, bind_apply, e1, append, e2]; rfl, D2⟩

/-- **C37.** `from_dict` on a dictionary whose nodes are given with their attributes and whose edges join listed nodes
succeeds. The nodes are the listed ones, in order, with the given attributes; the edges are added one after the other by
`Draft.addItem` (so their ids are the distinct ones in order of first appearance, `C37_ids`); the options are the given
ones. No other graph changes. -/
theorem C37_from_dict {h : Heap} (r : Reachable h) (nodes : List (String × NodeArgs × IfExists)) (edges : List EdgeItem)
    (strict ordering : Option Bool) (label : Option String) (hnd : (nodes.map Prod.fst).Nodup)
    (hst : ∀ q ∈ nodes, q.2.1.style.Valid) (hed : ∀ x ∈ edges, x.Good (nodes.map fun q => .str q.1)) :
    ∃ h' d, fromDict (.dict { strict := strict, ordering := ordering, label := label.map .str, edges := some edges,
                              nodes := some (.dict (nodes.map fun q => (.str q.1, q.2))) }) h = (.ok h.nG, h') ∧
      Reachable h' ∧ Draws h' h.nG d ∧ d.strict = strict.getD false ∧ d.ordering = ordering.getD true ∧
      d.nodes = (nodes.map fun q => { name := .str q.1, label := q.2.1.label, value := q.2.1.value, tooltip := q.2.1.tooltip,
                                      params := q.2.1.kwargs, styled := decide (q.2.1.style ≠ .none) }) ∧
      d.edges = (edges.foldl Draft.addItem { nodes := d.nodes }).edges ∧ d.ids = firsts (edges.filterMap EdgeItem.id) ∧
      ∀ g, g < h.nG → Untouched h h' g := by
  have hn := nodesFit_nodup nodes { strict := strict.getD false, ordering := ordering.getD true } hnd (by simp [Draft.names]) hst
  have hnames : Draft.names { strict := strict.getD false, ordering := ordering.getD true, nodes := dictNodes nodes } =
      nodes.map fun q => Key.str q.1 := by simp [Draft.names, dictNodes, Function.comp_def]
  have hfit : Draft.DictFits {} { strict := strict, ordering := ordering, label := label.map .str, edges := some edges,
                                  nodes := some (.dict (nodes.map fun q => (.str q.1, q.2))) } := by
    refine ⟨?_, _, _, rfl, rfl, hn.1, ?_, ?_⟩
    · intro v hv
      cases label with
      | none => simp at hv
      | some s => simp at hv; exact ⟨s, hv.symm⟩
    · apply itemsFit_good
      simp only [NodesArg.toList]
      rw [hn.2]
      simpa [hnames] using hed
    · simp
  obtain ⟨h', A', e, D⟩ := fromDict_run r hfit
  have hd : Draft.appendDict {} { strict := strict, ordering := ordering, label := label.map .str, edges := some edges,
                                  nodes := some (.dict (nodes.map fun q => (.str q.1, q.2))) } =
      edges.foldl Draft.addItem { strict := strict.getD false, ordering := ordering.getD true, nodes := dictNodes nodes } := by
    simp only [Draft.appendDict, Option.map_some, Option.getD_some, NodesArg.toList]
    rw [hn.2]
    simp
  rw [hd] at D
  obtain ⟨f1, f2, f3⟩ := fold_items_nodes edges { strict := strict.getD false, ordering := ordering.getD true, nodes := dictNodes nodes }
  refine ⟨h', _, e, D.reachable, D.draws, f2, f3, f1, ?_, ?_, fun g hg => D.others g hg (Nat.ne_of_lt hg)⟩
  · rw [f1]
    suffices h : ∀ (l : List EdgeItem) (d d' : Draft), d.edges = d'.edges → (l.foldl Draft.addItem d).edges = (l.foldl Draft.addItem d').edges
      from h edges _ _ rfl
    intro l
    induction l with
    | nil => intro d d' h; exact h
    | cons x l ih =>
      intro d d' h
      apply ih
      unfold Draft.addItem Draft.connect Draft.ids
      rw [h]
      split
      · split
        · rfl
        · rfl
      · exact h
  · exact C37_ids edges _ rfl

/-- The same with a list of names instead of a dictionary of nodes: repeated names count once. -/
theorem C37_from_names {h : Heap} (r : Reachable h) (nodes : List String) (edges : List EdgeItem)
    (hed : ∀ x ∈ edges, x.Good (nodes.map .str)) :
    ∃ h' d, fromDict (.dict { edges := some edges, nodes := some (.list (nodes.map .str)) }) h = (.ok h.nG, h') ∧
      Reachable h' ∧ Draws h' h.nG d ∧ d.strict = false ∧ d.ordering = true ∧
      d.nodes = ((firsts nodes).map fun x => { name := .str x }) ∧
      d.edges = (edges.foldl Draft.addItem { nodes := d.nodes }).edges ∧ d.ids = firsts (edges.filterMap EdgeItem.id) ∧
      ∀ g, g < h.nG → Untouched h h' g := by
  have hn : ∀ (l done : List String), Draft.NodesFit { nodes := (firsts done).map plainNode } ((l.map Key.str).map fun x => (x, {}, .warn)) ∧
      ((l.map Key.str).map fun x => (x, ({} : NodeArgs), IfExists.warn)).foldl (fun (d : Draft) q => d.addKey q.1 q.2.1) { nodes := (firsts done).map plainNode } =
        ({ nodes := (firsts (done ++ l)).map plainNode } : Draft) := by
    intro l
    induction l with
    | nil => intro done; exact ⟨trivial, by simp⟩
    | cons x l ih =>
      intro done
      obtain ⟨h1, h2⟩ := ih (done ++ [x])
      refine ⟨⟨⟨x, rfl, Draft.fits_plain (by simp)⟩, ?_⟩, ?_⟩
      · rw [Draft.addKey_str]
        rw [Draft.addNode_plain]
        exact h1
      · simp only [List.map_cons, List.foldl_cons, Draft.addKey_str]
        rw [Draft.addNode_plain, h2]
        simp
  obtain ⟨n1, n2⟩ := hn nodes []
  simp only [List.nil_append, firsts, List.map_nil] at n1 n2
  have hnames : Draft.names { nodes := (firsts nodes).map plainNode } = (firsts nodes).map Key.str := names_plain _ _ _ _
  have hfit : Draft.DictFits {} { edges := some edges, nodes := some (.list (nodes.map .str)) } := by
    refine ⟨by simp, _, _, rfl, rfl, n1, ?_, by simp⟩
    apply itemsFit_good
    simp only [NodesArg.toList, Option.getD_none]
    rw [n2, hnames]
    intro x hx
    obtain ⟨s, t, a, p, h1, h2, h3, h4⟩ := hed x hx
    simp only [List.mem_map] at h2 h3
    refine ⟨s, t, a, p, h1, ?_, ?_, h4⟩
    · simpa [mem_firsts] using h2
    · simpa [mem_firsts] using h3
  obtain ⟨h', A', e, D⟩ := fromDict_run r hfit
  have hd : Draft.appendDict {} { edges := some edges, nodes := some (.list (nodes.map .str)) } =
      edges.foldl Draft.addItem { nodes := (firsts nodes).map plainNode } := by
    simp only [Draft.appendDict, Option.map_some, Option.getD_some, NodesArg.toList, Option.getD_none]
    rw [n2]
  rw [hd] at D
  obtain ⟨f1, f2, f3⟩ := fold_items_nodes edges { nodes := (firsts nodes).map plainNode }
  refine ⟨h', _, e, D.reachable, D.draws, f2, f3, f1, by rw [f1], ?_, fun g hg => D.others g hg (Nat.ne_of_lt hg)⟩
  exact C37_ids edges _ rfl

/-- A dictionary with two nodes, a repeated edge and a second edge under another id meets the hypotheses of `C37_from_dict`. -/
example : ∃ h' d, fromDict (.dict { edges := some [.two (.str "a") (.str "b"), .three (.str "a") (.str "b") { label := .str "l" } .ignore,
                                                   .three (.str "a") (.str "b") { id := some (.int 1) } .warn],
                                    nodes := some (.dict [(.str "a", { label := .str "A" }, .warn), (.str "b", {}, .warn)]) }) demo =
      (.ok demo.nG, h') ∧ Draws h' demo.nG d ∧
      d.edges = [{ id := (.str "a", .str "b", .none), label := .str "l" }, { id := (.str "a", .str "b", .key (.int 1)) }] := by
  obtain ⟨h', d, e, -, D, -, -, hn, he, -, -⟩ := C37_from_dict demo_reachable [("a", { label := .str "A" }, .warn), ("b", {}, .warn)]
    [.two (.str "a") (.str "b"), .three (.str "a") (.str "b") { label := .str "l" } .ignore,
      .three (.str "a") (.str "b") { id := some (.int 1) } .warn] none none none (by decide) (by simp [StyleArg.Valid])
    (by
      intro x hx
      simp only [List.mem_cons, List.not_mem_nil, or_false] at hx
      rcases hx with rfl | rfl | rfl
      · exact ⟨_, _, _, _, rfl, by simp, by simp, by simp, rfl⟩
      · exact ⟨_, _, _, _, rfl, by simp, by simp, by simp, rfl⟩
      · exact ⟨_, _, _, _, rfl, by simp, by simp, by simp, rfl⟩)
  refine ⟨h', d, e, D, ?_⟩
  rw [he, hn]
  decide +kernel

/-! ## C37: what is refused -/

theorem Drawn.edgeList_then {h0 h : Heap} {A : Spec} {g : GRef} (l rest : List EdgeItem) (known : List (Key × Key)) {d : Draft}
    (D : Drawn h0 h A g d) (hok : d.ItemsFit l) :
    ∃ h' A' known', appendEdgeList g (l ++ rest) known h = appendEdgeList g rest known' h' ∧
      Drawn h0 h' A' g (l.foldl Draft.addItem d) := by
  induction l generalizing h A d known with
  | nil => exact ⟨h, A, known, rfl, D⟩
  | cons x l ih =>
    obtain ⟨⟨s, t, a, p, hx, hf⟩, hok⟩ := hok
    obtain ⟨e, h1, A1, e1, D1, m1, -⟩ := D.connect (sa := .key s) (ta := .key t) rfl rfl hf
    have hadd : d.addItem x = d.connect s t a := by simp [Draft.addItem, hx]
    rw [← hadd] at D1
    obtain ⟨h2, A2, k2, e2, D2⟩ := ih ((s, t) :: known) D1 hok
    refine ⟨h2, A2, k2, ?_, D2⟩
    have hid : edgeId h1 e = .ok (s, t, a.raw) := D1.hist.rep.edgeId_eq m1
    cases x with
    | two s' t' =>
      simp only [EdgeItem.args, Option.some.injEq, Prod.mk.injEq] at hx
      obtain ⟨rfl, rfl, rfl, rfl⟩ := hx
      simp only [List.cons_append, appendEdgeList, bind_apply, e1, ask_apply, hid, e2]
    | three s' t' a' p' =>
      simp only [EdgeItem.args, Option.some.injEq, Prod.mk.injEq] at hx
      obtain ⟨rfl, rfl, rfl, rfl⟩ := hx
      simp only [List.cons_append, appendEdgeList, bind_apply, e1, ask_apply, hid, e2]
    | few => simp [EdgeItem.args] at hx
    | many => simp [EdgeItem.args] at hx

/-- What is wrong with an edge description, if anything: its length, or an end that is not among `names`. -/
def EdgeItem.Wrong (names : List Key) (x : EdgeItem) (err : PyErr) : Prop :=
  match x with
  | .two s t => (s ∉ names ∨ t ∉ names) ∧ err = .keyError
  | .three s t _ _ => (s ∉ names ∨ t ∉ names) ∧ err = .keyError
  | .few => err = .valueError "Too few objects in an edge definition!"
  | .many => err = .valueError "Too many objects in an edge definition!"

/-- **C37**: the first edge description that is wrong (an unlisted end: `KeyError`; fewer than two or more than three elements:
`ValueError`) makes `from_dict` raise. The other graphs are untouched. -/
theorem C37_refused {h : Heap} (r : Reachable h) (nodes : List (String × NodeArgs × IfExists)) (edges rest : List EdgeItem)
    (x : EdgeItem) (err : PyErr) (strict ordering : Option Bool) (hnd : (nodes.map Prod.fst).Nodup)
    (hst : ∀ q ∈ nodes, q.2.1.style.Valid) (hed : ∀ x ∈ edges, x.Good (nodes.map fun q => .str q.1))
    (hx : x.Wrong (nodes.map fun q => .str q.1) err) :
    ∃ h', fromDict (.dict { strict := strict, ordering := ordering, edges := some (edges ++ x :: rest),
                            nodes := some (.dict (nodes.map fun q => (.str q.1, q.2))) }) h = (.error err, h') ∧
      Reachable h' ∧ ∀ g, g < h.nG → Untouched h h' g := by
  have hn := nodesFit_nodup nodes { strict := strict.getD false, ordering := ordering.getD true } hnd (by simp [Draft.names]) hst
  have hnames : Draft.names { strict := strict.getD false, ordering := ordering.getD true, nodes := dictNodes nodes } =
      nodes.map fun q => Key.str q.1 := by simp [Draft.names, dictNodes, Function.comp_def]
  obtain ⟨h1, A1, e1, n1, D1⟩ := Drawn.new r false true false
  obtain ⟨h2, e2, -, D2⟩ := D1.setOptions strict ordering
  obtain ⟨h3, A3, e3, D3⟩ := D2.nodeDict _ hn.1
  rw [hn.2] at D3
  obtain ⟨h4, A4, k4, e4, D4⟩ := D3.edgeList_then edges (x :: rest) [] (itemsFit_good _ _ (by simpa [hnames] using hed))
  have hgk : dkeys (h4.graph h.nG).nodes = nodes.map fun q => Key.str q.1 := by
    unfold dkeys
    rw [D4.hist.rep.nodes, ← hnames]
    have := D4.names
    unfold SGraph.names at this
    rw [← this, Draft.names, Draft.names, (fold_items_nodes edges _).1]
    simp
  have hfail : appendEdgeList h.nG (x :: rest) k4 h4 = (.error err, h4) := by
    cases x with
    | two s t =>
      obtain ⟨hu, rfl⟩ := hx
      simp only [appendEdgeList, bind_apply, C05_unknown h.nG s t {} .warn (by rw [hgk]; exact hu)]
    | three s t a p =>
      obtain ⟨hu, rfl⟩ := hx
      simp only [appendEdgeList, bind_apply, C05_unknown h.nG s t a p (by rw [hgk]; exact hu)]
    | few => cases hx; rfl
    | many => cases hx; rfl
  refine ⟨h4, ?_, D4.reachable, fun g hg => D4.others g hg (Nat.ne_of_lt hg)⟩
  simp only [fromDict, bind_apply, e1, append, appendDict, e2, labelCheck, pure_apply, appendNodes_eq, NodesArg.toList, e3,
    appendEdges, e4, hfail]

/-- `C37_refused` applies to an edge to a node that is not listed. -/
example : ∃ h', fromDict (.dict { edges := some [.two (.str "a") (.str "a"), .two (.str "a") (.str "b")],
                                  nodes := some (.dict [(.str "a", {}, .warn)]) }) demo = (.error .keyError, h') := by
  obtain ⟨h', e, -⟩ := C37_refused demo_reachable [("a", {}, .warn)] [.two (.str "a") (.str "a")] [] (.two (.str "a") (.str "b"))
    .keyError none none (by decide) (by simp [StyleArg.Valid])
    (by
      intro x hx
      simp only [List.mem_cons, List.not_mem_nil, or_false] at hx
      subst hx
      exact ⟨_, _, _, _, rfl, by simp, by simp, by simp, rfl⟩)
    (by simp [EdgeItem.Wrong])
  exact ⟨h', e⟩

/-- **C37**: on any graph, an object without `__graph__()` raises `TypeError` and nothing changes; a label that is no `str` raises
`TypeError`; without the key `nodes`, `KeyError`. -/
theorem C37_unusable (g : GRef) (h : Heap) (D : GDict) :
    append g (.object (.error .attributeError)) h = (.error .typeError, h) ∧
    ((∃ v, D.label = some v ∧ ∀ s, v ≠ .str s) → (append g (.dict D) h).1 = .error .typeError) ∧
    (D.label = none → D.nodes = none → (append g (.dict D) h).1 = .error .keyError) := by
  refine ⟨rfl, ?_, ?_⟩
  · rintro ⟨v, hl, hv⟩
    simp only [append, appendDict, bind_apply, graphSetOptions, modGraph, hl]
    cases v with
    | str s => exact absurd rfl (hv s)
    | _ => rfl
  · intro hl hN
    simp only [append, appendDict, bind_apply, graphSetOptions, modGraph, hl, labelCheck, pure_apply, hN, appendNodes]
    rfl

/-- Append dictionaries one after the other; an exception ends it. -/
def appendEach (g : GRef) : List (Except PyErr GDict) → M Unit
  | [] => pure ()
  | .error e :: _ => raise e
  | .ok d :: l => do
    append g (.dict d)
    appendEach g l

theorem appendEach_append (g : GRef) (l l' : List (Except PyErr GDict)) (h : Heap) :
    appendEach g (l ++ l') h = (do appendEach g l; appendEach g l') h := by
  induction l generalizing h with
  | nil => rfl
  | cons x l ih =>
    cases x with
    | error e => rfl
    | ok d =>
      simp only [List.cons_append, appendEach, bind_apply]
      cases hq : append g (.dict d) h with
      | mk q h1 =>
        cases q with
        | error e => rfl
        | ok u => simp only [ih, bind_apply]

mutual
theorem append_each (g : GRef) (x : Appendable) (h : Heap) : append g x h = appendEach g x.dicts h := by
  cases x with
  | items l => simp only [append, Appendable.dicts]; exact appendAll_each g l h
  | dict d =>
    simp only [Appendable.dicts, appendEach, bind_apply]
    cases append g (.dict d) h with
    | mk q h1 => cases q <;> rfl
  | object r =>
    cases r with
    | ok d =>
      simp only [Appendable.dicts, appendEach, bind_apply]
      have e : append g (.object (.ok d)) h = append g (.dict d) h := by simp only [append]
      rw [e]
      cases append g (.dict d) h with
      | mk q h1 => cases q <;> rfl
    | error e => cases e <;> rfl
theorem appendAll_each (g : GRef) (l : List Appendable) (h : Heap) :
    appendAll g l h = appendEach g (Appendable.dictsAll l) h := by
  cases l with
  | nil => rfl
  | cons x l =>
    rw [Appendable.dictsAll, appendEach_append]
    simp only [appendAll, bind_apply, append_each g x h]
    cases appendEach g x.dicts h with
    | mk q h1 =>
      cases q with
      | error e => rfl
      | ok u => exact appendAll_each g l h1
end

/-- **C37.** Appending an object with `__graph__()`, or a (nested) list, is appending the dictionaries in it one after the
other; an object without `__graph__()` stands for `TypeError`. So is `from_dict`, on a new graph. -/
theorem C37_in_order (x : Appendable) (h : Heap) :
    (∀ g, append g x h = appendEach g x.dicts h) ∧
      fromDict x h = (do let g ← graphInit false true false; appendEach g x.dicts; return g) h := by
  refine ⟨fun g => append_each g x h, ?_⟩
  simp only [fromDict, bind_apply]
  cases graphInit false true false h with
  | mk q h1 => cases q <;> simp [append_each]

example : (Appendable.items [.dict { label := some (.str "a") }, .items [.object (.ok { label := some (.str "b") })],
      .object (.error .attributeError)]).dicts =
    [.ok { label := some (.str "a") }, .ok { label := some (.str "b") }, .error .typeError] := by rfl

/-! ## C38 -/

/-- Nodes and edges of graph `g` are the same objects in the same order, with the same names and ids. -/
structure SameShape (h h' : Heap) (g : GRef) : Prop where
  nodes : graphNodes h' g = graphNodes h g
  names : ∀ n ∈ graphNodes h g, (h'.node n).id = (h.node n).id
  outward : ∀ n ∈ graphNodes h g, outwardEdges h' n = outwardEdges h n
  inward : ∀ n ∈ graphNodes h g, inwardEdges h' n = inwardEdges h n
  edges : ∀ e, LiveEdge h g e → edgeId h' e = edgeId h e ∧ edgeStart h' e = edgeStart h e ∧ edgeEnd h' e = edgeEnd h e

theorem SameShape.ofRep {h h' : Heap} {A : Spec} (R : Rep h A) (R' : Rep h' A) (g : GRef) : SameShape h h' g := by
  refine ⟨?_, ?_, ?_, ?_, ?_⟩
  · unfold graphNodes dvals; rw [R.nodes, R'.nodes]
  · intro n hn; rw [← R.name n, ← R'.name n]
  · intro n hn
    obtain ⟨k, hk⟩ := (mem_graphNodes R).1 hn
    rw [R.outwardEdges hk, R'.outwardEdges hk]
  · intro n hn
    obtain ⟨k, hk⟩ := (mem_graphNodes R).1 hn
    rw [R.inwardEdges hk, R'.inwardEdges hk]
  · intro e he
    obtain ⟨i, hi⟩ := (liveEdge_iff R).1 he
    obtain ⟨n, m, h1, h2, -, -, -, h6, h7⟩ := R.live_edge hi
    obtain ⟨n', m', h1', h2', -, -, -, h6', h7'⟩ := R'.live_edge hi
    obtain rfl := val_unique (R.keysNodup g) h6 h6'
    obtain rfl := val_unique (R.keysNodup g) h7 h7'
    refine ⟨by rw [R.edgeId_eq hi, R'.edgeId_eq hi], ?_, ?_⟩
    · simp [edgeStart, h1, h1']
    · simp [edgeEnd, h2, h2']

/-- `x` mentions the name `k`. -/
def GDict.namesMentioned (D : GDict) : List Key := ((D.nodes.map NodesArg.toList).getD []).map Prod.fst

def GDict.idsMentioned (D : GDict) : List EdgeId := (D.edges.getD []).filterMap EdgeItem.id

/-- The graph grew: nothing was removed from the graph `g`. -/
def Spec.Within (A A' : Spec) (g : GRef) : Prop :=
  (A.graph g).nodes <+: (A'.graph g).nodes ∧ (A.graph g).edges <+: (A'.graph g).edges

theorem Spec.Within.refl (A : Spec) (g : GRef) : A.Within A g := ⟨List.prefix_refl _, List.prefix_refl _⟩

theorem Spec.Within.trans {A B C : Spec} {g : GRef} (h1 : A.Within B g) (h2 : B.Within C g) : A.Within C g :=
  ⟨h1.1.trans h2.1, h1.2.trans h2.2⟩

theorem Spec.Within.names {A B : Spec} {g : GRef} (w : A.Within B g) : ∀ k ∈ (A.graph g).names, k ∈ (B.graph g).names :=
  fun _ h => (w.1.map Prod.fst).subset h

theorem Spec.Within.ids {A B : Spec} {g : GRef} (w : A.Within B g) : ∀ k ∈ (A.graph g).ids, k ∈ (B.graph g).ids :=
  fun _ h => (w.2.map Prod.fst).subset h

/-- Three facts about a step of `append`: it is made of legal calls; if it returns, it has put in all it mentions; if all it
mentions is there, it changes no structure. -/
structure Puts {α : Type} (g : GRef) (x : M α) (ks : List Key) (is : List EdgeId) : Prop where
  puts : ∀ h A, Hist h A → g < h.nG → ∃ A', Hist (x h).2 A' ∧ h.nG ≤ (x h).2.nG ∧ A.Within A' g ∧
    (∀ a, (x h).1 = .ok a → (∀ k ∈ ks, k ∈ (A'.graph g).names) ∧ ∀ i ∈ is, i ∈ (A'.graph g).ids) ∧
    ((∀ k ∈ ks, k ∈ (A.graph g).names) → (∀ i ∈ is, i ∈ (A.graph g).ids) → A' = A)

namespace Puts
variable {α β : Type} {g : GRef}

theorem pure (a : α) : Puts g (Pure.pure a : M α) [] [] :=
  ⟨fun _ A H _ => ⟨A, H, Nat.le_refl _, .refl A g, by simp, fun _ _ => rfl⟩⟩

theorem raise (e : PyErr) (ks : List Key) (is : List EdgeId) : Puts g (M.raise e : M α) ks is :=
  ⟨fun _ A H _ => ⟨A, H, Nat.le_refl _, .refl A g, by simp, fun _ _ => rfl⟩⟩

theorem bind {x : M α} {f : α → M β} {ks ks' : List Key} {is is' : List EdgeId} (hx : Puts g x ks is)
    (hf : ∀ a, Puts g (f a) ks' is') : Puts g (x >>= f) (ks ++ ks') (is ++ is') := by
  constructor
  intro h A H hg
  obtain ⟨A1, H1, g1, w1, p1, s1⟩ := hx.puts h A H hg
  rw [bind_apply]
  cases hr : x h with
  | mk res h1 =>
    rw [hr] at H1 g1 p1
    cases res with
    | error e =>
      refine ⟨A1, H1, g1, w1, by simp, fun hk hi => s1 (fun k h => hk k (by simp [h])) fun i h => hi i (by simp [h])⟩
    | ok a =>
      obtain ⟨A2, H2, g2, w2, p2, s2⟩ := (hf a).puts h1 A1 H1 (Nat.lt_of_lt_of_le hg g1)
      refine ⟨A2, H2, Nat.le_trans g1 g2, w1.trans w2, ?_, ?_⟩
      · intro b hb
        obtain ⟨q1, q2⟩ := p1 a rfl
        obtain ⟨q3, q4⟩ := p2 b hb
        constructor
        · intro k hk
          rcases List.mem_append.1 hk with hk | hk
          · exact w2.names k (q1 k hk)
          · exact q3 k hk
        · intro k hk
          rcases List.mem_append.1 hk with hk | hk
          · exact w2.ids k (q2 k hk)
          · exact q4 k hk
      · intro hk hi
        have e1 : A1 = A := s1 (fun k h => hk k (by simp [h])) fun i h => hi i (by simp [h])
        subst e1
        exact s2 (fun k h => hk k (by simp [h])) fun i h => hi i (by simp [h])

theorem ask (q : Q α) : Puts g (M.ask q) [] [] :=
  ⟨fun _ A H _ => ⟨A, H, Nat.le_refl _, .refl A g, by simp, fun _ _ => rfl⟩⟩

theorem addNode (x : Key) (a : NodeArgs) (p : IfExists) : Puts g (Verif.addNode g x a p) [x] [] := by
  constructor
  intro h A H hg
  have H' := Hist.step (.addNode g x a p) H hg
  have hG := (Grows.step (.addNode g x a p) h).nG
  cases hr : Verif.addNode g x a p h with
  | mk res h1 =>
    simp only [Op.step, bind_apply, hr] at H' hG
    cases res with
    | error e => exact ⟨A, H', hG, .refl A g, by simp, fun _ _ => rfl⟩
    | ok n =>
      simp only [pure_apply, Spec.step] at H' hG
      refine ⟨_, H', hG, ?_, ?_, ?_⟩
      · unfold Spec.register
        split
        · exact .refl A g
        · rename_i hx
          constructor
          · simp only [upd_same, SGraph.addNode, if_neg hx]
            exact List.prefix_append _ _
          · simp only [upd_same, SGraph.addNode, if_neg hx]
            exact List.prefix_refl _
      · intro _ _
        refine ⟨?_, by simp⟩
        simp only [List.mem_singleton, forall_eq]
        unfold Spec.register
        split
        · assumption
        · rename_i hx
          simp only [upd_same, SGraph.addNode, if_neg hx]
          simp [SGraph.names]
      · intro hk _
        have := hk x (by simp)
        simp [Spec.register, this]

theorem connect (s t : Key) (a : EdgeArgs) (p : IfExists) :
    Puts g (Verif.connect g (.key s) (.key t) a p) [] [(s, t, a.raw)] := by
  constructor
  intro h A H hg
  have H' := Hist.step (.connect g (.key s) (.key t) a p) H hg
  have hG := (Grows.step (.connect g (.key s) (.key t) a p) h).nG
  cases hr : Verif.connect g (.key s) (.key t) a p h with
  | mk res h1 =>
    simp only [Op.step, bind_apply, hr] at H' hG
    cases res with
    | error e => exact ⟨A, H', hG, .refl A g, by simp, fun _ _ => rfl⟩
    | ok n =>
      simp only [pure_apply, Spec.step, Spec.connect, Spec.connectId, Spec.argName] at H' hG
      refine ⟨_, H', hG, ?_, ?_, ?_⟩
      · simp only [Spec.Within, Spec.on, upd_same, SGraph.addEdge]
        split
        · exact ⟨List.prefix_refl _, List.prefix_refl _⟩
        · exact ⟨List.prefix_refl _, List.prefix_append _ _⟩
      · intro _ _
        refine ⟨by simp, ?_⟩
        simp only [List.mem_singleton, forall_eq, Spec.on, upd_same, SGraph.addEdge]
        split
        · assumption
        · simp [SGraph.ids]
      · intro _ hi
        have := hi _ (List.mem_singleton.2 rfl)
        exact Rep.on_id (by simp [SGraph.addEdge, this])

theorem options (s o : Option Bool) : Puts g (graphSetOptions g s o) [] [] := by
  constructor
  intro h A H hg
  exact ⟨A, Hist.step (.setOptions g s o) H hg, Nat.le_refl _, .refl A g, by simp, fun _ _ => rfl⟩

theorem congr {x : M α} {ks ks' : List Key} {is is' : List EdgeId} (hx : Puts g x ks is) (h1 : ks = ks') (h2 : is = is') :
    Puts g x ks' is' := by subst h1; subst h2; exact hx

theorem label (v : Option Val) : Puts g (labelCheck v) [] [] := by
  unfold labelCheck; split
  · exact .pure _
  · exact .pure _
  · exact .raise _ _ _

theorem nodeDict (l : List (Key × NodeArgs × IfExists)) : Puts g (appendNodeDict g l) (l.map Prod.fst) [] := by
  induction l with
  | nil => exact .pure _
  | cons q l ih =>
    obtain ⟨x, a, p⟩ := q
    exact (addNode x a p).bind fun _ => ih

theorem edgeList (l : List EdgeItem) (known : List (Key × Key)) : Puts g (appendEdgeList g l known) [] (l.filterMap EdgeItem.id) := by
  induction l generalizing known with
  | nil => exact .pure _
  | cons x l ih =>
    cases x with
    | two s t => exact ((connect s t {} .warn).bind fun e => (ask _).bind fun _ => ih _).congr rfl (by simp [EdgeItem.id, EdgeItem.args])
    | three s t a p => exact ((connect s t a p).bind fun e => (ask _).bind fun _ => ih _).congr rfl (by simp [EdgeItem.id, EdgeItem.args])
    | few => exact .raise _ _ _
    | many => exact .raise _ _ _

theorem lookups (known l : List (Key × Key)) : Puts g (appendLookups known l) [] [] := by
  induction l with
  | nil => exact .pure _
  | cons k l ih =>
    unfold appendLookups
    split
    · exact ih
    · exact .raise _ _ _

theorem dict (D : GDict) : Puts g (appendDict g D) D.namesMentioned D.idsMentioned := by
  have hN : Puts g (appendNodes g D.nodes) D.namesMentioned [] := by
    unfold GDict.namesMentioned
    cases D.nodes with
    | none => exact .raise _ _ _
    | some N => rw [appendNodes_eq]; exact nodeDict _
  have hE : Puts g (appendEdges g D.edges) [] D.idsMentioned := by
    unfold GDict.idsMentioned
    cases D.edges with
    | none => exact .raise _ _ _
    | some E => exact edgeList E []
  exact ((options _ _).bind fun _ => (label _).bind fun _ => hN.bind fun _ => hE.bind fun known =>
    (lookups known _).bind fun _ => lookups known _).congr (by simp) (by simp)

mutual
theorem append (x : Appendable) : ∃ ks is, Puts g (Verif.append g x) ks is := by
  cases x with
  | items l => simp only [Verif.append]; exact appendAll l
  | dict D => simp only [Verif.append]; exact ⟨_, _, dict D⟩
  | object r =>
    cases r with
    | ok D => simp only [Verif.append]; exact ⟨_, _, dict D⟩
    | error e =>
      refine ⟨[], [], ?_⟩
      by_cases h : e = .attributeError
      · subst h; exact .raise _ _ _
      · have : Verif.append g (.object (.error e)) = M.raise e := by cases e <;> first | rfl | exact absurd rfl h
        rw [this]; exact .raise _ _ _
theorem appendAll (l : List Appendable) : ∃ ks is, Puts g (Verif.appendAll g l) ks is := by
  match l with
  | [] => exact ⟨[], [], .pure _⟩
  | x :: l =>
    obtain ⟨k1, i1, h1⟩ := append x
    obtain ⟨k2, i2, h2⟩ := appendAll l
    exact ⟨_, _, h1.bind fun _ => h2⟩
end

end Puts

/-- **C38.** On every reachable graph and for everything that can be appended (dictionaries, objects with `__graph__`, lists of such,
nested): after it has been appended once, appending it again changes no structure, whether the second call returns or
raises. -/
theorem C38_append_twice {h h1 : Heap} (r : Reachable h) {g : GRef} (hg : g < h.nG) (x : Appendable)
    (ok : append g x h = (.ok (), h1)) (g' : GRef) : SameShape h1 (append g x h1).2 g' := by
  obtain ⟨A, H⟩ := r.hist
  obtain ⟨ks, is, P⟩ := Puts.append (g := g) x
  obtain ⟨A1, H1, g1, -, p1, -⟩ := P.puts h A H hg
  rw [ok] at H1 g1 p1
  obtain ⟨q1, q2⟩ := p1 () rfl
  obtain ⟨A2, H2, -, -, -, s2⟩ := P.puts h1 A1 H1 (Nat.lt_of_lt_of_le hg g1)
  have e := s2 q1 q2
  subst e
  exact .ofRep H1.rep H2.rep g'

/-- Nothing is removed by `append`, and every intermediate state is reachable. -/
theorem C38_reachable {h : Heap} (r : Reachable h) {g : GRef} (hg : g < h.nG) (x : Appendable) : Reachable (append g x h).2 := by
  obtain ⟨A, H⟩ := r.hist
  obtain ⟨ks, is, P⟩ := Puts.append (g := g) x
  obtain ⟨A1, H1, -⟩ := P.puts h A H hg
  exact H1.reachable

/-- The hypothesis of `C38_append_twice` is met by appending two nodes and an edge to the demo graph. -/
example : (append 0 (.items [.dict { nodes := some (.list [.str "a", .str "z"]), edges := some [.two (.str "a") (.str "z")] }]) demo).1 =
    .ok () := by decide +kernel

/-- The second call can raise: a style is not given twice unless that was allowed. -/
example : (append 0 (.dict { nodes := some (.dict [(.str "z", { style := .dict true }, .warn)]), edges := some [] }) demo).1 = .ok () ∧
    (append 0 (.dict { nodes := some (.dict [(.str "z", { style := .dict true }, .warn)]), edges := some [] })
      (append 0 (.dict { nodes := some (.dict [(.str "z", { style := .dict true }, .warn)]), edges := some [] }) demo).2).1 =
      .error .runtimeError := by decide +kernel

end Verif
