import Verif.Props.Construct
/-!
# The graph that a tidy dictionary makes
-/
namespace Verif
variable {C : Type} [Palette C]

/-- What is seen of a node described in a dictionary. -/
def NodeSpec.seen (q : Key × NodeSpec C) : NodeD :=
  { name := q.1, label := q.2.label, value := q.2.value, tooltip := q.2.tooltip, params := q.2.kwargs,
    styled := decide (q.2.args.style ≠ .none) }

/-- What is seen of an edge described in a dictionary. -/
def EdgeSpec.seen (q : Key × Key × EdgeSpec C) : EdgeD :=
  { id := (q.1, q.2.1, q.2.2.raw), label := q.2.2.label, value := q.2.2.value, tooltip := q.2.2.tooltip, params := q.2.2.kwargs,
    styled := decide (q.2.2.args.style ≠ .none) }

/-- Nodes with distinct names, which are strings, and proper styles. -/
structure TidyNodes (nodes : List (Key × NodeSpec C)) : Prop where
  nodup : (nodes.map Prod.fst).Nodup
  names : ∀ q ∈ nodes, ∃ s, q.1 = .str s
  styles : ∀ q ∈ nodes, q.2.args.style.Valid

omit [Palette C] in
/-- The ids of edges. -/
def edgeIds (edges : List (Key × Key × EdgeSpec C)) : List EdgeId := edges.map fun q => (q.1, q.2.1, q.2.2.raw)

/-- Edges with distinct ids between listed nodes, and proper styles. -/
structure TidyEdges (names : List Key) (edges : List (Key × Key × EdgeSpec C)) : Prop where
  nodup : (edgeIds edges).Nodup
  ends : ∀ q ∈ edges, q.1 ∈ names ∧ q.2.1 ∈ names
  styles : ∀ q ∈ edges, q.2.2.args.style.Valid

theorem nodesFit_tidy {nodes : List (Key × NodeSpec C)} (T : TidyNodes nodes) (d : Draft) (hnew : ∀ q ∈ nodes, q.1 ∉ d.names) :
    d.NodesFit (nodes.map fun q => (q.1, q.2.args, q.2.policy)) ∧
      (nodes.map fun q => (q.1, q.2.args, q.2.policy)).foldl (fun d q => d.addKey q.1 q.2.1) d =
        { d with nodes := d.nodes ++ nodes.map NodeSpec.seen } := by
  induction nodes generalizing d with
  | nil => exact ⟨trivial, by simp⟩
  | cons q nodes ih =>
    obtain ⟨k, a⟩ := q
    obtain ⟨x, rfl⟩ := T.names (k, a) (by simp)
    have hx : Key.str x ∉ d.names := hnew (.str x, a) (by simp)
    have hs := T.styles (.str x, a) (by simp)
    obtain ⟨n1, n2⟩ := List.nodup_cons.1 T.nodup
    have key := ih ⟨n2, fun q hq => T.names q (by simp [hq]), fun q hq => T.styles q (by simp [hq])⟩ (d.addNode x a.args) (by
      intro q hq
      rw [Draft.addNode_new hx]
      have := hnew q (by simp [hq])
      have hne : q.1 ≠ .str x := fun e => n1 (List.mem_map.2 ⟨q, hq, e⟩)
      simp only [Draft.names, List.map_append, List.mem_append] at this ⊢
      simp [this, hne])
    refine ⟨⟨⟨x, rfl, ?_⟩, key.1⟩, ?_⟩
    · unfold Draft.NodeFits; rw [if_neg hx]; exact hs
    · simp only [List.map_cons, List.foldl_cons, Draft.addKey_str]
      rw [key.2, Draft.addNode_new hx]
      simp [NodeSpec.seen, NodeSpec.args]

theorem itemsFit_tidy {names : List Key} {edges : List (Key × Key × EdgeSpec C)} (T : TidyEdges names edges) (d : Draft)
    (hn : d.names = names) (hnew : ∀ i ∈ edgeIds edges, i ∉ d.ids) :
    d.ItemsFit (edges.map fun q => .three q.1 q.2.1 q.2.2.args q.2.2.policy) ∧
      (edges.map fun q => EdgeItem.three q.1 q.2.1 q.2.2.args q.2.2.policy).foldl Draft.addItem d =
        { d with edges := d.edges ++ edges.map EdgeSpec.seen } := by
  induction edges generalizing d with
  | nil => exact ⟨trivial, by simp⟩
  | cons q edges ih =>
    obtain ⟨s, t, a⟩ := q
    have hx : (s, t, a.args.raw) ∉ d.ids := by rw [a.args_raw]; exact hnew _ (by simp [edgeIds])
    have he := T.ends (s, t, a) (by simp)
    have hs := T.styles (s, t, a) (by simp)
    obtain ⟨n1, n2⟩ := List.nodup_cons.1 T.nodup
    have hc : d.connect s t a.args = { d with edges := d.edges ++ [EdgeSpec.seen (s, t, a)] } := by
      unfold Draft.connect; rw [if_neg hx, a.args_raw]; rfl
    have key := ih ⟨n2, fun q hq => T.ends q (by simp [hq]), fun q hq => T.styles q (by simp [hq])⟩ (d.connect s t a.args) (by rw [Draft.connect_names, hn]) (by
      intro i hi
      rw [hc]
      have := hnew i (by simp only [edgeIds, List.map_cons, List.mem_cons]; exact .inr hi)
      have hne : i ≠ (s, t, a.raw) := by rintro rfl; exact n1 hi
      simp only [Draft.ids, List.map_append, List.mem_append] at this ⊢
      simp [this, hne, EdgeSpec.seen])
    refine ⟨⟨⟨s, t, a.args, a.policy, rfl, ?_⟩, key.1⟩, ?_⟩
    · unfold Draft.EdgeFits
      rw [if_neg hx, hn]
      exact ⟨he.1, he.2, hs⟩
    · simp only [List.map_cons, List.foldl_cons]
      have : d.addItem (.three s t a.args a.policy) = d.connect s t a.args := rfl
      rw [this, key.2, hc]
      simp

/-- `append` of a tidy dictionary to an empty graph. -/
theorem Drawn.tidy {h0 h : Heap} {A : Spec} {g : GRef} {strict ordering : Bool}
    (D1 : Drawn h0 h A g { strict := strict, ordering := ordering }) {D : GraphDict C} {nodes : List (Key × NodeSpec C)}
    {edges : List (Key × Key × EdgeSpec C)} (hN : D.nodes = some (.dict nodes))
    (hE : D.edges = some (edges.map fun q => .three q.1 q.2.1 q.2.2)) (hl : ∀ v, D.label = some v → ∃ s, v = .str s)
    (hs : D.edgeStyles = []) (hc : D.edgeColours = []) (T : TidyNodes nodes) (T' : TidyEdges (nodes.map Prod.fst) edges) :
    ∃ h' A', Verif.appendDict g D.plain h = (.ok (), h') ∧
      Drawn h0 h' A' g { strict := D.strict.getD strict, ordering := D.ordering.getD ordering,
                         nodes := nodes.map NodeSpec.seen, edges := edges.map EdgeSpec.seen } := by
  have n1 := nodesFit_tidy T { strict := D.strict.getD strict, ordering := D.ordering.getD ordering } (by simp [Draft.names])
  have i1 := itemsFit_tidy T' { strict := D.strict.getD strict, ordering := D.ordering.getD ordering, nodes := nodes.map NodeSpec.seen }
    (by simp [Draft.names, NodeSpec.seen, Function.comp_def]) (by simp [Draft.ids])
  have hplain : D.plain.edges = some (edges.map fun q => EdgeItem.three q.1 q.2.1 q.2.2.args q.2.2.policy) := by
    simp [GraphDict.plain, hE, EdgeEntry.plain, Function.comp_def]
  have hfit : Draft.DictFits { strict := strict, ordering := ordering } D.plain := by
    refine ⟨hl, _, _, by simp [GraphDict.plain, hN, NodesEntry.plain]; rfl, hplain, ?_, ?_, ?_⟩
    · exact n1.1
    · simp only [NodesArg.toList]
      have := n1.2
      simp only [List.nil_append] at this
      exact this ▸ i1.1
    · simp [GraphDict.plain, hs, hc]
  obtain ⟨h2, A2, e2, D2⟩ := D1.appendDict hfit
  refine ⟨h2, A2, e2, ?_⟩
  have hd : Draft.appendDict { strict := strict, ordering := ordering } D.plain =
      { strict := D.strict.getD strict, ordering := D.ordering.getD ordering,
        nodes := nodes.map NodeSpec.seen, edges := edges.map EdgeSpec.seen } := by
    have hn : D.plain.nodes.map NodesArg.toList = some (nodes.map fun q => (q.1, q.2.args, q.2.policy)) := by
      simp [GraphDict.plain, hN, NodesEntry.plain, NodesArg.toList]
    have := n1.2
    simp only [List.nil_append] at this
    have i2 := i1.2
    simp only [List.nil_append] at i2
    unfold Draft.appendDict
    rw [hn, hplain]
    simp only [Option.getD_some]
    exact (congrArg (fun x => List.foldl Draft.addItem x _) this).trans i2
  rw [← hd]
  exact D2

/-- `Graph(obj=D)` for a tidy dictionary. -/
theorem graphOfDict_draws {w : World C} (r : Reachable w.heap) (a : GraphArgs C) {D : GraphDict C} {nodes : List (Key × NodeSpec C)}
    {edges : List (Key × Key × EdgeSpec C)} (hN : D.nodes = some (.dict nodes))
    (hE : D.edges = some (edges.map fun q => .three q.1 q.2.1 q.2.2)) (hl : ∀ v, D.label = some v → ∃ s, v = .str s)
    (hs : D.edgeStyles = []) (hc : D.edgeColours = []) (T : TidyNodes nodes) (T' : TidyEdges (nodes.map Prod.fst) edges) :
    ∃ w', graphOfDict a D w = (.ok w.heap.nG, w') ∧ Reachable w'.heap ∧
      Draws w'.heap w.heap.nG { strict := D.strict.getD a.strict, ordering := D.ordering.getD a.ordering,
                                nodes := nodes.map NodeSpec.seen, edges := edges.map EdgeSpec.seen } ∧
      w'.display = upd w.display w.heap.nG (some ((startDisplay a (some D)).after D)) ∧
      (∀ g', g' < w.heap.nG → Untouched w.heap w'.heap g') ∧ w.heap.nG < w'.heap.nG := by
  obtain ⟨h1, A1, e1, -, D1⟩ := Drawn.new r a.strict a.ordering ((some D |>.bind (·.overwrite)).getD a.overwrite)
  have hh : startHeap a (some D) w.heap = h1 := by unfold startHeap; rw [e1]
  obtain ⟨h2, A2, e2, D2⟩ := D1.tidy hN hE hl hs hc T T'
  rw [← hh] at e2
  obtain ⟨w', e3, e4, e5⟩ := graphOfDict_run (a := a) r (by simp [GraphDict.EdgesKnown, hs, hc]) e2
  subst e4
  exact ⟨w', e3, D2.reachable, D2.draws, e5, fun g' hg => D2.others g' hg (Nat.ne_of_lt hg), D2.lt⟩

/-- `Graph()` followed by `append` of a tidy dictionary. -/
theorem constructThen_draws {w : World C} (r : Reachable w.heap) (a : GraphArgs C) {D : GraphDict C} {nodes : List (Key × NodeSpec C)}
    {edges : List (Key × Key × EdgeSpec C)} (hN : D.nodes = some (.dict nodes))
    (hE : D.edges = some (edges.map fun q => .three q.1 q.2.1 q.2.2)) (hl : ∀ v, D.label = some v → ∃ s, v = .str s)
    (hs : D.edgeStyles = []) (hc : D.edgeColours = []) (T : TidyNodes nodes) (T' : TidyEdges (nodes.map Prod.fst) edges) :
    ∃ w', appendDictW w.heap.nG D (constructW a none w).2 = (.ok (), w') ∧ Reachable w'.heap ∧
      Draws w'.heap w.heap.nG { strict := D.strict.getD a.strict, ordering := D.ordering.getD a.ordering,
                                nodes := nodes.map NodeSpec.seen, edges := edges.map EdgeSpec.seen } ∧
      w'.display = upd w.display w.heap.nG (some ((startDisplay a none).after D)) ∧
      ∀ g', g' < w.heap.nG → Untouched w.heap w'.heap g' := by
  obtain ⟨h1, A1, e1, e1', D1⟩ := Drawn.new r a.strict a.ordering a.overwrite
  have hh : startHeap a none w.heap = h1 := by unfold startHeap; exact congrArg Prod.snd e1
  obtain ⟨h2, A2, e2, D2⟩ := D1.tidy hN hE hl hs hc T T'
  rw [← hh] at e2
  obtain ⟨w', e3, e4, e5⟩ := appendDictW_run (w := (constructW a none w).2) (d := startDisplay a none)
    (startHeap_reachable r) (Nat.lt_succ_self _) (upd_same _ _ _) (by simp [GraphDict.EdgesKnown, hs, hc]) e2
  subst e4
  refine ⟨w', e3, D2.reachable, D2.draws, ?_, fun g' hg => D2.others g' hg (Nat.ne_of_lt hg)⟩
  rw [e5]
  funext g
  by_cases hg : g = w.heap.nG
  · subst hg; simp
  · simp only [upd_ne _ _ hg]
    exact upd_ne _ _ hg

end Verif
