import Verif.Spec.Kinds
import Verif.Props.Evolve
import Verif.Props.Undo
import Verif.Lemmas.Sessions
/-!
# C104: only the removing calls take anything away, and only the adding calls put anything in
-/
namespace Verif
open M

/-- The graph got nodes and edges at the end of its lists. -/
def SGraph.Grown (G G' : SGraph) : Prop := G.nodes <+: G'.nodes ∧ G.edges <+: G'.edges

/-- The graph lost nodes and edges. -/
def SGraph.Shrunk (G G' : SGraph) : Prop := G'.nodes.Sublist G.nodes ∧ G'.edges.Sublist G.edges

theorem SGraph.Grown.refl (G : SGraph) : G.Grown G := ⟨List.prefix_refl _, List.prefix_refl _⟩

theorem SGraph.Grown.trans {G G' G'' : SGraph} (a : G.Grown G') (b : G'.Grown G'') : G.Grown G'' :=
  ⟨a.1.trans b.1, a.2.trans b.2⟩

theorem SGraph.Shrunk.refl (G : SGraph) : G.Shrunk G := ⟨List.Sublist.refl _, List.Sublist.refl _⟩

theorem SGraph.Shrunk.trans {G G' G'' : SGraph} (a : G.Shrunk G') (b : G'.Shrunk G'') : G.Shrunk G'' :=
  ⟨b.1.trans a.1, b.2.trans a.2⟩

theorem grown_addEdge (G : SGraph) (i : EdgeId) (e : ERef) : G.Grown (G.addEdge i e) := by
  unfold SGraph.addEdge
  split
  · exact .refl _
  · exact ⟨List.prefix_refl _, List.prefix_append _ _⟩

theorem grown_register (A : Spec) (g g' : GRef) (k : Key) (n : NRef) (o : Option GRef) :
    (A.graph g').Grown ((A.register g k n o).graph g') := by
  unfold Spec.register
  split
  · exact .refl _
  · rename_i hk
    by_cases e : g' = g
    · subst e
      simp only [upd_same, SGraph.addNode, hk, if_false]
      exact ⟨List.prefix_append _ _, List.prefix_refl _⟩
    · simp only [upd_ne _ _ e]
      exact .refl _

theorem grown_connect (A : Spec) (g g' : GRef) (s t : NodeArg) (i : RawId) (e : ERef) :
    (A.graph g').Grown ((A.connect g s t i e).graph g') := by
  unfold Spec.connect
  split
  · unfold Spec.on
    by_cases h : g' = g
    · subst h; simp only [upd_same]; exact grown_addEdge _ _ _
    · simp only [upd_ne _ _ h]; exact .refl _
  · exact .refl _

theorem spec_copy_other (A : Spec) (g g' x : GRef) (m : Memo) (hx : x ≠ g') : (A.copy g g' m).graph x = A.graph x := by
  simp only [Spec.copy, upd_ne _ _ hx]

theorem copy_step_graph {h : Heap} {A : Spec} (H : Hist h A) {g x : GRef} (hg : g < h.nG) (hx : x < h.nG) :
    (A.step (.copy g) ((Op.copy g).step h).1).graph x = A.graph x := by
  cases hc : graphCopy g h with
  | mk r h' =>
    cases r with
    | error err => simp [Op.step, bind_apply, hc, Spec.step]
    | ok p =>
      simp only [Op.step, bind_apply, hc, pure_apply, Spec.step]
      refine spec_copy_other _ _ _ _ _ ?_
      rw [(copied_new H.reachable hg hc).1]
      exact Nat.ne_of_lt hx

theorem grown_step {h : Heap} {A : Spec} (H : Hist h A) {op : Op} (ok : op.Ok h) (hr : ¬ op.Removes) {g : GRef} (hg : g < h.nG) :
    (A.graph g).Grown ((A.step op (op.step h).1).graph g) := by
  cases op with
  | copy g' => rw [copy_step_graph H ok hg]; exact .refl _
  | removeNode _ _ => exact absurd trivial hr
  | disconnect _ => exact absurd trivial hr
  | removeSelf _ => exact absurd trivial hr
  | _ =>
    generalize Prod.fst _ = out
    unfold Spec.step
    split
    · exact .refl _
    · first
      | exact grown_register _ _ _ _ _ _
      | (split <;> first
          | exact grown_register _ _ _ _ _ _
          | exact grown_connect _ _ _ _ _ _ _
          | exact .refl _
          | (split <;> first | exact grown_connect _ _ _ _ _ _ _ | exact .refl _)
          | simp_all)

theorem shrunk_del (A : Spec) (g : GRef) (e : ERef) : (A.graph g).Shrunk ((A.graph g).delEdge e) :=
  ⟨List.Sublist.refl _, List.filter_sublist⟩

theorem shrunk_unregister (A : Spec) (g g' : GRef) (k : Key) : (A.graph g').Shrunk ((A.unregister g k).graph g') := by
  unfold Spec.unregister
  by_cases e : g' = g
  · subst e
    simp only [upd_same]
    exact ⟨List.filter_sublist, List.filter_sublist⟩
  · simp only [upd_ne _ _ e]
    exact .refl _

theorem shrunk_step {h : Heap} {A : Spec} (H : Hist h A) {op : Op} (ok : op.Ok h) (hr : ¬ op.Adds) {g : GRef} (hg : g < h.nG) :
    (A.graph g).Shrunk ((A.step op (op.step h).1).graph g) := by
  cases op with
  | copy g' => rw [copy_step_graph H ok hg]; exact .refl _
  | addNode _ _ _ _ => exact absurd trivial hr
  | addNodeObj _ _ => exact absurd trivial hr
  | connect _ _ _ _ _ => exact absurd trivial hr
  | connectTo _ _ _ _ => exact absurd trivial hr
  | connectFrom _ _ _ _ => exact absurd trivial hr
  | _ =>
    generalize Prod.fst _ = out
    unfold Spec.step
    split
    · exact .refl _
    · first
      | exact shrunk_del _ _ _
      | (split <;> first
          | exact shrunk_del _ _ _
          | exact .refl _
          | (split <;> first | exact shrunk_unregister _ _ _ _ | exact .refl _)
          | simp_all)

theorem grown_run {h : Heap} {A : Spec} (H : Hist h A) (ops : List Op) (ok : AllOk ops h) (hno : ∀ op ∈ ops, ¬ op.Removes) :
    ∃ A', Hist (runOps ops h) A' ∧ ∀ g, g < h.nG → (A.graph g).Grown (A'.graph g) := by
  induction ops generalizing h A with
  | nil => exact ⟨A, H, fun _ _ => .refl _⟩
  | cons op ops ih =>
    obtain ⟨A', H', hg'⟩ := ih (.step op H ok.1) ok.2 fun o ho => hno o (List.mem_cons_of_mem _ ho)
    refine ⟨A', H', fun g hg => (grown_step H ok.1 (hno op List.mem_cons_self) hg).trans (hg' g ?_)⟩
    exact Nat.lt_of_lt_of_le hg (Grows.step op h).nG

theorem shrunk_run {h : Heap} {A : Spec} (H : Hist h A) (ops : List Op) (ok : AllOk ops h) (hno : ∀ op ∈ ops, ¬ op.Adds) :
    ∃ A', Hist (runOps ops h) A' ∧ ∀ g, g < h.nG → (A.graph g).Shrunk (A'.graph g) := by
  induction ops generalizing h A with
  | nil => exact ⟨A, H, fun _ _ => .refl _⟩
  | cons op ops ih =>
    obtain ⟨A', H', hg'⟩ := ih (.step op H ok.1) ok.2 fun o ho => hno o (List.mem_cons_of_mem _ ho)
    refine ⟨A', H', fun g hg => (shrunk_step H ok.1 (hno op List.mem_cons_self) hg).trans (hg' g ?_)⟩
    exact Nat.lt_of_lt_of_le hg (Grows.step op h).nG

theorem Path.mono_arrow {h h' : Heap} {g : GRef} (ha : ∀ x y, Arrow h g x y → Arrow h' g x y) {x y : NRef} (p : Path h g x y) :
    Path h' g x y := Relation.TransGen.mono ha _ _ p

/-- **C104**: after any calls other than `remove_node`, `disconnect` and `remove_self`, failing ones included, a graph still has its
nodes, under their names and in their order, with new ones at the end; every node still has its edges, in their order, with new ones
at the end, and every edge its id. -/
theorem C104_grow {h : Heap} (r : Reachable h) {ops : List Op} (ok : AllOk ops h) (hno : ∀ op ∈ ops, ¬ op.Removes)
    {g : GRef} (hg : g < h.nG) :
    graphNodes h g <+: graphNodes (runOps ops h) g ∧
    (∀ x ∈ graphNodes h g, ((runOps ops h).node x).id = (h.node x).id ∧
      (∀ es, outwardEdges h x = .ok es → ∃ more, outwardEdges (runOps ops h) x = .ok (es ++ more)) ∧
      (∀ es, inwardEdges h x = .ok es → ∃ more, inwardEdges (runOps ops h) x = .ok (es ++ more))) ∧
    (∀ e, LiveEdge h g e → LiveEdge (runOps ops h) g e ∧ edgeId (runOps ops h) e = edgeId h e) ∧
    (∀ x y, Arrow h g x y → Arrow (runOps ops h) g x y) := by
  obtain ⟨A, H⟩ := r.hist
  obtain ⟨A', H', hG⟩ := grown_run H ops ok hno
  obtain ⟨⟨ns, hns⟩, ⟨es', hes⟩⟩ := hG g hg
  have R := H.rep
  have R' := H'.rep
  have hn : ∀ k n, (k, n) ∈ (A.graph g).nodes → (k, n) ∈ (A'.graph g).nodes := fun k n hm => by
    rw [← hns]; exact List.mem_append_left _ hm
  have he : ∀ i e, (i, e) ∈ (A.graph g).edges → (i, e) ∈ (A'.graph g).edges := fun k n hm => by
    rw [← hes]; exact List.mem_append_left _ hm
  refine ⟨⟨ns.map Prod.snd, ?_⟩, ?_, ?_, ?_⟩
  · simp only [graphNodes, dvals, R.nodes, R'.nodes, ← hns, List.map_append]
  · intro x hx
    obtain ⟨k, hk⟩ := (mem_graphNodes R).1 hx
    refine ⟨by rw [(R.nodeOk g k x hk).2.1, (R'.nodeOk g k x (hn _ _ hk)).2.1], ?_, ?_⟩
    · intro es h1
      rw [R.outwardEdges hk] at h1
      obtain rfl := Except.ok.inj h1
      rw [R'.outwardEdges (hn _ _ hk)]
      exact ⟨(es'.filter (fun p => decide (p.1.1 = k))).map Prod.snd, by simp [SGraph.out, ← hes]⟩
    · intro es h1
      rw [R.inwardEdges hk] at h1
      obtain rfl := Except.ok.inj h1
      rw [R'.inwardEdges (hn _ _ hk)]
      exact ⟨(es'.filter (fun p => decide (p.1.2.1 = k))).map Prod.snd, by simp [SGraph.inn, ← hes]⟩
  · intro e hl
    obtain ⟨i, hi⟩ := (liveEdge_iff R).1 hl
    exact ⟨(liveEdge_iff R').2 ⟨i, he _ _ hi⟩, by rw [R.edgeId_eq hi, R'.edgeId_eq (he _ _ hi)]⟩
  · intro x y ha
    obtain ⟨i, e, h1, h2, h3⟩ := R.arrow_iff.1 ha
    exact R'.arrow_iff.2 ⟨i, e, he _ _ h1, hn _ _ h2, hn _ _ h3⟩

/-- **C104**: after calls that remove nothing, what could be reached can be reached and what was on a loop is on a loop. -/
theorem C104_grow_reach {h : Heap} (r : Reachable h) {ops : List Op} (ok : AllOk ops h) (hno : ∀ op ∈ ops, ¬ op.Removes)
    {g : GRef} (hg : g < h.nG) {x : NRef} (hx : x ∈ graphNodes h g) {lim lim' : Nat} :
    (∀ before after, getAncestors lim h g (.node x) = .ok before →
      getAncestors lim' (runOps ops h) g (.node x) = .ok after → ∀ y ∈ before, y ∈ after) ∧
    (∀ before after, getDescendants lim h g (.node x) = .ok before →
      getDescendants lim' (runOps ops h) g (.node x) = .ok after → ∀ y ∈ before, y ∈ after) ∧
    (∀ after, isNodeInLoop lim h g (.node x) = .ok true → isNodeInLoop lim' (runOps ops h) g (.node x) = .ok after →
      after = true) := by
  obtain ⟨h1, -, -, h4⟩ := C104_grow r ok hno hg
  have r' := r.runOps ops ok
  have gx := getNode_self r hx
  have gx' := getNode_self r' (h1.subset hx)
  refine ⟨fun b a hb ha y hy => ?_, fun b a hb ha y hy => ?_, fun a hb ha => ?_⟩
  · exact ((C18_ancestors r' gx' ha).2 y).2 (Path.mono_arrow h4 (((C18_ancestors r gx hb).2 y).1 hy))
  · obtain ⟨ne, p⟩ := ((C19_descendants r gx hb).2.1 y).1 hy
    exact ((C19_descendants r' gx' ha).2.1 y).2 ⟨ne, Path.mono_arrow h4 p⟩
  · exact (C22_in_loop r' gx' ha).2 (Path.mono_arrow h4 ((C22_in_loop r gx hb).1 rfl))

/-- **C104**: after any calls other than `add_node` and the forms of `connect`, failing ones included, a graph has no new nodes and
edges: those it has are some of those it had, in the same order, with the same names and ids. -/
theorem C104_shrink {h : Heap} (r : Reachable h) {ops : List Op} (ok : AllOk ops h) (hno : ∀ op ∈ ops, ¬ op.Adds)
    {g : GRef} (hg : g < h.nG) :
    (graphNodes (runOps ops h) g).Sublist (graphNodes h g) ∧
    (∀ x ∈ graphNodes (runOps ops h) g, ((runOps ops h).node x).id = (h.node x).id ∧
      (∀ es es', outwardEdges h x = .ok es → outwardEdges (runOps ops h) x = .ok es' → es'.Sublist es) ∧
      (∀ es es', inwardEdges h x = .ok es → inwardEdges (runOps ops h) x = .ok es' → es'.Sublist es)) ∧
    (∀ e, LiveEdge (runOps ops h) g e → LiveEdge h g e ∧ edgeId (runOps ops h) e = edgeId h e) ∧
    (∀ x y, Arrow (runOps ops h) g x y → Arrow h g x y) := by
  obtain ⟨A, H⟩ := r.hist
  obtain ⟨A', H', hG⟩ := shrunk_run H ops ok hno
  obtain ⟨hns, hes⟩ := hG g hg
  have R := H.rep
  have R' := H'.rep
  refine ⟨?_, ?_, ?_, ?_⟩
  · simp only [graphNodes, dvals, R.nodes, R'.nodes]
    exact hns.map _
  · intro x hx
    obtain ⟨k, hk⟩ := (mem_graphNodes R').1 hx
    have hk0 := hns.subset hk
    refine ⟨by rw [(R.nodeOk g k x hk0).2.1, (R'.nodeOk g k x hk).2.1], ?_, ?_⟩
    · intro es es' h1 h2
      rw [R.outwardEdges hk0] at h1
      rw [R'.outwardEdges hk] at h2
      obtain rfl := Except.ok.inj h1
      obtain rfl := Except.ok.inj h2
      exact (hes.filter _).map _
    · intro es es' h1 h2
      rw [R.inwardEdges hk0] at h1
      rw [R'.inwardEdges hk] at h2
      obtain rfl := Except.ok.inj h1
      obtain rfl := Except.ok.inj h2
      exact (hes.filter _).map _
  · intro e hl
    obtain ⟨i, hi⟩ := (liveEdge_iff R').1 hl
    exact ⟨(liveEdge_iff R).2 ⟨i, hes.subset hi⟩, by rw [R'.edgeId_eq hi, R.edgeId_eq (hes.subset hi)]⟩
  · intro x y ha
    obtain ⟨i, e, h1, h2, h3⟩ := R'.arrow_iff.1 ha
    exact R.arrow_iff.2 ⟨i, e, hes.subset h1, hns.subset h2, hns.subset h3⟩

/-- **C104**: after calls that add nothing, nothing can be reached that could not be reached before, and no loop is new. -/
theorem C104_shrink_reach {h : Heap} (r : Reachable h) {ops : List Op} (ok : AllOk ops h) (hno : ∀ op ∈ ops, ¬ op.Adds)
    {g : GRef} (hg : g < h.nG) {x : NRef} (hx : x ∈ graphNodes (runOps ops h) g) {lim lim' : Nat} :
    (∀ before after, getAncestors lim h g (.node x) = .ok before →
      getAncestors lim' (runOps ops h) g (.node x) = .ok after → ∀ y ∈ after, y ∈ before) ∧
    (∀ before after, getDescendants lim h g (.node x) = .ok before →
      getDescendants lim' (runOps ops h) g (.node x) = .ok after → ∀ y ∈ after, y ∈ before) ∧
    (∀ before, isNodeInLoop lim h g (.node x) = .ok before → isNodeInLoop lim' (runOps ops h) g (.node x) = .ok true →
      before = true) := by
  obtain ⟨h1, -, -, h4⟩ := C104_shrink r ok hno hg
  have r' := r.runOps ops ok
  have gx := getNode_self r (h1.subset hx)
  have gx' := getNode_self r' hx
  refine ⟨fun b a hb ha y hy => ?_, fun b a hb ha y hy => ?_, fun a hb ha => ?_⟩
  · exact ((C18_ancestors r gx hb).2 y).2 (Path.mono_arrow h4 (((C18_ancestors r' gx' ha).2 y).1 hy))
  · obtain ⟨ne, p⟩ := ((C19_descendants r' gx' ha).2.1 y).1 hy
    exact ((C19_descendants r gx hb).2.1 y).2 ⟨ne, Path.mono_arrow h4 p⟩
  · exact (C22_in_loop r gx hb).2 (Path.mono_arrow h4 ((C22_in_loop r' gx' ha).1 rfl))

/-- **C104**: calls that neither add nor remove, such as setting values, labels, styles and parameters, freezing, copying, and making
other graphs, leave a graph's nodes, names, edges and ids as they are. -/
theorem C104_still {h : Heap} (r : Reachable h) {ops : List Op} (ok : AllOk ops h) (hno : ∀ op ∈ ops, ¬ op.Adds ∧ ¬ op.Removes)
    {g : GRef} (hg : g < h.nG) :
    graphNodes (runOps ops h) g = graphNodes h g ∧
    (∀ x ∈ graphNodes h g, ((runOps ops h).node x).id = (h.node x).id ∧
      outwardEdges (runOps ops h) x = outwardEdges h x ∧ inwardEdges (runOps ops h) x = inwardEdges h x) ∧
    (∀ e, LiveEdge h g e → edgeId (runOps ops h) e = edgeId h e) ∧
    (∀ x y, Arrow (runOps ops h) g x y ↔ Arrow h g x y) := by
  obtain ⟨p1, p2, p3, p4⟩ := C104_grow r ok (fun o ho => (hno o ho).2) hg
  obtain ⟨q1, q2, -, q4⟩ := C104_shrink r ok (fun o ho => (hno o ho).1) hg
  have e1 : graphNodes (runOps ops h) g = graphNodes h g :=
    q1.eq_of_length_le p1.length_le
  obtain ⟨A, H⟩ := r.hist
  refine ⟨e1, fun x hx => ⟨(p2 x hx).1, ?_, ?_⟩, fun e he => (p3 e he).2, fun x y => ⟨q4 x y, p4 x y⟩⟩
  · obtain ⟨k, hk⟩ := (mem_graphNodes H.rep).1 hx
    have h1 := H.rep.outwardEdges hk
    obtain ⟨more, h2⟩ := (p2 x hx).2.1 _ h1
    have := (q2 x (by rw [e1]; exact hx)).2.1 _ _ h1 h2
    rw [h1, h2, this.eq_of_length_le (by simp)]
  · obtain ⟨k, hk⟩ := (mem_graphNodes H.rep).1 hx
    have h1 := H.rep.inwardEdges hk
    obtain ⟨more, h2⟩ := (p2 x hx).2.2 _ h1
    have := (q2 x (by rw [e1]; exact hx)).2.2 _ _ h1 h2
    rw [h1, h2, this.eq_of_length_le (by simp)]

end Verif
