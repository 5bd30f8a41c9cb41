import Verif.Props.Monotone
import Verif.Props.Elsewhere
import Verif.Props.AnyOrder
/-!
# C104 for sessions: the same for every public call
-/
namespace Verif
open M

/-- From `h` to `h'` graph `g` keeps its nodes, edges, names and ids, with new ones at the ends. -/
structure Grew (h h' : Heap) (g : GRef) : Prop where
  nodes : graphNodes h g <+: graphNodes h' g
  ids : ∀ x ∈ graphNodes h g, (h'.node x).id = (h.node x).id
  outs : ∀ x ∈ graphNodes h g, ∀ es, outwardEdges h x = .ok es → ∃ more, outwardEdges h' x = .ok (es ++ more)
  inns : ∀ x ∈ graphNodes h g, ∀ es, inwardEdges h x = .ok es → ∃ more, inwardEdges h' x = .ok (es ++ more)
  edges : ∀ e, LiveEdge h g e → LiveEdge h' g e ∧ edgeId h' e = edgeId h e
  arrows : ∀ x y, Arrow h g x y → Arrow h' g x y

/-- From `h` to `h'` graph `g` gets no nodes and edges. -/
structure Shrank (h h' : Heap) (g : GRef) : Prop where
  nodes : (graphNodes h' g).Sublist (graphNodes h g)
  ids : ∀ x ∈ graphNodes h' g, (h'.node x).id = (h.node x).id
  outs : ∀ x ∈ graphNodes h' g, ∀ es es', outwardEdges h x = .ok es → outwardEdges h' x = .ok es' → es'.Sublist es
  inns : ∀ x ∈ graphNodes h' g, ∀ es es', inwardEdges h x = .ok es → inwardEdges h' x = .ok es' → es'.Sublist es
  edges : ∀ e, LiveEdge h' g e → LiveEdge h g e ∧ edgeId h' e = edgeId h e
  arrows : ∀ x y, Arrow h' g x y → Arrow h g x y

/-- From `h` to `h'` graph `g` keeps its nodes, edges, names and ids. -/
structure Stays (h h' : Heap) (g : GRef) : Prop where
  nodes : graphNodes h' g = graphNodes h g
  ids : ∀ x ∈ graphNodes h g, (h'.node x).id = (h.node x).id
  outs : ∀ x ∈ graphNodes h g, outwardEdges h' x = outwardEdges h x
  inns : ∀ x ∈ graphNodes h g, inwardEdges h' x = inwardEdges h x
  live : ∀ e, LiveEdge h' g e ↔ LiveEdge h g e
  edges : ∀ e, LiveEdge h g e → edgeId h' e = edgeId h e
  arrows : ∀ x y, Arrow h' g x y ↔ Arrow h g x y

theorem Stays.grew {h h' : Heap} {g : GRef} (s : Stays h h' g) : Grew h h' g :=
  ⟨by rw [s.nodes], s.ids, fun x hx es he => ⟨[], by rw [s.outs x hx, he, List.append_nil]⟩,
    fun x hx es he => ⟨[], by rw [s.inns x hx, he, List.append_nil]⟩, fun e he => ⟨(s.live e).2 he, s.edges e he⟩,
    fun x y => (s.arrows x y).2⟩

theorem Stays.shrank {h h' : Heap} {g : GRef} (s : Stays h h' g) : Shrank h h' g := by
  refine ⟨by rw [s.nodes], fun x hx => s.ids x (s.nodes ▸ hx), fun x hx es es' h1 h2 => ?_, fun x hx es es' h1 h2 => ?_,
    fun e he => ⟨(s.live e).1 he, s.edges e ((s.live e).1 he)⟩, fun x y => (s.arrows x y).1⟩
  · rw [s.outs x (s.nodes ▸ hx), h1] at h2
    rw [Except.ok.inj h2]
  · rw [s.inns x (s.nodes ▸ hx), h1] at h2
    rw [Except.ok.inj h2]

theorem Stays.same {h h' : Heap} {g : GRef} (e : h' = h) : Stays h h' g := by
  subst e
  exact ⟨rfl, fun _ _ => rfl, fun _ _ => rfl, fun _ _ => rfl, fun _ => Iff.rfl, fun _ _ => rfl, fun _ _ => Iff.rfl⟩

theorem SameBody.stays {h h' : Heap} (S : SameBody h h') (g : GRef) : Stays h h' g :=
  ⟨(S.graphNodes g).symm, fun x _ => (S.nodeId x).symm,
    fun x _ => (S.via (Verif.outwardEdges · x) (Strip.outwardEdges · x)).symm,
    fun x _ => (S.via (Verif.inwardEdges · x) (Strip.inwardEdges · x)).symm,
    fun e => (S.liveEdge g e).symm, fun e _ => (S.edgeId e).symm, fun x y => by rw [S.arrow g]⟩

theorem Untouched.stays {h h' : Heap} {g : GRef} (u : Untouched h h' g) (r : Reachable h) (r' : Reachable h') : Stays h h' g := by
  obtain ⟨A, H⟩ := r.hist
  obtain ⟨B, H'⟩ := r'.hist
  have R := H.rep
  have R' := H'.rep
  have hN : (A.graph g).nodes = (B.graph g).nodes := by rw [← R.nodes, ← R'.nodes, u.graph]
  have hedge : ∀ i e, (i, e) ∈ (A.graph g).edges ↔ (i, e) ∈ (B.graph g).edges := by
    intro i e
    constructor
    · intro hi
      obtain ⟨n, hn, -, ho⟩ := R.edge_out hi
      rw [← u.nodes n ((mem_graphNodes R).2 ⟨_, hn⟩), R'.outE g _ n (hN ▸ hn)] at ho
      exact (List.mem_filter.1 ho).1
    · intro hi
      obtain ⟨n, hn, -, ho⟩ := R'.edge_out hi
      rw [u.nodes n ((mem_graphNodes R).2 ⟨_, hN ▸ hn⟩), R.outE g _ n (hN ▸ hn)] at ho
      exact (List.mem_filter.1 ho).1
  refine ⟨u.graphNodes, fun x hx => by rw [u.nodes x hx], fun x hx => ?_, fun x hx => ?_, fun e => u.live_iff r r', fun e he => ?_,
    fun x y => ?_⟩
  · obtain ⟨k, hk⟩ := (mem_graphNodes R).1 hx
    rw [R.outwardEdges hk, R'.outwardEdges (hN ▸ hk), ← R.outE g k x hk, ← R'.outE g k x (hN ▸ hk), u.nodes x hx]
  · obtain ⟨k, hk⟩ := (mem_graphNodes R).1 hx
    rw [R.inwardEdges hk, R'.inwardEdges (hN ▸ hk), ← R.inE g k x hk, ← R'.inE g k x (hN ▸ hk), u.nodes x hx]
  · obtain ⟨i, hi⟩ := (liveEdge_iff R).1 he
    rw [R.edgeId_eq hi, R'.edgeId_eq ((hedge _ _).1 hi)]
  · rw [R.arrow_iff, R'.arrow_iff, hN]
    simp only [hedge]

theorem Grew.trans {h h' h'' : Heap} {g : GRef} (a : Grew h h' g) (b : Grew h' h'' g) : Grew h h'' g := by
  refine ⟨a.nodes.trans b.nodes, fun x hx => (b.ids x (a.nodes.subset hx)).trans (a.ids x hx), fun x hx es he => ?_, fun x hx es he => ?_,
    fun e he => ⟨(b.edges e (a.edges e he).1).1, (b.edges e (a.edges e he).1).2.trans (a.edges e he).2⟩,
    fun x y hxy => b.arrows x y (a.arrows x y hxy)⟩
  · obtain ⟨m, h1⟩ := a.outs x hx es he
    obtain ⟨m', h2⟩ := b.outs x (a.nodes.subset hx) _ h1
    exact ⟨m ++ m', by rw [h2, List.append_assoc]⟩
  · obtain ⟨m, h1⟩ := a.inns x hx es he
    obtain ⟨m', h2⟩ := b.inns x (a.nodes.subset hx) _ h1
    exact ⟨m ++ m', by rw [h2, List.append_assoc]⟩

theorem Shrank.trans {h h' h'' : Heap} {g : GRef} (r' : Reachable h') (a : Shrank h h' g) (b : Shrank h' h'' g) : Shrank h h'' g := by
  obtain ⟨A, H⟩ := r'.hist
  have sub := b.nodes.subset
  refine ⟨b.nodes.trans a.nodes, fun x hx => (b.ids x hx).trans (a.ids x (sub hx)), fun x hx es es' h1 h2 => ?_,
    fun x hx es es' h1 h2 => ?_,
    fun e he => ⟨(a.edges e (b.edges e he).1).1, (b.edges e he).2.trans (a.edges e (b.edges e he).1).2⟩,
    fun x y hxy => a.arrows x y (b.arrows x y hxy)⟩
  · obtain ⟨k, hk⟩ := (mem_graphNodes H.rep).1 (sub hx)
    exact (b.outs x hx _ _ (H.rep.outwardEdges hk) h2).trans (a.outs x (sub hx) _ _ h1 (H.rep.outwardEdges hk))
  · obtain ⟨k, hk⟩ := (mem_graphNodes H.rep).1 (sub hx)
    exact (b.inns x hx _ _ (H.rep.inwardEdges hk) h2).trans (a.inns x (sub hx) _ _ h1 (H.rep.inwardEdges hk))

theorem Grew.op {h : Heap} (r : Reachable h) (op : Op) (ok : op.Ok h) (hr : ¬ op.Removes) {g : GRef} (hg : g < h.nG) :
    Grew h (op.step h).2 g := by
  have ⟨a, b, c, d⟩ := C104_grow r (ops := [op]) ⟨ok, trivial⟩ (by simpa using hr) hg
  exact ⟨a, fun x hx => (b x hx).1, fun x hx => (b x hx).2.1, fun x hx => (b x hx).2.2, c, d⟩

theorem Shrank.op {h : Heap} (r : Reachable h) (op : Op) (ok : op.Ok h) (hr : ¬ op.Adds) {g : GRef} (hg : g < h.nG) :
    Shrank h (op.step h).2 g := by
  have ⟨a, b, c, d⟩ := C104_shrink r (ops := [op]) ⟨ok, trivial⟩ (by simpa using hr) hg
  exact ⟨a, fun x hx => (b x hx).1, fun x hx => (b x hx).2.1, fun x hx => (b x hx).2.2, c, d⟩

variable {C : Type}

/-- However it ends, the call takes nothing away from any graph. -/
def Feeds {α : Type} (k : Nat) (x : W C α) : Prop :=
  ∀ w, Reachable w.heap → k ≤ w.heap.nG → Reachable (x w).2.heap ∧ w.heap.nG ≤ (x w).2.heap.nG ∧
    ∀ g, g < w.heap.nG → Grew w.heap (x w).2.heap g

namespace Feeds
variable {α β : Type} {k : Nat}

theorem still {x : W C α} (hx : ∀ w, (x w).2.heap = w.heap) : Feeds k x :=
  fun w r _ => ⟨(hx w).symm ▸ r, Nat.le_of_eq (by rw [hx w]), fun _ _ => (Stays.same (hx w)).grew⟩

theorem pure (a : α) : Feeds k (Pure.pure a : W C α) := still fun _ => rfl
theorem raise (e : PyErr) : Feeds k (W.raise e : W C α) := still fun _ => rfl
theorem ask (q : World C → Except PyErr α) : Feeds k (W.ask q) := still fun _ => rfl

theorem bind {x : W C α} {f : α → W C β} (hx : Feeds k x) (hf : ∀ a, Feeds k (f a)) : Feeds k (x >>= f) := by
  intro w r hk
  have h1 := hx w r hk
  rw [W.bind_apply]
  cases hw : x w with
  | mk o w1 =>
    rw [hw] at h1
    cases o with
    | error e => exact h1
    | ok a =>
      obtain ⟨a1, a2, a3⟩ := h1
      obtain ⟨b1, b2, b3⟩ := hf a w1 a1 (Nat.le_trans hk a2)
      exact ⟨b1, Nat.le_trans a2 b2, fun g hg => (a3 g hg).trans (b3 g (Nat.lt_of_lt_of_le hg a2))⟩

theorem forEach {x : α → W C Unit} (hx : ∀ a, Feeds k (x a)) (l : List α) : Feeds k (Verif.forEach x l) := by
  induction l with
  | nil => exact .pure _
  | cons a l ih => exact (hx a).bind fun _ => ih

theorem lift {x : M α} {op : Op} {f : α → Out} (hx : op.step = (do return f (← x))) (ok : ∀ h : Heap, k ≤ h.nG → op.Ok h)
    (hr : ¬ op.Removes) : Feeds k (W.lift x : W C α) := by
  intro w r hk
  have e : (x w.heap).2 = (op.step w.heap).2 := by
    rw [hx, M.bind_apply]
    cases x w.heap with
    | mk a b => cases a <;> rfl
  show Reachable (x w.heap).2 ∧ w.heap.nG ≤ (x w.heap).2.nG ∧ ∀ g, g < w.heap.nG → Grew w.heap (x w.heap).2 g
  rw [e]
  exact ⟨.step op r (ok _ hk), (Grows.step op w.heap).nG, fun g hg => .op r op (ok _ hk) hr hg⟩

theorem modDisplay (g : GRef) (f : Display C → Display C) : Feeds k (Verif.modDisplay g f) := still fun _ => rfl

theorem display (g : GRef) : Feeds k (W.display g : W C _) := still fun w => by
  unfold W.display; cases w.display g <;> rfl

theorem setInDisplay (g : GRef) (f : Display C → Display C) : Feeds k (Verif.setInDisplay g f) :=
  (display g).bind fun _ => modDisplay g f

theorem edgeSetting (g : GRef) (known : Dict (Key × Key) EdgeId) (x : EdgeSetting C) : Feeds k (appendEdgeSetting g known x) := by
  cases x with
  | pair s t c =>
    simp only [appendEdgeSetting]
    cases dget known (s, t) with
    | none => exact .raise _
    | some i => exact setInDisplay g _
  | other => exact .raise _

variable [Palette C]

theorem nextNodeStyle (s : NodeStyleArg C) : Feeds k (Verif.nextNodeStyle s) := by
  refine still fun w => ?_
  cases s with
  | dict l =>
    simp only [Verif.nextNodeStyle, W.bind_apply, W.look]
    cases NodeStyle.ofItems l <;> rfl
  | _ => rfl

theorem nextEdgeStyle (s : EdgeStyleArg C) : Feeds k (Verif.nextEdgeStyleObj s) := by
  refine still fun w => ?_
  cases s with
  | dict l =>
    simp only [Verif.nextEdgeStyleObj, W.bind_apply, W.look]
    cases EdgeStyle.ofItems l <;> rfl
  | _ => rfl

theorem addNode {g : GRef} (hg : g < k) (x : Key) (a : NodeSpec C) : Feeds k (addNodeW g x a) :=
  (nextNodeStyle _).bind fun _ => lift (op := .addNode g x a.args a.policy) rfl (fun _ h => Nat.lt_of_lt_of_le hg h) (by exact id)

theorem connect {g : GRef} (hg : g < k) (s u : Key) (a : EdgeSpec C) : Feeds k (connectW g s u a) :=
  (nextEdgeStyle _).bind fun _ => lift (op := .connect g (.key s) (.key u) a.args a.policy) rfl
    (fun _ h => Nat.lt_of_lt_of_le hg h) (by exact id)

theorem nodeDict {g : GRef} (hg : g < k) (l : List (Key × NodeSpec C)) : Feeds k (appendNodeDictW g l) := by
  induction l with
  | nil => exact .pure _
  | cons q l ih => exact (addNode hg q.1 q.2).bind fun _ => ih

theorem edgeList {g : GRef} (hg : g < k) (l : List (EdgeEntry C)) (known : Dict (Key × Key) EdgeId) :
    Feeds k (appendEdgeListW g l known) := by
  induction l generalizing known with
  | nil => exact .pure _
  | cons x l ih =>
    cases x with
    | two s t => exact (connect hg s t _).bind fun e => (ask _).bind fun _ => ih _
    | three s t a => exact (connect hg s t _).bind fun e => (ask _).bind fun _ => ih _
    | few => exact .raise _
    | many => exact .raise _

theorem dict {g : GRef} (hg : g < k) (D : GraphDict C) : Feeds k (appendDictW g D) := by
  have hN : Feeds k (appendNodesW g D.nodes) := by
    cases D.nodes with
    | none => exact .raise _
    | some N => cases N <;> exact nodeDict hg _
  have hE : Feeds k (appendEdgesW g D.edges) := by
    cases D.edges with
    | none => exact .raise _
    | some l => exact edgeList hg _ []
  have hL : Feeds k (appendLabel g D.label : W C Unit) := by
    unfold appendLabel; split
    · exact .pure _
    · exact modDisplay g _
    · exact .raise _
  refine (lift (op := .setOptions g D.strict D.ordering) (f := fun _ => .none) rfl (fun _ h => Nat.lt_of_lt_of_le hg h) (by exact id)).bind
    fun _ => hL.bind fun _ => (modDisplay g _).bind fun _ => hN.bind fun _ => hE.bind fun known =>
    (forEach (fun _ => setInDisplay g _) _).bind fun _ => (forEach (edgeSetting g known) _).bind fun _ =>
    (forEach (fun _ => setInDisplay g _) _).bind fun _ => forEach (edgeSetting g known) _

end Feeds

section
variable [Palette C]

/-- A call with one step on the heap. -/
theorem lifted_edge {α : Type} (w : World C) {s : EdgeStyleArg C} {x : StyleArg → M α} {op : Op} {f : α → Out}
    (hx : op.step = (do return f (← x s.plain))) : (withEdgeStyle s x w).2.heap = (op.step w.heap).2 := by
  have e : (x s.plain w.heap).2 = (op.step w.heap).2 := by
    rw [hx, M.bind_apply]
    cases x s.plain w.heap with
    | mk a b => cases a <;> rfl
  rw [← e]
  simp only [withEdgeStyle, W.bind_apply]
  cases s with
  | dict l =>
    simp only [nextEdgeStyleObj, W.bind_apply, W.look]
    cases EdgeStyle.ofItems l <;> rfl
  | _ => rfl

theorem lifted_node {α : Type} (w : World C) {s : NodeStyleArg C} {x : StyleArg → M α} {op : Op} {f : α → Out}
    (hx : op.step = (do return f (← x s.plain))) : (withNodeStyle s x w).2.heap = (op.step w.heap).2 := by
  have e : (x s.plain w.heap).2 = (op.step w.heap).2 := by
    rw [hx, M.bind_apply]
    cases x s.plain w.heap with
    | mk a b => cases a <;> rfl
  rw [← e]
  simp only [withNodeStyle, W.bind_apply]
  cases s with
  | dict l =>
    simp only [nextNodeStyle, W.bind_apply, W.look]
    cases NodeStyle.ofItems l <;> rfl
  | _ => rfl

omit [Palette C] in
/-- Changes of the display do not matter to the nodes and edges. -/
theorem Steady.behind {p : Promise} {j : Nat} {x : W C GRef} (hx : Steady p j 0 (fun _ => False) x) {w : World C} (S : Sound p w)
    (hj : j ≤ w.heap.nStyle) (o : GRef) (f f' : Display C → Display C) {g : GRef} (hg : g < w.heap.nG) :
    Untouched w.heap ((do Verif.modDisplay o f; Verif.modDisplay o f'; x : W C GRef) w).2.heap g := by
  have := hx ({ w with display := upd (upd w.display o ((w.display o).map f)) o ((upd w.display o ((w.display o).map f) o).map f') } : World C)
    ⟨S.reach, S.made, S.full, S.apart, S.known, S.sorted⟩ hj (Nat.zero_le _)
  exact (this.aside g id hg).heap

/-- `+` changes neither operand's nodes and edges. -/
theorem Sound.add_untouched {p : Promise} {w : World C} (S : Sound p w) (base : GraphArgs C) (order : List Key → List Key)
    (f : Val → Val → Except PyErr Val) {g : GRef} {o : Operand C} (b : Bare p w g)
    (hb : ∀ x, o.export w = .ok x → FitExport p w.heap.nStyle x) {x : GRef} (hx : x < w.heap.nG) :
    Untouched w.heap (addGraphs base order f g o w).2.heap x := by
  have asked : ∀ {α : Type} {q : World C → Except PyErr α} {f : α → W C GRef},
      (∀ a, q w = .ok a → Untouched w.heap (f a w).2.heap x) → Untouched w.heap ((W.ask q >>= f) w).2.heap x := by
    intro α q f hf
    rw [W.bind_apply, W.ask_apply]
    cases hq : q w with
    | error e => exact .same rfl
    | ok a => exact hf a hq
  refine asked fun d1 h1 => asked fun d2 h2 => ?_
  have f1 := fitExport S.made b h1
  have f2 := hb d2 h2
  refine Steady.behind (x := (do
    let nodes ← W.ask (fun _ => mergeNodes order f d1.nodes d2.nodes)
    let edges ← W.ask (fun _ => mergeEdges f (d1.edges ++ d2.edges) [])
    graphOfDict base
      { strict := some d1.strict, ordering := some d1.ordering, nodeStyles := dupdate d1.nodeStyles d2.nodeStyles,
        edgeStyles := (dupdate d1.edgeStyles d2.edgeStyles).map fun _ => .other,
        nodes := some (.dict nodes), edges := some (edges.map fun p => .three p.1.1 p.1.2.1 p.2) } : W C GRef)) ?_ S (Nat.le_refl _) g _ _ hx
  cases hn : mergeNodes order f d1.nodes d2.nodes with
  | error e => exact .still fun _ => rfl
  | ok nodes =>
    cases he : mergeEdges f (d1.edges ++ d2.edges) [] with
    | error e => exact .still fun _ => rfl
    | ok edges =>
      refine Steady.ofDict base fun s hs => ?_
      have n := fit_mergeNodes f1.nodes f2.nodes hn
      have e := fit_mergeEdges (fun q hq => (List.mem_append.1 hq).elim (f1.edges q) (f2.edges q)) (by simp) he
      simp only [GraphDict.styles, NodesEntry.specs, List.mem_append, List.mem_map] at hs
      rcases hs with ⟨_, ⟨q, hq, rfl⟩, rfl⟩ | ⟨_, ⟨q, hq, rfl⟩, rfl⟩
      · exact n q hq
      · exact e q hq

variable [DecidableEq C]

/-- What the calls that do not concern the nodes and edges of any graph leave as they are. -/
theorem Session.call_stays {w : World C} (s : Session w) {c : Call C} (ok : c.Ok w) (hp : ∀ op, c ≠ .plain op) (ha : ¬ c.Adds)
    (hn : ∀ n a, c ≠ .nodeStyle n a) (he : ∀ n a, c ≠ .edgeStyle n a)
    {g : GRef} (hg : g < w.heap.nG) : Stays w.heap (c.step w).heap g := by
  have S := s.sound
  have r' : Reachable (c.step w).heap := (s.step c ok).sound.reach
  have aside : ¬ c.Paints → ¬ c.on w g → Stays w.heap (c.step w).heap g := fun hp hno =>
    (S.call_aside c ok (fun h => h.elim) (fun h => h.elim) (fun h => absurd h hp) hg hno).heap.stays S.reach r'
  cases c with
  | plain op => exact absurd rfl (hp op)
  | addNode _ _ _ => exact absurd trivial ha
  | connect _ _ _ _ => exact absurd trivial ha
  | connectTo _ _ _ => exact absurd trivial ha
  | connectFrom _ _ _ => exact absurd trivial ha
  | append _ _ => exact absurd trivial ha
  | appendGraph _ _ => exact absurd trivial ha
  | nodeStyle n a => exact absurd rfl (hn n a)
  | edgeStyle n a => exact absurd rfl (he n a)
  | newGraph a => exact aside id id
  | ofDict a D => exact aside id id
  | ofGraph a o => exact aside id id
  | copy o => exact aside id id
  | filter lim o ns d t => exact aside id id
  | add base order f o x =>
    have fit : ∀ s ∈ (Call.add base order f o x).styles, Fit ⟨False, False, fun _ => True, fun _ => True⟩ w.heap.nStyle s := by
      intro s hs
      cases s with
      | obj s => exact ⟨ok.styles s hs, fun hp => hp.elim⟩
      | _ => exact ⟨trivial, fun _ => trivial⟩
    refine (S.add_untouched base order f (g := o) (o := x) (fun h => False.elim h) (fun y hy => ?_) hg).stays S.reach r'
    cases x with
    | graph o => exact fitExport S.made (fun h => False.elim h) hy
    | object r =>
      simp only [Operand.export] at hy
      subst hy
      exact .of fit
  | stylize lim shuffle o => exact (Silent.stylize (C := C) lim shuffle o w S.made).shape.stays g
  | render lim shuffle o a =>
    have : Silent (Verif.render lim shuffle o a : W C String) :=
      (Silent.display o).bind fun _ => (Silent.stylize lim shuffle o).bind fun _ => .ask _
    exact (this w S.made).shape.stays g

theorem Session.call_grew {w : World C} (s : Session w) {c : Call C} (ok : c.Ok w) (hr : ¬ c.Removes)
    {g : GRef} (hg : g < w.heap.nG) : Grew w.heap (c.step w).heap g := by
  have r := s.sound.reach
  have gr := ok.graphs
  by_cases h1 : ∃ op, c = .plain op
  · obtain ⟨op, rfl⟩ := h1
    exact .op r op (ok.plain op rfl).2 hr hg
  by_cases h2 : (¬ c.Adds) ∧ (∀ n a, c ≠ .nodeStyle n a) ∧ ∀ n a, c ≠ .edgeStyle n a
  · exact (s.call_stays ok (fun op e => h1 ⟨op, e⟩) h2.1 h2.2.1 h2.2.2 hg).grew
  cases c with
  | plain op => exact absurd ⟨op, rfl⟩ h1
  | addNode o x a => exact (Feeds.addNode (gr o (by simp [Call.graphs])) x a w r (Nat.le_refl _)).2.2 g hg
  | connect o x y a =>
    show Grew w.heap (withEdgeStyle a.style _ w).2.heap g
    rw [lifted_edge w (op := .connect o x y { a.args with style := a.style.plain } a.policy) (f := .edge) rfl]
    refine .op r _ ?_ (by exact id) hg
    exact (gr o (by simp [Call.graphs]))
  | connectTo n y a =>
    show Grew w.heap (withEdgeStyle a.style _ w).2.heap g
    rw [lifted_edge w (op := .connectTo n y { a.args with style := a.style.plain } a.policy) (f := .edge) rfl]
    exact .op r _ (by exact trivial) (by exact id) hg
  | connectFrom n y a =>
    show Grew w.heap (withEdgeStyle a.style _ w).2.heap g
    rw [lifted_edge w (op := .connectFrom n y { a.args with style := a.style.plain } a.policy) (f := .edge) rfl]
    exact .op r _ (by exact trivial) (by exact id) hg
  | nodeStyle n a =>
    show Grew w.heap (withNodeStyle a _ w).2.heap g
    rw [lifted_node w (op := .nodeStyle n a.plain) (f := fun _ => .none) rfl]
    exact .op r _ (by exact trivial) (by exact id) hg
  | edgeStyle n a =>
    show Grew w.heap (withEdgeStyle a _ w).2.heap g
    rw [lifted_edge w (op := .edgeStyle n a.plain) (f := fun _ => .none) rfl]
    exact .op r _ (by exact trivial) (by exact id) hg
  | append o D => exact (Feeds.dict (gr o (by simp [Call.graphs])) D w r (Nat.le_refl _)).2.2 g hg
  | appendGraph o x =>
    show Grew w.heap (Verif.appendGraph o x w).2.heap g
    unfold Verif.appendGraph
    cases exportGraph w x with
    | ok d => exact (Feeds.dict (gr o (by simp [Call.graphs])) _ w r (Nat.le_refl _)).2.2 g hg
    | error e => cases e <;> exact (Stays.same rfl).grew
  | _ => exact absurd ⟨id, by simp, by simp⟩ h2

theorem Session.call_shrank {w : World C} (s : Session w) {c : Call C} (ok : c.Ok w) (hr : ¬ c.Adds)
    {g : GRef} (hg : g < w.heap.nG) : Shrank w.heap (c.step w).heap g := by
  have r := s.sound.reach
  by_cases h1 : ∃ op, c = .plain op
  · obtain ⟨op, rfl⟩ := h1
    exact .op r op (ok.plain op rfl).2 hr hg
  by_cases h2 : ∃ n a, c = .nodeStyle n a
  · obtain ⟨n, a, rfl⟩ := h2
    show Shrank w.heap (withNodeStyle a _ w).2.heap g
    rw [lifted_node w (op := .nodeStyle n a.plain) (f := fun _ => .none) rfl]
    exact .op r _ (by exact trivial) (by exact id) hg
  by_cases h3 : ∃ n a, c = .edgeStyle n a
  · obtain ⟨n, a, rfl⟩ := h3
    show Shrank w.heap (withEdgeStyle a _ w).2.heap g
    rw [lifted_edge w (op := .edgeStyle n a.plain) (f := fun _ => .none) rfl]
    exact .op r _ (by exact trivial) (by exact id) hg
  exact (s.call_stays ok (fun op e => h1 ⟨op, e⟩) hr (fun n a e => h2 ⟨n, a, e⟩) (fun n a e => h3 ⟨n, a, e⟩) hg).shrank

theorem Session.run_grew {w : World C} (s : Session w) {l : List (Call C)} (ok : CallsOk w l) (hr : ∀ c ∈ l, ¬ c.Removes)
    {g : GRef} (hg : g < w.heap.nG) : Grew w.heap (runCalls w l).heap g := by
  induction l generalizing w with
  | nil => exact (Stays.same rfl).grew
  | cons c l ih =>
    refine (s.call_grew ok.1 (hr c (by simp)) hg).trans (ih (s.step c ok.1) ok.2 (fun c hc => hr c (by simp [hc])) ?_)
    exact Nat.lt_of_lt_of_le hg (s.sound.call_more c ok.1 (fun h => h.elim) (fun h => h.elim))

theorem Session.run_shrank {w : World C} (s : Session w) {l : List (Call C)} (ok : CallsOk w l) (hr : ∀ c ∈ l, ¬ c.Adds)
    {g : GRef} (hg : g < w.heap.nG) : Shrank w.heap (runCalls w l).heap g := by
  induction l generalizing w with
  | nil => exact (Stays.same rfl).shrank
  | cons c l ih =>
    refine (s.call_shrank ok.1 (hr c (by simp)) hg).trans (s.step c ok.1).sound.reach
      (ih (s.step c ok.1) ok.2 (fun c hc => hr c (by simp [hc])) ?_)
    exact Nat.lt_of_lt_of_le hg (s.sound.call_more c ok.1 (fun h => h.elim) (fun h => h.elim))

/-- **C104**, for sessions of all public calls, failing ones included: unless one of the calls is `remove_node`, `disconnect` or
`remove_self`, a graph keeps its nodes, under their names and in their order, with new ones at the end; every node keeps its edges, in
their order, with new ones at the end, and every edge its id. So `append`, `+`, `filter`, `copy`, `stylize` and `render` take nothing
away from any graph, even if they raise half-way. -/
theorem C104_calls_grow {w : World C} (s : Session w) {l : List (Call C)} (ok : CallsOk w l) (hno : ∀ c ∈ l, ¬ c.Removes)
    {g : GRef} (hg : g < w.heap.nG) :
    graphNodes w.heap g <+: graphNodes (runCalls w l).heap g ∧
    (∀ x ∈ graphNodes w.heap g, ((runCalls w l).heap.node x).id = (w.heap.node x).id ∧
      (∀ es, outwardEdges w.heap x = .ok es → ∃ more, outwardEdges (runCalls w l).heap x = .ok (es ++ more)) ∧
      (∀ es, inwardEdges w.heap x = .ok es → ∃ more, inwardEdges (runCalls w l).heap x = .ok (es ++ more))) ∧
    (∀ e, LiveEdge w.heap g e → LiveEdge (runCalls w l).heap g e ∧ edgeId (runCalls w l).heap e = edgeId w.heap e) ∧
    (∀ x y, Path w.heap g x y → Path (runCalls w l).heap g x y) := by
  have G := s.run_grew ok hno hg
  exact ⟨G.nodes, fun x hx => ⟨G.ids x hx, G.outs x hx, G.inns x hx⟩, G.edges, fun _ _ => Path.mono_arrow G.arrows⟩

/-- **C104**, for sessions of all public calls, failing ones included: unless one of the calls is `add_node`, `connect`, `connect_to`,
`connect_from` or `append`, a graph gets no nodes and edges. So `+`, `filter`, `copy`, `stylize` and `render`, and making graphs of
graphs, put nothing into any graph there is. -/
theorem C104_calls_shrink {w : World C} (s : Session w) {l : List (Call C)} (ok : CallsOk w l) (hno : ∀ c ∈ l, ¬ c.Adds)
    {g : GRef} (hg : g < w.heap.nG) :
    (graphNodes (runCalls w l).heap g).Sublist (graphNodes w.heap g) ∧
    (∀ x ∈ graphNodes (runCalls w l).heap g, ((runCalls w l).heap.node x).id = (w.heap.node x).id ∧
      (∀ es es', outwardEdges w.heap x = .ok es → outwardEdges (runCalls w l).heap x = .ok es' → es'.Sublist es) ∧
      (∀ es es', inwardEdges w.heap x = .ok es → inwardEdges (runCalls w l).heap x = .ok es' → es'.Sublist es)) ∧
    (∀ e, LiveEdge (runCalls w l).heap g e → LiveEdge w.heap g e ∧ edgeId (runCalls w l).heap e = edgeId w.heap e) ∧
    (∀ x y, Path (runCalls w l).heap g x y → Path w.heap g x y) := by
  have G := s.run_shrank ok hno hg
  exact ⟨G.nodes, fun x hx => ⟨G.ids x hx, G.outs x hx, G.inns x hx⟩, G.edges, fun _ _ => Path.mono_arrow G.arrows⟩

end
end Verif
