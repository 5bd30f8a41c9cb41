import Verif.Spec.Seen
import Verif.Props.Graphviz
import Verif.Props.Shape
import Verif.Props.Tidy
/-!
# C121: the picture tells what the graph is
-/
namespace Verif
open Palette
variable {C : Type} [Palette C]

/-! ## Taking the source apart -/

theorem split_at {α : Type} {x : α} {a b a' b' : List α} (h : x ∉ a) (h' : x ∉ a') (e : a ++ x :: b = a' ++ x :: b') :
    a = a' ∧ b = b' := by
  induction a generalizing a' with
  | nil =>
    cases a' with
    | nil => simpa using e
    | cons y l => simp only [List.nil_append, List.cons_append, List.cons.injEq] at e; exact absurd (e.1 ▸ List.mem_cons_self) h'
  | cons z k ih =>
    cases a' with
    | nil => simp only [List.nil_append, List.cons_append, List.cons.injEq] at e; exact absurd (e.1 ▸ List.mem_cons_self) h
    | cons y l =>
      simp only [List.cons_append, List.cons.injEq] at e
      obtain ⟨h1, h2⟩ := ih (fun q => h (List.mem_cons_of_mem _ q)) (fun q => h' (List.mem_cons_of_mem _ q)) e.2
      exact ⟨by rw [e.1, h1], h2⟩

theorem pictureOf_inj {w w' : World C} {g g' : GRef} {d d' : Display C} {a a' : DrawArgs} {es es' : List ERef}
    (e : pictureOf w g d a es = pictureOf w' g' d' a' es') :
    (w.heap.graph g).strict = (w'.heap.graph g').strict ∧ headerItems w g d a = headerItems w' g' d' a' ∧
      (graphNodes w.heap g).map (nodeItem w d) = (graphNodes w'.heap g').map (nodeItem w' d') ∧
      es.map (edgeItem w d) = es'.map (edgeItem w' d') := by
  have h1 := congrArg DotGraph.strict e
  have h2 := congrArg DotGraph.items e
  simp only [pictureOf, List.append_assoc, List.cons_append, List.nil_append] at h1 h2
  have hh : ∀ (w : World C) g d a, DotItem.opening ∉ headerItems w g d a := by
    intro w g d a hm
    rcases headerItems_kind w g d a _ hm with ⟨k, v, h⟩ | ⟨x, h⟩ <;> cases h
  have hn : ∀ (w : World C) d (l : List NRef), DotItem.closing ∉ l.map (nodeItem w d) := by
    intro w d l hm
    obtain ⟨n, -, h⟩ := List.mem_map.1 hm
    cases h
  obtain ⟨h3, h4⟩ := split_at (hh _ _ _ _) (hh _ _ _ _) h2
  obtain ⟨h5, h6⟩ := split_at (hn _ _ _) (hn _ _ _) h4
  exact ⟨h1, h3, h5, h6⟩

theorem optAttr_eq (k : String) (v : Val) : optAttr k v = (v.seen.map fun s => (k, DotText.plain s)).toList := by
  cases v <;> rfl

theorem dget_plain {l : List (String × String)} {k : String} (h : ∀ p ∈ l, p.1 ≠ k) : ∀ p ∈ plainAttrs l, p.1 ≠ k := by
  intro p hp
  obtain ⟨q, hq, rfl⟩ := List.mem_map.1 hp
  exact h q hq

theorem plainAttrs_inj {l l' : List (String × String)} (e : plainAttrs l = plainAttrs l') : l = l' := by
  unfold plainAttrs at e
  refine (List.map_inj_right ?_).1 e
  rintro ⟨a, b⟩ ⟨c, d⟩ h
  simp only [Prod.mk.injEq, DotText.plain.injEq] at h
  rw [h.1, h.2]

/-- An attribute that may be there, in front of others that have another name. -/
theorem optAttr_inj {k : String} {v v' : Val} {l l' : DotAttrs} (h : ∀ p ∈ l, p.1 ≠ k) (h' : ∀ p ∈ l', p.1 ≠ k)
    (e : optAttr k v ++ l = optAttr k v' ++ l') : v.seen = v'.seen ∧ l = l' := by
  rw [optAttr_eq, optAttr_eq] at e
  cases hv : v.seen with
  | none =>
    cases hv' : v'.seen with
    | none => rw [hv, hv'] at e; exact ⟨rfl, by simpa using e⟩
    | some s' =>
      rw [hv, hv'] at e
      simp only [Option.map_none, Option.toList_none, List.nil_append, Option.map_some, Option.toList_some, List.cons_append] at e
      exact absurd rfl (h (k, .plain s') (e ▸ List.mem_cons_self))
  | some s =>
    cases hv' : v'.seen with
    | none =>
      rw [hv, hv'] at e
      simp only [Option.map_none, Option.toList_none, List.nil_append, Option.map_some, Option.toList_some, List.cons_append] at e
      exact absurd rfl (h' (k, .plain s) (e ▸ List.mem_cons_self))
    | some s' =>
      rw [hv, hv'] at e
      simp only [Option.map_some, Option.toList_some, List.cons_append, List.nil_append, List.cons.injEq, Prod.mk.injEq,
        DotText.plain.injEq, true_and] at e
      exact ⟨by rw [e.1], e.2⟩

theorem nodeLooks_keys (w : World C) (n : NRef) : ∀ p ∈ nodeLooks w n, p.1 ≠ "tooltip" := by
  unfold nodeLooks nodeStyleLooks notNone
  intro p hp
  split at hp
  · cases hp
  · simp only [List.mem_filterMap, List.mem_cons, List.not_mem_nil, or_false] at hp
    obtain ⟨q, hq, e⟩ := hp
    obtain ⟨v, -, rfl⟩ := Option.map_eq_some_iff.1 e
    rcases hq with rfl | rfl | rfl | rfl | rfl | rfl | rfl | rfl <;> simp

theorem edgeLooks_keys (w : World C) (n : ERef) : ∀ p ∈ edgeLooks w n, p.1 ≠ "tooltip" ∧ p.1 ≠ "label" := by
  unfold edgeLooks edgeStyleLooks notNone
  intro p hp
  split at hp
  · cases hp
  · simp only [List.mem_filterMap, List.mem_cons, List.not_mem_nil, or_false] at hp
    obtain ⟨q, hq, e⟩ := hp
    obtain ⟨v, -, rfl⟩ := Option.map_eq_some_iff.1 e
    rcases hq with rfl | rfl | rfl | rfl | rfl | rfl | rfl <;> simp

theorem nodeItem_inj {w w' : World C} (r : Reachable w.heap) (r' : Reachable w'.heap) {d d' : Display C} {n n' : NRef}
    (e : nodeItem w d n = nodeItem w' d' n') : NodesSeenAlike w d w' d' n n' := by
  simp only [nodeItem, List.cons_append, DotItem.node.injEq, List.cons.injEq, Prod.mk.injEq, DotText.plain.injEq, true_and] at e
  obtain ⟨h1, h2, h3⟩ := e
  obtain ⟨h4, h5⟩ := optAttr_inj (dget_plain (nodeLooks_keys w n)) (dget_plain (nodeLooks_keys w' n')) h3
  refine ⟨?_, h2, h4, plainAttrs_inj h5⟩
  obtain ⟨s, hs⟩ := r.idStr n
  obtain ⟨t, ht⟩ := r'.idStr n'
  rw [hs, ht] at h1 ⊢
  exact congrArg Key.str h1

theorem optAttr_keys (k : String) (v : Val) : ∀ p ∈ optAttr k v, p.1 = k := by
  rw [optAttr_eq]
  intro p hp
  cases hv : v.seen with
  | none => rw [hv] at hp; cases hp
  | some s => rw [hv] at hp; simp only [Option.map_some, Option.toList_some, List.mem_singleton] at hp; rw [hp]

theorem edgeItem_inj {w w' : World C} {d d' : Display C} {e e' : ERef} (q : edgeItem w d e = edgeItem w' d' e') :
    endName w.heap (w.heap.edge e).start = endName w'.heap (w'.heap.edge e').start ∧
      endName w.heap (w.heap.edge e).stop = endName w'.heap (w'.heap.edge e').stop ∧
      (shownEdgeLabel w d e).seen = (shownEdgeLabel w' d' e').seen ∧
      (w.heap.edge e).tooltip.seen = (w'.heap.edge e').tooltip.seen ∧ edgeLooks w e = edgeLooks w' e' := by
  simp only [edgeItem, DotItem.edge.injEq, List.append_assoc] at q
  obtain ⟨h1, h2, h3⟩ := q
  have hk : ∀ (w : World C) (e : ERef), ∀ p ∈ optAttr "tooltip" (w.heap.edge e).tooltip ++ plainAttrs (edgeLooks w e), p.1 ≠ "label" := by
    intro w e p hp
    rcases List.mem_append.1 hp with hp | hp
    · rw [optAttr_keys _ _ p hp]; simp
    · exact dget_plain (fun p hp => (edgeLooks_keys w e p hp).2) p hp
  obtain ⟨h4, h5⟩ := optAttr_inj (hk _ _) (hk _ _) h3
  obtain ⟨h6, h7⟩ := optAttr_inj (dget_plain fun p hp => (edgeLooks_keys w e p hp).1)
    (dget_plain fun p hp => (edgeLooks_keys w' e' p hp).1) h5
  exact ⟨h1, h2, h4, h6, plainAttrs_inj h7⟩

theorem forall₂_of_map {α β γ : Type} {f : α → γ} {f' : β → γ} {l : List α} {l' : List β} (e : l.map f = l'.map f') :
    List.Forall₂ (fun x y => f x = f' y) l l' := by
  have := List.forall₂_map_right_iff (R := fun x y => f x = y) (f := f') (l := l) (u := l')
  rw [← this, ← e, List.forall₂_map_right_iff]
  exact List.forall₂_same.2 fun _ _ => rfl

/-! ## The theorems -/

/-- **C121**. If the sources of two graphs are equal, and the texts in them may stand in quotes, then the graphs have the same nodes in
the same order and the same edges in the same order, as far as names, texts, tooltips and looks go; both are strict or both are not. -/
theorem C121_same_partial {w w' : World C} (r : Reachable w.heap) (r' : Reachable w'.heap) {g g' : GRef} {d d' : Display C}
    (hd : w.display g = some d) (hd' : w'.display g' = some d')
    (hown : ∀ n ∈ graphNodes w.heap g, (w.heap.node n).graph = some g)
    (hown' : ∀ n ∈ graphNodes w'.heap g', (w'.heap.node n).graph = some g') {a a' : DrawArgs} (D : Drawable w g d a)
    (D' : Drawable w' g' d' a') {src : String} (hs : graphvizStr w g a = .ok src) (hs' : graphvizStr w' g' a' = .ok src) :
    (w.heap.graph g).strict = (w'.heap.graph g').strict ∧
      List.Forall₂ (NodesSeenAlike w d w' d') (graphNodes w.heap g) (graphNodes w'.heap g') ∧
      ∃ es es', graphEdges w.heap g = .ok es ∧ graphEdges w'.heap g' = .ok es' ∧
        List.Forall₂ (EdgesSeenAlike w d w' d') es es' := by
  obtain ⟨s, es, h1, h2, h3⟩ := C44_source_partial r hd hown D
  obtain ⟨s', es', h1', h2', h3'⟩ := C44_source_partial r' hd' hown' D'
  rw [hs] at h1; cases h1
  rw [hs'] at h1'; cases h1'
  rw [h3] at h3'
  obtain ⟨q1, -, q2, q3⟩ := pictureOf_inj (Option.some.inj h3')
  refine ⟨q1, (forall₂_of_map q2).imp fun _ _ => nodeItem_inj r r', es, es', h2, h2', ?_⟩
  have ends : ∀ {w : World C} (r : Reachable w.heap) {g : GRef} {es : List ERef}, graphEdges w.heap g = .ok es → ∀ e ∈ es,
      ∃ n m s t, (w.heap.edge e).start = some n ∧ (w.heap.edge e).stop = some m ∧ (w.heap.node n).id = .str s ∧ (w.heap.node m).id = .str t := by
    intro w r g es he e hm
    obtain ⟨A, H⟩ := r.hist
    have R := H.rep
    obtain ⟨es', h4, -, h6, -⟩ := C11_edges r g
    rw [he] at h4; cases h4
    obtain ⟨⟨k, l, i⟩, hi⟩ := (liveEdge_iff R).1 ((h6 e).1 hm)
    obtain ⟨-, -, -, -, n, m, -, -, q4, q5⟩ := R.edgeOk g k l i e hi
    obtain ⟨s, hs⟩ := r.idStr n
    obtain ⟨t, ht⟩ := r.idStr m
    exact ⟨n, m, s, t, q4, q5, hs, ht⟩
  have := (List.forall₂_iff_get).1 (forall₂_of_map q3)
  refine (List.forall₂_iff_get).2 ⟨this.1, fun i hi hi' => ?_⟩
  obtain ⟨p1, p2, p3, p4, p5⟩ := edgeItem_inj (this.2 i hi hi')
  obtain ⟨n, m, s, t, a1, a2, a3, a4⟩ := ends r h2 _ (List.get_mem es ⟨i, hi⟩)
  obtain ⟨n', m', s', t', b1, b2, b3, b4⟩ := ends r' h2' _ (List.get_mem es' ⟨i, hi'⟩)
  refine ⟨⟨n, m, n', m', by rw [edgeStart, a1], by rw [edgeEnd, a2], by rw [edgeStart, b1], by rw [edgeEnd, b2], ?_, ?_⟩, p3, p4, p5⟩
  · rw [a1, b1] at p1
    simp only [endName, a3, b3] at p1
    rw [a3, b3]; exact congrArg Key.str p1
  · rw [a2, b2] at p2
    simp only [endName, a4, b4] at p2
    rw [a4, b4]; exact congrArg Key.str p2

theorem oneShape_of_arrows {h h' : Heap} {g g' : GRef}
    (hn : (graphNodes h g).map (fun n => (h.node n).id) = (graphNodes h' g').map (fun n => (h'.node n).id))
    {es es' : List ERef} (he : ∀ e, e ∈ es ↔ LiveEdge h g e) (he' : ∀ e, e ∈ es' ↔ LiveEdge h' g' e)
    (ha : List.Forall₂ (fun e e' => ∃ n m n' m', edgeStart h e = .ok n ∧ edgeEnd h e = .ok m ∧ edgeStart h' e' = .ok n' ∧
      edgeEnd h' e' = .ok m' ∧ (h.node n).id = (h'.node n').id ∧ (h.node m).id = (h'.node m').id) es es') : OneShape h g h' g' := by
  refine ⟨fun k => ?_, fun s t => ?_⟩
  · have : ∀ (h : Heap) g, (∃ n ∈ graphNodes h g, (h.node n).id = k) ↔ k ∈ (graphNodes h g).map fun n => (h.node n).id := by
      intro h g; rw [List.mem_map]
    rw [this, this, hn]
  · have q := (List.forall₂_iff_get).1 ha
    rw [joined_iff, joined_iff]
    constructor
    · rintro ⟨n, m, ⟨e, hl, h1, h2⟩, rfl, rfl⟩
      obtain ⟨i, hi⟩ := List.get_of_mem ((he e).2 hl)
      obtain ⟨n1, m1, n', m', a1, a2, a3, a4, a5, a6⟩ := q.2 i i.2 (q.1 ▸ i.2)
      rw [show es.get ⟨i, i.2⟩ = e from hi] at a1 a2
      rw [h1] at a1; cases a1
      rw [h2] at a2; cases a2
      exact ⟨n', m', ⟨_, (he' _).1 (List.get_mem es' ⟨i, q.1 ▸ i.2⟩), a3, a4⟩, a5.symm, a6.symm⟩
    · rintro ⟨n, m, ⟨e, hl, h1, h2⟩, rfl, rfl⟩
      obtain ⟨i, hi⟩ := List.get_of_mem ((he' e).2 hl)
      obtain ⟨n', m', n1, m1, a1, a2, a3, a4, a5, a6⟩ := q.2 i (q.1.symm ▸ i.2) i.2
      rw [show es'.get ⟨i, i.2⟩ = e from hi] at a3 a4
      rw [h1] at a3; cases a3
      rw [h2] at a4; cases a4
      exact ⟨n', m', ⟨_, (he _).1 (List.get_mem es ⟨i, q.1.symm ▸ i.2⟩), a1, a2⟩, a5, a6⟩

/-- **C121**: and so every query about who is connected with whom has the same answer (C102). -/
theorem C121_shape_partial {w w' : World C} (r : Reachable w.heap) (r' : Reachable w'.heap) {g g' : GRef} {d d' : Display C}
    (hd : w.display g = some d) (hd' : w'.display g' = some d')
    (hown : ∀ n ∈ graphNodes w.heap g, (w.heap.node n).graph = some g)
    (hown' : ∀ n ∈ graphNodes w'.heap g', (w'.heap.node n).graph = some g') {a a' : DrawArgs} (D : Drawable w g d a)
    (D' : Drawable w' g' d' a') {src : String} (hs : graphvizStr w g a = .ok src) (hs' : graphvizStr w' g' a' = .ok src) :
    OneShape w.heap g w'.heap g' := by
  obtain ⟨-, hn, es, es', he, he', ha⟩ := C121_same_partial r r' hd hd' hown hown' D D' hs hs'
  obtain ⟨k, h1, -, h2, -⟩ := C11_edges r g
  rw [he] at h1; cases h1
  obtain ⟨k, h1, -, h2', -⟩ := C11_edges r' g'
  rw [he'] at h1; cases h1
  refine oneShape_of_arrows ?_ h2 h2' (ha.imp fun _ _ q => q.ends)
  have := List.forall₂_map_left_iff.2 (List.forall₂_map_right_iff.2 (hn.imp fun _ _ q => q.name))
  exact List.forall₂_eq_eq_eq ▸ this

/-- The value of a setting. -/
def setting (key : String) (l : List DotItem) : Option DotText :=
  l.findSome? fun
    | .assign k v => if k = key then some v else none
    | _ => none

theorem setting_header (w : World C) (g : GRef) (d : Display C) (a : DrawArgs) :
    setting "bgcolor" (headerItems w g d a) = some (.plain d.background) ∧
      (setting "ordering" (headerItems w g d a)).isSome = !(w.heap.graph g).ordering ∧
      setting "rankdir" (headerItems w g d a) = if drawnDirection d a = "TB" then none else some (.plain (drawnDirection d a)) := by
  unfold headerItems sizeItems setting
  by_cases h1 : headerDots d = [] <;> by_cases h2 : drawnDirection d a = "TB" <;> cases a.pad <;> cases a.height <;> cases a.width <;>
    cases (w.heap.graph g).ordering <;> simp [h1, h2]

/-- **C121**: the pictures have the same background, both have ordered edges or both have not, and they are drawn in the same direction. -/
theorem C121_settings_partial {w w' : World C} (r : Reachable w.heap) (r' : Reachable w'.heap) {g g' : GRef} {d d' : Display C}
    (hd : w.display g = some d) (hd' : w'.display g' = some d')
    (hown : ∀ n ∈ graphNodes w.heap g, (w.heap.node n).graph = some g)
    (hown' : ∀ n ∈ graphNodes w'.heap g', (w'.heap.node n).graph = some g') {a a' : DrawArgs} (D : Drawable w g d a)
    (D' : Drawable w' g' d' a') {src : String} (hs : graphvizStr w g a = .ok src) (hs' : graphvizStr w' g' a' = .ok src) :
    d.background = d'.background ∧ (w.heap.graph g).ordering = (w'.heap.graph g').ordering ∧ drawnDirection d a = drawnDirection d' a' := by
  obtain ⟨s, es, h1, h2, h3⟩ := C44_source_partial r hd hown D
  obtain ⟨s', es', h1', h2', h3'⟩ := C44_source_partial r' hd' hown' D'
  rw [hs] at h1; cases h1
  rw [hs'] at h1'; cases h1'
  rw [h3] at h3'
  obtain ⟨-, q, -⟩ := pictureOf_inj (Option.some.inj h3')
  obtain ⟨b1, b2, b3⟩ := setting_header w g d a
  obtain ⟨c1, c2, c3⟩ := setting_header w' g' d' a'
  rw [q] at b1 b2 b3
  refine ⟨?_, ?_, ?_⟩
  · rw [b1] at c1; simpa using c1
  · rw [b2] at c2; simpa using c2
  · rw [b3] at c3
    split at c3 <;> split at c3 <;> simp_all

/-- **C121**, for what `render` returns: if two graphs, in two sessions in which no node object is given to `add_node`, get the same
picture, then the same names lead to the same names in both. -/
theorem C121_render_partial [DecidableEq C] {w w' v v' : World C} (s : OwnedSession w) (s' : OwnedSession w') {g g' : GRef} {d d' : Display C}
    (hd : w.display g = some d) (hd' : w'.display g' = some d') {lim lim' : Nat} {shuffle shuffle' : List NRef → List NRef}
    {a a' : DrawArgs} {src : String} (hok : render lim shuffle g a w = (.ok src, v)) (hok' : render lim' shuffle' g' a' w' = (.ok src, v'))
    (D : Drawable v g d (renderArgs d a)) (D' : Drawable v' g' d' (renderArgs d' a')) :
    (w.heap.graph g).strict = (w'.heap.graph g').strict ∧ OneShape w.heap g w'.heap g' := by
  obtain ⟨p, es, h1, h2, h3, -, -, h4, h5⟩ := C97_shows_partial s hd hok D
  obtain ⟨p', es', h1', h2', h3', -, -, h4', h5'⟩ := C97_shows_partial s' hd' hok' D'
  rw [h1] at h1'; cases h1'
  refine ⟨by rw [← h2, h2'], oneShape_of_arrows ?_ h4 h4' ?_⟩
  · have key : ∀ {w : World C} (_ : OwnedSession w) (g : GRef),
        (graphNodes w.heap g).map (fun n => (w.heap.node n).id) = dkeys (w.heap.graph g).nodes := by
      intro w s g
      obtain ⟨A, H⟩ := (C79_sessions s.session).1.hist
      unfold graphNodes dvals dkeys
      rw [List.map_map]
      refine List.map_congr_left fun x hx => ?_
      rw [H.rep.nodes] at hx
      exact (H.rep.nodeOk g x.1 x.2 hx).2.1
    rw [key s, key s', ← h3, ← h3']
  · have q := (List.forall₂_iff_get).1 h5
    have q' := (List.forall₂_iff_get).1 h5'
    refine (List.forall₂_iff_get).2 ⟨q.1.trans q'.1.symm, fun i hi hi' => ?_⟩
    obtain ⟨n, m, a1, a2, a3, a4⟩ := q.2 i hi (q.1 ▸ hi)
    obtain ⟨n', m', b1, b2, b3, b4⟩ := q'.2 i hi' (q.1 ▸ hi)
    exact ⟨n, m, n', m', a1, a2, b1, b2, a3.trans b3.symm, a4.trans b4.symm⟩

/-! ## Names with quotes -/

/-- One node, whose name looks like the end of one statement and the begin of the next. -/
def forged : Heap := runOps [.newGraph false true false, .add 0 "a\" [label=\"a\"]\n\t\t\"b", .nodeLabel 0 (.str "b")] Heap.init

/-- Two nodes, `a` and `b`. -/
def genuine : Heap := runOps [.newGraph false true false, .add 0 "a", .add 0 "b"] Heap.init

theorem forged_reachable : Reachable forged := by
  refine Reachable.runOps .init _ ⟨trivial, ?_⟩
  simp only [AllOk, Op.Ok, Op.add]
  decide

theorem genuine_reachable : Reachable genuine := by
  refine Reachable.runOps .init _ ⟨trivial, ?_⟩
  simp only [AllOk, Op.Ok, Op.add]
  decide

/-- **C121 as stated is violated**: names are not quoted safely, and so a graph with one node can have the source of a graph with two. -/
theorem C121_violated : Reachable forged ∧ Reachable genuine ∧ (graphNodes forged 0).length = 1 ∧ (graphNodes genuine 0).length = 2 ∧
    ∃ src, graphvizStr (plainWorld forged) 0 {} = .ok src ∧ graphvizStr (plainWorld genuine) 0 {} = .ok src := by
  refine ⟨forged_reachable, genuine_reachable, by decide +kernel, by decide +kernel, ?_⟩
  have h : graphvizStr (plainWorld forged) 0 {} = graphvizStr (plainWorld genuine) 0 {} := by decide +kernel
  have h2 : (graphvizStr (plainWorld genuine) 0 {}).toOption.isSome := by decide +kernel
  cases e : graphvizStr (plainWorld genuine) 0 {} with
  | error x => rw [e] at h2; cases h2
  | ok src => exact ⟨src, by rw [h, e], rfl⟩

end Verif
