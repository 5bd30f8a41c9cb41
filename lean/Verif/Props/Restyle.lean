import Verif.Lemmas.Refuse
import Verif.Props.Graphviz
/-!
# Styling and rendering as a whole: what changes, and what happens the second time (C49, C67 - C70)
-/
namespace Verif
open Palette
variable {C : Type} [Palette C]

/-! ## Nothing but styles -/

section
variable [DecidableEq C]

/-- **C67.** `stylize`, with whatever settings and however it ends, changes nothing but the styles of nodes and edges: all
other attributes of the nodes and edges, the graphs and the display settings are the same, no other object appears, no
warning is issued, and whoever had a style still has one. -/
theorem C67_only_styles (lim : Nat) (shuffle : List NRef → List NRef) (g : GRef) {w : World C} (F : Made w.heap) :
    (∀ n, (((stylize lim shuffle g w).2).heap.node n) = { w.heap.node n with style := (((stylize lim shuffle g w).2).heap.node n).style }) ∧
    (∀ e, (((stylize lim shuffle g w).2).heap.edge e) = { w.heap.edge e with style := (((stylize lim shuffle g w).2).heap.edge e).style }) ∧
    ((stylize lim shuffle g w).2).heap.graph = w.heap.graph ∧ ((stylize lim shuffle g w).2).display = w.display ∧
    ((stylize lim shuffle g w).2).heap.nN = w.heap.nN ∧ ((stylize lim shuffle g w).2).heap.nE = w.heap.nE ∧
    ((stylize lim shuffle g w).2).heap.nG = w.heap.nG ∧ ((stylize lim shuffle g w).2).heap.warns = w.heap.warns ∧
    (∀ n, (w.heap.node n).style ≠ none → (((stylize lim shuffle g w).2).heap.node n).style ≠ none) ∧
    (∀ e, (w.heap.edge e).style ≠ none → (((stylize lim shuffle g w).2).heap.edge e).style ≠ none) := by
  have q := Silent.stylize (C := C) lim shuffle g w F
  generalize (stylize lim shuffle g w).2 = v at q
  have S : strip w.heap = strip v.heap := q.shape
  refine ⟨fun n => ?_, fun e => ?_, ?_, q.display, ?_, ?_, ?_, ?_, fun n h => ?_, fun n h => ?_⟩
  · have := congrFun (congrArg Heap.node S) n
    simp only [strip] at this
    generalize w.heap.node n = x at this ⊢
    generalize v.heap.node n = y at this ⊢
    cases x; cases y; simpa [eq_comm] using this
  · have := congrFun (congrArg Heap.edge S) e
    simp only [strip] at this
    generalize w.heap.edge e = x at this ⊢
    generalize v.heap.edge e = y at this ⊢
    cases x; cases y; simpa [eq_comm] using this
  · exact (congrArg Heap.graph S).symm
  · exact (congrArg Heap.nN S).symm
  · exact (congrArg Heap.nE S).symm
  · exact (congrArg Heap.nG S).symm
  · exact (congrArg Heap.warns S).symm
  · have := q.nodes n
    rw [ne_eq, ne_eq, nodeLook_none, nodeLook_none] at this
    exact this h
  · have := q.edges n
    rw [ne_eq, ne_eq, edgeLook_none, edgeLook_none] at this
    exact this h

/-- **C67**: hence a styled graph can be reached by other calls, and its nodes, edges and their order are the same. -/
theorem C67_same_graph (lim : Nat) (shuffle : List NRef → List NRef) (g g' : GRef) {w : World C} (F : Made w.heap)
    (r : Reachable w.heap) :
    Reachable ((stylize lim shuffle g w).2).heap ∧ Made ((stylize lim shuffle g w).2).heap ∧
    graphNodes ((stylize lim shuffle g w).2).heap g' = graphNodes w.heap g' ∧
    graphEdges ((stylize lim shuffle g w).2).heap g' = graphEdges w.heap g' := by
  have q := Silent.stylize (C := C) lim shuffle g w F
  exact ⟨q.reach r, q.fine, (q.shape.graphNodes g').symm, (q.shape.graphEdges g').symm⟩

/-! ## Styling again -/

omit [Palette C] [DecidableEq C] in
/-- The nodes and edges of a graph belong to it. -/
theorem owned_of_reachable {h : Heap} (r : Reachable h) {g : GRef}
    (hown : ∀ n ∈ graphNodes h g, (h.node n).graph = some g) : Owned h g where
  node := hown
  edges := by
    intro es he e hm
    obtain ⟨es', he', -, hes, -⟩ := C11_edges r g
    rw [he] at he'
    cases he'
    obtain ⟨A, H⟩ := r.hist
    obtain ⟨⟨k, l, i⟩, hi⟩ := (liveEdge_iff H.rep).1 ((hes e).1 hm)
    exact (H.rep.edgeOk g k l i e hi).2.2.1
  byKey := fun k n hn => hown n (getNode_mem r hn)
  byId := by
    intro i e he
    obtain ⟨es, d, h1, h2, -, h3, -⟩ := C11_edges_dict r g
    have hm : e ∈ dvals d := by
      simp only [edgeById, h2, bind, Except.bind] at he
      cases hg : dget d i with
      | none => rw [hg] at he; cases he
      | some x =>
        rw [hg] at he
        cases he
        exact List.mem_map.2 ⟨(i, e), mem_of_dget hg, rfl⟩
    obtain ⟨es', he', -, hes, -⟩ := C11_edges r g
    rw [h1] at he'
    cases he'
    obtain ⟨A, H⟩ := r.hist
    obtain ⟨⟨k, l, i⟩, hi⟩ := (liveEdge_iff H.rep).1 ((hes e).1 ((h3 e).1 hm))
    exact (H.rep.edgeOk g k l i e hi).2.2.1

/-- **C49** for graphs made with `style_overwrite_allowed=True`: once `stylize` has succeeded, it succeeds again and no style
looks different, for all stylists and settings. Missing for the full property: graphs made without it, see below. No two
nodes (or edges) may share a style object. -/
theorem C49_with_permission_partial {lim : Nat} {shuffle : List NRef → List NRef} (hsh : ∀ l, (shuffle l).Perm l) {g : GRef}
    {w w' : World C} (F : Made w.heap) (r : Reachable w.heap) (hown : ∀ n ∈ graphNodes w.heap g, (w.heap.node n).graph = some g)
    (ap : Apart w.heap) (full : AllFull w) (ho : (w.heap.graph g).overwrite = some true)
    (hok : stylize lim shuffle g w = (.ok (), w')) :
    ∃ w'', stylize lim shuffle g w' = (.ok (), w'') ∧ nodeLook w'' = nodeLook w' ∧ edgeLook w'' = edgeLook w' := by
  cases hd : w.display g with
  | none => simp [stylize, W.display, W.bind_apply, hd] at hok
  | some d =>
    have p : Permit w.heap g := ho
    exact stylize_again hsh ⟨rfl, F, ap⟩ full hd ⟨.inr (.inr p), .inr (.inr p), fun _ => .inr p, .inr p, .inr p, .inr p⟩
      (owned_of_reachable r hown) hok

/-- **C49** for all other graphs: once `stylize` has succeeded, it succeeds again and no style looks different if there is no
global node style (or no node), no global edge style (or no edge), no style of an edge, and the nodes are not styled at
random. In all other cases, it raises `RuntimeError`. -/
theorem C49_without_permission {lim : Nat} {shuffle : List NRef → List NRef} (hsh : ∀ l, (shuffle l).Perm l) {g : GRef}
    {w w' : World C} (F : Made w.heap) (r : Reachable w.heap) (hown : ∀ n ∈ graphNodes w.heap g, (w.heap.node n).graph = some g)
    (ap : Apart w.heap) (full : AllFull w) (ho : (w.heap.graph g).overwrite = some false) {d : Display C} (hd : w.display g = some d)
    (hok : stylize lim shuffle g w = (.ok (), w')) :
    ((d.globalNode = none ∨ graphNodes w.heap g = []) ∧ (d.globalEdge = none ∨ graphEdges w.heap g = .ok []) ∧
        (d.stylist = .random → graphNodes w.heap g = []) ∧ d.edgeStyles = [] ∧
      ∃ w'', stylize lim shuffle g w' = (.ok (), w'') ∧ nodeLook w'' = nodeLook w' ∧ edgeLook w'' = edgeLook w') ∨
    (¬ ((d.globalNode = none ∨ graphNodes w.heap g = []) ∧ (d.globalEdge = none ∨ graphEdges w.heap g = .ok []) ∧
        (d.stylist = .random → graphNodes w.heap g = []) ∧ d.edgeStyles = []) ∧
      (stylize lim shuffle g w').1 = .error .runtimeError) := by
  have O : Okay w.heap w := ⟨rfl, F, ap⟩
  have own := owned_of_reachable r hown
  have np : ¬ Permit w.heap g := by
    intro p
    have p : (w.heap.graph g).overwrite = some true := p
    rw [ho] at p
    cases p
  by_cases may : May w.heap g d
  · refine .inl ⟨?_, ?_, fun hr => ?_, ?_, stylize_again hsh O full hd may own hok⟩
    · rcases may.globalNode with a | a | a
      exacts [.inl a, .inr a, absurd a np]
    · rcases may.globalEdge with a | a | a
      exacts [.inl a, .inr a, absurd a np]
    · exact (may.stylist hr).resolve_right np
    · exact may.edgeStyles.resolve_right np
  · refine .inr ⟨fun hh => may ?_, stylize_refused hsh O hd ho own hok may⟩
    obtain ⟨h1, h2⟩ := coloursNeed O ho own hd hok
    obtain ⟨a, b, c, e⟩ := hh
    exact ⟨a.imp id .inl, b.imp id .inl, fun hr => .inl (c hr), .inl e, .inl h1, .inl h2⟩

/-! ## Rendering -/

omit [DecidableEq C] in
/-- The source depends on styles only as far as they look. -/
theorem graphvizStr_same {w v : World C} (S : SameBody w.heap v.heap) (hd : v.display = w.display)
    (hn : nodeLook v = nodeLook w) (he : edgeLook v = edgeLook w) (g : GRef) (a : DrawArgs) : graphvizStr v g a = graphvizStr w g a := by
  have n1 : ∀ n, nodeGraphvizStr v n = nodeGraphvizStr w n := by
    intro n
    have e1 : nodeLabel v.heap n = nodeLabel w.heap n := (S.via (fun h => nodeLabel h n) fun _ => rfl).symm
    have e2 : (v.heap.node n).tooltip = (w.heap.node n).tooltip := (S.via (fun h => (h.node n).tooltip) fun _ => rfl).symm
    have e3 : nodeStylePart v n = nodeStylePart w n := by
      have := congrFun hn n
      simp only [nodeLook] at this
      unfold nodeStylePart
      revert this
      cases (v.heap.node n).style <;> cases (w.heap.node n).style <;> simp
      intro h; rw [h]
    unfold nodeGraphvizStr nodeDisplayLabel displayOf
    rw [e1, e2, e3, ← S.nodeGraph, ← S.nodeId, hd]
  have n2 : ∀ n, edgeGraphvizStr v n = edgeGraphvizStr w n := by
    intro n
    have e1 : (v.heap.edge n).label = (w.heap.edge n).label := (S.via (fun h => (h.edge n).label) fun _ => rfl).symm
    have e2 : (v.heap.edge n).tooltip = (w.heap.edge n).tooltip := (S.via (fun h => (h.edge n).tooltip) fun _ => rfl).symm
    have e4 : edgeEnd v.heap n = edgeEnd w.heap n := (S.via (fun h => edgeEnd h n) fun _ => rfl).symm
    have e3 : edgeStylePart v n = edgeStylePart w n := by
      have := congrFun he n
      simp only [edgeLook] at this
      unfold edgeStylePart
      revert this
      cases (v.heap.edge n).style <;> cases (w.heap.edge n).style <;> simp
      intro h; rw [h]
    unfold edgeGraphvizStr edgeDisplayLabelOrValue displayOf
    simp only [e1, e2, e3, e4, ← S.edgeGraph, ← S.nodeId, ← S.edgeStart, ← S.edgeValue, hd]
  unfold graphvizStr graphvizHeader displayOf
  rw [funext n1, funext n2, ← S.graphNodes, ← S.graphEdges, ← S.graph, hd]

/-- The arguments with which `render` without a path asks for the source. -/
def renderArgs (d : Display C) (a : DrawArgs) : DrawArgs :=
  { direction := some (directionOr d a.direction), height := none, width := none, pad := a.pad }

theorem render_ok {lim : Nat} {shuffle : List NRef → List NRef} {g : GRef} {a : DrawArgs} {w w' : World C} {src : String}
    (hok : render lim shuffle g a w = (.ok src, w')) :
    ∃ d, w.display g = some d ∧ stylize lim shuffle g w = (.ok (), w') ∧ graphvizStr w' g (renderArgs d a) = .ok src := by
  unfold render at hok
  cases hd : w.display g with
  | none => simp [W.display, W.bind_apply, hd] at hok
  | some d =>
    simp only [W.display, W.bind_apply, hd] at hok
    cases hs : stylize lim shuffle g w with
    | mk o v =>
      rw [hs] at hok
      cases o with
      | error e => simp at hok
      | ok u =>
        simp only [W.ask, Prod.mk.injEq] at hok
        obtain ⟨h1, rfl⟩ := hok
        exact ⟨d, rfl, rfl, h1⟩

theorem render_run {lim : Nat} {shuffle : List NRef → List NRef} {g : GRef} {a : DrawArgs} {w w' : World C} {src : String} {d : Display C}
    (hd : w.display g = some d) (hs : stylize lim shuffle g w = (.ok (), w')) (hg : graphvizStr w' g (renderArgs d a) = .ok src) :
    render lim shuffle g a w = (.ok src, w') := by
  unfold render
  simp only [W.display, W.bind_apply, hd, hs, W.ask]
  exact congrArg (·, w') hg

/-- **C68.** If `render` returns, `stylize` has succeeded, and what is returned describes the graph as it was styled: all its
nodes and edges, as they were before, with the styles they have now. -/
theorem C68_render {lim : Nat} {shuffle : List NRef → List NRef} {g : GRef} {a : DrawArgs} {w w' : World C} {src : String} {d : Display C}
    (F : Made w.heap) (r : Reachable w.heap) (hown : ∀ n ∈ graphNodes w.heap g, (w.heap.node n).graph = some g)
    (hd : w.display g = some d) (hok : render lim shuffle g a w = (.ok src, w'))
    (D : Drawable w' g d (renderArgs d a)) :
    stylize lim shuffle g w = (.ok (), w') ∧ graphNodes w'.heap g = graphNodes w.heap g ∧
    ∃ es, graphEdges w.heap g = .ok es ∧ graphEdges w'.heap g = .ok es ∧
      readDot src = some (pictureOf w' g d (renderArgs d a) es) := by
  obtain ⟨d', hd', hs, hg⟩ := render_ok hok
  rw [hd] at hd'
  cases hd'
  have q := (Silent.stylize (C := C) lim shuffle g).quiet F hs
  have hd' : w'.display g = some d := by rw [q.display]; exact hd
  obtain ⟨src', es, h1, h2, h3⟩ := C44_source_partial (q.reach r) hd'
    (by intro n hn; rw [← q.shape.graphNodes] at hn; rw [← q.shape.nodeGraph]; exact hown n hn) D
  rw [hg] at h1
  cases h1
  exact ⟨hs, (q.shape.graphNodes g).symm, es, by rw [q.shape.graphEdges]; exact h2, h2, h3⟩

/-- **C49** for `render`: with permission to overwrite, rendering once more returns the same source. -/
theorem C49_render_partial {lim : Nat} {shuffle : List NRef → List NRef} (hsh : ∀ l, (shuffle l).Perm l) {g : GRef} {a : DrawArgs}
    {w w' : World C} {src : String} (F : Made w.heap) (r : Reachable w.heap)
    (hown : ∀ n ∈ graphNodes w.heap g, (w.heap.node n).graph = some g)
    (ap : Apart w.heap) (full : AllFull w) (ho : (w.heap.graph g).overwrite = some true)
    (hok : render lim shuffle g a w = (.ok src, w')) :
    ∃ w'', render lim shuffle g a w' = (.ok src, w'') := by
  obtain ⟨d, hd, hs, hg⟩ := render_ok hok
  obtain ⟨w'', h1, h2, h3⟩ := C49_with_permission_partial hsh F r hown ap full ho hs
  have q := (Silent.stylize (C := C) lim shuffle g).quiet F hs
  have q' := (Silent.stylize (C := C) lim shuffle g).quiet q.fine h1
  refine ⟨w'', render_run (by rw [q.display]; exact hd) h1 ?_⟩
  rw [graphvizStr_same q'.shape q'.display h2 h3]
  exact hg

/-- **C69 is violated**: whatever height and width are asked for, `render` returns the same, ... -/
theorem C69_ignored_violated (lim : Nat) (shuffle : List NRef → List NRef) (g : GRef) (a : DrawArgs) (height width : Option Rat) :
    (render lim shuffle g { a with height := height, width := width } : W C String) = render lim shuffle g a := rfl

/-- ... a source that sets no size. -/
theorem C69_no_size_violated {lim : Nat} {shuffle : List NRef → List NRef} {g : GRef} {a : DrawArgs} {w w' : World C} {src : String} {d : Display C}
    (F : Made w.heap) (r : Reachable w.heap) (hown : ∀ n ∈ graphNodes w.heap g, (w.heap.node n).graph = some g)
    (hd : w.display g = some d) (hok : render lim shuffle g a w = (.ok src, w'))
    (D : Drawable w' g d (renderArgs d a)) : ∃ p, readDot src = some p ∧ ∀ v, DotItem.assign "size" v ∉ p.items := by
  obtain ⟨-, -, es, -, -, h⟩ := C68_render F r hown hd hok D
  refine ⟨_, h, fun v hv => ?_⟩
  simp only [pictureOf, headerItems, sizeItems, renderArgs, nodeItem, edgeItem, List.mem_append, List.mem_map] at hv
  grind

/-- **C70.** Without permission to overwrite, `stylize` (and so `render`) fails if the colour of any node or edge is given. -/
theorem C70_colours_need_permission {lim : Nat} {shuffle : List NRef → List NRef} {g : GRef} {w : World C} (F : Made w.heap)
    (r : Reachable w.heap) (hown : ∀ n ∈ graphNodes w.heap g, (w.heap.node n).graph = some g) (ap : Apart w.heap)
    (ho : (w.heap.graph g).overwrite = some false) {d : Display C} (hd : w.display g = some d)
    (hc : d.nodeColours ≠ [] ∨ d.edgeColours ≠ []) :
    ∃ e, (stylize lim shuffle g w).1 = .error e := by
  cases hs : stylize lim shuffle g w with
  | mk o w' =>
    cases o with
    | error e => exact ⟨e, rfl⟩
    | ok u =>
      obtain ⟨h1, h2⟩ := coloursNeed ⟨rfl, F, ap⟩ ho (owned_of_reachable r hown) hd hs
      rcases hc with hc | hc
      · exact absurd h1 hc
      · exact absurd h2 hc

end

/-! ## Examples and violations -/

/-- As `diamond`, made with `style_overwrite_allowed=True`. -/
def openDiamond : Heap :=
  runOps [.newGraph false true true, .add 0 "a", .add 0 "b", .add 0 "c", .add 0 "d",
    .connect 0 (.key (.str "a")) (.key (.str "b")) { value := .int 3 } .warn,
    .connect 0 (.key (.str "a")) (.key (.str "c")) { value := .int 2 } .warn, .link 0 "b" "d", .link 0 "c" "d"] Heap.init

theorem openDiamond_reachable : Reachable openDiamond := by
  refine Reachable.runOps .init _ ?_
  refine ⟨trivial, ?_⟩
  simp only [AllOk, Op.Ok, Op.add, Op.link]
  decide

theorem openDiamond_made : Made openDiamond := by
  refine Made.init.runOps _ ?_
  simp only [AllStylesOk, Op.StylesOk, Op.add, Op.link, StyleArg.Below, and_self]

/-- Before any style object is made, none is shared. -/
theorem Made.noStyles {h : Heap} (F : Made h) (h0 : h.nStyle = 0) :
    (∀ n, (h.node n).style = none) ∧ ∀ e, (h.edge e).style = none := by
  refine ⟨fun n => ?_, fun n => ?_⟩
  · cases hs : (h.node n).style with
    | none => rfl
    | some s => have := F.node n s hs; rw [h0] at this; exact absurd this (Nat.not_lt_zero s)
  · cases hs : (h.edge n).style with
    | none => rfl
    | some s => have := F.edge n s hs; rw [h0] at this; exact absurd this (Nat.not_lt_zero s)

theorem Made.apart {h : Heap} (F : Made h) (h0 : h.nStyle = 0) : Apart h := by
  obtain ⟨a, b⟩ := F.noStyles h0
  constructor
  · intro n m s h1; rw [a n] at h1; cases h1
  · intro n m s h1; rw [b n] at h1; cases h1

omit [Palette C] in
theorem Made.allFull {w : World C} (F : Made w.heap) (h0 : w.heap.nStyle = 0) : AllFull w := by
  intro n s hs
  simp [nodeLook, (F.noStyles h0).1 n] at hs

/-- Painted at random, with a global style of nodes and of edges, and styles and colours for some. -/
def gaudyWorld (h : Heap) : World Rat :=
  { heap := h, ns := fun _ => defaultNode 0, es := fun _ => defaultEdge 0 0,
    display := fun _ => some
      { scheme := [0, 1 / 2, 1], stylist := .random, globalNode := some [.shape (some "auto"), .colour 1],
        globalEdge := some [.lineWidth (some 2)], nodeStyles := [(.str "a", [.fill (some 0)])],
        edgeStyles := [((.str "a", .str "b", .none), [.arrowSize 2])], nodeColours := [(.str "b", 1 / 2)],
        edgeColours := [((.str "c", .str "d", .none), 1 / 2)] } }

/-- It meets the hypotheses of **C49** and **C67**. -/
example : Made (gaudyWorld openDiamond).heap ∧ Reachable (gaudyWorld openDiamond).heap ∧ Apart (gaudyWorld openDiamond).heap ∧
    AllFull (gaudyWorld openDiamond) ∧ (∀ n ∈ graphNodes openDiamond 0, (openDiamond.node n).graph = some 0) ∧
    (openDiamond.graph 0).overwrite = some true ∧
    (stylize 10 id 0 (gaudyWorld openDiamond)).1 = .ok () ∧
    (nodeLook (stylize 10 id 0 (gaudyWorld openDiamond)).2 0).map (fun s => (s.fill, s.shape)) = some (some 0, some "circle") :=
  ⟨openDiamond_made, openDiamond_reachable, openDiamond_made.apart (by decide +kernel), openDiamond_made.allFull (by decide +kernel),
    by decide +kernel, by decide +kernel, by decide +kernel, by decide +kernel⟩

/-- Without permission, the same settings fail at once, even without styles to begin with. -/
example : (stylize 10 id 0 (gaudyWorld diamond)).1 = .error .runtimeError := by decide +kernel

/-- The default stylist can be called again without permission, as **C49** says. -/
example : (stylize 10 id 0 (plainWorld diamond)).1 = .ok () ∧
    (stylize 10 id 0 (stylize 10 id 0 (plainWorld diamond)).2).1 = .ok () := by decide +kernel

/-- **C49 is violated** by graphs made without `style_overwrite_allowed=True`: the diamond painted at random can be stylized, but
not again. -/
theorem C49_violated : Reachable (plainWorld diamond .random).heap ∧ Made (plainWorld diamond .random).heap ∧
    (∀ n, nodeLook (plainWorld diamond .random) n = none) ∧
    (stylize 10 id 0 (plainWorld diamond .random)).1 = .ok () ∧
    (stylize 10 id 0 (stylize 10 id 0 (plainWorld diamond .random)).2).1 = .error .runtimeError := by
  refine ⟨diamond_reachable, diamond_made, fun n => ?_, by decide +kernel, by decide +kernel⟩
  simp [nodeLook, plainWorld, (diamond_made.noStyles (by decide +kernel)).1 n]

/-- What `render` draws of the diamond may be drawn, as **C68** and **C69** ask. -/
theorem diamond_drawn : Drawable (stylize 10 id 0 (plainWorld diamond)).2 0 { scheme := [0, 1 / 2, 1], stylist := .pensieve }
    (renderArgs { scheme := [0, 1 / 2, 1], stylist := .pensieve } { height := some 7 }) where
  names := by decide +kernel
  labels := by
    intro n hn
    show Quotable (labelText (stylize 10 id 0 (plainWorld diamond)).2.heap n).toList
    revert n
    decide +kernel
  tooltips := by decide +kernel
  looks := by decide +kernel
  edges := by
    intro es he
    have h3 : graphEdges (stylize 10 id 0 (plainWorld diamond)).2.heap 0 = .ok [0, 1, 2, 3] := by decide +kernel
    have : es = [0, 1, 2, 3] := by
      have := h3.symm.trans he
      cases this
      rfl
    subst this
    decide +kernel
  header := by
    have := plainWorld_header
    exact ⟨this.label, this.location, this.font, this.fontSize, this.labelColour, this.labelUrl, this.tooltip, this.kwargs,
      this.background, this.pad, this.height, this.width, by decide +kernel⟩

example : (render 10 id 0 { height := some 7 } (plainWorld diamond)).1.isOk = true ∧
    (render 10 id 0 {} (gaudyWorld openDiamond)).1.isOk = true := by decide +kernel

end Verif
