import Verif.Lemmas.Sessions
import Verif.Lemmas.Local
import Verif.Props.Restyle
import Verif.Props.Add
/-!
# Sessions: whose styles are whose (C79 - C81)
-/
namespace Verif
open Palette
variable {C : Type} [Palette C] [DecidableEq C]

/-! ## Styles are not shared -/

/-- In every session the heap is one that histories of calls lead to, every style in use is there and, if it is the style of a
node, has all its colours. These are hypotheses of other theorems. -/
theorem C79_sessions {w : World C} (s : Session w) :
    Reachable w.heap ∧ Made w.heap ∧ AllFull w := by
  have S := s.sound
  refine ⟨S.reach, S.made, fun n st hn => ?_⟩
  obtain ⟨s, -, rfl⟩ := Option.map_eq_some_iff.1 hn
  exact S.full s

/-- **C79**, for sessions in which, besides, no graph with styled nodes is appended, added or made a graph of: no two nodes have the
same style object, and no two edges.
Missing for the full property: those calls, which hand on style objects (`C79_violated`). -/
theorem C79_private_partial {w : World C} (s : PrivateSession w) :
    (∀ n m st, (w.heap.node n).style = some st → (w.heap.node m).style = some st → n = m) ∧
    (∀ e f st, (w.heap.edge e).style = some st → (w.heap.edge f).style = some st → e = f) :=
  ⟨(s.sound.apart trivial).node, (s.sound.apart trivial).edge⟩

/-! ## Styling concerns one graph -/

/-- **C80.** In a session without shared styles, whatever happens in `stylize`, everything outside of the graph stays as it is: the
nodes and edges of other graphs, and those of no graph, keep all their attributes and their looks. -/
theorem C80_stylize_partial {lim : Nat} {shuffle : List NRef → List NRef} (hsh : ∀ l, (shuffle l).Perm l) (g : GRef) {w : World C}
    (s : PrivateSession w) :
    (∀ n, n ∉ graphNodes w.heap g → ((stylize lim shuffle g w).2.heap.node n = w.heap.node n ∧
      nodeLook (stylize lim shuffle g w).2 n = nodeLook w n)) ∧
    (∀ e, (∀ es, graphEdges w.heap g = .ok es → e ∉ es) → ((stylize lim shuffle g w).2.heap.edge e = w.heap.edge e ∧
      edgeLook (stylize lim shuffle g w).2 e = edgeLook w e)) := by
  have S := s.sound
  have L := (Local.stylize (C := C) (byId_edges (g := g) S.reach) lim hsh).run w ⟨rfl, S.made⟩
  have ap := S.apart trivial
  exact ⟨fun n hn => ⟨(L.node n hn).1, (L.node n hn).2 ap⟩, fun e he =>
    have h := L.edge e fun ⟨es, h1, h2⟩ => he es h1 h2
    ⟨h.1, h.2 ap⟩⟩

omit [DecidableEq C] in
/-- The source of a graph depends on its nodes, its edges, its settings and the names of nodes only. -/
theorem graphvizStr_congr {w w' : World C} {g : GRef} (a : DrawArgs) (S : SameBody w.heap w'.heap) (hd : w'.display = w.display)
    (hn : ∀ n ∈ graphNodes w.heap g, w'.heap.node n = w.heap.node n ∧ nodeLook w' n = nodeLook w n)
    (he : ∀ es, graphEdges w.heap g = .ok es → ∀ e ∈ es, w'.heap.edge e = w.heap.edge e ∧ edgeLook w' e = edgeLook w e) :
    graphvizStr w' g a = graphvizStr w g a := by
  have part : ∀ {α β : Type} {f f' : α → Except PyErr β} {l : List α}, (∀ x ∈ l, f' x = f x) → mapE f' l = mapE f l := by
    intro α β f f' l h
    induction l with
    | nil => rfl
    | cons x l ih => simp only [mapE, h x (by simp), ih fun y hy => h y (by simp [hy])]
  have hid : ∀ n, (w'.heap.node n).id = (w.heap.node n).id := fun n => by
    have := congrArg NodeObj.id (congrFun (congrArg Heap.node S) n)
    exact this.symm
  have hgraph : w'.heap.graph = w.heap.graph := (congrArg Heap.graph S).symm
  have hdis : displayOf w' = displayOf w := by funext g; cases g <;> simp [displayOf, hd]
  have nodes : mapE (nodeGraphvizStr w') (graphNodes w.heap g) = mapE (nodeGraphvizStr w) (graphNodes w.heap g) := by
    refine part fun n hm => ?_
    obtain ⟨h1, h2⟩ := hn n hm
    have : nodeStylePart w' n = nodeStylePart w n := by
      unfold nodeLook at h2
      unfold nodeStylePart
      rw [h1] at h2 ⊢
      cases hs : (w.heap.node n).style with
      | none => rfl
      | some st => rw [hs] at h2; simp at h2; simp [h2]
    simp only [nodeGraphvizStr, nodeDisplayLabel, nodeLabel, hdis, h1, this]
  unfold graphvizStr
  rw [← S.graphNodes, ← S.graphEdges, nodes]
  cases hes : graphEdges w.heap g with
  | error e => rfl
  | ok es =>
    have edges : mapE (edgeGraphvizStr w') es = mapE (edgeGraphvizStr w) es := by
      refine part fun e hm => ?_
      obtain ⟨h1, h2⟩ := he es hes e hm
      have : edgeStylePart w' e = edgeStylePart w e := by
        unfold edgeLook at h2
        unfold edgeStylePart
        rw [h1] at h2 ⊢
        cases hs : (w.heap.edge e).style with
        | none => rfl
        | some st => rw [hs] at h2; simp at h2; simp [h2]
      simp only [edgeGraphvizStr, edgeDisplayLabelOrValue, edgeStart, edgeEnd, hdis, h1, this, hid]
    have header : graphvizHeader w' g a = graphvizHeader w g a := by simp only [graphvizHeader, hdis, hgraph]
    cases mapE (nodeGraphvizStr w) (graphNodes w.heap g) with
    | error e => rfl
    | ok ns => simp only [bind, Except.bind, edges, header]

/-- **C80**: hence the picture of no other graph changes, whether `stylize` or `render` succeed or not.
Missing for the full property: sessions in which style objects are passed on (`C80_violated`). -/
theorem C80_picture_partial {lim : Nat} {shuffle : List NRef → List NRef} (hsh : ∀ l, (shuffle l).Perm l) {g g' : GRef} (hne : g' ≠ g)
    {w : World C} (s : PrivateSession w) (a b : DrawArgs) :
    graphvizStr (stylize lim shuffle g w).2 g' b = graphvizStr w g' b ∧
    graphvizStr (render lim shuffle g a w).2 g' b = graphvizStr w g' b := by
  have S := s.sound
  have h1 : graphvizStr (stylize lim shuffle g w).2 g' b = graphvizStr w g' b := by
    obtain ⟨hN, hE⟩ := C80_stylize_partial (lim := lim) hsh g s
    have q := Silent.stylize (C := C) lim shuffle g w S.made
    refine graphvizStr_congr b q.shape q.display (fun n hn => hN n (other_nodes S.reach hne hn)) fun es hes e he => hE e ?_
    intro es' hes' he'
    have h1 := edge_home S.reach hes he
    rw [edge_home S.reach hes' he'] at h1
    exact hne (Option.some.inj h1).symm
  refine ⟨h1, ?_⟩
  unfold render
  rw [W.bind_apply]
  unfold W.display
  cases w.display g with
  | none => rfl
  | some d =>
    simp only
    rw [W.bind_apply]
    cases hs : stylize lim shuffle g w with
    | mk r w' =>
      rw [hs] at h1
      cases r with
      | error _ => exact h1
      | ok _ => exact h1

/-! ## What copies look like -/

/-- **C81**, for graphs without styled nodes: the copy is made, its edges look like the originals, with style objects of their own
(which lack one attribute, see C86), and what was there before looks as before.
Missing for the full property: graphs with styled nodes, which cannot be copied (`C81_violated`). -/
theorem C81_copy_partial {w : World C} (s : Session w) {g : GRef} (hg : g < w.heap.nG)
    (hst : ∀ n ∈ graphNodes w.heap g, (w.heap.node n).style = none) :
    ∃ (g' : GRef) (m : Memo) (w' : World C), copyWorld g w = (.ok g', w') ∧ CopyOf w.heap w'.heap g g' m.node m.edge ∧
      (∀ n ∈ graphNodes w'.heap g', nodeLook w' n = none) ∧
      (∀ es, graphEdges w.heap g = .ok es → ∀ e ∈ es,
        (edgeLook w' (m.edge e)).map EdgeStyle.attributes = (edgeLook w e).map EdgeStyle.attributes ∧
        edgeLook w' (m.edge e) = (edgeLook w e).map (fun s => { s with textAuto := none }) ∧
        ∀ f st, f < w.heap.nE → (w'.heap.edge (m.edge e)).style = some st → (w'.heap.edge f).style ≠ some st) ∧
      (∀ n, n < w.heap.nN → nodeLook w' n = nodeLook w n) ∧ (∀ e, e < w.heap.nE → edgeLook w' e = edgeLook w e) := by
  obtain ⟨r, F, -⟩ := C79_sessions s
  obtain ⟨A, H⟩ := r.hist
  obtain ⟨m, h', hr, P⟩ := run_graphCopy H.rep hg hst
  obtain ⟨g1, m1, h1, hr1, -, -, -, hC⟩ := C31_copy r hg hst
  rw [hr] at hr1
  cases hr1
  have D := graphCopy_dye H.rep hr
  have old : ∀ f, f < w.heap.nE → edgeLook ({ w with heap := h', es := m.dye w.es, display := upd w.display w.heap.nG none } : World C) f =
      edgeLook w f := by
    intro f hf
    simp only [edgeLook, P.edgeOld f hf]
    cases hs : (w.heap.edge f).style with
    | none => rfl
    | some st => simp [D.dye_old w.es (F.edge f st hs)]
  refine ⟨w.heap.nG, m, { w with heap := h', es := m.dye w.es, display := upd w.display w.heap.nG none }, ?_, hC, ?_, ?_, ?_, old⟩
  · simp [copyWorld, W.undisplayed, hr]
  · intro n hn
    have hn : n ∈ graphNodes h' w.heap.nG := hn
    rw [hC.nodes] at hn
    obtain ⟨k, hk, rfl⟩ := List.mem_map.1 hn
    have : k ∈ dkeys m.nodes := (P.nodeKeys k).2 ((mem_graphNodes H.rep).1 hk)
    simp only [nodeLook, (P.nodeNew k this).2.2, hst k hk, Option.map_none]
  · intro es hes e he
    obtain ⟨es', he', -, hl, -⟩ := C11_edges r g
    rw [hes] at he'
    cases he'
    have hk : e ∈ dkeys m.edges := (P.edgeKeys e).2 ((liveEdge_iff H.rep).1 ((hl e).1 he))
    obtain ⟨e', hd⟩ : ∃ e', dget m.edges e = some e' := by
      cases hd : dget m.edges e with
      | none => exact absurd hk (dget_none.1 hd)
      | some e' => exact ⟨e', rfl⟩
    have hm : m.edge e = e' := by simp [Memo.edge, hd]
    rw [hm]
    rcases D.edge e e' hd with ⟨h1, h2⟩ | ⟨st, st', h1, h2, h3⟩
    · refine ⟨by simp only [edgeLook, h1, h2, Option.map_none], by simp only [edgeLook, h1, h2, Option.map_none], fun f t _ ht => ?_⟩
      simp only [h2] at ht
      cases ht
    · refine ⟨by simp only [edgeLook, h1, h3, Option.map_some, D.dye_copy w.es h2]; rfl,
        by simp only [edgeLook, h1, h3, Option.map_some, D.dye_copy w.es h2], fun f t hf ht => ?_⟩
      simp only [h3] at ht
      cases ht
      simp only [P.edgeOld f hf]
      intro hc
      exact absurd (F.edge f st' hc) (Nat.not_lt.2 (D.style st st' h2).1)
  · intro n hn
    simp only [nodeLook, P.nodeOld n hn]

omit [Palette C] [DecidableEq C] in
/-- **C81**, violated: a graph with a styled node cannot be copied. -/
theorem C81_violated {w : World C} {g : GRef} {n : NRef} (hn : n ∈ graphNodes w.heap g) (hs : (w.heap.node n).style ≠ none) :
    (copyWorld g w).1 = .error .keyError := by
  have hs : ((dvals (w.heap.graph g).nodes).any fun n => (w.heap.node n).style.isSome) = true :=
    List.any_eq_true.2 ⟨n, hn, Option.isSome_iff_ne_none.2 hs⟩
  simp [copyWorld, W.undisplayed, graphCopy, M.bind_apply, M.look_apply, hs]

/-! ## Examples and counterexamples -/

/-- Run a list of calls one after the other. -/
def runCalls (w : World C) (l : List (Call C)) : World C := l.foldl (fun w c => c.step w) w

/-- All calls of the list are allowed in a session when their turn comes. -/
def CallsOk : World C → List (Call C) → Prop
  | _, [] => True
  | w, c :: l => c.Ok w ∧ CallsOk (c.step w) l

/-- All calls of the list hand on no style. -/
def CallsPrivate : World C → List (Call C) → Prop
  | _, [] => True
  | w, c :: l => c.Private w ∧ CallsPrivate (c.step w) l

theorem Session.run {w : World C} (s : Session w) {l : List (Call C)} (ok : CallsOk w l) : Session (runCalls w l) := by
  induction l generalizing w with
  | nil => exact s
  | cons c l ih => exact ih (s.step c ok.1) ok.2

theorem PrivateSession.run {w : World C} (s : PrivateSession w) {l : List (Call C)} (ok : CallsOk w l) (pr : CallsPrivate w l) :
    PrivateSession (runCalls w l) := by
  induction l generalizing w with
  | nil => exact s
  | cons c l ih => exact ih (s.step c ok.1 pr.1) ok.2 pr.2

omit [DecidableEq C] in
theorem okCall {w : World C} {c : Call C} (plain : ∀ op, c ≠ .plain op) (graphs : ∀ g ∈ c.graphs, g < w.heap.nG)
    (styles : ∀ s, .obj s ∉ c.styles) (shuffles : c.Shuffles) : c.Ok w :=
  ⟨fun op h => absurd h (plain op), graphs, fun s h => absurd h (styles s), shuffles⟩

/-- Two graphs, with styles for a node and an edge of the first and an edge of the second. -/
def duoCalls : List (Call Rat) :=
  [.newGraph { scheme := some [0, 1 / 2], display := plainDisplay },
   .addNode 0 (.str "a") { style := .dict [.colour 1] },
   .addNode 0 (.str "b") {},
   .connect 0 (.key (.str "a")) (.key (.str "b")) { style := .dict [.colour (1 / 2)] },
   .newGraph { scheme := some [1], display := plainDisplay },
   .addNode 1 (.str "a") {},
   .addNode 1 (.str "c") {},
   .connect 1 (.key (.str "a")) (.key (.str "c")) { style := .dict [.colour 0] },
   .plain (.nodeValue 1 (.int 5))]

def duoWorld : World Rat := runCalls World.init duoCalls

theorem duoCalls_fine : CallsOk World.init duoCalls ∧ CallsPrivate World.init duoCalls := by
  refine ⟨?_, ?_⟩
  · simp only [duoCalls, CallsOk]
    refine ⟨?_, ?_, ?_, ?_, ?_, ?_, ?_, ?_, ?_, trivial⟩
    case refine_9 =>
      refine ⟨?_, by decide +kernel, ?_, trivial⟩
      · intro op h
        cases h
        simp [Op.Plain, Op.style, Op.Ok]
      · simp [Call.styles, Op.style]
    all_goals
      exact okCall (by simp) (by decide +kernel) (by simp [Call.styles, NodeStyleArg.plain, EdgeStyleArg.plain]) trivial
  · simp only [duoCalls, CallsPrivate]
    refine ⟨?_, ?_, ?_, ?_, ?_, ?_, ?_, ?_, ?_, trivial⟩ <;>
      exact ⟨by simp [Call.styles, NodeStyleArg.plain, EdgeStyleArg.plain, Op.style], by simp [Call.sources]⟩

theorem duoWorld_private : PrivateSession duoWorld := PrivateSession.init.run duoCalls_fine.1 duoCalls_fine.2

/-- The hypotheses of `C81_copy_partial` are met for the second graph, with an edge that has a style. -/
example : Session duoWorld ∧ (1 : GRef) < duoWorld.heap.nG ∧ (∀ n ∈ graphNodes duoWorld.heap 1, (duoWorld.heap.node n).style = none) ∧
    graphEdges duoWorld.heap 1 = .ok [1] ∧ (duoWorld.heap.edge 1).style = some 2 ∧ (duoWorld.es 2).colour = 0 ∧
    0 ∈ graphNodes duoWorld.heap 0 ∧ (duoWorld.heap.node 0).style = some 0 :=
  ⟨duoWorld_private.session, by decide +kernel, by decide +kernel, by decide +kernel, by decide +kernel, by decide +kernel,
    by decide +kernel, by decide +kernel⟩

/-- A copy of the second graph is made, the second graph is rendered, and the copy cannot be. -/
def laterCalls : List (Call Rat) := [.copy 1, .render 10 id 1 {}, .stylize 10 id 2]

theorem laterCalls_fine : CallsOk duoWorld laterCalls ∧ CallsPrivate duoWorld laterCalls := by
  refine ⟨?_, ?_⟩
  · simp only [laterCalls, CallsOk]
    exact ⟨okCall (by simp) (by decide +kernel) (by simp [Call.styles]) trivial,
      okCall (by simp) (by decide +kernel) (by simp [Call.styles]) (fun _ => .refl _),
      okCall (by simp) (by decide +kernel) (by simp [Call.styles]) (fun _ => .refl _), trivial⟩
  · simp only [laterCalls, CallsPrivate]
    refine ⟨?_, ?_, ?_, trivial⟩ <;> exact ⟨by simp [Call.styles], by simp [Call.sources]⟩

theorem later_private : PrivateSession (runCalls duoWorld laterCalls) := duoWorld_private.run laterCalls_fine.1 laterCalls_fine.2

/-- All styles are different in the end. -/
example : let w := runCalls duoWorld laterCalls
    (w.heap.node 0).style = some 0 ∧ (w.heap.edge 0).style = some 1 ∧ (w.heap.edge 1).style = some 2 ∧ (w.heap.edge 2).style = some 3 ∧
    (w.heap.node 2).style = some 4 ∧ (w.heap.node 3).style = some 5 ∧ (w.heap.node 4).style = none := by
  decide +kernel

/-- A graph with a styled node, and another one made of it with a setting for that node. -/
def spreadCalls : List (Call Rat) :=
  [.newGraph { scheme := some [], display := { plainDisplay with label := some "" } },
   .addNode 0 (.str "a") { style := .dict [.colour 1] },
   .ofGraph { scheme := none, display := plainDisplay } 0,
   .append 1 { nodes := some (.list []), edges := some [], nodeStyles := [(.str "a", [.colour 0, .fill (some 0)])] }]

def spreadWorld : World Rat := runCalls World.init spreadCalls

theorem spreadWorld_session : Session spreadWorld ∧ ∀ c ∈ spreadCalls, ∀ s, .obj s ∉ c.styles := by
  refine ⟨Session.init.run ?_, ?_⟩
  · simp only [spreadCalls, CallsOk]
    refine ⟨?_, ?_, ?_, ?_, trivial⟩ <;>
      exact okCall (by simp) (by decide +kernel)
        (by simp [Call.styles, NodeStyleArg.plain, GraphDict.styles, NodesEntry.specs]) trivial
  · simp [spreadCalls, Call.styles, NodeStyleArg.plain, GraphDict.styles, NodesEntry.specs]

/-- **C79 is violated**: without any call that gets a style object, a node of a graph and a node of the graph made of it have the same. -/
theorem C79_violated : ∃ (l : List (Call Rat)) (w : World Rat), (∀ c ∈ l, ∀ s, .obj s ∉ c.styles) ∧ w = runCalls World.init l ∧
    Session w ∧ ∃ n m, n ∈ graphNodes w.heap 0 ∧ m ∈ graphNodes w.heap 1 ∧ n ≠ m ∧
    (w.heap.node n).style = (w.heap.node m).style ∧ (w.heap.node n).style ≠ none :=
  ⟨spreadCalls, spreadWorld, spreadWorld_session.2, rfl, spreadWorld_session.1, 0, 1, by decide +kernel, by decide +kernel, by decide, by decide +kernel, by decide +kernel⟩

/-- **C80 is violated** then: `stylize` of the second graph changes the colour of the node of the first. -/
theorem C80_violated : ∃ w : World Rat, Session w ∧ (0 : NRef) ∈ graphNodes w.heap 0 ∧ (0 : NRef) ∉ graphNodes w.heap 1 ∧
    (stylize 10 id 1 w).1 = .ok () ∧ (nodeLook w 0).map (·.colour) = some 1 ∧
    (nodeLook (stylize 10 id 1 w).2 0).map (·.colour) = some 0 :=
  ⟨spreadWorld, spreadWorld_session.1, by decide +kernel, by decide +kernel, by decide +kernel, by decide +kernel, by decide +kernel⟩

end Verif
