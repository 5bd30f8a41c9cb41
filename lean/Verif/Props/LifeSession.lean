import Verif.Props.Life
import Verif.Props.Session
/-!
# C14, C15, C59, C131 and C132 in sessions: sums, dictionaries, drawings and styles included
-/
namespace Verif
open Palette

theorem Lasting.edge_gone {U : NRef → Prop} {V : ERef → Prop} {h h' : Heap} (L : Lasting U V h h') (r : Reachable h) (r' : Reachable h') {e : ERef} (hlt : e < h.nE)
    (he : ∀ g, ¬ LiveEdge h g e) : ∀ g, ¬ LiveEdge h' g e := by
  intro g' hl
  obtain ⟨A, H⟩ := r.hist
  have R := H.rep
  obtain ⟨A', H'⟩ := r'.hist
  have R' := H'.rep
  obtain ⟨⟨x, y, i⟩, hi⟩ := (liveEdge_iff R').1 hl
  obtain ⟨-, hc, -, hraw, n, m, -, -, h3, h4⟩ := R'.edgeOk g' x y i e hi
  have a : (h.edge e).start = some n := by
    rcases L.start e hlt with d | d
    · rw [← d, h3]
    · rw [d] at h3; cases h3
  have b : (h.edge e).stop = some m := by
    rcases L.stop e hlt with d | d
    · rw [← d, h4]
    · rw [d] at h4; cases h4
  have c : (h.edge e).raw ≠ .cleared := by
    rcases L.raw e hlt with d | d
    · rw [← d, hraw]; exact hc
    · rw [d] at hraw; exact absurd hraw.symm hc
  obtain ⟨g, hg⟩ := R.live e n m a b c
  exact he g ((liveEdge_iff R).2 ⟨_, hg⟩)

theorem Lasting.edge_lives {U : NRef → Prop} {V : ERef → Prop} {h h' : Heap} (L : Lasting U V h h') (r : Reachable h) (r' : Reachable h') {g g' : GRef} {e : ERef}
    (he : LiveEdge h g e) (he' : LiveEdge h' g' e) :
    g' = g ∧ edgeStart h' e = edgeStart h e ∧ edgeEnd h' e = edgeEnd h e ∧ edgeId h' e = edgeId h e ∧
    (h'.edge e).tooltip = (h.edge e).tooltip := by
  obtain ⟨A, H⟩ := r.hist
  have R := H.rep
  obtain ⟨⟨x, y, i⟩, hi⟩ := (liveEdge_iff R).1 he
  obtain ⟨hlt, -, hg, hr, n, m, h1, h2, h3, h4⟩ := R.edgeOk g x y i e hi
  obtain ⟨A', H'⟩ := r'.hist
  have R' := H'.rep
  obtain ⟨⟨x', y', i'⟩, hi'⟩ := (liveEdge_iff R').1 he'
  obtain ⟨-, hc', hg', hr', n', m', -, -, h3', h4'⟩ := R'.edgeOk g' x' y' i' e hi'
  have a : (h'.edge e).start = (h.edge e).start := by
    rcases L.start e hlt with d | d
    · exact d
    · rw [d] at h3'; cases h3'
  have b : (h'.edge e).stop = (h.edge e).stop := by
    rcases L.stop e hlt with d | d
    · exact d
    · rw [d] at h4'; cases h4'
  have c : (h'.edge e).raw = (h.edge e).raw := by
    rcases L.raw e hlt with d | d
    · exact d
    · rw [d] at hr'; exact absurd hr'.symm hc'
  refine ⟨?_, by simp only [edgeStart, a], by simp only [edgeEnd, b], ?_, L.tooltip e hlt⟩
  · rcases L.home e hlt with d | d
    · rw [d, hg] at hg'; cases hg'; rfl
    · rw [d] at hg'; cases hg'
  · simp only [edgeId, a, b, c, h3, h4, (L.id n (R.nodeOk g x n h1).1).1, (L.id m (R.nodeOk g y m h2).1).1]

variable {C : Type} [Palette C] [DecidableEq C]

theorem Session.lasting_but {w : World C} (s : Session w) {l : List (Call C)} (ok : CallsOk w l) {U : NRef → Prop} {V : ERef → Prop}
    (hU : ∀ n, .plain (.nodeFreeze n false) ∈ l → U n) (hV : ∀ e, .plain (.edgeFreeze e false) ∈ l → V e) :
    Lasting U V w.heap (runCalls w l).heap := by
  induction l generalizing w with
  | nil => exact .refl _
  | cons c l ih =>
    refine Lasting.trans ((s.sound.thaw U V).call_same c ok.1 (fun h => h.elim) (fun h => h.elim) ?_)
      (ih (s.step c ok.1) ok.2 (fun n h => hU n (by simp [h])) (fun e h => hV e (by simp [h])))
    rintro op rfl
    refine ⟨fun n h => ?_, fun e h => ?_⟩
    · cases op with
      | nodeFreeze m b =>
        cases b with
        | true => exact False.elim h
        | false => simp only [Grows.unfreezesNode] at h; subst h; exact hU _ (by simp)
      | _ => exact False.elim h
    · cases op with
      | edgeFreeze m b =>
        cases b with
        | true => exact False.elim h
        | false => simp only [Grows.unfreezesEdge] at h; subst h; exact hV _ (by simp)
      | _ => exact False.elim h

theorem Session.lasting {w : World C} (s : Session w) {l : List (Call C)} (ok : CallsOk w l) :
    Lasting (fun _ => True) (fun _ => True) w.heap (runCalls w l).heap :=
  s.lasting_but ok (fun _ _ => trivial) (fun _ _ => trivial)

/-- **C14** in sessions: whatever is called, sums, `append`, `stylize` and `render` included, a frozen node stays frozen and keeps its
value until `unfreeze` is called on it, and so does a frozen edge. -/
theorem C14_session {w : World C} (s : Session w) {l : List (Call C)} (ok : CallsOk w l) :
    (∀ n, n < w.heap.nN → (w.heap.node n).frozen = true → .plain (.nodeFreeze n false) ∉ l →
      ((runCalls w l).heap.node n).frozen = true ∧ ((runCalls w l).heap.node n).value = (w.heap.node n).value) ∧
    (∀ e, e < w.heap.nE → (w.heap.edge e).frozen = true → .plain (.edgeFreeze e false) ∉ l →
      ((runCalls w l).heap.edge e).frozen = true ∧ ((runCalls w l).heap.edge e).value = (w.heap.edge e).value) := by
  refine ⟨fun n hn hf hno => ?_, fun e he hf hno => ?_⟩
  · exact (s.lasting_but ok (U := fun m => m ≠ n) (V := fun _ => True) (fun m hm e => hno (e ▸ hm)) fun _ _ => trivial).nfrozen n hn
      (fun h => h rfl) hf
  · exact (s.lasting_but ok (U := fun _ => True) (V := fun f => f ≠ e) (fun _ _ => trivial) fun f hm c => hno (c ▸ hm)).efrozen e he
      (fun h => h rfl) hf

/-- **C59** in sessions: `style_overwrite_allowed` of a graph is what it was when the graph was made, whatever is called. -/
theorem C59_session {w : World C} (s : Session w) {l : List (Call C)} (ok : CallsOk w l) {g : GRef} (hg : g < w.heap.nG) :
    ((runCalls w l).heap.graph g).overwrite = (w.heap.graph g).overwrite := ((s.lasting ok).opts g hg).2

/-- **C15** in sessions: a node of a graph with `style_overwrite_allowed=False` that has a style keeps this style object, whatever is
called, `stylize`, `render` and `append` included, and so does an edge. -/
theorem C15_session {w : World C} (s : Session w) {l : List (Call C)} (ok : CallsOk w l) {g : GRef} (hg : g < w.heap.nG)
    (hov : (w.heap.graph g).overwrite = some false) :
    (∀ n st, n < w.heap.nN → (w.heap.node n).graph = some g → (w.heap.node n).style = some st →
      ((runCalls w l).heap.node n).style = some st) ∧
    (∀ e st, e < w.heap.nE → (w.heap.edge e).graph = some g → (w.heap.edge e).style = some st →
      ((runCalls w l).heap.edge e).style = some st) := by
  have L := s.lasting ok
  have key : ∀ st, Locked w.heap (some g) (some st) := fun st => ⟨by simp, fun g' e => by cases e; exact ⟨hg, by simp [hov]⟩⟩
  refine ⟨fun n st hn h1 h2 => ?_, fun e st he h1 h2 => ?_⟩
  · rw [L.nstyle n hn (by rw [h1, h2]; exact key st), h2]
  · rw [L.estyle e he (by rw [h1, h2]; exact key st), h2]

theorem runCalls_append (pre post : List (Call C)) (w : World C) :
    runCalls w (pre ++ post) = runCalls (runCalls w pre) post ∧ (CallsOk w (pre ++ post) ↔ CallsOk w pre ∧ CallsOk (runCalls w pre) post) := by
  induction pre generalizing w with
  | nil => simp [runCalls, CallsOk]
  | cons c pre ih =>
    obtain ⟨h1, h2⟩ := ih (c.step w)
    exact ⟨h1, by simp only [List.cons_append, CallsOk]; rw [h2, and_assoc]; rfl⟩

/-- **C132** for nodes, whatever is called in a session: graphs made of dictionaries and of graphs, sums, `stylize`, `render`, copies
and filters included. -/
theorem C132_session_node {w : World C} (s : Session w) {l : List (Call C)} (ok : CallsOk w l) {n m : NRef} (hn : n < w.heap.nN)
    (hm : m < w.heap.nN) :
    ((runCalls w l).heap.node n).id = (w.heap.node n).id ∧ ((runCalls w l).heap.node n).index = (w.heap.node n).index ∧
    ((runCalls w l).heap.node n).tooltip = (w.heap.node n).tooltip ∧
    nodeEq (runCalls w l).heap n m = nodeEq w.heap n m ∧ nodeNe (runCalls w l).heap n m = nodeNe w.heap n m ∧
    nodeLt (runCalls w l).heap n m = nodeLt w.heap n m ∧ nodeLe (runCalls w l).heap n m = nodeLe w.heap n m ∧
    nodeGt (runCalls w l).heap n m = nodeGt w.heap n m ∧ nodeGe (runCalls w l).heap n m = nodeGe w.heap n m ∧
    ((w.heap.node n).graph = none → ((runCalls w l).heap.node n).graph = none) ∧
    ∀ g, ((runCalls w l).heap.node n).graph = some g → (w.heap.node n).graph = some g := by
  have L := s.lasting ok
  obtain ⟨a1, a2, a3⟩ := L.id n hn
  obtain ⟨b1, b2, -⟩ := L.id m hm
  refine ⟨a1, a2, a3, ?_, ?_, ?_, ?_, ?_, ?_, fun c => ?_, fun g c => ?_⟩
  iterate 6 simp only [nodeEq, nodeNe, nodeLt, nodeLe, nodeGt, nodeGe, a1, a2, b1, b2]
  · rcases L.graph n hn with d | d
    · rw [d, c]
    · exact d
  · rcases L.graph n hn with d | d
    · rw [← d, c]
    · rw [d] at c; cases c

/-- **C132**: an edge object that is in no graph never is in a graph again, whatever is called in a session. -/
theorem C132_session_edge_gone {w : World C} (s : Session w) {l : List (Call C)} (ok : CallsOk w l) {e : ERef} (hlt : e < w.heap.nE)
    (he : ∀ g, ¬ LiveEdge w.heap g e) : ∀ g, ¬ LiveEdge (runCalls w l).heap g e :=
  (s.lasting ok).edge_gone s.sound.reach (s.run ok).sound.reach hlt he

/-- **C132** for edges, whatever is called in a session. -/
theorem C132_session_edge {w : World C} (s : Session w) {l : List (Call C)} (ok : CallsOk w l) {g g' : GRef} {e : ERef}
    (he : LiveEdge w.heap g e) (he' : LiveEdge (runCalls w l).heap g' e) :
    g' = g ∧ edgeStart (runCalls w l).heap e = edgeStart w.heap e ∧ edgeEnd (runCalls w l).heap e = edgeEnd w.heap e ∧
    edgeId (runCalls w l).heap e = edgeId w.heap e ∧ ((runCalls w l).heap.edge e).tooltip = (w.heap.edge e).tooltip ∧
    ∀ pre post, l = pre ++ post → LiveEdge (runCalls w pre).heap g e := by
  obtain ⟨c1, c2, c3, c4, c5⟩ := (s.lasting ok).edge_lives s.sound.reach (s.run ok).sound.reach he he'
  refine ⟨c1, c2, c3, c4, c5, ?_⟩
  rintro pre post rfl
  obtain ⟨e1, e2⟩ := runCalls_append pre post w
  obtain ⟨ok1, ok2⟩ := e2.1 ok
  have : ∃ g2, LiveEdge (runCalls w pre).heap g2 e := by
    refine Classical.byContradiction fun hc => ?_
    have lt : e < (runCalls w pre).heap.nE := by
      obtain ⟨A, H⟩ := s.sound.reach.hist
      obtain ⟨⟨x, y, i⟩, hi⟩ := (liveEdge_iff H.rep).1 he
      exact Nat.lt_of_lt_of_le (H.rep.edgeOk g x y i e hi).1 (s.lasting ok1).nE
    refine C132_session_edge_gone (s.run ok1) ok2 lt (fun g2 c => hc ⟨g2, c⟩) g' ?_
    rw [← e1]; exact he'
  obtain ⟨g2, hl⟩ := this
  obtain ⟨rfl, -⟩ := (s.lasting ok1).edge_lives s.sound.reach (s.run ok1).sound.reach he hl
  exact hl

/-- **C131** in sessions: whatever is called, a node prints as it did before, and so does an edge that is still in a graph. -/
theorem C131_session {w : World C} (s : Session w) {l : List (Call C)} (ok : CallsOk w l) :
    (∀ n, n < w.heap.nN → nodeStr (runCalls w l).heap n = nodeStr w.heap n) ∧
    ∀ g g' e, LiveEdge w.heap g e → LiveEdge (runCalls w l).heap g' e →
      edgeStr (runCalls w l).heap e = edgeStr w.heap e ∧ edgeRepr (runCalls w l).heap e = edgeRepr w.heap e := by
  have L := s.lasting ok
  have hn : ∀ n, n < w.heap.nN → nodeStr (runCalls w l).heap n = nodeStr w.heap n := fun n h => by
    simp only [nodeStr, (L.id n h).1]
  refine ⟨hn, fun g g' e he he' => ?_⟩
  obtain ⟨-, a, b, -⟩ := L.edge_lives s.sound.reach (s.run ok).sound.reach he he'
  obtain ⟨A, H⟩ := s.sound.reach.hist
  have R := H.rep
  obtain ⟨⟨x, y, i⟩, hi⟩ := (liveEdge_iff R).1 he
  obtain ⟨-, -, -, -, n, m, h1, h2, h3, h4⟩ := R.edgeOk g x y i e hi
  have : edgeStr (runCalls w l).heap e = edgeStr w.heap e := by
    simp only [edgeStr, a, b]
    simp only [edgeStart, edgeEnd, h3, h4, bind, Except.bind, hn n (R.nodeOk g x n h1).1, hn m (R.nodeOk g y m h2).1]
  exact ⟨this, this⟩

/-- Edge 0 is in graph 0 after the first four calls and after all nine; `C132_session_edge` applies,
and so do `C131_session` and `C59_session`. -/
example : runCalls (runCalls World.init (duoCalls.take 4)) (duoCalls.drop 4) = duoWorld ∧
    Session (runCalls World.init (duoCalls.take 4)) ∧ CallsOk (runCalls World.init (duoCalls.take 4)) (duoCalls.drop 4) ∧
    graphEdges (runCalls World.init (duoCalls.take 4)).heap 0 = .ok [0] ∧ graphEdges duoWorld.heap 0 = .ok [0] ∧
    edgeStr duoWorld.heap 0 = .ok "Edge:Node:a-Node:b" ∧ (0 : GRef) < (runCalls World.init (duoCalls.take 4)).heap.nG := by
  have h := duoCalls_fine.1
  rw [← List.take_append_drop 4 duoCalls] at h
  have h' := (runCalls_append _ _ _).2.1 h
  exact ⟨rfl, Session.init.run h'.1, h'.2, by decide +kernel, by decide +kernel, by decide +kernel, by decide +kernel⟩

/-- Edge 0 is disconnected in a session; the same nodes are connected again, with a new edge of the same id. -/
example :
    let w := (Call.plain (.disconnect 0) : Call Rat).step duoWorld
    let l : List (Call Rat) := [.connect 0 (.key (.str "a")) (.key (.str "b")) { style := .dict [.colour (1 / 2)] }]
    Session w ∧ CallsOk w l ∧ 0 < w.heap.nE ∧ graphEdges w.heap 0 = .ok [] ∧ graphEdges w.heap 1 = .ok [1] ∧
      graphEdges (runCalls w l).heap 0 = .ok [2] ∧ edgeId (runCalls w l).heap 2 = edgeId duoWorld.heap 0 := by
  refine ⟨.step _ (Session.init.run duoCalls_fine.1) ⟨?_, by decide +kernel, ?_, trivial⟩, ⟨?_, trivial⟩, by decide +kernel, by decide +kernel,
    by decide +kernel, by decide +kernel, by decide +kernel⟩
  · intro op h
    cases h
    simp [Op.Plain, Op.style, Op.Ok]
  · simp [Call.styles, Op.style]
  · exact okCall (by simp) (by decide +kernel) (by simp [Call.styles, EdgeStyleArg.plain]) trivial

/-- Node 1 of `duoWorld` is frozen; setting its value fails, and adding a node of the same name does not set it either. -/
example :
    let w := (Call.plain (.nodeFreeze 1 true) : Call Rat).step duoWorld
    let l : List (Call Rat) := [.plain (.nodeValue 1 (.int 7)), .addNode 0 (.str "b") { value := .int 8 }]
    Session w ∧ CallsOk w l ∧ 1 < w.heap.nN ∧ (w.heap.node 1).frozen = true ∧ (w.heap.node 1).value = .int 5 := by
  refine ⟨.step _ (Session.init.run duoCalls_fine.1) ⟨?_, by decide +kernel, ?_, trivial⟩, ⟨⟨?_, by decide +kernel, ?_, trivial⟩, ?_, trivial⟩,
    by decide +kernel, by decide +kernel, by decide +kernel⟩
  · intro op h
    cases h
    simp [Op.Plain, Op.style, Op.Ok]
  · simp [Call.styles, Op.style]
  · intro op h
    cases h
    simp [Op.Plain, Op.style, Op.Ok]
  · simp [Call.styles, Op.style]
  · exact okCall (by simp) (by decide +kernel) (by simp [Call.styles, NodeStyleArg.plain]) trivial

/-- A graph that does not allow to overwrite styles, with a node that has one, and then `stylize` and a new style for the node. -/
example :
    let l : List (Call Rat) := [.newGraph { scheme := some [0, 1 / 2], display := plainDisplay, overwrite := false },
      .addNode 0 (.str "a") { style := .dict [.colour 1] }]
    let w := runCalls World.init l
    let l' : List (Call Rat) := [.stylize 100 id 0, .nodeStyle 0 (.dict [.colour 0])]
    Session w ∧ CallsOk w l' ∧ (0 : GRef) < w.heap.nG ∧ (w.heap.graph 0).overwrite = some false ∧ 0 < w.heap.nN ∧
      (w.heap.node 0).graph = some 0 ∧ (w.heap.node 0).style = some 0 := by
  refine ⟨Session.init.run ⟨?_, ?_, trivial⟩, ⟨?_, ?_, trivial⟩, by decide +kernel, by decide +kernel, by decide +kernel,
    by decide +kernel, by decide +kernel⟩
  · exact okCall (by simp) (by decide +kernel) (by simp [Call.styles]) trivial
  · exact okCall (by simp) (by decide +kernel) (by simp [Call.styles, NodeStyleArg.plain]) trivial
  · exact okCall (by simp) (by decide +kernel) (by simp [Call.styles]) fun _ => .refl _
  · exact okCall (by simp) (by simp [Call.graphs]) (by simp [Call.styles, NodeStyleArg.plain]) trivial

end Verif
