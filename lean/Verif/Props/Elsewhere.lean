import Verif.Props.Session
import Verif.Props.Owned
/-!
# C96: what is done with one graph changes nothing of another, its picture included
-/
namespace Verif
open Palette

/-! ## The picture depends on the graph only -/

namespace Rep
variable {h : Heap} {A : Spec}

/-- `edges` of a registered graph, without comparisons. -/
theorem graphEdges_eq (R : Rep h A) (g : GRef) :
    Verif.graphEdges h g = .ok ((Verif.graphNodes h g).foldl (fun acc n =>
      dedupInto acc (dedupInto (dedupInto [] (dvals (h.node n).outE)) (dvals (h.node n).inE))) []) := by
  have key : ∀ (ns : List NRef) (acc : List ERef), (∀ n ∈ ns, n ∈ Verif.graphNodes h g) → (∀ e ∈ acc, e ∈ (A.graph g).handles) →
      ns.foldlM (fun result n => do
        let es ← Verif.nodeEdges h n
        dedupEdges h es result) acc = .ok (ns.foldl (fun acc n =>
          dedupInto acc (dedupInto (dedupInto [] (dvals (h.node n).outE)) (dvals (h.node n).inE))) acc) := by
    intro ns
    induction ns with
    | nil => exact fun _ _ _ => rfl
    | cons n ns ih =>
      intro acc hns hacc
      obtain ⟨k, hk⟩ := (mem_graphNodes R).1 (hns n (by simp))
      have ho : ∀ x ∈ dvals (h.node n).outE, x ∈ (A.graph g).handles := by
        rw [R.outE g k n hk]; exact out_handles
      have hi : ∀ x ∈ dvals (h.node n).inE, x ∈ (A.graph g).handles := by
        rw [R.inE g k n hk]; exact inn_handles
      have h1 : ∀ x ∈ dedupInto [] (dvals (h.node n).outE), x ∈ (A.graph g).handles := fun x hx => by
        rcases (mem_dedupInto _ _ _).1 hx with h | h
        · simp at h
        · exact ho x h
      have h2 : ∀ x ∈ dedupInto (dedupInto [] (dvals (h.node n).outE)) (dvals (h.node n).inE), x ∈ (A.graph g).handles := fun x hx => by
        rcases (mem_dedupInto _ _ _).1 hx with h | h
        · exact h1 x h
        · exact hi x h
      have hne : Verif.nodeEdges h n = .ok (dedupInto (dedupInto [] (dvals (h.node n).outE)) (dvals (h.node n).inE)) := by
        unfold Verif.nodeEdges
        rw [R.dedup_live ho (by simp)]
        exact R.dedup_live hi h1
      simp only [List.foldlM_cons, List.foldl_cons, hne]
      show (dedupEdges h _ acc >>= fun s' => _) = _
      rw [R.dedup_live h2 hacc]
      refine ih _ (fun m hm => hns m (by simp [hm])) fun x hx => ?_
      rcases (mem_dedupInto _ _ _).1 hx with h | h
      · exact hacc x h
      · exact h2 x h
  exact key _ [] (fun _ h => h) (by simp)
end Rep

theorem Untouched.graphEdges {h h' : Heap} (r : Reachable h) (r' : Reachable h') {g : GRef} (u : Untouched h h' g) :
    Verif.graphEdges h' g = Verif.graphEdges h g := by
  obtain ⟨A, H⟩ := r.hist
  obtain ⟨B, H'⟩ := r'.hist
  rw [H.rep.graphEdges_eq, H'.rep.graphEdges_eq, u.graphNodes]
  have : ∀ (ns : List NRef) (acc : List ERef), (∀ n ∈ ns, n ∈ Verif.graphNodes h g) →
      ns.foldl (fun acc n => dedupInto acc (dedupInto (dedupInto [] (dvals (h'.node n).outE)) (dvals (h'.node n).inE))) acc =
      ns.foldl (fun acc n => dedupInto acc (dedupInto (dedupInto [] (dvals (h.node n).outE)) (dvals (h.node n).inE))) acc := by
    intro ns
    induction ns with
    | nil => exact fun _ _ => rfl
    | cons n ns ih =>
      intro acc hns
      simp only [List.foldl_cons, u.nodes n (hns n (by simp))]
      exact ih _ fun m hm => hns m (by simp [hm])
  rw [this _ [] fun _ h => h]

section
variable {C : Type} [Palette C]

/-- The source of a graph depends on its nodes, its edges and its settings only. -/
theorem Aside.graphvizStr {w w' : World C} (r : Reachable w.heap) (r' : Reachable w'.heap) {g : GRef} (A : Aside g w w') (a : DrawArgs) :
    Verif.graphvizStr w' g a = Verif.graphvizStr w g a := by
  have part : ∀ {α β : Type} {f f' : α → Except PyErr β} {l : List α}, (∀ x ∈ l, f' x = f x) → mapE f' l = mapE f l := by
    intro α β f f' l h
    induction l with
    | nil => rfl
    | cons x l ih => simp only [mapE, h x (by simp), ih fun y hy => h y (by simp [hy])]
  have hdis : displayOf w' (some g) = displayOf w (some g) := by simp [displayOf, A.display]
  have nodes : mapE (nodeGraphvizStr w') (graphNodes w.heap g) = mapE (nodeGraphvizStr w) (graphNodes w.heap g) := by
    refine part fun n hm => ?_
    have h1 := A.heap.nodes n hm
    have h2 := A.nodes n hm
    have h3 : nodeStylePart w' n = nodeStylePart w n := by
      unfold nodeLook at h2
      unfold nodeStylePart
      rw [h1] at h2 ⊢
      cases hs : (w.heap.node n).style with
      | none => rfl
      | some st => rw [hs] at h2; simp at h2; simp [h2]
    have h4 : displayOf w' (w.heap.node n).graph = displayOf w (w.heap.node n).graph := by
      rcases C12_either r hm with h | h
      · rw [h, hdis]
      · rw [h]; rfl
    simp only [nodeGraphvizStr, nodeDisplayLabel, nodeLabel, h1, h3, h4]
  unfold Verif.graphvizStr
  rw [A.heap.graphNodes, A.heap.graphEdges r r', nodes]
  cases hes : graphEdges w.heap g with
  | error e => rfl
  | ok es =>
    have edges : mapE (edgeGraphvizStr w') es = mapE (edgeGraphvizStr w) es := by
      refine part fun e hm => ?_
      obtain ⟨es', he', -, hl, -⟩ := C11_edges r g
      rw [hes] at he'
      cases he'
      have hlive : LiveEdge w.heap g e := (hl e).1 hm
      have h1 := A.heap.edges e hlive
      have h2 := A.edges e hlive
      have h3 : edgeStylePart w' e = edgeStylePart w e := by
        unfold edgeLook at h2
        unfold edgeStylePart
        rw [h1] at h2 ⊢
        cases hs : (w.heap.edge e).style with
        | none => rfl
        | some st => rw [hs] at h2; simp at h2; simp [h2]
      have h4 : displayOf w' (w.heap.edge e).graph = displayOf w (w.heap.edge e).graph := by
        rw [edge_home r hes hm, hdis]
      obtain ⟨B, H⟩ := r.hist
      obtain ⟨i, hi⟩ := (liveEdge_iff H.rep).1 hlive
      obtain ⟨n, m, a1, a2, -, -, -, a6, a7⟩ := H.rep.live_edge hi
      have hn := A.heap.nodes n ((mem_graphNodes H.rep).2 ⟨_, a6⟩)
      have hm := A.heap.nodes m ((mem_graphNodes H.rep).2 ⟨_, a7⟩)
      simp only [edgeGraphvizStr, edgeDisplayLabelOrValue, edgeStart, edgeEnd, h1, h3, h4, a1, a2, bind, Except.bind, hn, hm]
    have header : graphvizHeader w' g a = graphvizHeader w g a := by simp only [graphvizHeader, hdis, A.heap.graph]
    cases mapE (nodeGraphvizStr w) (graphNodes w.heap g) with
    | error e => rfl
    | ok ns => simp only [bind, Except.bind, edges, header]

/-! ## Calls on other graphs -/

variable [DecidableEq C]

/-- **C96.** In any session, any call other than `stylize` and `render` (which `C96_private_partial` is about), however it ends,
changes nothing of a graph it is not a call on: its nodes and edges keep all their attributes and what is in their styles, it
keeps its settings, and its picture is the same. -/
theorem C96_call {w : World C} (s : Session w) {c : Call C} (ok : c.Ok w) (hp : ¬ c.Paints) {g : GRef} (hg : g < w.heap.nG)
    (hno : ¬ c.on w g) :
    Untouched w.heap (c.step w).heap g ∧
    (∀ n ∈ graphNodes w.heap g, nodeLook (c.step w) n = nodeLook w n) ∧
    (∀ e, LiveEdge w.heap g e → edgeLook (c.step w) e = edgeLook w e) ∧
    (c.step w).display g = w.display g ∧
    ∀ a, graphvizStr (c.step w) g a = graphvizStr w g a := by
  have A := s.sound.call_aside c ok (fun h => h.elim) (fun h => h.elim) (fun h => absurd h hp) hg hno
  exact ⟨A.heap, A.nodes, A.edges, A.display, A.graphvizStr s.sound.reach (s.step c ok).sound.reach⟩

/-- **C96**, for all calls, `stylize` and `render` included, in any session: the nodes and edges of a graph the call is not a call on
keep all their attributes, and the graph keeps its settings. Only what is in style objects that are shared may change. -/
theorem C96_objects {w : World C} (s : Session w) {c : Call C} (ok : c.Ok w) {g : GRef} (hg : g < w.heap.nG) (hno : ¬ c.on w g) :
    Untouched w.heap (c.step w).heap g ∧ (c.step w).display g = w.display g :=
  s.sound.call_untouched c ok (fun h => h.elim) (fun h => h.elim) hg hno

/-- **C96**, for sessions in which no style object is passed on: any call, `stylize` and `render` included.
Missing for the full property: sessions in which style objects are passed on (`C96_violated`). -/
theorem C96_private_partial {w : World C} (s : PrivateSession w) {c : Call C} (ok : c.Ok w) (pr : c.Private w) {g : GRef}
    (hg : g < w.heap.nG) (hno : ¬ c.on w g) :
    Untouched w.heap (c.step w).heap g ∧
    (∀ n ∈ graphNodes w.heap g, nodeLook (c.step w) n = nodeLook w n) ∧
    (∀ e, LiveEdge w.heap g e → edgeLook (c.step w) e = edgeLook w e) ∧
    (c.step w).display g = w.display g ∧
    ∀ a, graphvizStr (c.step w) g a = graphvizStr w g a := by
  have A := s.sound.call_aside c ok (fun _ => pr) (fun h => h.elim) (fun _ => trivial) hg hno
  exact ⟨A.heap, A.nodes, A.edges, A.display, A.graphvizStr s.sound.reach (s.step c ok pr).sound.reach⟩

/-- None of the calls is, when its turn comes, a call on graph `g`. -/
def NoCallOn (g : GRef) : World C → List (Call C) → Prop
  | _, [] => True
  | w, c :: l => ¬ c.on w g ∧ NoCallOn g (c.step w) l

theorem Sound.call_more {p : Promise} {w : World C} (S : Sound p w) (c : Call C) (ok : c.Ok w) (pr : p.noObj → c.Private w)
    (nr : p.noAdd → c.NoReadd) : w.heap.nG ≤ (c.step w).heap.nG := by
  by_cases hp : c.Paints
  · cases c with
    | stylize lim shuffle g => exact Nat.le_of_eq (congrArg (fun h => h.nG) (Silent.stylize (C := C) lim shuffle g w S.made).shape : (strip w.heap).nG = _)
    | render lim shuffle g a =>
      have : Silent (Verif.render lim shuffle g a : W C String) :=
        (Silent.display g).bind fun _ => (Silent.stylize lim shuffle g).bind fun _ => .ask _
      exact Nat.le_of_eq (congrArg (fun h => h.nG) (this w S.made).shape : (strip w.heap).nG = _)
    | _ => exact hp.elim
  · exact (S.call_loose c ok pr nr hp).graphs

/-- **C96**: hence the picture of a graph is the same after any list of calls on other graphs, be they successful or not. -/
theorem C96_calls_partial {w : World C} (s : PrivateSession w) {l : List (Call C)} (ok : CallsOk w l) (pr : CallsPrivate w l) {g : GRef}
    (hg : g < w.heap.nG) (hno : NoCallOn g w l) (a : DrawArgs) : graphvizStr (runCalls w l) g a = graphvizStr w g a := by
  induction l generalizing w with
  | nil => rfl
  | cons c l ih =>
    have h1 := (C96_private_partial s ok.1 pr.1 hg hno.1).2.2.2.2 a
    have h2 := s.sound.call_more c ok.1 (fun _ => pr.1) (fun h => h.elim)
    exact (ih (s.step c ok.1 pr.1) ok.2 pr.2 (Nat.lt_of_lt_of_le hg h2) hno.2).trans h1

/-! ## Which nodes know their graph -/

/-- **C12**: in every session in which no node object is given to `add_node`, every node knows the graph it is in. -/
theorem C12_session_partial {w : World C} (s : OwnedSession w) :
    ∀ g, ∀ n ∈ graphNodes w.heap g, (w.heap.node n).graph = some g := s.sound.known trivial

end

/-- **C96 is violated** when a graph with styles is made of another one: `stylize` of the second changes the picture of the first. -/
theorem C96_violated : ∃ w : World Rat, Session w ∧ ¬ (Call.stylize 10 id 1 : Call Rat).on w 0 ∧
    (Call.stylize 10 id 1 : Call Rat).Ok w ∧
    graphvizStr ((Call.stylize 10 id 1 : Call Rat).step w) 0 {} ≠ graphvizStr w 0 {} :=
  ⟨spreadWorld, spreadWorld_session.1, by simp [Call.on],
    okCall (by simp) (by decide +kernel) (by simp [Call.styles]) (fun _ => .refl _), by decide +kernel⟩

end Verif
