import Verif.Model.GlobalStyle
import Verif.Props.Restyle
/-!
# Style objects as the style of the whole graph (C87)
-/
namespace Verif
open Palette W
variable {C : Type} [Palette C]

/-- The argument as a dictionary, if it is one. -/
def GlobalNode.items : GlobalNode C → Option (List (NodeItem C))
  | .dict l => some l
  | _ => none

/-- The argument as a dictionary, if it is one. -/
def GlobalEdge.items : GlobalEdge C → Option (List (EdgeItemStyle C))
  | .dict l => some l
  | _ => none

omit [Palette C] in
/-- Giving an edge a style object that exists leaves the rest of the graph alone. -/
theorem edgeSetStyle_obj {w : World C} (F : Fine w) (e : ERef) {s : SRef} (hs : s < w.heap.nStyle) :
    let v := (W.lift (edgeSetStyle e (.obj s)) w : Except PyErr Unit × World C).2
    Fine v ∧ SameBody w.heap v.heap ∧ v.display = w.display ∧ v.heap.nStyle = w.heap.nStyle := by
  rcases checkOverwrite_cases w.heap (w.heap.edge e).style (w.heap.edge e).graph with h | ⟨x, h⟩
  · have run : edgeSetStyle e (.obj s) w.heap =
        (.ok (), { w.heap with edge := upd w.heap.edge e { w.heap.edge e with style := some s } }) := by
      simp [edgeSetStyle, checkOverwrite_free h, resolveStyle, M.modEdge, M.look]
    simp only [lift, run]
    refine ⟨⟨fun n t hn => F.node n t hn, fun n t hn => ?_⟩, ?_, trivial, trivial⟩
    · simp only [upd] at hn
      split at hn
      · cases hn; exact hs
      · exact F.edge n t hn
    · simp only [SameBody, strip]
      congr 1
      funext x
      simp only [upd]
      split
      · subst_vars; rfl
      · rfl
  · have run : edgeSetStyle e (.obj s) w.heap = (.error x, w.heap) := by simp [edgeSetStyle, h, M.look]
    simp only [lift, run]
    exact ⟨F, rfl, trivial, trivial⟩

omit [Palette C] in
theorem edgeSetStyle_objs (es : List ERef) {s : SRef} : ∀ {w : World C}, Fine w → s < w.heap.nStyle →
    let v := (forEach (fun e => W.lift (edgeSetStyle e (.obj s))) es w : Except PyErr Unit × World C).2
    Fine v ∧ SameBody w.heap v.heap ∧ v.display = w.display ∧ v.heap.nStyle = w.heap.nStyle := by
  induction es with
  | nil => intro w F _; exact ⟨F, rfl, rfl, rfl⟩
  | cons e es ih =>
    intro w F hs
    have h := edgeSetStyle_obj F e hs
    simp only [forEach, bind_apply]
    cases hw : (W.lift (edgeSetStyle e (.obj s)) w : Except PyErr Unit × World C) with
    | mk o v =>
      rw [hw] at h
      cases o with
      | error x => exact h
      | ok u =>
        obtain ⟨F1, S1, D1, N1⟩ := h
        obtain ⟨F2, S2, D2, N2⟩ := ih (w := v) F1 (by rw [N1]; exact hs)
        exact ⟨F2, S1.trans S2, by rw [D2, D1], by rw [N2, N1]⟩

section
variable [DecidableEq C]

/-- With dictionaries (or nothing) the arguments are the ones of `stylize`, and of `render`: C71 and C72 say what they do. -/
theorem C87_dictionaries (lim : Nat) (shuffle : List NRef → List NRef) (g : GRef) (w : World C) {d : Display C}
    (hd : w.display g = some d) (gn : GlobalNode C) (ge : GlobalEdge C) (hn : ∀ s, gn ≠ .object s) (he : ∀ s, ge ≠ .object s)
    (h1 : d.globalNode = gn.items) (h2 : d.globalEdge = ge.items) :
    stylizeGiven lim shuffle g gn ge w = stylize lim shuffle g w ∧
    ∀ a, renderGiven lim shuffle g gn ge a w = render lim shuffle g a w := by
  have key : stylizeGiven lim shuffle g gn ge w = stylize lim shuffle g w := by
    unfold stylizeGiven stylize
    simp only [bind_apply, W.display, hd, h1, h2]
    cases gn <;> cases ge <;> first | rfl | exact absurd rfl (hn _) | exact absurd rfl (he _)
  refine ⟨key, fun a => ?_⟩
  simp only [renderGiven, render, bind_apply, W.display, hd, key]

/-- **C87 is violated for nodes**: with a `NodeStyle` as `node_style`, whatever else is set and whatever the graph, `stylize` and
`render` raise `TypeError` at once; nothing gets a style. -/
theorem C87_node_violated (lim : Nat) (shuffle : List NRef → List NRef) (g : GRef) (w : World C) {d : Display C}
    (hd : w.display g = some d) (s : SRef) (ge : GlobalEdge C) (a : DrawArgs) :
    stylizeGiven lim shuffle g (.object s) ge w = (.error .typeError, w) ∧
    renderGiven lim shuffle g (.object s) ge a w = (.error .typeError, w) := by
  have h : stylizeGiven lim shuffle g (.object s) ge w = (.error .typeError, w) := by
    simp only [stylizeGiven, bind_apply, W.display, hd, givenNodeAssign, raise_apply]
  refine ⟨h, ?_⟩
  simp only [renderGiven, bind_apply, W.display, hd, h]

/-- **C87 is violated for edges**: with an `EdgeStyle` as `edge_style`, whatever else is set, no graph that has an edge can be
styled or rendered. -/
theorem C87_edge_violated (lim : Nat) (shuffle : List NRef → List NRef) (g : GRef) {w : World C} (F : Made w.heap)
    {es : List ERef} (he : graphEdges w.heap g = .ok es) (hne : es ≠ []) (gn : GlobalNode C) (s : SRef) (hs : s < w.heap.nStyle)
    (a : DrawArgs) :
    (stylizeGiven lim shuffle g gn (.object s) w).1 ≠ .ok () ∧
    ∀ src, (renderGiven lim shuffle g gn (.object s) a w).1 ≠ .ok src := by
  have key : (stylizeGiven lim shuffle g gn (.object s) w).1 ≠ .ok () := by
    unfold stylizeGiven
    rw [bind_apply]
    cases hd : w.display g with
    | none => simp [W.display, hd]
    | some d =>
      simp only [W.display, hd]
      -- the nodes
      have q1 : Silent (givenNodeAssign (C := C) g gn) := by
        cases gn with
        | absent => exact Silent.pure _
        | dict l => exact Silent.globalNodeAssign g _
        | object s => exact Silent.raise _
      have Q1 := q1 w F
      rw [bind_apply]
      cases h1 : givenNodeAssign g gn w with
      | mk o v1 =>
        rw [h1] at Q1
        cases o with
        | error x => simp
        | ok u =>
          simp only []
          -- the edges
          have hs1 : s < v1.heap.nStyle := Nat.lt_of_lt_of_le hs Q1.more
          rw [bind_apply]
          simp only [givenEdgeAssign, bind_apply, ask_apply, ← Q1.shape.graphEdges g, he]
          have h2 := edgeSetStyle_objs es Q1.fine hs1
          cases hw : (forEach (fun e => W.lift (edgeSetStyle e (.obj s))) es v1 : Except PyErr Unit × World C) with
          | mk o v2 =>
            rw [hw] at h2
            obtain ⟨F2, S2, -, -⟩ := h2
            cases o with
            | error x => simp
            | ok u =>
              simp only []
              -- the rest, up to the last step
              have q3 : Silent (do
                  runStylist lim shuffle g d.stylist
                  forEach (nodeStyleOverwrite g) d.nodeStyles
                  forEach (edgeStyleOverwrite g) d.edgeStyles
                  forEach (nodeColourOverwrite g) d.nodeColours
                  forEach (edgeColourOverwrite g) d.edgeColours
                  givenNodeComplement g gn : W C Unit) := by
                refine Silent.bind (Silent.runStylist _ _ _ _) fun _ => ?_
                refine Silent.bind (Silent.forEach (fun _ => Silent.nodeStyleOverwrite _ _) _) fun _ => ?_
                refine Silent.bind (Silent.forEach (fun _ => Silent.edgeStyleOverwrite _ _) _) fun _ => ?_
                refine Silent.bind (Silent.forEach (fun _ => Silent.nodeColourOverwrite _ _) _) fun _ => ?_
                refine Silent.bind (Silent.forEach (fun _ => Silent.edgeColourOverwrite _ _) _) fun _ => ?_
                cases gn with
                | absent => exact Silent.pure _
                | dict l => exact Silent.globalNodeComplement g _
                | object s => exact Silent.raise _
              have Q3 := q3 v2 F2
              have last : ∀ v : World C, SameBody w.heap v.heap → (givenEdgeComplement g (.object s) v).1 ≠ .ok () := by
                intro v S
                simp only [givenEdgeComplement, bind_apply, ask_apply, ← S.graphEdges g, he]
                cases es with
                | nil => exact absurd rfl hne
                | cons e es => simp [forEach]
              intro hc
              have split : ∀ (x : W C Unit) (v : World C), ((x >>= fun _ => givenEdgeComplement g (.object s)) v).1 = .ok () →
                  SameBody w.heap (x v).2.heap → False := by
                intro x v hx S
                rw [bind_apply] at hx
                cases hxv : x v with
                | mk o v' =>
                  rw [hxv] at hx S
                  cases o with
                  | error x => simp at hx
                  | ok u => exact last v' S hx
              refine split _ v2 ?_ ((Q1.shape.trans S2).trans Q3.shape)
              rw [← hc]
              simp only [bind_apply]
              repeat' first | rfl | split
              all_goals simp_all
  refine ⟨key, fun src hc => key ?_⟩
  unfold renderGiven at hc
  rw [bind_apply] at hc
  cases hd : w.display g with
  | none => simp [W.display, hd] at hc
  | some d =>
    simp only [W.display, hd, bind_apply] at hc
    cases hw : stylizeGiven lim shuffle g gn (.object s) w with
    | mk o v =>
      rw [hw] at hc
      cases o with
      | error x => simp at hc
      | ok u => rfl

omit [Palette C] [DecidableEq C] in
/-- Two calls that begin in the same way and go on in the same way. -/
theorem bind_same {α β : Type} {h : Heap} {x : W C α} (sx : Silent x) {f f' : α → W C β} {w : World C} (F : Fine w)
    (S : SameBody h w.heap) (hf : ∀ a v, Fine v → SameBody h v.heap → f a v = f' a v) : (x >>= f) w = (x >>= f') w := by
  have q := sx w F
  rw [bind_apply, bind_apply]
  cases hw : x w with
  | mk o v =>
    rw [hw] at q
    cases o with
    | error e => rfl
    | ok a => exact hf a v q.fine (S.trans q.shape)

/-- Without edges an `EdgeStyle` does nothing. -/
theorem C87_no_edges_partial (lim : Nat) (shuffle : List NRef → List NRef) (g : GRef) {w : World C} (F : Made w.heap)
    (he : graphEdges w.heap g = .ok []) (gn : GlobalNode C) (s : SRef) :
    stylizeGiven lim shuffle g gn (.object s) w = stylizeGiven lim shuffle g gn .absent w := by
  unfold stylizeGiven
  refine bind_same (h := w.heap) (Silent.display g) F rfl fun d v F S => ?_
  have q1 : Silent (givenNodeAssign (C := C) g gn) := by
    cases gn with
    | absent => exact Silent.pure _
    | dict l => exact Silent.globalNodeAssign g _
    | object s => exact Silent.raise _
  have q2 : Silent (givenNodeComplement (C := C) g gn) := by
    cases gn with
    | absent => exact Silent.pure _
    | dict l => exact Silent.globalNodeComplement g _
    | object s => exact Silent.raise _
  refine bind_same q1 F S fun _ v F S => ?_
  have h1 : givenEdgeAssign g (.object s) v = givenEdgeAssign g .absent v := by
    simp [givenEdgeAssign, ← S.graphEdges g, he, forEach]
  rw [bind_apply, bind_apply, h1]
  simp only [givenEdgeAssign, pure_apply]
  refine bind_same (Silent.runStylist _ _ _ _) F S fun _ v F S => ?_
  refine bind_same (Silent.forEach (fun _ => Silent.nodeStyleOverwrite _ _) _) F S fun _ v F S => ?_
  refine bind_same (Silent.forEach (fun _ => Silent.edgeStyleOverwrite _ _) _) F S fun _ v F S => ?_
  refine bind_same (Silent.forEach (fun _ => Silent.nodeColourOverwrite _ _) _) F S fun _ v F S => ?_
  refine bind_same (Silent.forEach (fun _ => Silent.edgeColourOverwrite _ _) _) F S fun _ v F S => ?_
  refine bind_same q2 F S fun _ v F S => ?_
  simp [givenEdgeComplement, ← S.graphEdges g, he, forEach]

end

/-! ## Examples -/

/-- The diamond, after a style object has been made for a node of another graph. -/
def diamondStyled : Heap :=
  runOps [.newGraph false true false, .addNode 1 (.str "x") { style := .dict true } .warn] diamond

/-- The diamond meets the hypotheses: with the object as `edge_style` it cannot be drawn, with nothing it can. -/
example : Made diamondStyled ∧ (0 : SRef) < diamondStyled.nStyle ∧ graphEdges diamondStyled 0 = .ok [0, 1, 2, 3] ∧
    (stylizeGiven 10 id 0 .absent (.object 0) (plainWorld diamondStyled)).1 = .error .attributeError ∧
    (renderGiven 10 id 0 .absent .absent {} (plainWorld diamondStyled)).1.isOk = true ∧
    graphEdges diamondStyled 1 = .ok [] ∧ (stylizeGiven 10 id 1 .absent (.object 0) (plainWorld diamondStyled)).1 = .ok () := by
  refine ⟨diamond_made.runOps _ ?_, by decide +kernel, by decide +kernel, by decide +kernel, by decide +kernel, by decide +kernel,
    by decide +kernel⟩
  simp only [AllStylesOk, Op.StylesOk, StyleArg.Below, and_self]

/-- Dictionaries meet the hypotheses of `C87_dictionaries`. -/
example : (gaudyWorld openDiamond).display 0 ≠ none ∧ ∀ d, (gaudyWorld openDiamond).display 0 = some d →
    ∃ l l', d.globalNode = (GlobalNode.dict l).items ∧ d.globalEdge = (GlobalEdge.dict l').items := by
  refine ⟨by simp [gaudyWorld], fun d hd => ?_⟩
  simp only [gaudyWorld, Option.some.injEq] at hd
  subst hd
  exact ⟨_, _, rfl, rfl⟩

end Verif
