import Verif.Lemmas.Pose
set_option linter.unusedSectionVars false
set_option linter.unnecessarySeqFocus false
set_option linter.unusedVariables false

/-!
# Two graphs that look alike are painted and drawn alike: `stylize` and the Graphviz source
-/
namespace Verif
open List (Forall₂)

namespace Pose
variable {C : Type} {h h' : Heap} {g g' : GRef} {T : NRef → NRef → Prop} {E : ERef → ERef → Prop} (F : Frame h g h' g' T E)
include F

omit F in
/-- The contents of the style objects of two nodes that correspond are rewritten alike. -/
theorem rewriteNode {w w' : World C} (P : Pose h g h' g' T E w w') {n n' : NRef} (hn : T n n') {s s' : SRef}
    (hs : (w.heap.node n).style = some s) (hs' : (w'.heap.node n').style = some s') (st : NodeStyle C) :
    Pose h g h' g' T E { w with ns := upd w.ns s st } { w' with ns := upd w'.ns s' st } := by
  refine ⟨⟨P.body, P.body', P.display, ?_, P.edge⟩, P.made, P.made', P.may, P.less, P.shareN, P.shareE⟩
  intro m m' hm
  simp only [nodeLook]
  have h1 := P.shareN hm hn
  rcases P.nodeStyle hm with ⟨f, f'⟩ | ⟨t, t', f, f', c⟩
  · simp [f, f']
  · rw [f, f', hs, hs', Option.some.injEq, Option.some.injEq] at h1
    by_cases e : t = s
    · have e' := h1.1 e
      simp [f, f', e, e']
    · have e' : ¬ t' = s' := fun x => e (h1.2 x)
      simp [f, f', upd_ne _ _ e, upd_ne _ _ e', c]

omit F in
theorem rewriteEdge {w w' : World C} (P : Pose h g h' g' T E w w') {n n' : ERef} (hn : E n n') {s s' : SRef}
    (hs : (w.heap.edge n).style = some s) (hs' : (w'.heap.edge n').style = some s') (st : EdgeStyle C) :
    Pose h g h' g' T E { w with es := upd w.es s st } { w' with es := upd w'.es s' st } := by
  refine ⟨⟨P.body, P.body', P.display, P.node, ?_⟩, P.made, P.made', P.may, P.less, P.shareN, P.shareE⟩
  intro m m' hm
  simp only [edgeLook]
  have h1 := P.shareE hm hn
  rcases P.edgeStyle hm with ⟨f, f'⟩ | ⟨t, t', f, f', c⟩
  · simp [f, f']
  · rw [f, f', hs, hs', Option.some.injEq, Option.some.injEq] at h1
    by_cases e : t = s
    · have e' := h1.1 e
      simp [f, f', e, e']
    · have e' : ¬ t' = s' := fun x => e (h1.2 x)
      simp [f, f', upd_ne _ _ e, upd_ne _ _ e', c]

theorem display_rel : RelW (Pose h g h' g' T E) (fun a b => a = b) (W.display g : W C (Display C)) (W.display g') := by
  intro w w' P
  simp only [W.display, P.display]
  cases w'.display g' with
  | none => exact ⟨rfl, P⟩
  | some d => exact ⟨rfl, P⟩

theorem hasStyle {n n' : NRef} (hn : T n n') : RelW (Pose h g h' g' T E) (fun a b => a.isSome = b.isSome)
    (W.look (fun w : World C => (w.heap.node n).style)) (W.look (fun w => (w.heap.node n').style)) :=
  RelW.look fun w w' P => by
    rcases P.nodeStyle hn with ⟨f, f'⟩ | ⟨t, t', f, f', c⟩ <;> rw [f, f'] <;> rfl

theorem hasStyleE {n n' : ERef} (hn : E n n') : RelW (Pose h g h' g' T E) (fun a b => a.isSome = b.isSome)
    (W.look (fun w : World C => (w.heap.edge n).style)) (W.look (fun w => (w.heap.edge n').style)) :=
  RelW.look fun w w' P => by
    rcases P.edgeStyle hn with ⟨f, f'⟩ | ⟨t, t', f, f', c⟩ <;> rw [f, f'] <;> rfl

theorem nodes_rel : RelW (Pose h g h' g' T E) (Forall₂ T) (W.look (fun w : World C => Verif.graphNodes w.heap g))
    (W.look (fun w => Verif.graphNodes w.heap g')) := RelW.look fun _ _ P => P.graphNodes F

theorem edges_rel : RelW (Pose h g h' g' T E) (Forall₂ E) (W.ask (fun w : World C => Verif.graphEdges w.heap g))
    (W.ask (fun w => Verif.graphEdges w.heap g')) := RelW.ask fun _ _ P => P.graphEdges F

section
variable [Palette C]

theorem complementNode (l : List (NodeItem C)) {n n' : NRef} (hn : T n n') :
    RelW (Pose h g h' g' T E) (fun _ _ => True) (Verif.complementNode l n) (Verif.complementNode l n') := by
  intro w w' P
  rcases P.nodeStyle hn with ⟨f, f'⟩ | ⟨s, s', f, f', c⟩
  · simp only [Verif.complementNode, W.bind_apply, W.look_apply, f, f', W.raise_apply]
    exact ⟨rfl, P⟩
  · simp only [Verif.complementNode, W.bind_apply, W.look_apply, f, f', W.setNs, c]
    exact ⟨trivial, P.rewriteNode hn f f' _⟩

omit [Palette C] in
theorem complementEdge (l : List (EdgeItemStyle C)) {n n' : ERef} (hn : E n n') :
    RelW (Pose h g h' g' T E) (fun _ _ => True) (Verif.complementEdge l n) (Verif.complementEdge l n') := by
  intro w w' P
  rcases P.edgeStyle hn with ⟨f, f'⟩ | ⟨s, s', f, f', c⟩
  · simp only [Verif.complementEdge, W.bind_apply, W.look_apply, f, f', W.raise_apply]
    exact ⟨rfl, P⟩
  · simp only [Verif.complementEdge, W.bind_apply, W.look_apply, f, f', W.setEs, c]
    exact ⟨trivial, P.rewriteEdge hn f f' _⟩

theorem ownStyle {w w' : World C} (P : Pose h g h' g' T E w w') {n n' : NRef} (hn : T n n') : ownStyle w n = Verif.ownStyle w' n' := by
  unfold Verif.ownStyle
  rcases P.nodeStyle hn with ⟨f, f'⟩ | ⟨s, s', f, f', c⟩
  · rw [f, f']
  · rw [f, f']; simp only [c]

theorem startColour {w w' : World C} (P : Pose h g h' g' T E w w') {e e' : ERef} (he : E e e') :
    startColour w e = Verif.startColour w' e' := by
  refine RelE.eq ((P.edgeStart F he).bind fun n n' hn => ?_)
  rcases P.nodeStyle hn with ⟨f, f'⟩ | ⟨s, s', f, f', c⟩
  · rw [f, f']; exact rfl
  · rw [f, f']; exact congrArg NodeStyle.colour c

omit F in
theorem parentStyles {apart apart' : NRef → Except PyErr Bool} {style style' : NRef → Except PyErr (NodeStyle C)} {l l' : List NRef}
    (hl : Forall₂ T l l') (ha : ∀ {n n'}, T n n' → apart n = apart' n') (hs : ∀ {n n'}, T n n' → style n = style' n') :
    parentStyles apart style l = Verif.parentStyles apart' style' l' := by
  induction hl with
  | nil => rfl
  | cons h1 _ ih => simp only [Verif.parentStyles, ha h1, hs h1, ih]

theorem inheritStyle {lim : Nat} {w w' : World C} (P : Pose h g h' g' T E w w') (pale : Rat) (fuel : Nat) {n n' : NRef} (hn : T n n') (div : Rat) :
    inheritStyle lim w pale fuel n div = Verif.inheritStyle lim w' pale fuel n' div := by
  induction fuel generalizing n n' div with
  | zero => rfl
  | succ fuel ih =>
    simp only [Verif.inheritStyle]
    rw [P.isRootOrParentsInLoop F hn, P.ownStyle F hn]
    refine RelE.eq ((RelE.of_eq rfl).bind fun b b' hb => ?_)
    subst hb
    split
    · exact RelE.of_eq rfl
    · refine (P.nodeParents F hn).bind fun ps ps' hps => ?_
      have many : RelE (fun a b : NodeStyle C => a = b)
          ((do
            let ss ← Verif.parentStyles (fun p => do return !(← Verif.nodeIsInLoopWith lim w.heap n p))
              (fun p => Verif.inheritStyle lim w pale fuel p 0) ps
            mixStyles pale ss) : Except PyErr (NodeStyle C))
          (do
            let ss ← Verif.parentStyles (fun p => do return !(← Verif.nodeIsInLoopWith lim w'.heap n' p))
              (fun p => Verif.inheritStyle lim w' pale fuel p 0) ps'
            mixStyles pale ss) := by
        rw [parentStyles hps (fun hp => by rw [P.nodeIsInLoopWith F hn hp]) (fun hp => ih hp 0)]
        exact RelE.of_eq rfl
      cases hps with
      | nil => exact many
      | cons h1 h2 =>
        cases h2 with
        | nil =>
          simp only
          refine (P.nodeChildren F h1).bind fun cs cs' hcs => ?_
          rw [P.getChildRank F hn h1, ih h1 div, hcs.length_eq]
          exact RelE.of_eq rfl
        | cons h3 h4 => exact many

/-- The stylists. -/
theorem edgePass (ratio : Rat) {l l' : List ERef} (hl : Forall₂ E l l') (last : Option (EdgeStyle C)) :
    RelW (Pose h g h' g' T E) (fun _ _ => True) (Verif.edgePass ratio l last) (Verif.edgePass ratio l' last) := by
  induction hl generalizing last with
  | nil => exact RelW.pure trivial
  | cons h1 _ ih =>
    simp only [Verif.edgePass]
    refine (hasStyleE F h1).bind fun a b hab => ?_
    cases a <;> cases b
    · refine (RelW.askEq fun w w' P => P.startColour F h1).bind fun c c' hc => ?_
      subst hc
      refine (RelW.askEq fun w w' P => by rw [(P.edgeNotes F h1).1]).bind fun st st' hst => ?_
      subst hst
      exact (assignEdge F h1 st).bind fun _ _ _ => ih _
    · cases hab
    · cases hab
    · exact ih last

theorem branchPass (lim : Nat) {l l' : List NRef} (hl : Forall₂ T l l') :
    RelW (Pose h g h' g' T E) (fun _ _ => True) (Verif.branchPass lim l : W C Unit) (Verif.branchPass lim l') := by
  induction hl with
  | nil => exact RelW.pure trivial
  | cons h1 _ ih =>
    simp only [Verif.branchPass]
    refine (RelW.askEq fun w w' P => P.isRootOrParentsInLoop F h1).bind fun b b' hb => ?_
    subst hb
    split
    · exact ih
    refine (RelW.askEq fun w w' P => P.nodeIsInLoop F h1).bind fun b b' hb => ?_
    subst hb
    split
    · exact ih
    refine (hasStyle F h1).bind fun a b hab => ?_
    cases a <;> cases b
    · refine (RelW.askEq fun w w' P => P.inheritStyle F paleRatio lim h1 divergenceRatio).bind fun st st' hst => ?_
      subst hst
      exact (assignNode F h1 st).bind fun _ _ _ => ih
    · cases hab
    · cases hab
    · exact ih

variable [DecidableEq C]

theorem rootPass (lim : Nat) {l l' : List NRef} (hl : Forall₂ T l l') (used : Dict C Nat) :
    RelW (Pose h g h' g' T E) (fun _ _ => True) (Verif.rootPass lim l used) (Verif.rootPass lim l' used) := by
  induction hl generalizing used with
  | nil => exact RelW.pure trivial
  | cons h1 _ ih =>
    simp only [Verif.rootPass]
    refine (hasStyle F h1).bind fun a b hab => ?_
    cases a <;> cases b
    · refine (RelW.askEq fun w w' P => P.isRootOrParentsInLoop F h1).bind fun b b' hb => ?_
      subst hb
      split
      · refine (RelW.askEq fun w w' P => rfl).bind fun r r' hr => ?_
        subst hr
        exact (assignNode F h1 _).bind fun _ _ _ => ih _
      · exact ih used
    · cases hab
    · cases hab
    · exact ih used

theorem randomPass {l l' : List NRef} (hl : Forall₂ T l l') (used : Dict C Nat) :
    RelW (Pose h g h' g' T E) (fun _ _ => True) (Verif.randomPass l used) (Verif.randomPass l' used) := by
  induction hl generalizing used with
  | nil => exact RelW.pure trivial
  | cons h1 _ ih =>
    simp only [Verif.randomPass]
    refine (RelW.askEq fun w w' P => rfl).bind fun r r' hr => ?_
    subst hr
    exact (assignNode F h1 _).bind fun _ _ _ => ih _

theorem stylizeWithPensieve (lim : Nat) :
    RelW (Pose h g h' g' T E) (fun _ _ => True) (Verif.stylizeWithPensieve lim g : W C Unit) (Verif.stylizeWithPensieve lim g') := by
  refine (display_rel F).bind fun d d' hd => ?_
  subst hd
  refine (nodes_rel F).bind fun l l' hl => ?_
  refine (rootPass F lim hl _).bind fun _ _ _ => (branchPass F lim hl).bind fun _ _ _ => ?_
  exact (edges_rel F).bind fun l l' hl => edgePass F _ hl none

theorem stylizeRandomly {sh sh' : List NRef → List NRef} (hsh : ∀ l l', Forall₂ T l l' → Forall₂ T (sh l) (sh' l')) :
    RelW (Pose h g h' g' T E) (fun _ _ => True) (Verif.stylizeRandomly sh g : W C Unit) (Verif.stylizeRandomly sh' g') := by
  refine (display_rel F).bind fun d d' hd => ?_
  subst hd
  refine (nodes_rel F).bind fun l l' hl => ?_
  refine (randomPass F (hsh _ _ hl) _).bind fun _ _ _ => ?_
  exact (edges_rel F).bind fun l l' hl => edgePass F _ hl none

omit [DecidableEq C]

theorem assignNodes (l : List (NodeItem C)) {ns ns' : List NRef} (hl : Forall₂ T ns ns') :
    RelW (Pose h g h' g' T E) (fun _ _ => True) (Verif.assignNodes l ns) (Verif.assignNodes l ns') := by
  induction hl with
  | nil => exact RelW.pure trivial
  | @cons n n' _ _ h1 _ ih =>
    simp only [Verif.assignNodes]
    refine RelW.bind (R := fun _ _ => True) ?_ fun _ _ _ =>
      (RelW.askEq fun w w' P => rfl).bind fun st st' hst => by
        subst hst
        exact (assignNode F h1 st).bind fun _ _ _ => ih
    intro w w' P
    have e := P.checkNode F h1
    simp only [W.lift, M.bind_apply, M.look_apply]
    rw [checkOverwrite_heap, checkOverwrite_heap, e]
    exact ⟨(RelE.of_eq rfl).mono fun _ _ _ => trivial, P⟩

theorem assignEdges (l : List (EdgeItemStyle C)) {ns ns' : List ERef} (hl : Forall₂ E ns ns') :
    RelW (Pose h g h' g' T E) (fun _ _ => True) (Verif.assignEdges l ns) (Verif.assignEdges l ns') := by
  induction hl with
  | nil => exact RelW.pure trivial
  | @cons n n' _ _ h1 _ ih =>
    simp only [Verif.assignEdges]
    refine RelW.bind (R := fun _ _ => True) ?_ fun _ _ _ =>
      (RelW.askEq fun w w' P => rfl).bind fun st st' hst => by
        subst hst
        exact (assignEdge F h1 st).bind fun _ _ _ => ih
    intro w w' P
    have e := P.checkEdge F h1
    simp only [W.lift, M.bind_apply, M.look_apply]
    rw [checkOverwrite_heap, checkOverwrite_heap, e]
    exact ⟨(RelE.of_eq rfl).mono fun _ _ _ => trivial, P⟩

omit [Palette C] in
theorem smartStyle {w w' : World C} (P : Pose h g h' g' T E w w') (l : List (NodeItem C)) :
    smartStyle w.heap g l = Verif.smartStyle w'.heap g' l := by
  have h1 := P.graphNodes F
  have h2 : (Verif.graphNodes w.heap g = []) = (Verif.graphNodes w'.heap g' = []) := by
    rw [← List.length_eq_zero_iff, ← List.length_eq_zero_iff, h1.length_eq]
  have h3 : (Verif.graphNodes w.heap g).all (fun n => decide ((w.heap.node n).id.toStr.length < 3)) =
      (Verif.graphNodes w'.heap g').all (fun n => decide ((w'.heap.node n).id.toStr.length < 3)) := by
    clear h2
    revert h1
    generalize Verif.graphNodes w.heap g = l, Verif.graphNodes w'.heap g' = l'
    intro h1
    induction h1 with
    | nil => rfl
    | cons h4 _ ih => simp only [List.all_cons, ih, (P.nodeNotes F h4).1]
  simp only [Verif.smartStyle, h2, h3]

omit [Palette C] in
theorem edgeById {w w' : World C} (P : Pose h g h' g' T E w w') (i : EdgeId) : RelE E (edgeById w.heap g i) (Verif.edgeById w'.heap g' i) :=
  (P.edgesDict F).bind fun d d' hd => by
    rcases hd.get i with ⟨e, e'⟩ | ⟨a, b, e, e', hab⟩
    · rw [e, e']; exact rfl
    · rw [e, e']; exact hab

theorem globalNodeAssign (l : Option (List (NodeItem C))) :
    RelW (Pose h g h' g' T E) (fun _ _ => True) (Verif.globalNodeAssign g l) (Verif.globalNodeAssign g' l) := by
  cases l with
  | none => exact RelW.pure trivial
  | some l =>
    refine (RelW.askEq fun w w' P => P.smartStyle F l).bind fun l l' hl => ?_
    subst hl
    exact (nodes_rel F).bind fun _ _ hl => assignNodes F l hl

theorem globalEdgeAssign (l : Option (List (EdgeItemStyle C))) :
    RelW (Pose h g h' g' T E) (fun _ _ => True) (Verif.globalEdgeAssign g l) (Verif.globalEdgeAssign g' l) := by
  cases l with
  | none => exact RelW.pure trivial
  | some l => exact (edges_rel F).bind fun _ _ hl => assignEdges F l hl

theorem globalNodeComplement (l : Option (List (NodeItem C))) :
    RelW (Pose h g h' g' T E) (fun _ _ => True) (Verif.globalNodeComplement g l) (Verif.globalNodeComplement g' l) := by
  cases l with
  | none => exact RelW.pure trivial
  | some l =>
    refine (RelW.askEq fun w w' P => P.smartStyle F l).bind fun l l' hl => ?_
    subst hl
    exact (nodes_rel F).bind fun _ _ hl => RelW.forEach hl fun _ _ hn => complementNode F l hn

omit [Palette C] in
theorem globalEdgeComplement (l : Option (List (EdgeItemStyle C))) :
    RelW (Pose h g h' g' T E) (fun _ _ => True) (Verif.globalEdgeComplement g l) (Verif.globalEdgeComplement g' l) := by
  cases l with
  | none => exact RelW.pure trivial
  | some l => exact (edges_rel F).bind fun _ _ hl => RelW.forEach hl fun _ _ hn => complementEdge F l hn

theorem nodeStyleOverwrite (p : Key × List (NodeItem C)) :
    RelW (Pose h g h' g' T E) (fun _ _ => True) (Verif.nodeStyleOverwrite g p) (Verif.nodeStyleOverwrite g' p) :=
  (RelW.ask fun w w' P => P.getNode F p.1).bind fun _ _ hn => complementNode F p.2 hn

theorem edgeStyleOverwrite (p : EdgeId × List (EdgeItemStyle C)) :
    RelW (Pose h g h' g' T E) (fun _ _ => True) (Verif.edgeStyleOverwrite g p) (Verif.edgeStyleOverwrite g' p) :=
  (RelW.ask fun w w' P => P.edgeById F p.1).bind fun _ _ hn => assignEdges F p.2 (.cons hn .nil)

theorem nodeColourOverwrite (p : Key × C) :
    RelW (Pose h g h' g' T E) (fun _ _ => True) (Verif.nodeColourOverwrite g p) (Verif.nodeColourOverwrite g' p) :=
  (RelW.ask fun w w' P => P.getNode F p.1).bind fun n n' hn => by
    intro w w' P
    rcases P.nodeStyle hn with ⟨f, f'⟩ | ⟨s, s', f, f', c⟩
    · simp only [W.bind_apply, W.look_apply, f, f', W.raise_apply]
      exact ⟨rfl, P⟩
    · simp only [W.bind_apply, W.look_apply, f, f', c]
      exact assignNode F hn _ w w' P

theorem edgeColourOverwrite (p : EdgeId × C) :
    RelW (Pose h g h' g' T E) (fun _ _ => True) (Verif.edgeColourOverwrite g p) (Verif.edgeColourOverwrite g' p) :=
  (RelW.ask fun w w' P => P.edgeById F p.1).bind fun n n' hn => by
    intro w w' P
    rcases P.edgeStyle hn with ⟨f, f'⟩ | ⟨s, s', f, f', c⟩
    · simp only [W.bind_apply, W.look_apply, f, f', W.raise_apply]
      exact ⟨rfl, P⟩
    · simp only [W.bind_apply, W.look_apply, W.ask_apply, f, f', c]
      cases (w'.es s').copy with
      | error e => exact ⟨rfl, P⟩
      | ok st => exact assignEdge F hn _ w w' P

variable [DecidableEq C]

theorem stylize (lim : Nat) {sh sh' : List NRef → List NRef} (hsh : ∀ l l', Forall₂ T l l' → Forall₂ T (sh l) (sh' l')) :
    RelW (Pose h g h' g' T E) (fun _ _ => True) (Verif.stylize lim sh g : W C Unit) (Verif.stylize lim sh' g') := by
  refine (display_rel F).bind fun d d' hd => ?_
  subst hd
  refine (globalNodeAssign F _).bind fun _ _ _ => (globalEdgeAssign F _).bind fun _ _ _ => ?_
  refine RelW.bind (R := fun _ _ => True) ?_ fun _ _ _ =>
    (RelW.forEach (forall₂_eq d.nodeStyles) fun p q hpq => by subst hpq; exact nodeStyleOverwrite F p).bind fun _ _ _ =>
    (RelW.forEach (forall₂_eq d.edgeStyles) fun p q hpq => by subst hpq; exact edgeStyleOverwrite F p).bind fun _ _ _ =>
    (RelW.forEach (forall₂_eq d.nodeColours) fun p q hpq => by subst hpq; exact nodeColourOverwrite F p).bind fun _ _ _ =>
    (RelW.forEach (forall₂_eq d.edgeColours) fun p q hpq => by subst hpq; exact edgeColourOverwrite F p).bind fun _ _ _ =>
    (globalNodeComplement F _).bind fun _ _ _ => globalEdgeComplement F _
  cases d.stylist with
  | pensieve => exact stylizeWithPensieve F lim
  | random => exact stylizeRandomly F hsh
  | other => exact RelW.pure trivial

end

end Pose

/-! ## The source -/

namespace Look
variable {C : Type} {h h' : Heap} {g g' : GRef} {T : NRef → NRef → Prop} {E : ERef → ERef → Prop} (F : Frame h g h' g' T E)
include F

theorem displayOf {w w' : World C} (P : Look h g h' g' T E w w') : displayOf w (some g) = Verif.displayOf w' (some g') := by
  simp only [Verif.displayOf, P.display]

variable [Palette C]

theorem nodeGraphvizStr {w w' : World C} (P : Look h g h' g' T E w w') {n n' : NRef} (hn : T n n') :
    nodeGraphvizStr w n = Verif.nodeGraphvizStr w' n' := by
  obtain ⟨h1, h2, h3⟩ := P.nodeNotes F hn
  have h4 : nodeStylePart w n = nodeStylePart w' n' := by
    unfold nodeStylePart
    rcases P.nodeStyle hn with ⟨f, f'⟩ | ⟨s, s', f, f', c⟩
    · rw [f, f']
    · rw [f, f']; simp only [c]
  have h5 : nodeDisplayLabel w n = nodeDisplayLabel w' n' := by
    unfold nodeDisplayLabel
    rcases P.nodeGraph F hn with ⟨f, f'⟩ | ⟨f, f'⟩
    · rw [f, f']; rfl
    · rw [f, f', P.displayOf F, h3]
  simp only [Verif.nodeGraphvizStr, h1, h2, h4, h5]

theorem edgeGraphvizStr {w w' : World C} (P : Look h g h' g' T E w w') {e e' : ERef} (he : E e e') :
    edgeGraphvizStr w e = Verif.edgeGraphvizStr w' e' := by
  obtain ⟨h1, h2, h3⟩ := P.edgeNotes F he
  have h4 : edgeStylePart w e = edgeStylePart w' e' := by
    unfold edgeStylePart
    rcases P.edgeStyle he with ⟨f, f'⟩ | ⟨s, s', f, f', c⟩
    · rw [f, f']
    · rw [f, f']; simp only [c]
  have h5 : edgeDisplayLabelOrValue w e = edgeDisplayLabelOrValue w' e' := by
    unfold edgeDisplayLabelOrValue
    rw [(P.edgeGraph F he).1, (P.edgeGraph F he).2, h1, h2, P.displayOf F]
  simp only [Verif.edgeGraphvizStr, h3, h4, h5]
  refine RelE.eq ((RelE.of_eq rfl).bind fun v v' hv => ?_)
  subst hv
  refine (P.edgeStart F he).bind fun n n' hn => (P.edgeEnd F he).bind fun m m' hm => ?_
  rw [(P.nodeNotes F hn).1, (P.nodeNotes F hm).1]
  exact RelE.of_eq rfl

theorem graphvizHeader {w w' : World C} (P : Look h g h' g' T E w w') (a : DrawArgs) :
    graphvizHeader w g a = Verif.graphvizHeader w' g' a := by
  have h1 : (w.heap.graph g).strict = (w'.heap.graph g').strict :=
    P.via (R := fun a b => a = b) (q := fun h => (h.graph g).strict) (q' := fun h => (h.graph g').strict) (fun _ => rfl) (fun _ => rfl) F.strict
  have h2 : (w.heap.graph g).ordering = (w'.heap.graph g').ordering :=
    P.via (R := fun a b => a = b) (q := fun h => (h.graph g).ordering) (q' := fun h => (h.graph g').ordering) (fun _ => rfl) (fun _ => rfl)
      F.ordering
  simp only [Verif.graphvizHeader, P.displayOf F, h1, h2]

theorem graphvizStr {w w' : World C} (P : Look h g h' g' T E w w') (a : DrawArgs) : graphvizStr w g a = Verif.graphvizStr w' g' a := by
  refine RelE.eq ((RelE.mapE (S := fun a b => a = b) (P.graphNodes F) fun n n' hn => RelE.of_eq (P.nodeGraphvizStr F hn)).bind fun ns ns' hns => ?_)
  rw [List.forall₂_eq_eq_eq] at hns
  subst hns
  refine (P.graphEdges F).bind fun es es' hes => ?_
  refine (RelE.mapE (S := fun a b => a = b) hes fun n n' hn => RelE.of_eq (P.edgeGraphvizStr F hn)).bind fun ts ts' hts => ?_
  rw [List.forall₂_eq_eq_eq] at hts
  subst hts
  rw [P.graphvizHeader F]
  exact RelE.of_eq rfl

theorem graphvizSource {w w' : World C} (P : Look h g h' g' T E w w') (a : DrawArgs) (f : Option String) :
    graphvizSource w g a f = Verif.graphvizSource w' g' a f := by
  simp only [Verif.graphvizSource, P.graphvizStr F]


end Look

namespace Pose
variable {C : Type} {h h' : Heap} {g g' : GRef} {T : NRef → NRef → Prop} {E : ERef → ERef → Prop} (F : Frame h g h' g' T E)
  [Palette C]
include F

variable [DecidableEq C]

theorem render (lim : Nat) {sh sh' : List NRef → List NRef} (hsh : ∀ l l', Forall₂ T l l' → Forall₂ T (sh l) (sh' l')) (a : DrawArgs) :
    RelW (Pose h g h' g' T E) (fun a b => a = b) (Verif.render lim sh g a : W C String) (Verif.render lim sh' g' a) := by
  refine (display_rel F).bind fun d d' hd => ?_
  subst hd
  exact (stylize F lim hsh).bind fun _ _ _ => RelW.askEq fun w w' P => P.graphvizStr F _

theorem renderTo (I : Engine) (lim : Nat) {sh sh' : List NRef → List NRef} (hsh : ∀ l l', Forall₂ T l l' → Forall₂ T (sh l) (sh' l'))
    (path : Option String) (view : Bool) (a : DrawArgs) :
    RelW (Pose h g h' g' T E) (fun a b => a = b) (Verif.renderTo I lim sh g path view a : W C (String × List Save))
      (Verif.renderTo I lim sh' g' path view a) := by
  refine (display_rel F).bind fun d d' hd => ?_
  subst hd
  refine (stylize F lim hsh).bind fun _ _ _ => ?_
  cases path with
  | none =>
    refine (RelW.askEq fun w w' P => P.graphvizSource F _ _).bind fun s s' hs => ?_
    subst hs
    exact RelW.pure rfl
  | some p =>
    refine (RelW.askEq fun w w' P => P.graphvizSource F _ _).bind fun s s' hs => ?_
    subst hs
    refine (RelW.askEq fun w w' P => rfl).bind fun _ _ _ => ?_
    refine (RelW.askEq fun w w' P => P.graphvizSource F _ _).bind fun s s' hs => ?_
    subst hs
    exact RelW.pure rfl

theorem getSvg (I : Engine) (lim : Nat) {sh sh' : List NRef → List NRef} (hsh : ∀ l l', Forall₂ T l l' → Forall₂ T (sh l) (sh' l'))
    (path : Option String) (view : Bool) (a : DrawArgs) :
    RelW (Pose h g h' g' T E) (fun a b => a = b) (Verif.getSvg I lim sh g path view a : W C (String × List Save))
      (Verif.getSvg I lim sh' g' path view a) := by
  refine (display_rel F).bind fun d d' hd => ?_
  subst hd
  refine (renderTo F I lim hsh path view _).bind fun r r' hr => ?_
  subst hr
  refine (RelW.askEq fun w w' P => rfl).bind fun s s' hs => ?_
  subst hs
  exact RelW.pure rfl

theorem getHtml (I : Engine) (lim : Nat) {sh sh' : List NRef → List NRef} (hsh : ∀ l l', Forall₂ T l l' → Forall₂ T (sh l) (sh' l'))
    (path : Option String) (view : Bool) (a : DrawArgs) :
    RelW (Pose h g h' g' T E) (fun a b => a = b) (Verif.getHtml I lim sh g path view a : W C (String × List Save))
      (Verif.getHtml I lim sh' g' path view a) := by
  refine (RelW.askEq fun w w' P => rfl).bind fun _ _ _ => (display_rel F).bind fun d d' hd => ?_
  subst hd
  exact getSvg F I lim hsh path view _

end Pose
end Verif
