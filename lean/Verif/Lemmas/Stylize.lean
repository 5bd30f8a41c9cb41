import Verif.Lemmas.Strip
import Verif.Lemmas.Made
import Verif.Spec.Paint
import Verif.Props.Traverse
import Verif.Props.ChildRank
import Verif.Props.Colours
import Verif.Props.Roots
/-!
# Running the stylists
-/
namespace Verif
open Palette W
variable {C : Type}

/-- Every style in use is one of the style objects made so far. -/
abbrev Fine (w : World C) : Prop := Made w.heap

/-- From `w` to `w'` only styles change, and `w'` shows the styles `N` and `E`. -/
structure Becomes (w w' : World C) (N : NRef → Option (NodeStyle C)) (E : ERef → Option (EdgeStyle C)) : Prop where
  shape : SameBody w.heap w'.heap
  display : w'.display = w.display
  fine : Fine w'
  nodes : nodeLook w' = N
  edges : edgeLook w' = E
  reach : Reachable w.heap → Reachable w'.heap

theorem Becomes.refl {w : World C} (F : Fine w) : Becomes w w (nodeLook w) (edgeLook w) := ⟨rfl, rfl, F, rfl, rfl, id⟩

theorem Becomes.trans {w w' w'' : World C} {N N' E E'} (a : Becomes w w' N E) (b : Becomes w' w'' N' E') : Becomes w w'' N' E' :=
  ⟨a.shape.trans b.shape, by rw [b.display, a.display], b.fine, b.nodes, b.edges, fun r => b.reach (a.reach r)⟩

/-- The node may be given a style: it has none, or its graph allows overwriting. -/
def Free (h : Heap) (style : Option SRef) (graph : Option GRef) : Prop :=
  style = none ∨ ∃ g, graph = some g ∧ (h.graph g).overwrite = some true

theorem checkOverwrite_free {h : Heap} {st : Option SRef} {gr : Option GRef} (H : Free h st gr) :
    checkOverwrite st gr h = (.ok (), h) := by
  rcases H with rfl | ⟨g, rfl, ho⟩
  · rfl
  · cases st with
    | none => rfl
    | some s => simp [checkOverwrite, ho]

theorem assignNode_run {w : World C} (F : Fine w) {n : NRef} (hn : Free w.heap (w.heap.node n).style (w.heap.node n).graph)
    (st : NodeStyle C) :
    ∃ w', assignNode n st w = (.ok (), w') ∧ Becomes w w' (upd (nodeLook w) n (some st)) (edgeLook w) := by
  have hs : nodeSetStyle n (.dict true) w.heap =
      (.ok (), { w.heap with node := upd w.heap.node n { w.heap.node n with style := some w.heap.nStyle }, nStyle := w.heap.nStyle + 1 }) := by
    simp [nodeSetStyle, checkOverwrite_free hn, resolveStyle, M.newStyle, M.modNode]
  refine ⟨{ w with heap := { w.heap with node := upd w.heap.node n { w.heap.node n with style := some w.heap.nStyle }, nStyle := w.heap.nStyle + 1 }
                   ns := upd w.ns w.heap.nStyle st }, ?_, ?_, rfl, ?_, ?_, ?_, ?_⟩
  · simp [assignNode, lift, hs, setNs]
  · simp only [SameBody, strip, Heap.mk.injEq, true_and, and_true]
    funext m
    by_cases hm : m = n
    · subst hm; simp
    · simp [upd_ne _ _ hm]
  · refine ⟨?_, fun e s he => Nat.lt_succ_of_lt (F.edge e s he)⟩
    intro m s hm
    simp only at hm ⊢
    by_cases e : m = n
    · subst e; simp at hm; rw [← hm]; exact Nat.lt_succ_self _
    · rw [upd_ne _ _ e] at hm; exact Nat.lt_succ_of_lt (F.node m s hm)
  · funext m
    simp only [nodeLook]
    by_cases e : m = n
    · subst e; simp
    · rw [upd_ne _ _ e, upd_ne _ _ e]
      cases hs : (w.heap.node m).style with
      | none => simp [nodeLook, hs]
      | some s =>
        have := F.node m s hs
        simp [nodeLook, hs, upd_ne _ _ (Nat.ne_of_lt this)]
  · rfl
  · intro r
    have := Reachable.step (.nodeStyle n (.dict true)) r trivial
    simpa [Op.step, hs] using this

theorem assignEdge_run {w : World C} (F : Fine w) {n : ERef} (hn : Free w.heap (w.heap.edge n).style (w.heap.edge n).graph)
    (st : EdgeStyle C) :
    ∃ w', assignEdge n st w = (.ok (), w') ∧ Becomes w w' (nodeLook w) (upd (edgeLook w) n (some st)) := by
  have hs : edgeSetStyle n (.dict true) w.heap =
      (.ok (), { w.heap with edge := upd w.heap.edge n { w.heap.edge n with style := some w.heap.nStyle }, nStyle := w.heap.nStyle + 1 }) := by
    simp [edgeSetStyle, checkOverwrite_free hn, resolveStyle, M.newStyle, M.modEdge]
  refine ⟨{ w with heap := { w.heap with edge := upd w.heap.edge n { w.heap.edge n with style := some w.heap.nStyle }, nStyle := w.heap.nStyle + 1 }
                   es := upd w.es w.heap.nStyle st }, ?_, ?_, rfl, ?_, ?_, ?_, ?_⟩
  · simp [assignEdge, lift, hs, setEs]
  · simp only [SameBody, strip, Heap.mk.injEq, true_and, and_true]
    funext m
    by_cases hm : m = n
    · subst hm; simp
    · simp [upd_ne _ _ hm]
  · refine ⟨fun e s he => Nat.lt_succ_of_lt (F.node e s he), ?_⟩
    intro m s hm
    simp only at hm ⊢
    by_cases e : m = n
    · subst e; simp at hm; rw [← hm]; exact Nat.lt_succ_self _
    · rw [upd_ne _ _ e] at hm; exact Nat.lt_succ_of_lt (F.edge m s hm)
  · rfl
  · funext m
    simp only [edgeLook]
    by_cases e : m = n
    · subst e; simp
    · rw [upd_ne _ _ e, upd_ne _ _ e]
      cases hs : (w.heap.edge m).style with
      | none => simp [edgeLook, hs]
      | some s =>
        have := F.edge m s hs
        simp [edgeLook, hs, upd_ne _ _ (Nat.ne_of_lt this)]
  · intro r
    have := Reachable.step (.edgeStyle n (.dict true)) r trivial
    simpa [Op.step, hs] using this

theorem nodeLook_none {w : World C} {n : NRef} : nodeLook w n = none ↔ (w.heap.node n).style = none := by
  simp [nodeLook]

theorem edgeLook_none {w : World C} {e : ERef} : edgeLook w e = none ↔ (w.heap.edge e).style = none := by
  simp [edgeLook]

/-! ## Queries -/

section
variable {h : Heap} (r : Reachable h) {g : GRef} (hown : ∀ n ∈ graphNodes h g, (h.node n).graph = some g) {lim : Nat}
  (hlim : (graphNodes h g).length ≤ lim)
include r hown

theorem nodeParents_eq {n : NRef} (hn : n ∈ graphNodes h g) : nodeParents h n = .ok (pars h n) := by
  simp only [nodeParents, nodeGraph, hown n hn, bind, Except.bind]
  exact getParents_eq r (getNode_self r hn)

theorem nodeChildren_eq {n : NRef} (hn : n ∈ graphNodes h g) : nodeChildren h n = .ok (kids h n) := by
  simp only [nodeChildren, nodeGraph, hown n hn, bind, Except.bind]
  exact getChildren_eq r (getNode_self r hn)

include hlim
open scoped Classical in
theorem nodeIsInLoop_eq {n : NRef} (hn : n ∈ graphNodes h g) : nodeIsInLoop lim h n = .ok (decide (OnLoop h g n)) := by
  have ha := getNode_self r hn
  obtain ⟨b, hb⟩ := C22_in_loop_total r ha hlim
  have := C22_in_loop r ha hb
  have e : b = decide (OnLoop h g n) := by
    unfold OnLoop
    cases b
    · simpa using this
    · simpa using this
  simp only [nodeIsInLoop, nodeGraph, hown n hn, bind, Except.bind]
  rw [hb, e]

open scoped Classical in
theorem nodeIsInLoopWith_eq {n m : NRef} (hn : n ∈ graphNodes h g) (hm : m ∈ graphNodes h g) :
    nodeIsInLoopWith lim h n m = .ok (decide (Path h g n m ∧ Path h g m n)) := by
  obtain ⟨b, hb⟩ := C23_same_loop_total r (getNode_self r hn) (getNode_self r hm) hlim
  have := C23_same_loop r (getNode_self r hn) (getNode_self r hm) hb
  have e : b = decide (Path h g n m ∧ Path h g m n) := by
    cases b
    · simpa using this
    · simpa using this
  simp only [nodeIsInLoopWith, nodeGraph, hown n hn, bind, Except.bind]
  rw [hb, e]

open scoped Classical in
theorem isRoot_eq {n : NRef} (hn : n ∈ graphNodes h g) :
    isRootOrParentsInLoop lim h n = .ok (decide (SemiRoot h g n)) := by
  have hp : ∀ p ∈ pars h n, p ∈ graphNodes h g := fun p hp => (arrow_mem r ((mem_pars r hn).1 hp)).1
  unfold isRootOrParentsInLoop
  rw [nodeParents_eq r hown hn]
  have := filterE_ok (l := pars h n) (p := fun p => do return !(← nodeIsInLoop lim h p)) (q := fun p => decide (¬ OnLoop h g p)) (by
    intro p hpp
    rw [nodeIsInLoop_eq r hown hlim (hp p hpp)]
    simp [bind, Except.bind, pure, Except.pure])
  simp only [bind, Except.bind, pure, Except.pure] at this ⊢
  rw [this]
  simp only [Except.ok.injEq, decide_eq_decide, List.length_eq_zero_iff, List.filter_eq_nil_iff, decide_eq_true_eq, not_not]
  constructor
  · intro H p ha
    exact H p ((mem_pars r hn).2 ha)
  · intro H p ha
    exact H p ((mem_pars r hn).1 ha)
end

/-! ## The look of the default styles -/

section
variable [Palette C]

theorem make_plain (c : C) : NodeStyle.make { colour := some c } = defaultNode c := by
  simp [NodeStyle.make, NodeStyle.setFill, NodeStyle.setBorder, NodeStyle.setText, NodeStyle.setColour, defaultNode, differenceRatio]
  grind

theorem recolour_tinted (s : NodeStyle C) (c : C) : s.recolour c = tinted s c := by
  rcases s with ⟨c0, fill, border, text, fa, ba, ta, li, op, fo, ts, sh, ss⟩
  simp [NodeStyle.recolour, NodeStyle.copy, NodeStyle.make, NodeStyle.setFill, NodeStyle.setBorder, NodeStyle.setText,
    NodeStyle.setColour, NodeStyle.resetColours, tinted, differenceRatio]
  grind

theorem nextEdge_none (c : C) : nextEdgeStyle none c = defaultEdge c (1 / 2) := by
  simp [nextEdgeStyle, EdgeStyle.make, EdgeStyle.setText, EdgeStyle.setColour, defaultEdge]

theorem nextEdge_some (c c' : C) (a : Rat) : nextEdgeStyle (some (defaultEdge c' a)) c = defaultEdge c a := by
  simp [nextEdgeStyle, EdgeStyle.copied, EdgeStyle.make, EdgeStyle.setText, EdgeStyle.setColour, EdgeStyle.resetColours, defaultEdge]

end
end Verif
