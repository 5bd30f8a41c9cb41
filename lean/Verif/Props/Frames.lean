import Verif.Lemmas.Frames
import Verif.Props.Demo
/-!
# C128: the stack decides whether there is an answer, never which

Recursive calls are modelled with the number of stack frames they have. In every state, reachable or not, a call with more frames does
the same as the call with fewer, unless the latter raises RecursionError.
-/
namespace Verif

section
variable {i j : Nat} (hij : i ≤ j)
include hij

/-- **C128**, the questions one can ask a graph. -/
theorem C128_questions (h : Heap) (g : GRef) (a b : NodeArg) :
    SameOrOverflow (getAncestors i h g a) (getAncestors j h g a) ∧
    SameOrOverflow (getAncestorsDict i h g a) (getAncestorsDict j h g a) ∧
    SameOrOverflow (getDescendants i h g a) (getDescendants j h g a) ∧
    SameOrOverflow (getDescendantsDict i h g a) (getDescendantsDict j h g a) ∧
    SameOrOverflow (isNodeInLoop i h g a) (isNodeInLoop j h g a) ∧
    SameOrOverflow (areNodesInSameLoop i h g a b) (areNodesInSameLoop j h g a b) ∧
    SameOrOverflow (loopNodes i h g) (loopNodes j h g) ∧
    SameOrOverflow (roots i h g) (roots j h g) ∧
    SameOrOverflow (getTreeStr i h g) (getTreeStr j h g) :=
  ⟨getAncestors_frames hij h g a, (ancestorsRec_frames h g hij a []).map _, getDescendants_frames hij h g a,
    (descendantsRec_frames h g hij a []).map _, isNodeInLoop_frames hij h g a, areNodesInSameLoop_frames hij h g a b,
    .filterE (nodeIsInLoop_frames hij h) _, rootsLoop_frames hij h g _ _,
    (rootsLoop_frames hij h g _ _).bind fun _ => (treeStrings_frames hij h _ _).bind fun _ => .refl _⟩

/-- **C128**, the questions one can ask a node or an edge. -/
theorem C128_nodes (h : Heap) (n m : NRef) (e : ERef) :
    SameOrOverflow (nodeAncestors i h n) (nodeAncestors j h n) ∧
    SameOrOverflow (nodeDescendants i h n) (nodeDescendants j h n) ∧
    SameOrOverflow (nodeNumDescendants i h n) (nodeNumDescendants j h n) ∧
    SameOrOverflow (nodeIsInLoop i h n) (nodeIsInLoop j h n) ∧
    SameOrOverflow (nodeIsInLoopWith i h n m) (nodeIsInLoopWith j h n m) ∧
    SameOrOverflow (edgeIsInLoop i h e) (edgeIsInLoop j h e) ∧
    SameOrOverflow (nodeTreeStr i h n) (nodeTreeStr j h n) :=
  ⟨nodeAncestors_frames hij h n, nodeDescendants_frames hij h n, (nodeDescendants_frames hij h n).bind fun _ => .refl _,
    nodeIsInLoop_frames hij h n, nodeIsInLoopWith_frames hij h n m,
    (SameOrOverflow.refl _).bind fun _ => (SameOrOverflow.refl _).bind fun _ => nodeIsInLoopWith_frames hij h _ _,
    (treeStrRec_frames h hij n "" []).map _⟩

/-- **C128**, the traversal of arbitrary objects, with and without a limit of the depth, and the graph made of them. -/
theorem C128_objects {α : Type} [DecidableEq α] (next : α → List α) (x : α) (depth height : Option Int) (T : ObjType α)
    (strict ordering overwrite : Bool) :
    SameOrOverflow (objRelatives next i x depth) (objRelatives next j x depth) ∧
    SameOrOverflow (objRelativesByDistance next i x depth) (objRelativesByDistance next j x depth) ∧
    SameOrOverflowM (fromObject T i x strict ordering overwrite depth height) (fromObject T j x strict ordering overwrite depth height) :=
  ⟨(objTraverse_frames next hij x [] depth).map _, (objTraverse_frames next hij x [] depth).map _,
    (SameOrOverflowM.refl _).bind fun _ => (SameOrOverflowM.refl _).bind fun _ =>
      (SameOrOverflowM.ask fun _ => (objTraverse_frames T.children hij x [] depth).map _).bind fun _ =>
        (SameOrOverflowM.ask fun _ => (objTraverse_frames T.parents hij x [] height).map _).bind fun _ => .refl _⟩

/-- **C128**, `filter`. -/
theorem C128_filter {C : Type} (g : GRef) (nodes : List NodeArg) (direction filterType : String) :
    SameOrOverflowM (graphFilter i g nodes direction filterType) (graphFilter j g nodes direction filterType) ∧
    SameOrOverflowW (filterWorld (C := C) i g nodes direction filterType) (filterWorld j g nodes direction filterType) := by
  have h1 : SameOrOverflowM (graphFilter i g nodes direction filterType) (graphFilter j g nodes direction filterType) :=
    (SameOrOverflowM.ask fun h => filterRelatives_frames hij h g direction nodes).bind fun _ => .refl _
  refine ⟨h1, fun w => ?_⟩
  simp only [filterWorld, W.undisplayed]
  rcases h1 w.heap with e | e
  · exact .inl (by rw [e])
  · right
    rcases hx : graphFilter i g nodes direction filterType w.heap with ⟨_ | a, s'⟩
    · rw [hx] at e; cases e; rfl
    · rw [hx] at e; cases e

variable {C : Type} [Palette C] [DecidableEq C]

/-- **C128**, styling and drawing. -/
theorem C128_draw (shuffle : List NRef → List NRef) (g : GRef) (a : DrawArgs) :
    SameOrOverflowW (stylize (C := C) i shuffle g) (stylize j shuffle g) ∧
    SameOrOverflowW (render (C := C) i shuffle g a) (render j shuffle g a) :=
  ⟨stylize_frames hij shuffle g,
    (SameOrOverflowW.refl _).bind fun _ => (stylize_frames hij shuffle g).bind fun _ => .refl _⟩

/-- **C128**, styling and drawing graphs made with style objects, and the stylist called directly. -/
theorem C128_given (shuffle : List NRef → List NRef) (g : GRef) (gn : GlobalNode C) (ge : GlobalEdge C) (a : DrawArgs) (b : Brush) :
    SameOrOverflowW (stylizeGiven i shuffle g gn ge) (stylizeGiven j shuffle g gn ge) ∧
    SameOrOverflowW (renderGiven i shuffle g gn ge a) (renderGiven j shuffle g gn ge a) ∧
    SameOrOverflowW (pensieveWith (C := C) i b g) (pensieveWith j b g) := by
  have h1 : SameOrOverflowW (stylizeGiven i shuffle g gn ge) (stylizeGiven j shuffle g gn ge) :=
    (SameOrOverflowW.refl _).bind fun _ => (SameOrOverflowW.refl _).bind fun _ => (SameOrOverflowW.refl _).bind fun _ =>
      (runStylist_frames hij shuffle g _).bind fun _ => .refl _
  exact ⟨h1, (SameOrOverflowW.refl _).bind fun _ => h1.bind fun _ => .refl _,
    (SameOrOverflowW.refl _).bind fun _ => (SameOrOverflowW.refl _).bind fun _ => (rootPassWith_frames hij _ _ _).bind fun _ =>
      (branchPassWith_frames hij b _).bind fun _ => .refl _⟩

/-- **C128**, `render` with a path, and what notebooks show, whatever Graphviz and IPython do. -/
theorem C128_shown (E : Engine) (shuffle : List NRef → List NRef) (g : GRef) (path : Option String) (view : Bool) (a : DrawArgs) :
    SameOrOverflowW (renderTo (C := C) E i shuffle g path view a) (renderTo E j shuffle g path view a) ∧
    SameOrOverflowW (getSvg (C := C) E i shuffle g path view a) (getSvg E j shuffle g path view a) ∧
    SameOrOverflowW (reprHtml (C := C) E i shuffle g) (reprHtml E j shuffle g) ∧
    SameOrOverflowW (getHtml (C := C) E i shuffle g path view a) (getHtml E j shuffle g path view a) := by
  have h1 : ∀ path view a, SameOrOverflowW (renderTo (C := C) E i shuffle g path view a) (renderTo E j shuffle g path view a) :=
    fun path view a => (SameOrOverflowW.refl _).bind fun _ => (stylize_frames hij shuffle g).bind fun _ => .refl _
  have h2 : ∀ path view a, SameOrOverflowW (getSvg (C := C) E i shuffle g path view a) (getSvg E j shuffle g path view a) :=
    fun path view a => (SameOrOverflowW.refl _).bind fun _ => (h1 _ _ _).bind fun _ => .refl _
  exact ⟨h1 _ _ _, h2 _ _ _, h2 _ _ _, (SameOrOverflowW.refl _).bind fun _ => (SameOrOverflowW.refl _).bind fun _ => h2 _ _ _⟩

end

/-- **C128**, for two stacks of any sizes: two renderings of which neither overflows return the same source, or raise the same, and leave
the same behind. -/
theorem C128_any_two {C : Type} [Palette C] [DecidableEq C] (i j : Nat) (shuffle : List NRef → List NRef) (g : GRef) (a : DrawArgs)
    (w : World C) (hi : (render i shuffle g a w).1 ≠ .error .recursionError) (hj : (render j shuffle g a w).1 ≠ .error .recursionError) :
    render i shuffle g a w = render j shuffle g a w := by
  rcases Nat.le_total i j with h | h
  · exact ((C128_draw h shuffle g a).2 w).resolve_right hi
  · exact (((C128_draw h shuffle g a).2 w).resolve_right hj).symm

/-- The demo graph: an overflow, then the same answer with any number of frames. -/
example : getDescendants 2 demo 0 (.node 1) = .error .recursionError ∧ getDescendants 3 demo 0 (.node 1) = .ok [2, 0] ∧
    getDescendants 1000 demo 0 (.node 1) = .ok [2, 0] := by
  have h3 : getDescendants 3 demo 0 (.node 1) = .ok [2, 0] := by decide +kernel
  refine ⟨by decide +kernel, h3, ?_⟩
  rcases (C128_questions (i := 3) (j := 1000) (by decide) demo 0 (.node 1) (.node 1)).2.2.1 with e | e
  · rw [← e, h3]
  · rw [h3] at e; cases e

end Verif
