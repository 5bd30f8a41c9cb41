import Verif.Spec.Frames
import Verif.Model.TreeOf
import Verif.Model.Render
import Verif.Model.CopyWorld
import Verif.Model.FromObject
import Verif.Model.Painter
import Verif.Model.GlobalStyle
/-!
# More stack frames change no answer: how this passes from a call to the calls it makes
-/
namespace Verif

section
variable {α β σ : Type}

namespace SameOrOverflow

theorem refl (a : Except PyErr α) : SameOrOverflow a a := .inl rfl

theorem bind {a b : Except PyErr α} {f k : α → Except PyErr β} (h : SameOrOverflow a b) (hf : ∀ x, SameOrOverflow (f x) (k x)) :
    SameOrOverflow (a >>= f) (b >>= k) := by
  rcases h with rfl | rfl
  · cases a with
    | error e => exact .inl rfl
    | ok x => exact hf x
  · exact .inr rfl

theorem map {a b : Except PyErr α} (f : α → β) (h : SameOrOverflow a b) : SameOrOverflow (a.map f) (b.map f) := by
  rcases h with rfl | rfl
  · exact .inl rfl
  · exact .inr rfl

theorem ite {c : Prop} [Decidable c] {a b a' b' : Except PyErr α} (h : SameOrOverflow a b) (h' : SameOrOverflow a' b') :
    SameOrOverflow (if c then a else a') (if c then b else b') := by
  split
  · exact h
  · exact h'

theorem foldlM {f k : σ → α → Except PyErr σ} (hf : ∀ s x, SameOrOverflow (f s x) (k s x)) (l : List α) (s : σ) :
    SameOrOverflow (l.foldlM f s) (l.foldlM k s) := by
  induction l generalizing s with
  | nil => exact .inl rfl
  | cons x l ih =>
    rw [List.foldlM_cons, List.foldlM_cons]
    exact (hf s x).bind ih

theorem filterE {f k : α → Except PyErr Bool} (hf : ∀ x, SameOrOverflow (f x) (k x)) (l : List α) :
    SameOrOverflow (Verif.filterE f l) (Verif.filterE k l) := by
  induction l with
  | nil => exact .inl rfl
  | cons x l ih => exact (hf x).bind fun b => ih.bind fun r => .refl _

end SameOrOverflow

open SameOrOverflow

theorem ancestorsRec_frames (h : Heap) (g : GRef) {i j : Nat} (hij : i ≤ j) (a : NodeArg) (trav : List NRef) :
    SameOrOverflow (ancestorsRec h g i a trav) (ancestorsRec h g j a trav) := by
  induction i generalizing j a trav with
  | zero => exact .inr rfl
  | succ i ih =>
    cases j with
    | zero => omega
    | succ j =>
      rw [ancestorsRec, ancestorsRec]
      refine (refl _).bind fun n => (refl _).bind fun ps => ?_
      refine .ite (.refl _) (.foldlM (fun s p => ?_) _ _)
      refine .ite (.refl _) ((ih (by omega) _ _).bind fun q => .refl _)

theorem descendantsRec_frames (h : Heap) (g : GRef) {i j : Nat} (hij : i ≤ j) (a : NodeArg) (trav : List NRef) :
    SameOrOverflow (descendantsRec h g i a trav) (descendantsRec h g j a trav) := by
  induction i generalizing j a trav with
  | zero => exact .inr rfl
  | succ i ih =>
    cases j with
    | zero => omega
    | succ j =>
      rw [descendantsRec, descendantsRec]
      refine (refl _).bind fun n => (refl _).bind fun ps => ?_
      refine .ite (.refl _) (.foldlM (fun s p => ?_) _ _)
      refine .ite (.refl _) ((ih (by omega) _ _).bind fun q => .refl _)

theorem objTraverse_frames [DecidableEq α] (next : α → List α) {i j : Nat} (hij : i ≤ j) (x : α) (trav : List α) (md : Option Int) :
    SameOrOverflow (objTraverse next i x trav md) (objTraverse next j x trav md) := by
  induction i generalizing j x trav md with
  | zero => exact .inr rfl
  | succ i ih =>
    cases j with
    | zero => omega
    | succ j =>
      rw [objTraverse, objTraverse]
      refine .ite (.refl _) (.ite (.refl _) (.foldlM (fun s p => ?_) _ _))
      refine .ite (.refl _) ((ih (by omega) _ _ _).bind fun q => .refl _)

theorem treeStrRec_frames (h : Heap) {i j : Nat} (hij : i ≤ j) (n : NRef) (ind : String) (added : List NRef) :
    SameOrOverflow (treeStrRec h i n ind added) (treeStrRec h j n ind added) := by
  induction i generalizing j n ind added with
  | zero => exact .inr rfl
  | succ i ih =>
    cases j with
    | zero => omega
    | succ j =>
      rw [treeStrRec, treeStrRec]
      refine .ite (.refl _) ((refl _).bind fun cs => .bind (.foldlM (fun s c => ?_) _ _) fun q => .refl _)
      exact (ih (by omega) _ _ _).bind fun q => .refl _

variable {i j : Nat} (hij : i ≤ j)
include hij

theorem getAncestors_frames (h : Heap) (g : GRef) (a : NodeArg) : SameOrOverflow (getAncestors i h g a) (getAncestors j h g a) :=
  (ancestorsRec_frames h g hij a []).map _

theorem getDescendants_frames (h : Heap) (g : GRef) (a : NodeArg) : SameOrOverflow (getDescendants i h g a) (getDescendants j h g a) :=
  (descendantsRec_frames h g hij a []).map _

theorem isNodeInLoop_frames (h : Heap) (g : GRef) (a : NodeArg) : SameOrOverflow (isNodeInLoop i h g a) (isNodeInLoop j h g a) :=
  (refl _).bind fun _ => (getAncestors_frames hij h g _).bind fun _ => .refl _

theorem areNodesInSameLoop_frames (h : Heap) (g : GRef) (a b : NodeArg) :
    SameOrOverflow (areNodesInSameLoop i h g a b) (areNodesInSameLoop j h g a b) :=
  (refl _).bind fun _ => (refl _).bind fun _ => (getAncestors_frames hij h g _).bind fun _ => (getAncestors_frames hij h g _).bind fun _ => .refl _

theorem nodeIsInLoop_frames (h : Heap) (n : NRef) : SameOrOverflow (nodeIsInLoop i h n) (nodeIsInLoop j h n) :=
  (refl _).bind fun _ => isNodeInLoop_frames hij h _ _

theorem nodeIsInLoopWith_frames (h : Heap) (n m : NRef) : SameOrOverflow (nodeIsInLoopWith i h n m) (nodeIsInLoopWith j h n m) :=
  (refl _).bind fun _ => areNodesInSameLoop_frames hij h _ _ _

theorem nodeAncestors_frames (h : Heap) (n : NRef) : SameOrOverflow (nodeAncestors i h n) (nodeAncestors j h n) :=
  (refl _).bind fun _ => getAncestors_frames hij h _ _

theorem nodeDescendants_frames (h : Heap) (n : NRef) : SameOrOverflow (nodeDescendants i h n) (nodeDescendants j h n) :=
  (refl _).bind fun _ => getDescendants_frames hij h _ _

theorem rootsLoop_frames (h : Heap) (g : GRef) (l p : List NRef) : SameOrOverflow (rootsLoop i h g l p) (rootsLoop j h g l p) := by
  induction l generalizing p with
  | nil => exact .inl rfl
  | cons n l ih =>
    rw [rootsLoop, rootsLoop]
    exact .ite ((getDescendants_frames hij h g _).bind fun _ => ih _) (ih _)

theorem treeStrings_frames (h : Heap) (l added : List NRef) : SameOrOverflow (treeStrings i h l added) (treeStrings j h l added) := by
  induction l generalizing added with
  | nil => exact .inl rfl
  | cons n l ih => exact (treeStrRec_frames h hij n "" added).bind fun _ => (ih _).bind fun _ => .refl _

theorem filterRelatives_frames (h : Heap) (g : GRef) (d : String) (l : List NodeArg) :
    SameOrOverflow (filterRelatives i h g d l) (filterRelatives j h g d l) :=
  .foldlM (fun s x => by
    unfold filterRound
    refine (refl _).bind fun n => ?_
    dsimp only
    refine .ite ((nodeAncestors_frames hij h n).bind fun as => ?_) ((refl _).bind fun as => ?_)
    · exact .ite ((nodeDescendants_frames hij h n).bind fun _ => .refl _) (.refl _)
    · exact .ite ((nodeDescendants_frames hij h n).bind fun _ => .refl _) (.refl _)) _ _

theorem isRootOrParentsInLoop_frames (h : Heap) (n : NRef) :
    SameOrOverflow (isRootOrParentsInLoop i h n) (isRootOrParentsInLoop j h n) :=
  (refl _).bind fun _ => (SameOrOverflow.filterE (fun p => (nodeIsInLoop_frames hij h p).bind fun _ => .refl _) _).bind fun _ => .refl _

end

/-! ## Calls with an effect -/

section
variable {α β : Type}

namespace SameOrOverflowM

theorem refl (x : M α) : SameOrOverflowM x x := fun _ => .inl rfl

theorem bind {x y : M α} {f k : α → M β} (h : SameOrOverflowM x y) (hf : ∀ a, SameOrOverflowM (f a) (k a)) :
    SameOrOverflowM (x >>= f) (y >>= k) := by
  intro s
  simp only [Bind.bind, M.bind]
  rcases h s with e | e
  · rw [e]
    rcases y s with ⟨_ | a, s'⟩
    · exact .inl rfl
    · exact hf a s'
  · rcases hx : x s with ⟨_ | a, s'⟩
    · rw [hx] at e; cases e; exact .inr rfl
    · rw [hx] at e; cases e

theorem ask {p q : Q α} (h : ∀ s, SameOrOverflow (p s) (q s)) : SameOrOverflowM (M.ask p) (M.ask q) := by
  intro s
  rcases h s with e | e
  · exact .inl (by simp [M.ask, e])
  · exact .inr e

end SameOrOverflowM
end

section
variable {C α β : Type}

namespace SameOrOverflowW

theorem refl (x : W C α) : SameOrOverflowW x x := fun _ => .inl rfl

theorem bind {x y : W C α} {f k : α → W C β} (h : SameOrOverflowW x y) (hf : ∀ a, SameOrOverflowW (f a) (k a)) :
    SameOrOverflowW (x >>= f) (y >>= k) := by
  intro s
  simp only [Bind.bind, W.bind]
  rcases h s with e | e
  · rw [e]
    rcases y s with ⟨_ | a, s'⟩
    · exact .inl rfl
    · exact hf a s'
  · rcases hx : x s with ⟨_ | a, s'⟩
    · rw [hx] at e; cases e; exact .inr rfl
    · rw [hx] at e; cases e

theorem ask {p q : World C → Except PyErr α} (h : ∀ s, SameOrOverflow (p s) (q s)) : SameOrOverflowW (W.ask p) (W.ask q) := by
  intro s
  rcases h s with e | e
  · exact .inl (by simp [W.ask, e])
  · exact .inr e

theorem ite {c : Prop} [Decidable c] {a b a' b' : W C α} (h : SameOrOverflowW a b) (h' : SameOrOverflowW a' b') :
    SameOrOverflowW (if c then a else a') (if c then b else b') := by
  split
  · exact h
  · exact h'

end SameOrOverflowW
end

section
variable {C : Type} [Palette C] {i j : Nat} (hij : i ≤ j)

open SameOrOverflowW

omit [Palette C] in
theorem parentStyles_frames {f k : NRef → Except PyErr Bool} {p q : NRef → Except PyErr (NodeStyle C)}
    (h1 : ∀ n, SameOrOverflow (f n) (k n)) (h2 : ∀ n, SameOrOverflow (p n) (q n)) (l : List NRef) :
    SameOrOverflow (parentStyles f p l) (parentStyles k q l) := by
  induction l with
  | nil => exact .inl rfl
  | cons n l ih =>
    rw [parentStyles, parentStyles]
    exact (h1 n).bind fun _ => .ite ((h2 n).bind fun _ => ih.bind fun _ => .refl _) ih

include hij

theorem inheritStyle_frames (w : World C) (pale : Rat) {u v : Nat} (huv : u ≤ v) (n : NRef) (d : Rat) :
    SameOrOverflow (inheritStyle i w pale u n d) (inheritStyle j w pale v n d) := by
  induction u generalizing v n d with
  | zero => exact .inr rfl
  | succ u ih =>
    cases v with
    | zero => omega
    | succ v =>
      have ih := fun n d => ih (v := v) (by omega) n d
      rw [inheritStyle, inheritStyle]
      refine (isRootOrParentsInLoop_frames hij _ n).bind fun b => .ite (.refl _) ((SameOrOverflow.refl _).bind fun ps => ?_)
      have many : SameOrOverflow
          (parentStyles (fun p => do return !(← nodeIsInLoopWith i w.heap n p)) (fun p => inheritStyle i w pale u p 0) ps >>= mixStyles pale)
          (parentStyles (fun p => do return !(← nodeIsInLoopWith j w.heap n p)) (fun p => inheritStyle j w pale v p 0) ps >>= mixStyles pale) :=
        (parentStyles_frames (fun p => (nodeIsInLoopWith_frames hij w.heap n p).bind fun _ => .refl _) (fun p => ih p 0) ps).bind
          fun _ => .refl _
      match ps with
      | [] => exact many
      | [p] => exact (SameOrOverflow.refl _).bind fun _ => (SameOrOverflow.refl _).bind fun _ => (ih p d).bind fun _ => .refl _
      | p :: q :: ps => exact many

theorem inheritStyleWith_frames (w : World C) (main : Option SRef) (pale : Rat) {u v : Nat} (huv : u ≤ v) (n : NRef) (d : Rat) :
    SameOrOverflow (inheritStyleWith i w main pale u n d) (inheritStyleWith j w main pale v n d) := by
  induction u generalizing v n d with
  | zero => exact .inr rfl
  | succ u ih =>
    cases v with
    | zero => omega
    | succ v =>
      have ih := fun n d => ih (v := v) (by omega) n d
      rw [inheritStyleWith, inheritStyleWith]
      refine (isRootOrParentsInLoop_frames hij _ n).bind fun b => .ite (.refl _) ((SameOrOverflow.refl _).bind fun ps => ?_)
      have many : SameOrOverflow
          (parentStyles (fun p => do return !(← nodeIsInLoopWith i w.heap n p)) (fun p => inheritStyleWith i w main pale u p 0) ps >>=
            mixStylesWith w main pale)
          (parentStyles (fun p => do return !(← nodeIsInLoopWith j w.heap n p)) (fun p => inheritStyleWith j w main pale v p 0) ps >>=
            mixStylesWith w main pale) :=
        (parentStyles_frames (fun p => (nodeIsInLoopWith_frames hij w.heap n p).bind fun _ => .refl _) (fun p => ih p 0) ps).bind
          fun _ => .refl _
      match ps with
      | [] => exact many
      | [p] =>
        refine (SameOrOverflow.refl _).bind fun _ => (SameOrOverflow.refl _).bind fun _ => ?_
        cases main with
        | none => exact (ih p d).bind fun _ => .refl _
        | some s => exact .refl _
      | p :: q :: ps => exact many

theorem branchPass_frames (l : List NRef) : SameOrOverflowW (branchPass (C := C) i l) (branchPass j l) := by
  induction l with
  | nil => exact .refl _
  | cons n l ih =>
    rw [branchPass, branchPass]
    refine (SameOrOverflowW.ask fun w => isRootOrParentsInLoop_frames hij w.heap n).bind fun b => .ite ih ?_
    refine (SameOrOverflowW.ask fun w => nodeIsInLoop_frames hij w.heap n).bind fun b => .ite ih ?_
    refine (SameOrOverflowW.refl _).bind fun s => ?_
    cases s with
    | some s => exact ih
    | none => exact (SameOrOverflowW.ask fun w => inheritStyle_frames hij w _ hij n _).bind fun st => (SameOrOverflowW.refl _).bind fun _ => ih

theorem branchPassWith_frames (b : Brush) (l : List NRef) : SameOrOverflowW (branchPassWith (C := C) i b l) (branchPassWith j b l) := by
  induction l with
  | nil => exact .refl _
  | cons n l ih =>
    rw [branchPassWith, branchPassWith]
    refine (SameOrOverflowW.ask fun w => isRootOrParentsInLoop_frames hij w.heap n).bind fun b => .ite ih ?_
    refine (SameOrOverflowW.ask fun w => nodeIsInLoop_frames hij w.heap n).bind fun b => .ite ih ?_
    refine (SameOrOverflowW.refl _).bind fun s => ?_
    cases s with
    | some s => exact ih
    | none =>
      exact (SameOrOverflowW.ask fun w => inheritStyleWith_frames hij w _ _ hij n _).bind fun st => (SameOrOverflowW.refl _).bind fun _ => ih

variable [DecidableEq C]

theorem rootPass_frames (l : List NRef) (used : Dict C Nat) : SameOrOverflowW (rootPass i l used) (rootPass j l used) := by
  induction l generalizing used with
  | nil => exact .refl _
  | cons n l ih =>
    rw [rootPass, rootPass]
    refine (SameOrOverflowW.refl _).bind fun s => ?_
    cases s with
    | some s => exact ih _
    | none =>
      refine (SameOrOverflowW.ask fun w => isRootOrParentsInLoop_frames hij w.heap n).bind fun b => .ite ?_ (ih _)
      exact (SameOrOverflowW.refl _).bind fun _ => (SameOrOverflowW.refl _).bind fun _ => ih _

theorem rootPassWith_frames (main : Option SRef) (l : List NRef) (used : Dict C Nat) :
    SameOrOverflowW (rootPassWith i main l used) (rootPassWith j main l used) := by
  induction l generalizing used with
  | nil => exact .refl _
  | cons n l ih =>
    rw [rootPassWith, rootPassWith]
    refine (SameOrOverflowW.refl _).bind fun s => ?_
    cases s with
    | some s => exact ih _
    | none =>
      refine (SameOrOverflowW.ask fun w => isRootOrParentsInLoop_frames hij w.heap n).bind fun b => .ite ?_ (ih _)
      exact (SameOrOverflowW.refl _).bind fun _ => (SameOrOverflowW.refl _).bind fun _ => (SameOrOverflowW.refl _).bind fun _ => ih _

theorem runStylist_frames (shuffle : List NRef → List NRef) (g : GRef) (s : Stylist) :
    SameOrOverflowW (runStylist (C := C) i shuffle g s) (runStylist j shuffle g s) := by
  cases s with
  | pensieve =>
    exact (SameOrOverflowW.refl _).bind fun _ => (SameOrOverflowW.refl _).bind fun _ => (rootPass_frames hij _ _).bind fun _ =>
      (branchPass_frames hij _).bind fun _ => .refl _
  | random => exact .refl _
  | other => exact .refl _

theorem stylize_frames (shuffle : List NRef → List NRef) (g : GRef) : SameOrOverflowW (stylize (C := C) i shuffle g) (stylize j shuffle g) :=
  (SameOrOverflowW.refl _).bind fun _ => (SameOrOverflowW.refl _).bind fun _ => (SameOrOverflowW.refl _).bind fun _ =>
    (runStylist_frames hij shuffle g _).bind fun _ => .refl _

end
end Verif
