import Verif.Props.Answers
import Verif.Props.Readd
import Verif.Cases.Ledger
/-!
# Cases for C108 and C26
-/
namespace Verif

example := C108_alike demo_reachable demoAgain_reachable (g := 0) (g' := 1) (by decide) (by decide +kernel) demo_reads demoAgain_reads
  ⟨rfl, rfl⟩
example := C108_alike_home demo_reachable demoAgain_reachable (g := 0) (g' := 1) (by decide) (by decide +kernel) demo_reads demoAgain_reads
  ⟨rfl, rfl⟩ rfl

/-- The objects are others, the answers are the same. -/
example : getDescendants 9 demo 0 (.key (.str "b")) = .ok [2, 0] ∧ getDescendants 9 demoAgain 1 (.key (.str "b")) = .ok [4, 1] ∧
    readNodes demo (getDescendants 9 demo 0 (.key (.str "b"))) = .ok [(.str "c", {}), (.str "a", {})] ∧
    readNodes demoAgain (getDescendants 9 demoAgain 1 (.key (.str "b"))) = .ok [(.str "c", {}), (.str "a", {})] := by
  decide +kernel

/-- With too small a stack both raise. -/
example : getDescendants 1 demo 0 (.key (.str "b")) = .error .recursionError ∧
    getDescendants 1 demoAgain 1 (.key (.str "b")) = .error .recursionError := by
  decide +kernel

example := C108_after demo_reachable demoAgain_reachable (g := 0) (g' := 1) (by decide) (by decide +kernel) demo_reads demoAgain_reads rfl
  demoMoves (demoDeeds.map .deed) demoMoves_ok trivial rfl

example : ∃ m h', graphCopy 0 demo = (.ok (2, m), h') ∧ AnswersAlike h' 2 demo 0 ∧ AnswersAlikeHome h' 2 demo 0 := by
  obtain ⟨m, h', hm, h3⟩ := demo_copied
  obtain ⟨-, h4, h5, -⟩ := C108_copy demo_reachable (g := 0) (by decide) hm
  exact ⟨m, h', hm, h4, h5.2 (by decide +kernel)⟩

example : ∃ m h', graphCopy 0 demo = (.ok (2, m), h') ∧
    AnswersAlike (runMoves 2 copyMoves h').2 2 (runMoves 0 (plainDeeds.map .deed) h').2 0 := by
  obtain ⟨m, h', hm, h3⟩ := demo_copied
  have n1 : ∀ op : Op, (0 : Nat) < (op.step h').2.nG := fun op =>
    Nat.lt_of_lt_of_le (by rw [h3]; decide) (Grows.step op h').nG
  exact ⟨m, h', hm, C108_copy_after demo_reachable (g := 0) (by decide) hm (plainDeeds.map .deed) copyMoves trivial
    ⟨show (0 : Nat) < h'.nG from by rw [h3]; decide, fun h : (0 : Nat) = 2 => by simp at h, n1 _,
      fun h : (0 : Nat) = 2 => by simp at h, trivial⟩ rfl plainDeeds_plain⟩

/-- Node `b` of the example was removed and added back. -/
def backDemo : Heap := (addNodeObj 0 1 (removeNode 0 (.node 1) demo).2).2

theorem backDemo_reachable : Reachable backDemo := by
  obtain ⟨h1, h2, e1, e2, r, -⟩ := C12_readd_partial demo_reachable (g := 0) (n := 1) (by decide) (by decide)
  unfold backDemo
  rw [e1]
  show Reachable (addNodeObj 0 1 h1).2
  rw [e2]
  exact r

example := (C26_raises backDemo_reachable 0).2.2 ⟨1, by decide +kernel, by decide +kernel⟩
example := (C26_raises demo_reachable 0).1

/-- Its copy does answer. -/
example : leaves backDemo 0 = .error .attributeError ∧
    ∃ g' m h', graphCopy 0 backDemo = (.ok (g', m), h') ∧ AnswersAlike h' g' backDemo 0 ∧ ¬ AnswersAlikeHome h' g' backDemo 0 := by
  refine ⟨by decide +kernel, ?_⟩
  obtain ⟨A, H⟩ := backDemo_reachable.hist
  obtain ⟨m, h', hr, P, -⟩ := copy_run H (g := 0) (by decide +kernel) (by decide +kernel)
  obtain ⟨-, h4, h5, -⟩ := C108_copy backDemo_reachable (g := 0) (by decide +kernel) hr
  exact ⟨_, m, h', hr, h4, fun a => h5.1 a 1 (by decide +kernel) (by decide +kernel)⟩

end Verif
