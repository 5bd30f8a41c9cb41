import Verif.Cases.Sessions
import Verif.Props.Listed
/-!
# C110 at a concrete session
-/
namespace Verif

/-- Three nodes; the second is removed, and later a node of that name is added. -/
def againCalls : List (Call Rat) :=
  [.newGraph { scheme := some [0, 1 / 2], display := plainDisplay },
   .addNode 0 (.str "a") {}, .addNode 0 (.str "b") {}, .addNode 0 (.str "c") {},
   .connect 0 (.key (.str "a")) (.key (.str "b")) {}, .connect 0 (.key (.str "a")) (.key (.str "c")) {},
   .plain (.removeNode 0 (.key (.str "b"))), .addNode 0 (.str "b") {}, .connect 0 (.key (.str "a")) (.key (.str "b")) {}]

def againWorld : World Rat := runCalls World.init againCalls

theorem againWorld_tidy : TidySession againWorld := by
  refine TidySession.init.run ?_ ?_ ?_
  · simp only [againCalls, CallsOk]
    refine ⟨?_, ?_, ?_, ?_, ?_, ?_, ?_, ?_, ?_, trivial⟩
    case refine_7 =>
      refine ⟨fun op h => ?_, by simp [Call.graphs], by simp [Call.styles, Op.style], trivial⟩
      cases h
      exact ⟨by simp [Op.Plain, Op.style], show (0 : Nat) < Heap.nG _ from (by decide +kernel)⟩
    all_goals exact okCall (by simp) (by decide +kernel) (by simp [Call.styles, NodeStyleArg.plain, EdgeStyleArg.plain]) trivial
  · simp only [againCalls, CallsPrivate]
    refine ⟨?_, ?_, ?_, ?_, ?_, ?_, ?_, ?_, ?_, trivial⟩ <;>
      exact ⟨by simp [Call.styles, NodeStyleArg.plain, EdgeStyleArg.plain, Op.style], by simp [Call.sources]⟩
  · simp [againCalls, Call.NoReadd, Op.Readds]

theorem againWorld_nodes : graphNodes againWorld.heap 0 = [0, 2, 3] := by decide +kernel

example := C110_order_partial againWorld_tidy.owned (g := 0) (i := 1) (j := 2) (n := 2) (m := 3) (by decide +kernel) (by decide +kernel)
example := C110_sorted_partial againWorld_tidy.owned 0 (l := [3, 0]) (by decide) (by decide +kernel)
example : sortNodes againWorld.heap [3, 0] = .ok [0, 3] := by decide +kernel

theorem againWorld_arrow : Arrow againWorld.heap 0 0 3 :=
  (mem_kids againWorld_tidy.sound.reach (by decide +kernel)).1 (by decide +kernel)

example := C110_rank_partial againWorld_tidy.owned againWorld_arrow
/-- The node b made last is the second child, although it was connected last and b came before c at first. -/
example : getChildRank againWorld.heap 3 0 = .ok 1 ∧ getChildRank againWorld.heap 2 0 = .ok 0 := by decide +kernel
example := C110_violated againWorld_tidy.owned (g := 0) (by decide +kernel) (i := 0) (j := 2) (n := 0) (m := 3) (by decide +kernel) (by decide +kernel)
  (by decide)

end Verif
