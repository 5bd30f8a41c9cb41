import Verif.Cases.Monotone
import Verif.Props.CutOrder
/-!
# C106 at concrete sessions
-/
namespace Verif

/-- Three deletions of `demo`; the second is of an edge that the third would delete. -/
def cutsOne : List Op := [.removeNode 0 (.node 3), .disconnect 1, .removeNode 0 (.key (.str "c")), .removeSelf 3]

/-- The same in another order, with one repeated: `disconnect` raises here. -/
def cutsTwo : List Op := [.removeNode 0 (.key (.str "c")), .removeSelf 3, .disconnect 1, .removeSelf 3, .removeNode 0 (.node 3)]

theorem cutsOne_ok : AllOk cutsOne demo :=
  ⟨show (0 : Nat) < Heap.nG _ from (by decide +kernel), trivial, show (0 : Nat) < Heap.nG _ from (by decide +kernel), trivial, trivial⟩

theorem cutsTwo_ok : AllOk cutsTwo demo :=
  ⟨show (0 : Nat) < Heap.nG _ from (by decide +kernel), trivial, trivial, trivial, show (0 : Nat) < Heap.nG _ from (by decide +kernel), trivial⟩

theorem cutsOne_removes : ∀ op ∈ cutsOne, op.Removes := by
  intro op hop
  simp only [cutsOne, List.mem_cons, List.not_mem_nil, or_false] at hop
  rcases hop with rfl | rfl | rfl | rfl <;> trivial

theorem cuts_same : ∀ op, op ∈ cutsOne ↔ op ∈ cutsTwo := by
  intro op
  simp only [cutsOne, cutsTwo, List.mem_cons, List.not_mem_nil, or_false]
  grind

example := C106_result demo_reachable cutsOne_ok cutsOne_removes 0
example := C106_order demo_reachable cutsOne_ok cutsTwo_ok cutsOne_removes cuts_same 0
example : graphNodes (runOps cutsOne demo) 0 = [0, 1] ∧ outwardEdges (runOps cutsOne demo) 0 = .ok [0] ∧
    graphNodes (runOps cutsTwo demo) 0 = [0, 1] ∧ outwardEdges (runOps cutsTwo demo) 0 = .ok [0] ∧
    ((Op.disconnect 1).step (runOps [.removeNode 0 (.key (.str "c")), .removeSelf 3] demo)).1.isOk = false := by decide +kernel

end Verif
