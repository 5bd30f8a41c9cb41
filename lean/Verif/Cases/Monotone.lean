import Verif.Cases.Graph
import Verif.Props.Monotone
import Verif.Props.BuildOrder
/-!
# C104, C105 at concrete sessions
-/
namespace Verif

/-- A session that adds to graph 0 of `demo`, sets a label and makes a copy; the fourth call raises. -/
def addingSession : List Op :=
  [.addNode 0 (.str "z") {} .warn, .connect 0 (.key (.str "b")) (.key (.str "z")) {} .warn, .nodeLabel 1 (.str "B"),
   .addNode 0 (.str "a") {} .error, .copy 0, .connect 0 (.key (.str "c")) (.key (.str "d")) {} .warn]

theorem addingSession_ok : AllOk addingSession demo :=
  ⟨show (0 : Nat) < Heap.nG _ from (by decide), show (0 : Nat) < Heap.nG _ from (by decide +kernel), trivial, show (0 : Nat) < Heap.nG _ from (by decide +kernel), show (0 : Nat) < Heap.nG _ from (by decide +kernel), show (0 : Nat) < Heap.nG _ from (by decide +kernel), trivial⟩

theorem addingSession_adds : ∀ op ∈ addingSession, ¬ op.Removes := by
  intro op hop
  simp only [addingSession, List.mem_cons, List.not_mem_nil, or_false] at hop
  rcases hop with rfl | rfl | rfl | rfl | rfl | rfl <;> exact id

/-- A session that takes away from graph 0 of `demo`; the third call raises. -/
def removingSession : List Op :=
  [.disconnect 0, .removeNode 0 (.key (.str "d")), .removeNode 0 (.key (.str "d")), .nodeLabel 1 (.str "B"), .removeSelf 1]

theorem removingSession_ok : AllOk removingSession demo :=
  ⟨trivial, show (0 : Nat) < Heap.nG _ from (by decide +kernel), show (0 : Nat) < Heap.nG _ from (by decide +kernel), trivial, trivial, trivial⟩

theorem removingSession_removes : ∀ op ∈ removingSession, ¬ op.Adds := by
  intro op hop
  simp only [removingSession, List.mem_cons, List.not_mem_nil, or_false] at hop
  rcases hop with rfl | rfl | rfl | rfl | rfl <;> exact id

example := C104_grow demo_reachable addingSession_ok addingSession_adds (g := 0) (by decide)
example : graphNodes (runOps addingSession demo) 0 = [0, 1, 2, 3, 5] := by decide +kernel
example := C104_grow_reach demo_reachable addingSession_ok addingSession_adds (g := 0) (by decide) (x := 0) (by decide) (lim := 9)
  (lim' := 9)
example : getDescendants 9 demo 0 (.node 0) = .ok [1, 2] ∧ getDescendants 9 (runOps addingSession demo) 0 (.node 0) = .ok [1, 2, 3, 5] := by
  decide +kernel

example := C104_shrink demo_reachable removingSession_ok removingSession_removes (g := 0) (by decide)
example : graphNodes (runOps removingSession demo) 0 = [0, 1, 2] := by decide +kernel
example := C104_shrink_reach demo_reachable removingSession_ok removingSession_removes (g := 0) (by decide) (x := 0) (by decide +kernel)
  (lim := 9) (lim' := 9)
example : getDescendants 9 (runOps removingSession demo) 0 (.node 0) = .ok [1] ∧
    isNodeInLoop 9 demo 0 (.node 0) = .ok true ∧ isNodeInLoop 9 (runOps removingSession demo) 0 (.node 0) = .ok false := by
  decide +kernel

example := C104_still demo_reachable (ops := [.nodeLabel 1 (.str "B"), .copy 0, .edgeFreeze 0 true, .newGraph false false true])
  ⟨trivial, show (0 : Nat) < Heap.nG _ from (by decide +kernel), trivial, trivial, trivial⟩ (by
    intro op hop
    simp only [List.mem_cons, List.not_mem_nil, or_false] at hop
    rcases hop with rfl | rfl | rfl | rfl <;> exact ⟨id, id⟩) (g := 0) (by decide)

/-- The same four calls in two orders, on graph 0 of `demo`; the last call of the first session changes an edge that is there. -/
def oneOrder : List Build :=
  [.node (.str "y") {} .warn, .node (.str "z") { label := .str "Z" } .warn, .edge (.str "y") (.str "z") { value := .int 3 } .warn,
   .edge (.str "a") (.str "b") {} .warn]
def otherOrder : List Build :=
  [.edge (.str "a") (.str "b") {} .warn, .node (.str "z") { label := .str "Z" } .warn, .node (.str "y") {} .warn,
   .edge (.str "y") (.str "z") { value := .int 3 } .warn]

theorem oneOrder_returns : AllReturn (oneOrder.map (Build.op 0)) demo :=
  ⟨⟨.node 5, by decide +kernel⟩, ⟨.node 6, by decide +kernel⟩, ⟨.edge 5, by decide +kernel⟩, ⟨.edge 0, by decide +kernel⟩, trivial⟩
theorem otherOrder_returns : AllReturn (otherOrder.map (Build.op 0)) demo :=
  ⟨⟨.edge 0, by decide +kernel⟩, ⟨.node 5, by decide +kernel⟩, ⟨.node 6, by decide +kernel⟩, ⟨.edge 5, by decide +kernel⟩, trivial⟩

example := C105_result demo_reachable (g := 0) (by decide) oneOrder oneOrder_returns
example := C105_order demo_reachable (g := 0) (by decide) (bs := oneOrder) (bs' := otherOrder)
  (fun b => by simp only [oneOrder, otherOrder, List.mem_cons, List.not_mem_nil, or_false]; grind) oneOrder_returns otherOrder_returns

end Verif
