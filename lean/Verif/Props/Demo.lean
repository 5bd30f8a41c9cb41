import Verif.Lemmas.Frame
/-!
# A concrete reachable heap used by the examples

Graph 0: nodes `a b c d` (handles 0-3), edges `a→b`, `b→c`, `c→a`, a second `a→b` with id `"2"`, and `d→d`.
Graph 1: node `a` (handle 4). The failing call in the middle is part of the history.
-/
namespace Verif


/-- `connect` by names. -/
def Op.link (g : GRef) (s t : String) (id : Option Key := none) : Op :=
  .connect g (.key (.str s)) (.key (.str t)) { id := id } .warn

/-- `add_node` by name. -/
def Op.add (g : GRef) (x : String) : Op := .addNode g (.str x) {} .warn

def demoOps : List Op :=
  [.newGraph false true false, .newGraph false true false, .add 0 "a", .add 0 "b", .add 0 "c", .add 0 "d", .add 1 "a",
   .link 0 "a" "b", .link 0 "b" "c", .link 0 "a" "zzz", .link 0 "c" "a", .link 0 "a" "b" (some (.str "2")),
   .link 0 "d" "d"]

def demo : Heap := runOps demoOps Heap.init

theorem demo_reachable : Reachable demo := by
  refine Reachable.runOps .init demoOps ?_
  refine ⟨trivial, trivial, ?_⟩
  simp only [AllOk, Op.Ok, Op.add, Op.link]
  decide

example : graphNodes demo 0 = [0, 1, 2, 3] ∧ graphNodes demo 1 = [4] ∧
    outwardEdges demo 0 = .ok [0, 3] ∧ inwardEdges demo 0 = .ok [2] ∧ outwardEdges demo 3 = .ok [4] ∧
    edgeId demo 3 = .ok (.str "a", .str "b", .key (.str "2")) := by decide

end Verif
