import Verif.Cases.Sessions
import Verif.Props.MonotoneCalls
/-!
# C104 at concrete sessions of all public calls
-/
namespace Verif

/-- Calls on `gallery` that take nothing away: a dictionary is appended, which raises after its node and its first edge, then the graph is
drawn, copied, filtered and added to the other one. -/
def growCalls : List (Call Rat) :=
  [.append 0 { nodes := some (.list [.str "x"]), edges := some [.two (.str "b") (.str "x"), .few] },
   .render 10 id 0 {}, .copy 0, .filter 10 0 [.key (.str "a")] "to_and_from" "exclude",
   .add { scheme := none, display := plainDisplay } id (fun _ _ => .error .typeError) 0 (.graph 1),
   .connect 0 (.key (.str "x")) (.key (.str "a")) { style := .dict [.colour (1 / 2)] }]

theorem growCalls_ok : CallsOk gallery growCalls := by
  refine ⟨?_, ?_, ?_, ?_, ?_, ?_, trivial⟩ <;>
    refine okCall (by simp) (by decide +kernel) (by simp [Call.styles, GraphDict.styles, NodesEntry.specs, EdgeEntry.spec, EdgeStyleArg.plain]) ?_
  exacts [trivial, fun _ => .refl _, trivial, trivial, trivial, trivial]

example := C104_calls_grow gallery_tidy.owned.session growCalls_ok (by simp [growCalls, Call.Removes]) (g := 0) (by decide +kernel)
example : graphNodes gallery.heap 0 = [0, 1] ∧ graphNodes (runCalls gallery growCalls).heap 0 = [0, 1, 3] ∧
    outwardEdges (runCalls gallery growCalls).heap 1 = .ok [1] ∧ (outwardEdges (runCalls gallery growCalls).heap 3).isOk = true ∧
    (appendDictW 0 { nodes := some (.list [.str "x"]), edges := some [.two (.str "b") (.str "x"), .few] } gallery).1.isOk = false := by
  decide +kernel

/-- Calls on `gallery` that put nothing in. -/
def shrinkCalls : List (Call Rat) :=
  [.render 10 id 0 {}, .plain (.removeNode 0 (.key (.str "b"))), .copy 0, .filter 10 0 [.key (.str "a")] "to_and_from" "exclude",
   .nodeStyle 0 (.dict [.colour 0]), .add { scheme := none, display := plainDisplay } id (fun _ _ => .error .typeError) 0 (.graph 1)]

theorem shrinkCalls_ok : CallsOk gallery shrinkCalls := by
  refine ⟨?_, ?_, ?_, ?_, ?_, ?_, trivial⟩
  rotate_left
  · refine ⟨fun op h => ?_, by simp [Call.graphs], by simp [Call.styles, Op.style], trivial⟩
    cases h
    exact ⟨by simp [Op.Plain, Op.style], show (0 : Nat) < Heap.nG _ from (by decide +kernel)⟩
  all_goals refine okCall (by simp) (by decide +kernel) (by simp [Call.styles, NodeStyleArg.plain]) ?_
  exacts [trivial, trivial, trivial, trivial, fun _ => .refl _]

example := C104_calls_shrink gallery_tidy.owned.session shrinkCalls_ok (by simp [shrinkCalls, Call.Adds, Op.Adds]) (g := 0) (by decide +kernel)
example : graphNodes (runCalls gallery shrinkCalls).heap 0 = [0] ∧ outwardEdges (runCalls gallery shrinkCalls).heap 0 = .ok [] := by
  decide +kernel

end Verif
