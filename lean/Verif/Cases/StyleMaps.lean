import Verif.Props.StyleMaps
import Verif.Cases.Styles
/-!
# Cases for `Props/StyleMaps.lean`
-/
namespace Verif

theorem partlyDressed_reachable : Reachable partlyDressed :=
  Reachable.runOps diamond_reachable _ (by simp only [AllOk, Op.Ok]; decide +kernel)

example := C95_has partlyDressed
example := C95_nodes partlyDressed_reachable 0
example := C95_edges partlyDressed_reachable 0
example : getNode partlyDressed 0 (.key (.str "a")) = .ok 0 ∧ (partlyDressed.node 0).style = some 0 ∧ (partlyDressed.node 1).style = none := by decide +kernel
example := C95_painted (w := plainWorld diamond) diamond_made diamond_reachable rfl diamond_owned (lim := 10) (by decide +kernel)
  (by decide) diamond_free diamond_values diamond_painted

end Verif
