import Verif.Cases.Graph
import Verif.Props.Atomic
/-!
# C98 at concrete graphs
-/
namespace Verif

/-- `demo` with its first edge and its first node frozen. -/
def icyDemo : Heap := runOps [.edgeFreeze 0 true, .nodeFreeze 0 true] demo

theorem icyDemo_reachable : Reachable icyDemo :=
  Reachable.runOps demo_reachable _ (by simp only [AllOk, Op.Ok]; decide +kernel)

theorem icyDemo_connected : Connected icyDemo 0 0 1 .none 0 :=
  ⟨by decide, by decide, by decide, by decide, ⟨[0, 3], by decide, by decide⟩, ⟨[0, 3], by decide, by decide⟩⟩

example := C98_connect_partial icyDemo_reachable (g := 0) (s := .key (.str "a")) (t := .node 1) (by decide) (by decide)
  { label := .str "again" } (p := .warn) (by decide) icyDemo_connected
example := C98_connect_violated icyDemo_reachable (g := 0) (s := .key (.str "a")) (t := .node 1) (by decide) (by decide)
  { label := .str "again", value := .int 1 } (p := .warn) (by decide) icyDemo_connected (by decide) rfl (by decide) (by decide) (by decide)
example := C98_add_node_partial (h := icyDemo) (g := 0) (x := "a") (n := 0) (by decide) { label := .str "again" } (p := .warn) (by decide)
example := C98_add_node_violated (h := icyDemo) (g := 0) (x := "a") (n := 0) (by decide) { label := .str "again", value := .int 1 } (p := .warn)
  (by decide) (by decide) rfl (by decide) (by decide) (by decide)
example := (C05_unknown_end (h := demo) (g := 0) (s := .key (.str "a")) (t := .other) {} .warn).2 0 .typeError (by decide) (by decide)
example := C98_append_partial demo_reachable (g := 0) (by decide)
  (.items [.dict { nodes := some (.list [.str "z"]), edges := some [.two (.str "z") (.str "zz")] }])
example := C98_append_violated demo_reachable (g := 0) (by decide) (x := "z") (y := "zz") (by decide) (by decide) (by decide)
example := C21_node demo_reachable (g := 0) (x := 2) (by decide) (by decide) 10

end Verif
