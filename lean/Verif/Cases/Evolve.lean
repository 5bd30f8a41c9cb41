import Verif.Cases.Graph
import Verif.Props.Undo
import Verif.Props.Filter
import Verif.Props.Stylize
/-!
# C99 - C101 at concrete graphs
-/
namespace Verif

/-- `chain` (`a → b → c`, `x → b`, `y → y`) and a new edge from `c` to `x`, which closes a loop. -/
example := C99_ancestors chain_reachable (g := 0) (s := .key (.str "c")) (t := .key (.str "x")) (n := 2) (m := 3) (a := {}) (p := .warn)
  (e := 4) (by decide) (by decide) (ran (by decide +kernel)) (lim := 9) (above := [1, 0, 3]) (below := [1, 2]) (by decide +kernel)
  (by decide +kernel)
example := C99_loops chain_reachable (g := 0) (s := .key (.str "c")) (t := .key (.str "x")) (n := 2) (m := 3) (a := {}) (p := .warn)
  (e := 4) (by decide) (by decide) (ran (by decide +kernel)) (lim := 9) (above := [1, 0, 3]) (below := [1, 2]) (by decide +kernel)
  (by decide +kernel)
/-- `diamond` (`a → b → d`, `a → c → d`) has no loop; `b → c` makes none, `d → a` makes one. -/
example : loopNodes 9 (connect 0 (.key (.str "b")) (.key (.str "c")) {} .warn diamond).2 0 = .ok [] :=
  (C99_acyclic diamond_reachable (by decide) (n := 1) (m := 2) (e := 4) (by decide) (by decide) (ran (by decide +kernel)) (by decide)
    (by decide +kernel) (below := [3]) (by decide +kernel)).2 (by decide)
example : loopNodes 9 (connect 0 (.key (.str "d")) (.key (.str "a")) {} .warn diamond).2 0 ≠ .ok [] := fun h =>
  absurd ((C99_acyclic diamond_reachable (by decide) (n := 3) (m := 0) (e := 4) (by decide) (by decide) (ran (by decide +kernel))
    (by decide) (by decide +kernel) (below := [1, 3, 2]) (by decide +kernel)).1 h) (by decide)

example := C100_remove_node chain_reachable (g := 0) (a := .key (.str "b")) (v := 1) (by decide)
example : PathAvoiding diamond 0 1 0 3 :=
  .tail (b := 2) (.single ⟨⟨1, ⟨0, by decide, [0, 1], by decide +kernel, by decide⟩, by decide, by decide⟩, by decide, by decide⟩)
    ⟨⟨3, ⟨2, by decide, [3], by decide +kernel, by decide⟩, by decide, by decide⟩, by decide, by decide⟩
example := C100_disconnect demo_reachable (g := 0) (e := 1) ⟨1, by decide, [1], by decide, by decide⟩
example := C100_parallel demo_reachable (g := 0) (e := 0) (f := 3) ⟨0, by decide, [0, 3], by decide, by decide⟩
  ⟨0, by decide, [0, 3], by decide, by decide⟩ (by decide) (by decide) (by decide)
example := C100_shrinks demo_reachable (g := 0) (h' := (removeNode 0 (.key (.str "b")) demo).2) (.inl ⟨_, 1, by decide, ran (by decide +kernel)⟩)
  (z := 0) (by decide +kernel) 9
example := C100_shrinks demo_reachable (g := 0) (h' := (disconnect 1 demo).2)
  (.inr ⟨1, ⟨1, by decide, [1], by decide, by decide⟩, .inl (ran (by decide +kernel))⟩) (z := 0) (by decide +kernel) 9

example := C101_connect demo_reachable (g := 0) (s := .key (.str "a")) (t := .node 1) (n := 0) (m := 1) (by decide) (by decide)
  (a := { id := some (.int 7), label := .str "again" }) (p := .warn) (by
    rintro f ⟨n, hn, os, hos, hf⟩
    have all : ∀ n ∈ graphNodes demo 0, ∀ f ∈ (outwardEdges demo n).toOption.getD [],
      edgeId demo f ≠ .ok ((demo.node 0).id, (demo.node 1).id, ({ id := some (.int 7), label := .str "again" } : EdgeArgs).raw) := by
      decide +kernel
    exact all n hn f (by rw [hos]; exact hf)) (e := 5) (ran (by decide +kernel))
example := C101_add_node demo_reachable (g := 0) (by decide) (x := "z") (by decide) { label := .str "new" } .warn trivial

end Verif
