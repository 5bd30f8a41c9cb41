import Verif.Cases.Basic
import Verif.Props.Structure
import Verif.Props.Connect
import Verif.Props.Identity
import Verif.Props.Remove
import Verif.Props.AddNode
import Verif.Props.Order
import Verif.Props.Isolation
import Verif.Props.Edges
import Verif.Props.Readd
import Verif.Props.Frozen
import Verif.Props.Traverse
/-!
# C01 to C23 at concrete graphs

Mostly `demo` (`Props/Demo.lean`): graph 0 has the nodes `a b c d` (0 to 3) and the edges 0: `a→b`, 1: `b→c`, 2: `c→a`, 3: `a→b`
with id `"2"`, 4: `d→d`; graph 1 has a node `a` (4).
-/
namespace Verif

theorem demo_live0 : LiveEdge demo 0 0 := ⟨0, by decide, [0, 3], by decide, by decide⟩
theorem demo_live1 : LiveEdge demo 0 1 := ⟨1, by decide, [1], by decide, by decide⟩
theorem demo_live3 : LiveEdge demo 0 3 := ⟨0, by decide, [0, 3], by decide, by decide⟩

/-! ## C01 and C02 -/

example := C01_outward demo_reachable (g := 0) (n := 0) (by decide)
example := C01_inward demo_reachable (g := 0) (m := 1) (by decide)
example := C01_registered demo_reachable 0
example : ∃ A, Hist demo A ∧ (A.graph 0).names = [.str "a", .str "b", .str "c", .str "d"] := by
  obtain ⟨A, H⟩ := C02_total demo_reachable
  exact ⟨A, H, (C02_refines H 0).1 ▸ by decide⟩
example {A : Spec} (H : Hist demo A) := C02_nodup H 0

/-! ## C03 to C05 -/

example := C03_connect_succeeds demo_reachable (g := 0) (s := .key (.str "a")) (t := .key (.str "b")) (n := 0) (m := 1)
  (by decide) (by decide) { label := .str "again" } .ignore (by decide) trivial (fun e he => by
    have : dget (demo.node 0).outE ((demo.node 0).id, (demo.node 1).id, EdgeArgs.raw { label := .str "again" }) = some 0 := by decide
    rw [this] at he; cases he; exact ⟨rfl, .inl rfl⟩)
example := C03_never_weird demo_reachable 0 (.key (.str "a")) (.node 3) {} .warn

theorem demo_connected : Connected demo 0 0 1 .none 0 := by
  refine ⟨by decide, by decide, by decide, by decide, ⟨[0, 3], by decide, by decide⟩, ⟨[0, 3], by decide, by decide⟩⟩

example := C04_connect_again demo_reachable (g := 0) (s := .key (.str "a")) (t := .node 1) (e := 0) (e' := 0) (by decide) (by decide)
  { label := .str "again" } .ignore demo_connected (ran (by decide))
example := C04_identity demo_reachable (g := 0) (s := .key (.str "a")) (t := .node 3) (n := 0) (m := 3) (a := { id := some (.int 5) })
  (p := .warn) (e := 5)  (by decide) (by decide) (ran (by decide))
example := C04_same_edge demo_reachable (g := 0) (g' := 0) (s := .key (.str "a")) (t := .node 3) (s' := .node 0) (t' := .key (.str "d"))
  (n := 0) (m := 3) (n' := 0) (m' := 3) (a := {}) (a' := { id := some (.int 5) }) (p := .warn) (p' := .warn) (e := 5) (e' := 6)
  (by decide) (by decide) (ran (by decide)) (by decide) (by decide) (ran (by decide))
example := C05_bad_style demo_reachable (g := 0) (s := .key (.str "a")) (t := .node 3) (n := 0) (m := 3) (by decide) (by decide)
  { style := .bad } .warn (by simp [StyleArg.Valid]) (by decide)
example := C05_exists demo_reachable (g := 0) (s := .key (.str "a")) (t := .node 1) (by decide) (by decide) {} demo_connected
example := C05_unknown (h := demo) 0 (.str "a") (.str "zzz") {} .warn (by decide)

/-! ## C06 to C09 -/

example := C06_remove_node demo_reachable (g := 0) (a := .key (.str "b")) (n := 1) (by decide)
example := C07_disconnect demo_reachable demo_live3
example := C07_remove_self demo_reachable demo_live3
example := C07_twice demo_reachable demo_live3 (.inl (ran (by decide)))
example := C07_twice demo_reachable demo_live3 (.inr (ran (by decide)))

/-- `demo` after `edge.disconnect()` on edge 3. -/
def cutDemo : Heap := runOps [.disconnect 3] demo

theorem cutDemo_reachable : Reachable cutDemo := Reachable.runOps demo_reachable _ (by simp only [AllOk, Op.Ok]; decide)

example := C07_dead cutDemo_reachable (e := 3) (fun g ⟨n, hn, os, ho, he⟩ => by
  have := cutDemo_reachable
  obtain ⟨A, H⟩ := this.hist
  have hg := H.rep.edge_graph ((liveEdge_iff H.rep).1 ⟨n, hn, os, ho, he⟩).choose_spec
  have : (cutDemo.edge 3).graph = none := by decide
  rw [this] at hg; cases hg)
example := C08_new demo_reachable (g := 0) (by decide) (x := "e") (by decide) { label := .str "E" } .warn trivial
example := C08_existing demo_reachable (g := 0) (x := "b") (n := 1) (m := 1) (by decide) { value := .int 3 } .warn (ran (by decide))
example := C08_error (h := demo) (g := 0) (x := "b") (by decide) { value := .int 3 }
example := C08_rejected (h := demo) (g := 0) (x := "e") (by decide) { style := .bad } .warn (by simp [StyleArg.Valid])
example := C09_eq_identity demo_reachable (g := 0) (n := 0) (m := 3) (by decide) (by decide)
example := C09_total_order demo_reachable
example := C09_increasing demo_reachable (g := 0) (by decide) (x := "e") (y := "a") (n := 5) (m := 6) (a := {}) (b := {}) (p := .warn)
  (q := .warn) (by decide) (ran (by decide)) [.removeNode 0 (.key (.str "a"))] (by simp only [AllOk, Op.Ok]; decide)
  (by decide +kernel) (ran (by decide +kernel)) [.link 0 "e" "a"]

/-! ## C10 to C13 -/

example := C10_isolated demo_reachable (.removeNode 0 (.node 0)) (by simp only [Op.Ok]; decide) (g := 1) (by decide)
  (by simp [Op.on])
example := C11_edges demo_reachable 0
example := C11_edges_dict demo_reachable 0
example := C11_degrees demo_reachable 0
example := C12_readd_partial demo_reachable (g := 0) (n := 1) (by decide) (by decide)
example := C12_readded_has_no_graph (h := removedDemo) (g := 0) (n := 1) (m := 1) (ran (by decide +kernel)) (.node 0) {} .warn
example := C13_name_partial demo_reachable 0 (.str "a")
example := (C13_node_raises demo_reachable (fun _ => 0) (g := 0) (n := 1)).1 (by decide)

/-! ## C14 to C17 -/

example := (C14_attempt frozenDemo 1 0 (.int 8)).1 (by decide +kernel)
example := C14_node (h := frozenDemo) (n := 1) (by decide +kernel) (by decide +kernel) [.nodeValue 1 (.int 8)] (by simp)
example := C14_edge (h := runOps [.edgeValue 1 (.int 7), .edgeFreeze 1 true] demo) (e := 1) (by decide +kernel) (by decide +kernel)
  [.edgeValue 1 (.int 8), .link 0 "b" "c"] (by simp [Op.link])
example := C15_allowed (h := demo) 1 7 (.inl (by decide))
example := (C15_attempt (h := styledDemo) (g := 0) (s := 0) (by decide +kernel) 1 0 (.obj 3)).1 (by decide +kernel) (by decide +kernel)
example := C15_node (h := styledDemo) (n := 1) (g := 0) (s := 0) (by decide +kernel) (by decide +kernel) (by decide +kernel)
  (by decide +kernel) (by decide +kernel) [.nodeStyle 1 (.obj 17)]
example := C15_edge (h := runOps [.newGraph false false false, .add 0 "a", .add 0 "b", .link 0 "a" "b", .edgeStyle 0 (.obj 4)] Heap.init)
  (e := 0) (g := 0) (s := 4) (by decide +kernel) (by decide +kernel) (by decide +kernel) (by decide +kernel) (by decide +kernel)
  [.edgeStyle 0 (.obj 17)]
example := C16_edges_partial demo_reachable demo_live0 demo_live3 (fun _ => 0)
example := (C16_edges_exact demo_reachable demo_live0 demo_live1).1 rfl
example := C16_hash demo_reachable demo_live0 demo_live3
example := C17_parallel_violated demo_reachable (s := .node 0) (t := .node 1) (n := 0) (m := 1) (by decide) (by decide) demo_live0
  (by decide) (by decide) (k := .int 7) (by
    rintro f ⟨n, hn, os, hos, hf⟩ - -
    have all : ∀ n ∈ graphNodes demo 0, ∀ f ∈ (outwardEdges demo n).toOption.getD [], (demo.edge f).raw ≠ .key (.int 7) := by
      decide
    exact all n hn f (by rw [hos]; exact hf)) .warn
example := C17_no_parallel_partial [.newGraph true true false, .add 0 "a", .add 0 "b", .link 0 "a" "b", .link 0 "a" "b"]
  (by simp only [AllOk, Op.Ok, Op.add, Op.link]; decide) (by simp [Op.NoId, Op.add, Op.link]) (g := 0) (e := 0) (f := 0) (n := 0) (m := 1)
  ⟨0, by decide, [0], by decide, by decide⟩ ⟨0, by decide, [0], by decide, by decide⟩ (by decide) (by decide) (by decide) (by decide)

/-! ## C18 to C23 -/

example := C18_ancestors demo_reachable (g := 0) (a := .key (.str "a")) (x := 0) (by decide) (lim := 10) (l := [2, 1, 0]) (by decide +kernel)
example := C18_node_ancestors demo_reachable (g := 0) (x := 3) (by decide) (by decide) (lim := 10) (l := [3]) (by decide +kernel)
example := C19_descendants demo_reachable (g := 0) (a := .key (.str "b")) (x := 1) (by decide) (lim := 10) (l := [2, 0])
  (by decide +kernel)
example := C19_node_descendants demo_reachable (g := 0) (x := 0) (by decide) (by decide) (lim := 10) (l := [1, 2]) (by decide +kernel)
example := fun l => C20_count demo_reachable (g := 0) (x := 0) (by decide) (by decide) (lim := 10) (n := 2) (by decide +kernel) l
example := C20_dual demo_reachable (g := 0) (p := .node 0) (q := .node 2) (a := 0) (b := 2) (by decide) (by decide) (by decide)
  (lim := 10) (lim' := 10) (anc := [1, 0, 2]) (desc := [1, 2]) (by decide +kernel) (by decide +kernel)
example := C21_terminates demo_reachable (g := 0) (a := .key (.str "b")) (x := 1) (by decide) (lim := 4) (by decide)
example := C21_unknown (h := demo) (g := 0) (a := .key (.str "zzz")) (e := .keyError) (by decide) 9
example := C22_in_loop demo_reachable (g := 0) (a := .key (.str "b")) (x := 1) (by decide) (lim := 10) (b := true) (by decide +kernel)
example := C22_in_loop_total demo_reachable (g := 0) (a := .key (.str "b")) (x := 1) (by decide) (lim := 4) (by decide)
example := C22_loop_nodes demo_reachable (g := 0) (by decide) (lim := 4) (by decide)
example := C22_readme demo_reachable (g := 0) (a := .key (.str "b")) (x := 1) (by decide) (lim := 10) (lim' := 10) (anc := [0, 2, 1])
  (desc := [2, 0]) (by decide +kernel) (by decide +kernel)
example := C23_edge demo_reachable (g := 0) (by decide) (lim := 4) (by decide) (e := 1) (s := 1) (t := 2) demo_live1 (by decide)
  (by decide)
example := C23_equivalence demo_reachable (g := 0) (by decide) (lim := 4) (by decide) (x := 0) (y := 1) (z := 2) (by decide) (by decide)
  (by decide)
example := C23_same_loop demo_reachable (g := 0) (p := .node 0) (q := .node 3) (x := 0) (y := 3) (by decide) (by decide) (lim := 10)
  (b := false) (by decide +kernel)
example := C23_same_loop_total demo_reachable (g := 0) (p := .node 0) (q := .node 3) (x := 0) (y := 3) (by decide) (by decide) (lim := 4)
  (by decide)

end Verif
