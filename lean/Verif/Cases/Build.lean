import Verif.Cases.Graph
import Verif.Props.Roots
import Verif.Props.Half
import Verif.Props.Siblings
import Verif.Props.Tree
import Verif.Props.Objects
import Verif.Props.Copy
import Verif.Props.Filter
import Verif.Props.Builders
import Verif.Props.Append
import Verif.Props.Parse
import Verif.Props.TextTree
import Verif.Props.Random
import Verif.Props.Similar
import Verif.Props.FromObject
import Verif.Props.ChildRank
import Verif.Props.Attributes
/-!
# C24 to C42, C52, C54 to C60, C89 and C90 at concrete graphs
-/
namespace Verif

/-! ## C24 to C28 -/

example := C24_ancestors_one_partial fork_reachable (g := 0) (a := .key (.str "x")) (x := 0) (by decide +kernel) (lim := 5)
  (d := [(1, [1, 2]), (2, [4])]) (by decide +kernel)
example := C24_descendants_one_partial branch_reachable (g := 0) (a := .key (.str "x")) (x := 0) (by decide +kernel) (lim := 5)
  (d := [(1, [1, 2]), (2, [4])]) (by decide +kernel)

example := C24_ancestors_partial demo_reachable (g := 0) (a := .key (.str "a")) (x := 0) (by decide) (lim := 4)
  (d := [(1, [2]), (2, [1]), (3, [0])]) (by decide +kernel)
example := C24_descendants_partial demo_reachable (g := 0) (a := .key (.str "a")) (x := 0) (by decide) (lim := 4)
  (d := [(1, [1]), (2, [2])]) (by decide +kernel)
example := C25_roots demo_reachable 0 (lim := 4) (by decide)
example := C26_exact demo_reachable (g := 0) (by decide)

/-- `a → b → c` and `x → b`. -/
def tidy : Heap := runOps [.newGraph false true false, .add 0 "a", .add 0 "b", .add 0 "c", .add 0 "x",
  .link 0 "a" "b", .link 0 "b" "c", .link 0 "x" "b"] Heap.init

theorem tidy_reachable : Reachable tidy :=
  Reachable.runOps .init _ ⟨trivial, by simp only [AllOk, Op.Ok, Op.add, Op.link]; decide⟩

theorem tidy_acyclic : ∀ x, ¬ Path tidy 0 x x := by
  have key : ∀ n ∈ graphNodes tidy 0, isNodeInLoop 4 tidy 0 (.node n) = .ok false := by decide +kernel
  intro x hp
  have hx : x ∈ graphNodes tidy 0 := by
    obtain ⟨A, H⟩ := tidy_reachable.hist
    cases hp with
    | single h => exact (arrow_mem tidy_reachable h).2
    | tail _ h => exact (arrow_mem tidy_reachable h).2
  have := (C22_in_loop tidy_reachable (getNode_self tidy_reachable hx) (key x hx)).2 hp
  cases this

example := C26_acyclic tidy_reachable (by decide) tidy_acyclic (by decide)
example := C27_exact demo_reachable (g := 0) (a := .key (.str "b")) (x := 1) (by decide)
example := C27_counts demo_reachable (g := 0) (a := .key (.str "b")) (x := 1) (by decide)
example := C27_node tidy_reachable (g := 0) (by decide) (x := 0) (by decide)
example := C27_symmetric tidy_reachable (g := 0) (p := .node 0) (q := .key (.str "x")) (x := 0) (y := 3) (by decide) (by decide)
  (sx := []) (sy := []) (cx := [3]) (cy := [0]) (by decide +kernel) (by decide +kernel) (by decide +kernel) (by decide +kernel)
example := C28_tree demo_reachable (g := 0) (by decide) (lim := 5) (by decide)

/-! ## C29 to C35 -/

example := C29_any_stack (next := sample) (U := [0, 1, 2, 3, 4]) (by decide) (obj := 0) (by decide) (lim := 5) (l := [1, 2, 4, 3])
  (by decide +kernel)
example := C29_reachability (next := sample) (U := [0, 1, 2, 3, 4]) (by decide) (obj := 0) (by decide) (lim := 5) (by decide)
example := C30_limited_partial (next := sample) 0 3 (lim := 4) (by decide)
example := C30_distances_partial (next := sample) 0 3 (lim := 4) (by decide)
example := C30_one_partial (next := fun n : Nat => [2 * n + 1, 2 * n + 2]) (obj := 0) (d := some 2) (lim := 3)
  (dict := [(1, [1, 2]), (2, [5, 6])]) (by decide +kernel)
example := C30_two_partial (next := sample) 0 2 (by decide) (lim := 3) (by decide)

/-- What `Graph.copy` returns for `demo`, and the heap it leaves. -/
theorem demo_copies : ∃ m, graphCopy 0 demo = (.ok (2, m), copyDemo) := by
  obtain ⟨g', m, h', hc, -⟩ := C31_copy demo_reachable (g := 0) (by decide) (by decide +kernel)
  have h2 : (((graphCopy 0 demo).1.toOption).map Prod.fst) = some 2 := by decide +kernel
  have h3 : copyDemo = (graphCopy 0 demo).2 := by
    simp only [copyDemo, Op.step, hc]
    simp [bind, M.bind, hc]
    try rfl
  rw [hc] at h2 h3
  cases h2
  exact ⟨m, by rw [hc, h3]⟩

example := C31_copy demo_reachable (g := 0) (by decide) (by decide +kernel)
example := demo_copies.elim fun _ hc => C31_similar demo_reachable (g := 0) (by decide) (by decide +kernel) (fun e ⟨n, hn, os, ho, he⟩ => by
  have key : ∀ n ∈ graphNodes demo 0, ∀ e ∈ (outwardEdges demo n).toOption.getD [], (demo.edge e).style = none := by decide
  exact key n hn e (by rw [ho]; exact he)) hc
example := C32_original demo_reachable (g := 0) (by decide) (x := 1) (by decide)
example := demo_copies.elim fun _ hc => C32_disjoint demo_reachable (g := 0) (by decide) hc (x := 0) (by decide)
example := demo_copies.elim fun _ hc => (C32_independent demo_reachable (g := 0) (by decide) hc
  [.nodeValue 5 (.int 3), .removeNode 2 (.key (.str "a")), .link 2 "b" "d"] (by simp only [AllOk, Op.Ok, Op.link]; decide +kernel)).1
  (by simp only [NoneOn, Op.on, Op.link]; decide +kernel)
example := C33_unstyled_partial demo_reachable (g := 0) (by decide) (by decide +kernel)
example := demo_copies.elim fun _ hc => C33_settings_lost demo_reachable (g := 0) (by decide) hc (by decide +kernel)
example := C33_violated (h := styledDemo) (g := 0) (n := 1) (by decide +kernel) (by decide +kernel)

theorem chain_names {l : List String} (hl : ∀ x ∈ l, x ∈ ["a", "b", "c", "x", "y"]) :
    ∀ a ∈ l.map (fun x => NodeArg.key (.str x)), ∃ x, getNode chain 0 a = .ok x := by
  intro a ha
  obtain ⟨x, hx, rfl⟩ := List.mem_map.1 ha
  have key : ∀ x ∈ ["a", "b", "c", "x", "y"], (getNode chain 0 (.key (.str x))).toOption.isSome = true := by decide +kernel
  have := key x (hl x hx)
  cases hg : getNode chain 0 (.key (.str x)) with
  | ok n => exact ⟨n, rfl⟩
  | error e => rw [hg] at this; cases this

example := C34_include_partial chain_reachable (g := 0) (by decide) (by decide +kernel) (by decide +kernel) (lim := 5) (by decide)
  (chain_names (l := ["a", "y"]) (by decide)) "to_and_from"
example := C34_exclude_partial chain_reachable (g := 0) (by decide) (by decide +kernel) (by decide +kernel) (lim := 5) (by decide)
  (chain_names (l := ["a"]) (by decide)) "to_and_from" (filterType := "exclude") (by decide)
example := C34_unknown chain_reachable (g := 0) (by decide +kernel) (lim := 5) (by decide) (a := .key (.str "zzz")) (err := .keyError)
  [.key (.str "c")] (chain_names (l := ["a"]) (by decide)) (by decide +kernel) "to" "include"
example := C34_violated (h := styledDemo) (g := 0) (n := 1) (by decide +kernel) (by decide +kernel) 10 [.node 0] "to" "include"

/-! ## C36 to C42 -/

example := C36_from_lists demo_reachable ["a", "a", "b"] ["b", "b", "c"] [.none, .str "x", .none] false

theorem two_good : ∀ x ∈ [EdgeItem.two (.str "a") (.str "b"), .three (.str "a") (.str "b") { id := some (.int 1) } .ignore],
    x.Good [.str "a", .str "b"] := by
  intro x hx
  simp only [List.mem_cons, List.not_mem_nil, or_false] at hx
  rcases hx with rfl | rfl <;> exact ⟨_, _, _, _, rfl, by decide, by decide, by decide, rfl⟩

example := C37_from_dict demo_reachable [("a", { label := .str "A" }, .warn), ("b", {}, .warn)]
  [.two (.str "a") (.str "b"), .three (.str "a") (.str "b") { id := some (.int 1) } .ignore] (some true) none (some "title")
  (by decide) (by simp [StyleArg.Valid]) two_good
example := C37_from_names demo_reachable ["a", "b"]
  [.two (.str "a") (.str "b"), .three (.str "a") (.str "b") { id := some (.int 1) } .ignore] two_good
example := C37_ids [.two (.str "a") (.str "b")] {} rfl
example := C37_refused demo_reachable [("a", {}, .warn), ("b", {}, .warn)]
  [.two (.str "a") (.str "b"), .three (.str "a") (.str "b") { id := some (.int 1) } .ignore] [] (.two (.str "a") (.str "c")) .keyError
  none none (by decide) (by simp [StyleArg.Valid]) two_good (by simp [EdgeItem.Wrong])
example := C38_append_twice demo_reachable (g := 0) (by decide)
  (.dict { edges := some [.two (.str "a") (.str "e")], nodes := some (.list [.str "a", .str "e"]) }) (ran (by decide +kernel)) 0
example := C38_reachable demo_reachable (g := 0) (by decide) (.dict { edges := some [.few], nodes := some (.list [.str "e"]) })

example := C40_parent ["a".toList, "  b".toList, "  c".toList, "d".toList] none 2 ⟨2, 1, "c".toList, some 0⟩ (by decide +kernel)
example := C40_earlier ["a".toList, "  b".toList, "  c".toList, "d".toList] none 2 ⟨2, 1, "c".toList, some 0⟩ 0 (by decide +kernel) rfl
example := C40_text demo_reachable "top" ["a".toList, "  b".toList, "  c".toList, "d".toList] none (by decide +kernel)
example := C40_text_raises demo_reachable "top" ["  a".toList] none (.valueError "Indentation too deep") (by decide +kernel)
example := C40_tree demo_reachable "top" ["a".toList, "  b".toList, "  c".toList, "d".toList] none demo.nG _
  (C40_text demo_reachable "top" ["a".toList, "  b".toList, "  c".toList, "d".toList] none (by decide +kernel)).choose_spec.1
example := C40_too_deep "\t".toList (by decide) (by decide) (fun _ => 1) menu 2 "dill".toList [] (by
    intro e he
    rcases List.mem_append.1 he with he | he
    · exact menu_plain e he
    · obtain rfl := List.mem_singleton.1 he
      exact ⟨⟨_, _, rfl, by decide⟩, by decide⟩) (by decide +kernel) (by
    have : (readOutline (fun _ t => t) menu).1.getLast?.map (·.level) = some 0 := by decide +kernel
    intro l hl; rw [this] at hl; cases hl; decide) (by simp [menu])

/-- Every draw is one half. -/
theorem half_draw : ∀ _ : Nat, (0 : Rat) ≤ 1 / 2 ∧ (1 / 2 : Rat) < 1 := fun _ => by decide +kernel

example := C41_exact demo_reachable 3 true false 5 (3 / 4) true (fun _ => 1 / 2) half_draw
example := C41_acyclic demo_reachable 3 true 5 (3 / 4) true (fun _ => 1 / 2) half_draw _ _
  (C41_exact demo_reachable 3 true false 5 (3 / 4) true (fun _ => 1 / 2) half_draw).choose_spec.1
example := C41_all 3 false 1 (by decide) (fun _ => 1 / 2) half_draw 0 2 (by decide) (by decide) (.inr (by decide))
example := C41_none 3 true 0 (by decide) (fun _ => 1 / 2) half_draw

theorem orderDemo_reachable : Reachable orderDemo :=
  Reachable.runOps .init _ ⟨trivial, trivial, by simp only [AllOk, Op.Ok, Op.add, Op.link]; decide +kernel⟩
theorem namesDemo_reachable : Reachable namesDemo :=
  Reachable.runOps .init _ ⟨trivial, trivial, by simp only [AllOk, Op.Ok, Op.add]; decide +kernel⟩

example : ∃ A, Alike orderDemo A 0 1 := by
  obtain ⟨A, H⟩ := orderDemo_reachable.hist
  exact ⟨A, (C42_exact H 0 1).1 (by decide +kernel)⟩
example := C42_symmetric orderDemo_reachable (g := 0) (g' := 1) (by decide +kernel)
example {A : Spec} (H : Hist namesDemo A) := (C42_raises_exact H 0 1 .keyError).1 (by decide +kernel)
example := C42_names_violated namesDemo_reachable (g := 0) (g' := 1) (by decide) (by decide) (by decide)
example {A : Spec} (H : Hist namesDemo A) := C42_raises_partial H (g := 0) (g' := 1) (x := .keyError) (by decide +kernel)

/-! ## C52, C54 to C60 -/

theorem shortcut_reachable : Reachable (runOps shortcutOps Heap.init) :=
  Reachable.runOps .init _ (by simp only [shortcutOps, AllOk, Op.Ok, Op.add, Op.link]; decide +kernel)

example := C52_rank shortcut_reachable (g := 0) (n := 1) (parent := 0) (by decide +kernel) (by decide +kernel) (by decide +kernel)
example := C52_distinct shortcut_reachable (g := 0) (n := 1) (m := 2) (parent := 0) (by decide +kernel)
  ((mem_kids shortcut_reachable (g := 0) (by decide +kernel)).1 (by decide +kernel))
  ((mem_kids shortcut_reachable (g := 0) (by decide +kernel)).1 (by decide +kernel)) (i := 0) (j := 1) (by decide +kernel) (by decide +kernel)
example := C54_violated { children := fun n : Nat => [n + 1], parents := fun n => [n - 1], hash := fun n => .int n, str := fun _ => "x" } 5 0
  false true false none none demo (i := 0) rfl
example := C55_new_name_partial demo_reachable (g := 0) (k := .str "e") (by decide) .none (.str "E") .none .none 9 [] trivial
example := C55_taken_violated demo_reachable (g := 0) (k := .str "a") (n := 0) (by decide) .none (.str "E") .none .none 9 [] trivial
example := C56_one_graph_partial demo_reachable (g := 0) (g' := 0) (n := 1) (by decide) (by decide)
example := C57_get_edges demo_reachable (g := 0) (a := .key (.str "d")) (x := 3) (by decide)
example := C57_children demo_reachable (g := 0) (a := .key (.str "a")) (x := 0) (by decide)
example := C57_parents demo_reachable (g := 0) (a := .key (.str "b")) (x := 1) (by decide)
example := C57_node demo_reachable (g := 0) (x := 1) (by decide) (by decide)
example := C57_unknown (h := demo) (g := 0) (a := .key (.str "zzz")) (x := .keyError) (by decide)
example := C57_outward_by_id demo_reachable (g := 0) (x := 0) (by decide)
example := C57_inward_by_id demo_reachable (g := 0) (x := 1) (by decide)
example := C58_initial demo_reachable (g := 0) (by decide) (x := "e") (by decide) { kwargs := [("size", .int 3)] } .warn (n := 5)
  (ran (by decide)) "size"
example := C58_initial_edge demo_reachable (g := 0) (s := .node 0) (t := .node 3) (n := 0) (m := 3) (by decide) (by decide)
  { kwargs := [("weight", .int 3)] } .warn (by
    rintro e ⟨n, hn, os, hos, he⟩
    have all : ∀ n ∈ graphNodes demo 0, ∀ e ∈ (outwardEdges demo n).toOption.getD [],
        edgeId demo e ≠ .ok ((demo.node 0).id, (demo.node 3).id, .none) := by decide
    exact all n hn e (by rw [hos]; exact he)) (e := 5) (ran (by decide)) "weight"
example := (C59_options demo true false true).choose_spec.2.2.2.2.2 [.setOptions 0 false false]
example := (C60_label demo 0).1 (by decide)

/-! ## C89 and C90 -/

example := C89_remove_edges demo_reachable (g := 0) (x := 1) (by decide)
example := C90_both_partial demo_reachable demo_live3
example := C90_append_partial demo_reachable demo_live3
example := C90_remove_half_violated demo_reachable demo_live3
example := C90_append_violated demo_reachable demo_live3 (x := 2) (by decide) (by decide)

end Verif
