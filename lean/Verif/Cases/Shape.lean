import Verif.Cases.Graph
import Verif.Props.AnyOrder
import Verif.Props.Filter
/-!
# C42, C102, C103 at concrete graphs
-/
namespace Verif

/-- `demo` with two copies of its first graph. -/
def twinDemo : Heap := runOps [.copy 0, .copy 2] demo

theorem twinDemo_reachable : Reachable twinDemo :=
  Reachable.runOps demo_reachable _ (by simp only [AllOk, Op.Ok]; decide +kernel)

example : graphSimilar twinDemo 0 3 = .ok true :=
  C42_transitive twinDemo_reachable (g2 := 2) (by decide +kernel) (by decide +kernel)

theorem twinDemo_shape : OneShape twinDemo 0 twinDemo 2 := C102_similar twinDemo_reachable (by decide +kernel)

example : ∃ g' h', Reachable h' ∧ OneShape chain 0 h' g' := by
  obtain ⟨g', m, h', -, r, -, -, c⟩ := C31_copy chain_reachable (g := 0) (by decide) (by decide +kernel)
  exact ⟨g', h', r, C102_copy chain_reachable c⟩
example := C102_reachability twinDemo_reachable twinDemo_reachable twinDemo_shape (a := .key (.str "a")) (b := .key (.str "a")) (x := 0)
  (x' := 5) (by decide +kernel) (by decide +kernel) (by decide +kernel) (lim := 9) (lim' := 9)
example := C102_loops twinDemo_reachable twinDemo_reachable twinDemo_shape (a := .key (.str "a")) (b := .key (.str "a")) (x := 0)
  (x' := 5) (by decide +kernel) (by decide +kernel) (by decide +kernel) (a2 := .node 1) (b2 := .node 6) (y := 1) (y' := 6)
  (by decide +kernel) (by decide +kernel) (by decide +kernel) (lim := 9) (lim' := 9)
example := C102_siblings twinDemo_reachable twinDemo_reachable twinDemo_shape (a := .key (.str "a")) (b := .key (.str "a")) (x := 0)
  (x' := 5) (by decide +kernel) (by decide +kernel) (by decide +kernel)
example := C102_ends twinDemo_reachable twinDemo_reachable twinDemo_shape (by decide +kernel) (by decide +kernel)

/-- The loop `a → b → c → a`, described from `a` on and from `b` on, has one root each, but not the same. -/
example :
    let h := (fromLists (["a", "b", "c"].map .str) (["b", "c", "a"].map .str) [.none, .none, .none] false Heap.init).2
    let h' := (fromLists (["b", "c", "a"].map .str) (["c", "a", "b"].map .str) [.none, .none, .none] false Heap.init).2
    OneShape h 0 h' 0 ∧ roots 9 h 0 = .ok [0] ∧ roots 9 h' 0 = .ok [0] ∧ (h.node 0).id = .str "a" ∧ (h'.node 0).id = .str "b" := by
  obtain ⟨h1, h2, e1, e2, r1, r2, S⟩ := C103_from_lists (h := Heap.init) (h' := Heap.init) .init .init ["a", "b", "c"] ["b", "c", "a"]
    ["b", "c", "a"] ["c", "a", "b"] [.none, .none, .none] [.none, .none, .none] false false (by decide)
  obtain rfl : (fromLists (["a", "b", "c"].map .str) (["b", "c", "a"].map .str) [.none, .none, .none] false Heap.init).2 = h1 := by rw [e1]
  obtain rfl : (fromLists (["b", "c", "a"].map .str) (["c", "a", "b"].map .str) [.none, .none, .none] false Heap.init).2 = h2 := by rw [e2]
  have S' : OneShape _ 0 _ 0 := S
  have := C102_roots r1 r2 S' (lim := 9) (lim' := 9) (R := [0]) (R' := [0]) (by decide +kernel) (by decide +kernel) (by decide +kernel)
    (by decide +kernel)
  exact ⟨S', by decide +kernel, by decide +kernel, by decide +kernel, by decide +kernel⟩

example := C103_from_dict demo_reachable (nodes := [("x", { value := .int 1 }, .warn), ("y", {}, .warn)])
  (nodes' := [("y", {}, .warn), ("x", { value := .int 1 }, .warn)])
  (edges := [.two (.str "x") (.str "y"), .three (.str "y") (.str "x") { label := .str "back" } .warn])
  (edges' := [.three (.str "y") (.str "x") { label := .str "back" } .warn, .two (.str "x") (.str "y")])
  none none none none (.swap _ _ _) (.swap _ _ _) (by decide) (by decide) (by
    intro x hx
    simp only [List.mem_cons, List.not_mem_nil, or_false] at hx
    rcases hx with rfl | rfl
    · exact ⟨.str "x", .str "y", {}, .warn, rfl, by decide, by decide, by decide, rfl⟩
    · exact ⟨.str "y", .str "x", { label := .str "back" }, .warn, rfl, by decide, by decide, by decide, rfl⟩) (by decide)

example := C103_from_lists_differ demo_reachable ["a", "b"] ["b", "c"] ["b", "a"] ["c", "b"] [.none, .none] [.none, .none] false false
  (i := 0) (x := "a") (y := "b") (x' := "b") (y' := "c") (v := .none) (v' := .none) (by decide) (by decide) (.inl (by decide))
example := C103_from_dict_shape demo_reachable chain_reachable (nodes := [("x", {}, .warn)]) (nodes' := [("x", { value := .int 1 }, .warn)])
  (edges := [.two (.str "x") (.str "x")]) (edges' := [.three (.str "x") (.str "x") { label := .str "self" } .warn])
  none none none none none none (.refl _) (.refl _) (by decide) (fun q hq => by simp only [List.mem_singleton] at hq; subst hq; trivial)
  (fun q hq => by simp only [List.mem_singleton] at hq; subst hq; trivial)
  (fun x hx => by
    simp only [List.mem_singleton] at hx; subst hx
    exact ⟨.str "x", .str "x", {}, .warn, rfl, by decide, by decide, by decide, rfl⟩)
  (fun x hx => by
    simp only [List.mem_singleton] at hx; subst hx
    exact ⟨.str "x", .str "x", { label := .str "self" }, .warn, rfl, by decide, by decide, by decide, rfl⟩)

end Verif
