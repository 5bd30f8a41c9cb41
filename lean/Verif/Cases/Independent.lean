import Verif.Props.Independent
import Verif.Cases.Ledger
/-!
# Cases for C113
-/
namespace Verif

/-- Two parties at work on graph 0 of the example: calls that succeed, calls that raise, and two removals of nodes with an edge in
common. -/
def demoShared : List (Bool × Deed) :=
  [(true, .addNode (.str "e") { value := .int 1 } .error), (false, .addNode (.str "f") {} .error),
   (true, .addNode (.str "e") {} .error), (false, .connect (.str "f") (.str "a") {} .warn), (true, .nodeLabel (.str "a") (.int 3)),
   (true, .connect (.str "e") (.str "a") {} .warn), (false, .removeNode (.str "c")), (true, .removeNode (.str "b")),
   (false, .nodeValue (.str "c") (.int 1)), (true, .edgeLabel (.str "d", .str "d", .none) (.int 9))]

theorem demoShared_independent : ∀ x ∈ demoShared, ∀ y ∈ demoShared, x.1 ≠ y.1 → x.2.Independent y.2 := by
  intro x hx y hy hne
  simp only [demoShared, List.mem_cons, List.not_mem_nil, or_false] at hx hy
  rcases hx with rfl | rfl | rfl | rfl | rfl | rfl | rfl | rfl | rfl | rfl <;>
    rcases hy with rfl | rfl | rfl | rfl | rfl | rfl | rfl | rfl | rfl | rfl <;>
    first
    | exact absurd rfl hne
    | exact ⟨by simp [Deed.node?], by simp [Deed.bears, Deed.ends], by simp [Deed.bears, Deed.ends], .inl ⟨_, _, rfl, rfl⟩⟩
    | exact ⟨by simp [Deed.node?], by simp [Deed.bears, Deed.ends], by simp [Deed.bears, Deed.ends], .inr (by
        rintro ⟨s, t, i⟩ h h'
        simp only [Deed.edge, Prod.mk.injEq] at h h' <;> grind)⟩

/-- The same calls, party `false` first. -/
def demoShared' : List (Bool × Deed) := demoShared.filter (fun x => !x.1) ++ demoShared.filter (fun x => x.1)

example := C113_alone demo_reachable (g := 0) (by decide) demoShared demoShared_independent
example := C113_serial demo_reachable (g := 0) (by decide) demoShared demoShared_independent
example := C113_schedules demo_reachable (g := 0) (by decide) demoShared demoShared' demoShared_independent (by intro b; cases b <;> rfl)
example := C113_commute demo_reachable (g := 0) (by decide) (demoShared_independent _ (List.Mem.head _) _ (List.Mem.tail _ (List.Mem.head _)) (by decide))

example : partOf true (runShared 0 demoShared demo).1 = [.ok (), .error .keyError, .ok (), .ok (), .ok (), .ok ()] ∧
    partOf false (runShared 0 demoShared demo).1 = [.ok (), .ok (), .ok (), .error .keyError] := by decide +kernel

/-- The order of the listing does depend on the schedule. -/
example : (graphNodes (runShared 0 demoShared demo).2 0).map ((runShared 0 demoShared demo).2.node · |>.id) =
      [.str "a", .str "d", .str "e", .str "f"] ∧
    (graphNodes (runShared 0 demoShared' demo).2 0).map ((runShared 0 demoShared' demo).2.node · |>.id) =
      [.str "a", .str "d", .str "f", .str "e"] := by decide +kernel

/-- Calls that are not independent: the order decides who gets the exception. -/
example : (runShared 0 [(true, .addNode (.str "e") {} .error), (false, .addNode (.str "e") {} .error)] demo).1 =
      [(true, .ok ()), (false, .error .keyError)] ∧
    (runShared 0 [(true, .removeNode (.str "b")), (false, .connect (.str "a") (.str "b") {} .ignore)] demo).1 =
      [(true, .ok ()), (false, .error .keyError)] ∧
    (runShared 0 [(false, .connect (.str "a") (.str "b") {} .ignore), (true, .removeNode (.str "b"))] demo).1 =
      [(false, .ok ()), (true, .ok ())] := by decide +kernel

end Verif
