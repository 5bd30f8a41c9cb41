import Verif.Props.Ledger
import Verif.Props.Demo
/-!
# Cases for C107
-/
namespace Verif

/-- What graph 0 of the example looks like. -/
def demoLedger : Ledger :=
  { nodes := [{ name := .str "a" }, { name := .str "b" }, { name := .str "c" }, { name := .str "d" }],
    edges := [{ id := (.str "a", .str "b", .none) }, { id := (.str "b", .str "c", .none) }, { id := (.str "c", .str "a", .none) },
              { id := (.str "a", .str "b", .key (.str "2")) }, { id := (.str "d", .str "d", .none) }] }

theorem demo_reads : Reads demo 0 demoLedger :=
  ⟨by decide, by decide, by decide, by decide +kernel, [0, 1, 2, 3, 4], by decide, by decide +kernel, by decide +kernel, by decide +kernel⟩

/-- Calls that succeed and calls that raise, the last of them after half of its work is done. -/
def demoDeeds : List Deed :=
  [.addNode (.str "e") { value := .int 1, style := .dict true } .error, .addNode (.str "e") { label := .int 2 } .warn,
   .addNode (.str "a") {} .error, .connect (.str "e") (.str "a") {} .warn, .connect (.str "e") (.str "zzz") {} .warn,
   .nodeStyle (.str "e") (.dict true), .disconnect (.str "b", .str "c", .none), .disconnect (.str "b", .str "c", .none),
   .removeNode (.str "d"), .edgeValue (.str "a", .str "b", .key (.str "2")) (.int 7), .nodeFreeze (.str "c") true,
   .addNode (.str "c") { label := .int 5, value := .int 6 } .ignore]

example : (demoLedger.runAll demoDeeds).1 =
    [.ok (), .ok (), .error .keyError, .ok (), .error .keyError, .error .runtimeError, .ok (), .error .keyError, .ok (), .ok (), .ok (),
     .error .runtimeError] ∧
    (demoLedger.runAll demoDeeds).2 =
      { nodes := [{ name := .str "a" }, { name := .str "b" }, { name := .str "c", notes := { label := .int 5, frozen := true } },
                  { name := .str "e", notes := { value := .int 1, label := .int 2, styled := true } }],
        edges := [{ id := (.str "a", .str "b", .none) }, { id := (.str "c", .str "a", .none) },
                  { id := (.str "a", .str "b", .key (.str "2")), notes := { value := .int 7 } }, { id := (.str "e", .str "a", .none) }] } := by
  decide +kernel

/-- The same deeds with other calls in between: on graph 1, on a new graph, copying. -/
def demoMoves : List Move :=
  [.other (.add 1 "b")] ++ demoDeeds.map .deed ++ [.other (.newGraph true false true), .other (.add 2 "a"), .other (.nodeValue 4 (.int 9))]

theorem deedsOf_map (ds : List Deed) (ms : List Move) : deedsOf (ds.map .deed ++ ms) = ds ++ deedsOf ms := by
  induction ds with
  | nil => rfl
  | cons d ds ih => simp [deedsOf, ih]

theorem demoMoves_ok : MovesOk 0 demoMoves demo :=
  ⟨show (1 : Nat) < Heap.nG _ from (by decide +kernel), fun h : (1 : Nat) = 0 => by simp at h,
   trivial, id, show (2 : Nat) < Heap.nG _ from (by decide +kernel), fun h : (2 : Nat) = 0 => by simp at h, trivial,
   show ¬ (4 : NRef) ∈ graphNodes _ 0 from (by decide +kernel), trivial⟩

theorem demoDeeds_ok : MovesOk 0 (demoDeeds.map .deed) demo := trivial

example := C107_exists demo_reachable (g := 0) (by decide)
example (d : Deed) := C107_step demo_reachable (g := 0) (by decide) demo_reads d
example := C107_interleaved demo_reachable (g := 0) (by decide) demo_reads demoMoves demoMoves_ok
example := C107_alike demo_reachable demo_reachable (g := 0) (g' := 0) (by decide) (by decide) demo_reads demo_reads
  demoMoves (demoDeeds.map .deed) demoMoves_ok demoDeeds_ok rfl
example := C107_shape demo_reachable demo_reachable (g := 0) (g' := 0) (by decide) (by decide) demo_reads demo_reads
example : (runMoves 0 demoMoves demo).1 = (demoLedger.runAll demoDeeds).1 ∧ graphNodes (runMoves 0 demoMoves demo).2 0 = [0, 1, 2, 6] := by
  decide +kernel

/-- The same graph, written by another program, in another place of its memory. -/
def demoAgain : Heap :=
  runOps [.newGraph false true false, .add 0 "x", .newGraph false true false, .add 1 "a", .add 1 "zz", .add 1 "b", .add 1 "c", .add 1 "d",
    .link 1 "zz" "a", .link 1 "a" "b", .removeNode 1 (.key (.str "zz")), .link 1 "b" "c", .link 1 "c" "a",
    .link 1 "a" "b" (some (.str "2")), .link 1 "d" "d"] Heap.init

theorem demoAgain_reachable : Reachable demoAgain := by
  refine Reachable.runOps .init _ ?_
  refine ⟨trivial, ?_⟩
  simp only [AllOk, Op.Ok, Op.add, Op.link]
  decide +kernel

theorem demoAgain_reads : Reads demoAgain 1 demoLedger :=
  ⟨by decide +kernel, by decide +kernel, by decide +kernel, by decide +kernel, [1, 2, 3, 4, 5], by decide, by decide +kernel,
    by decide +kernel, by decide +kernel⟩

example := C107_alike demo_reachable demoAgain_reachable (g := 0) (g' := 1) (by decide) (by decide +kernel) demo_reads demoAgain_reads
  demoMoves (demoDeeds.map .deed) demoMoves_ok trivial rfl

/-- A copy of graph 0. -/
theorem demo_copied : ∃ m h', graphCopy 0 demo = (.ok (2, m), h') ∧ h'.nG = 3 := by
  obtain ⟨A, H⟩ := demo_reachable.hist
  obtain ⟨m, h', hr, P, -⟩ := copy_run H (g := 0) (by decide) (by decide +kernel)
  have : demo.nG = 2 := by decide +kernel
  rw [this] at hr
  exact ⟨m, h', hr, by rw [P.nG, this]⟩

/-- Deeds that give no style. -/
def plainDeeds : List Deed :=
  [.addNode (.str "e") { value := .int 1 } .error, .addNode (.str "a") {} .error, .connect (.str "e") (.str "a") {} .warn,
   .removeNode (.str "d"), .removeNode (.str "d"), .nodeFreeze (.str "c") true, .addNode (.str "c") { value := .int 6 } .ignore]

/-- On the copy; in between, the original is changed. -/
def copyMoves : List Move :=
  [.other (.removeNode 0 (.key (.str "a"))), .other (.add 0 "e")] ++ plainDeeds.map .deed

theorem plainDeeds_plain : ∀ d ∈ plainDeeds, d.Plain := by
  intro d hd
  simp only [plainDeeds, List.mem_cons, List.not_mem_nil, or_false] at hd
  rcases hd with rfl | rfl | rfl | rfl | rfl | rfl | rfl <;> trivial

example : ∃ m h', graphCopy 0 demo = (.ok (2, m), h') ∧ Reads h' 2 demoLedger.copy ∧
    (runMoves 0 (plainDeeds.map .deed) h').1 = (runMoves 2 copyMoves h').1 := by
  obtain ⟨m, h', hm, h3⟩ := demo_copied
  refine ⟨m, h', hm, (C107_copy demo_reachable (by decide) demo_reads hm).1, ?_⟩
  have n1 : ∀ op : Op, (0 : Nat) < (op.step h').2.nG := fun op =>
    Nat.lt_of_lt_of_le (by rw [h3]; decide) (Grows.step op h').nG
  exact (C107_copy_behaves demo_reachable (g := 0) (by decide) hm (plainDeeds.map .deed) copyMoves trivial
    ⟨show (0 : Nat) < h'.nG from by rw [h3]; decide, fun h : (0 : Nat) = 2 => by simp at h, n1 _,
      fun h : (0 : Nat) = 2 => by simp at h, trivial⟩ rfl plainDeeds_plain).1

end Verif
