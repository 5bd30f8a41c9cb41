import Verif.Cases.Styles
import Verif.Props.Painter
/-!
# C91 to C94 at concrete graphs
-/
namespace Verif

theorem easel_owned : ∀ n ∈ graphNodes easelWorld.heap 0, (easelWorld.heap.node n).graph = some 0 := by decide +kernel

theorem easel_acyclic : ∀ n ∈ graphNodes easel 0, ¬ OnLoop easel 0 n := by
  intro n hn
  have h1 := nodeIsInLoop_eq easel_reachable (g := 0) (lim := 10) (by decide +kernel) (by decide +kernel) hn
  have h2 : ∀ n ∈ graphNodes easel 0, nodeIsInLoop 10 easel n = .ok false := by decide +kernel
  rw [h2 n hn] at h1
  simpa using h1

theorem easel_edges {P : ERef → Prop} (h : ∀ e ∈ [0, 1, 2, 3], P e) : ∀ e, LiveEdge easel 0 e → P e := by
  intro e he
  obtain ⟨es, h1, -, h2, -⟩ := C11_edges easel_reachable 0
  rw [show graphEdges easel 0 = .ok [0, 1, 2, 3] by decide +kernel] at h1
  cases h1
  exact h e ((h2 e).2 he)

theorem easel_values : ∀ e, LiveEdge easelWorld.heap 0 e → edgeLook easelWorld e = none → (easelWorld.heap.edge e).value.factor ≠ none :=
  fun e he _ => easel_edges (P := fun e => (easel.edge e).value.factor ≠ none) (by decide +kernel) e he

theorem easel_starts : ∀ e n, LiveEdge easelWorld.heap 0 e → edgeLook easelWorld e = none → edgeStart easelWorld.heap e = .ok n →
    ¬ Stranded easelWorld 0 n := by
  intro e n he _ hn h
  obtain ⟨m, hm, hm'⟩ := live_start easel_reachable he
  have hn' : edgeStart easel e = .ok n := hn
  rw [hn'] at hm'
  cases hm'
  exact easel_acyclic n hm h.2.1

theorem easel_pen : ∀ o, easelBrush.edge = some o → o < easelWorld.heap.nStyle ∧ (easelWorld.es o).textAuto ≠ none := by
  intro o ho
  cases ho
  decide +kernel

theorem easel_main : ∀ o, easelBrush.node = some o → o < easelWorld.heap.nStyle := by
  intro o ho
  cases ho
  decide +kernel

theorem easel_painted : pensieveWith 10 easelBrush 0 easelWorld = (.ok (), (pensieveWith 10 easelBrush 0 easelWorld).2) :=
  ran (by decide +kernel)

theorem easel_d : ∃ t, nodeLook (pensieveWith 10 easelBrush 0 easelWorld).2 3 = some t :=
  Option.isSome_iff_exists.1 (by decide +kernel)

example := C91_pensieve (w := easelWorld) easel_made easel_reachable rfl easel_owned (lim := 10) (by decide +kernel) (by decide) easelBrush
  easel_main easel_pen easel_starts easel_values
example := C91_randomly (w := easelWorld) easel_made easel_reachable (g := 0) rfl (shuffle := List.reverse) List.reverse_perm
  (fun n hn => .inl ((by decide +kernel : ∀ n ∈ graphNodes easelWorld.heap 0, nodeLook easelWorld n = none) n hn)) (by decide) easelBrush
  easel_main easel_pen easel_values
example := C91_keeps_partial (w := easelWorld) easel_made easel_reachable rfl easel_owned (lim := 10) (by decide +kernel) (by decide) easelBrush
  rfl (by decide +kernel) easel_pen easel_starts easel_values easel_painted (n := 3) (by decide +kernel) easel_d.choose_spec
example := C91_lighter_violated (w := easelWorld) easel_made easel_reachable rfl easel_owned (lim := 10) (by decide +kernel) (by decide) easelBrush
  rfl (by decide +kernel) easel_pen easel_starts easel_values easel_painted (n := 3) (by decide +kernel) easel_d.choose_spec
example := C92_independent (w := easelWorld) easel_made easel_reachable rfl easel_owned (lim := 10) (by decide +kernel) (by decide) easelBrush
  rfl (by decide +kernel) easel_pen easel_starts easel_values easel_painted (n := 1) (p := 0) (by decide +kernel) (by decide +kernel)
  (easel_acyclic 1 (by decide +kernel)) (by decide +kernel) (easel_acyclic 0 (by decide +kernel))

/-- The first edge. -/
theorem easel_edge : LiveEdge easelWorld.heap 0 0 := by
  obtain ⟨es, h1, -, h2, -⟩ := C11_edges easel_reachable 0
  rw [show graphEdges easel 0 = .ok [0, 1, 2, 3] by decide +kernel] at h1
  cases h1
  exact (h2 0).1 (by simp)

example := C93_keeps_partial (w := easelWorld) easel_made easel_reachable rfl easel_owned (lim := 10) (by decide +kernel) (by decide) easelBrush
  easel_main rfl (by decide +kernel) (by decide +kernel) easel_starts easel_values easel_painted easel_edge (by decide +kernel)
example := C93_label_violated (w := easelWorld) easel_made easel_reachable rfl easel_owned (lim := 10) (by decide +kernel) (by decide) easelBrush
  easel_main rfl (by decide +kernel) (by decide +kernel) (by decide +kernel) easel_starts easel_values easel_painted easel_edge (by decide +kernel)
example := C93_size (w := easelWorld) easel_made easel_reachable rfl easel_owned (lim := 10) (by decide +kernel) (by decide) easelBrush
  easel_main rfl (by decide +kernel) (by decide +kernel) easel_starts easel_values easel_painted (es := [0, 1, 2, 3]) (fresh := [0, 1, 2, 3])
  (by decide +kernel) (by decide +kernel) 1 (by decide)
example := C93_deepcopy_violated (w := { easelWorld with es := fun _ => { defaultEdge 1 2 with textAuto := none } }) easel_made easel_reachable
  rfl easel_owned (lim := 10) (by decide +kernel) (by decide) easelBrush easel_main rfl (by decide +kernel) rfl easel_edge (by decide +kernel)

/-- What it looks like: `a` is black, `b` and `c` are white like the given style, `d` is white too. -/
example : ((graphNodes easel 0).map fun n => (nodeLook (pensieveWith 10 easelBrush 0 easelWorld).2 n).map fun s => (s.colour, s.shape, s.fill)) =
    [some (0, some "circle", some (1 / 2)), some (1, some "circle", some 1), some (1, some "circle", some 1), some (1, some "circle", some 1)] := by
  decide +kernel

/-- Nodes `a b c`, edges `a→b`, `b→a`, `a→c`. -/
def ring : Heap :=
  runOps [.newGraph false true false, .add 0 "a", .add 0 "b", .add 0 "c", .link 0 "a" "b", .link 0 "b" "a", .link 0 "a" "c"] Heap.init

theorem ring_reachable : Reachable ring := by
  refine Reachable.runOps .init _ ?_
  refine ⟨trivial, ?_⟩
  simp only [AllOk, Op.Ok, Op.add, Op.link]
  decide

theorem ring_made : Made ring := by
  refine Made.init.runOps _ ?_
  simp only [AllStylesOk, Op.StylesOk, Op.add, Op.link, StyleArg.Below, and_self]

theorem ring_semi : ∀ n ∈ graphNodes ring 0, SemiRoot ring 0 n := by
  intro n hn
  have h1 := isRoot_eq ring_reachable (g := 0) (lim := 10) (by decide +kernel) (by decide +kernel) hn
  have h2 : ∀ n ∈ graphNodes ring 0, isRootOrParentsInLoop 10 ring n = .ok true := by decide +kernel
  rw [h2 n hn] at h1
  simpa using h1

/-- Node `b` of `ring` is on a loop. -/
example : nodeIsInLoop 10 ring 1 = .ok true := by decide +kernel

example := C94_violated (w := plainWorld ring) ring_made ring_reachable (g := 0) rfl (by decide +kernel) (lim := 10) (by decide +kernel)
  (by decide) (by decide +kernel) (fun n hn h => not_semiRoot.2 h.2.2 (ring_semi n hn))
  (by
    intro e he _
    obtain ⟨es, h1, -, h2, -⟩ := C11_edges ring_reachable 0
    rw [show graphEdges ring 0 = .ok [0, 2, 1] by decide +kernel] at h1
    cases h1
    exact (by decide +kernel : ∀ e ∈ [0, 2, 1], (ring.edge e).value.factor ≠ none) e ((h2 e).2 he))
  (ran (by decide +kernel)) (n := 1) (by decide +kernel)

end Verif
