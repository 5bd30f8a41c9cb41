import Verif.Cases.Build
import Verif.Props.Colours
import Verif.Props.Settings
/-!
# C39, C46 to C51, C61 to C64, C67, C70 to C74 at concrete graphs

`diamond` (`Props/Stylize.lean`) has the edges `a→b`, `a→c`, `b→d`, `c→d`; `openDiamond` is the same with permission to overwrite
styles; `gaudyWorld` adds global styles, styles and colours for some, and the random stylist.
-/
namespace Verif

/-! ## C39, C46, C61 -/

theorem tab_blank : ∀ c ∈ "\t".toList, c = ' ' ∨ c = '\t' := by decide
theorem blanks_blank : ∀ c ∈ "  ".toList, c = ' ' ∨ c = '\t' := by decide

example := C39_exact "  ".toList blanks_blank (by decide) (fun j => j % 2) menu menu_plain
example := C39_detected_exact "  ".toList blanks_blank (by decide) (fun j => j % 2) menu menu_plain (fun _ t => t) (by decide +kernel)
example := C39_given_partial "\t".toList tab_blank (by decide) (fun j => j % 2) menu menu_plain (.inl (by decide))
example := C39_detected_partial "\t".toList tab_blank (by decide) (fun j => j % 2) menu menu_plain (by decide +kernel) (.inl (by decide))
example := C46_even ["red", "green", "red"] 3 ["red", "green", "red"] [("red", 2), ("green", 1)] (by decide +kernel)
example := C46_round_robin ["red", "green", "red"] (by decide) 5
example := C61_number_partial demo_reachable "top" ["a".toList, "  b".toList, "  c".toList, "d".toList] none demo.nG _
  (C40_text demo_reachable "top" ["a".toList, "  b".toList, "  c".toList, "d".toList] none (by decide +kernel)).choose_spec.1 2 (by decide)
example := C61_violated demo_reachable "top" ["a".toList, "  b".toList, "  c".toList, "d".toList] none demo.nG _
  (C40_text demo_reachable "top" ["a".toList, "  b".toList, "  c".toList, "d".toList] none (by decide +kernel)).choose_spec.1

/-! ## The default stylist -/

theorem diamond_owned : ∀ n ∈ graphNodes (plainWorld diamond).heap 0, ((plainWorld diamond).heap.node n).graph = some 0 := by
  decide +kernel

theorem diamond_free : ∀ n ∈ graphNodes (plainWorld diamond).heap 0, ¬ Stranded (plainWorld diamond) 0 n :=
  fun n hn h => diamond_acyclic n hn h.2.1

theorem diamond_edges {P : ERef → Prop} (h : ∀ e ∈ [0, 1, 2, 3], P e) : ∀ e, LiveEdge diamond 0 e → P e := by
  intro e he
  obtain ⟨es, h1, -, h2, -⟩ := C11_edges diamond_reachable 0
  rw [show graphEdges diamond 0 = .ok [0, 1, 2, 3] by decide +kernel] at h1
  cases h1
  exact h e ((h2 e).2 he)

theorem diamond_values : ∀ e, LiveEdge (plainWorld diamond).heap 0 e → edgeLook (plainWorld diamond) e = none →
    ((plainWorld diamond).heap.edge e).value.factor ≠ none :=
  fun e he _ => diamond_edges (P := fun e => (diamond.edge e).value.factor ≠ none) (by decide +kernel) e he

/-- Nothing points to `a`. -/
theorem diamond_top : SemiRoot diamond 0 0 := by
  intro p hp
  have h := (mem_pars diamond_reachable (arrow_mem diamond_reachable hp).2).2 hp
  rw [show pars diamond 0 = [] by decide +kernel] at h
  cases h

theorem diamond_painted : stylizeWithPensieve 10 0 (plainWorld diamond) = (.ok (), (stylizeWithPensieve 10 0 (plainWorld diamond)).2) :=
  ran (by decide +kernel)

example := C48_all_styled_partial (w := plainWorld diamond) diamond_made diamond_reachable rfl diamond_owned (lim := 10) (by decide +kernel)
  (by decide) diamond_free diamond_values
example := C48_succeeds_iff (w := plainWorld diamond) diamond_made diamond_reachable rfl diamond_owned (lim := 10) (by decide +kernel)
  (by decide) diamond_values
example := C48_no_colours (w := { plainWorld diamond with display := fun _ => some { scheme := [], stylist := .pensieve } })
  diamond_reachable (g := 0) rfl diamond_owned (lim := 10) (by decide +kernel) rfl ⟨0, by decide +kernel, diamond_top, by decide +kernel⟩
example := C49_pensieve (w := plainWorld diamond) diamond_made diamond_reachable rfl diamond_owned (lim := 10) (by decide +kernel)
  (by decide) diamond_painted
example := C50_compound (w := plainWorld diamond) diamond_made diamond_reachable rfl diamond_owned (lim := 10) (by decide +kernel)
  (by decide) diamond_free diamond_values diamond_painted (es := [0, 1, 2, 3]) (fresh := [0, 1, 2, 3]) (by decide +kernel)
  (by decide +kernel) 1 (by decide)
example := C50_own_partial (w := plainWorld diamond) diamond_made diamond_reachable (g := 0) rfl diamond_owned (lim := 10)
  (by decide +kernel) (by decide) diamond_free diamond_values diamond_painted (es := [0, 1, 2, 3]) (fresh := [0, 1, 2, 3])
  (by decide +kernel) (by decide +kernel) 0 (by decide) (by intro i hi; cases hi)
example := C51_terminates (w := plainWorld diamond) diamond_reachable (g := 0) diamond_owned (lim := 10) (by decide +kernel) (n := 3)
  (by decide +kernel) (1 / 20)

/-- `diamond` with styles for `a`, `b` and `c`. -/
def dressed : Heap := runOps [.nodeStyle 0 (.dict true), .nodeStyle 1 (.dict true), .nodeStyle 2 (.dict true)] diamond

theorem dressed_reachable : Reachable dressed := Reachable.runOps diamond_reachable _ (by simp only [AllOk, Op.Ok]; decide +kernel)

example := C51_succeeds (w := plainWorld dressed) dressed_reachable (g := 0) (by decide +kernel) (lim := 10) (by decide +kernel) (n := 3)
  (by decide +kernel) (1 / 20) (by
    intro m hm hs
    have key : ∀ m ∈ graphNodes dressed 0, nodeLook (plainWorld dressed) m ≠ none ∨ m = 3 := by decide +kernel
    rcases key m hm with h | rfl
    · exact h
    · have ha : Arrow dressed 0 1 3 := (mem_kids dressed_reachable (by decide +kernel)).1 (by decide +kernel)
      have hl : isNodeInLoop 10 dressed 0 (.node 1) = .ok false := by decide +kernel
      cases (C22_in_loop dressed_reachable (x := 1) (by decide +kernel) hl).2 (hs 1 ha))
example := C63_round_robin (w := plainWorld diamond) diamond_made diamond_reachable rfl diamond_owned (lim := 10) (by decide +kernel)
  (by decide) diamond_painted (fresh := _) rfl

theorem diamond_arrow {p n : NRef} (hp : p ∈ graphNodes diamond 0) (hn : n ∈ kids diamond p) : Arrow diamond 0 p n :=
  (mem_kids diamond_reachable hp).1 hn

example := C64_inherits (w := plainWorld diamond) diamond_made diamond_reachable rfl diamond_owned (lim := 10) (by decide +kernel)
  (by decide) diamond_free diamond_values diamond_painted (n := 3) (by decide +kernel) (by decide +kernel)
  (diamond_acyclic 3 (by decide +kernel)) (p := 1) (diamond_arrow (by decide +kernel) (by decide +kernel))
  (diamond_acyclic 1 (by decide +kernel))

/-! ## All of `stylize` -/

theorem open_apart : Apart openDiamond := openDiamond_made.apart (by decide +kernel)
theorem open_full {w : World Rat} (h : w.heap = openDiamond) : AllFull w := by
  have := (h ▸ openDiamond_made : Made w.heap)
  exact this.allFull (by rw [h]; decide +kernel)
theorem open_owned : ∀ n ∈ graphNodes openDiamond 0, (openDiamond.node n).graph = some 0 := by decide +kernel
theorem gaudy_runs : stylize 10 id 0 (gaudyWorld openDiamond) = (.ok (), (stylize 10 id 0 (gaudyWorld openDiamond)).2) :=
  ran (by decide +kernel)
theorem gaudy_renders : ∃ src, render 10 id 0 {} (gaudyWorld openDiamond) = (.ok src, (render 10 id 0 {} (gaudyWorld openDiamond)).2) := by
  have h : (render 10 id 0 {} (gaudyWorld openDiamond)).1.isOk = true := by decide +kernel
  cases hx : (render 10 id 0 {} (gaudyWorld openDiamond)).1 with
  | ok src => exact ⟨src, ran hx⟩
  | error e => rw [hx] at h; cases h

example := C49_with_permission_partial (lim := 10) (shuffle := id) (fun l => List.Perm.refl l) (g := 0) (w := gaudyWorld openDiamond)
  openDiamond_made openDiamond_reachable open_owned open_apart (open_full rfl) (by decide +kernel) gaudy_runs
example := C49_render_partial (lim := 10) (shuffle := id) (fun l => List.Perm.refl l) (g := 0) (w := gaudyWorld openDiamond)
  openDiamond_made openDiamond_reachable open_owned open_apart (open_full rfl) (by decide +kernel) gaudy_renders.choose_spec
example := C49_without_permission (lim := 10) (shuffle := id) (fun l => List.Perm.refl l) (g := 0) (w := plainWorld diamond)
  diamond_made diamond_reachable diamond_owned (diamond_made.apart (by decide +kernel)) (diamond_made.allFull (show diamond.nStyle = 0 by decide +kernel))
  (by decide +kernel) rfl (ran (by decide +kernel))
example := C67_only_styles 10 id 0 (w := gaudyWorld openDiamond) openDiamond_made
example := C67_same_graph 10 id 0 0 (w := gaudyWorld openDiamond) openDiamond_made openDiamond_reachable
example := C70_colours_need_permission (lim := 10) (shuffle := id) (g := 0) (w := gaudyWorld diamond) diamond_made diamond_reachable
  diamond_owned (diamond_made.apart (by decide +kernel)) (by decide +kernel) rfl (.inl (by decide))
example := C71_nodes (w := gaudyWorld openDiamond) openDiamond_made openDiamond_reachable open_apart (open_full rfl) rfl
  (gaudy_dicts (h := openDiamond) (st := .random) rfl) gaudy_runs (n := 1) (by decide +kernel)
example := C71_edges (w := gaudyWorld openDiamond) openDiamond_made openDiamond_reachable open_apart rfl
  (gaudy_dicts (h := openDiamond) (st := .random) rfl) gaudy_runs (es := [0, 1, 2, 3]) (by decide +kernel) (e := 1) (by decide)
  (i := (.str "a", .str "c", .none)) (by decide +kernel)
example := C72_edges_alike (w := gaudyWorld openDiamond) openDiamond_made openDiamond_reachable open_apart rfl
  (gaudy_dicts (h := openDiamond) (st := .random) rfl) gaudy_runs (by decide) (es := [0, 1, 2, 3]) (by decide +kernel)
example := C72_nodes_alike_partial (w := gaudyWith openDiamond .pensieve) (g := 0) (lim := 10) (shuffle := id) openDiamond_made openDiamond_reachable open_apart rfl
  (gaudy_dicts (h := openDiamond) (st := .pensieve) rfl) (ran (by decide +kernel)) (by decide) (by decide)
example := C72_untouched (w := gaudyWorld openDiamond) openDiamond_made openDiamond_reachable open_apart rfl
  (gaudy_dicts (h := openDiamond) (st := .random) rfl) gaudy_runs
example := C73_circle_partial (w := gaudyWorld openDiamond) openDiamond_made openDiamond_reachable open_apart (open_full rfl) rfl
  (gaudy_dicts (h := openDiamond) (st := .random) rfl) gaudy_runs rfl (a := "auto") (by decide) (by decide +kernel) (n := 1) (by decide +kernel)
example := C73_empty_violated (w := gaudyWorld (runOps [.newGraph false true true] Heap.init)) (lim := 10) (shuffle := id) (g := 0) rfl
  (by decide +kernel) rfl (a := "auto") (by decide +kernel) (by decide +kernel)
example := C74_round_robin (w := plainWorld openDiamond) openDiamond_made openDiamond_reachable open_apart (g := 0) rfl (by decide)
  (shuffle := List.reverse) List.reverse_perm (ran (by decide +kernel))
example := C74_balanced (w := plainWorld openDiamond) openDiamond_made openDiamond_reachable open_apart (g := 0) rfl
  (shuffle := List.reverse) List.reverse_perm (ran (by decide +kernel)) (c := 1) (c' := 1 / 2) (by decide +kernel) (by decide +kernel)

end Verif
