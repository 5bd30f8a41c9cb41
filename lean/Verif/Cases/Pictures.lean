import Verif.Cases.Styles
import Verif.Props.Files
import Verif.Props.StyleDict
import Verif.Props.Rename
import Verif.Props.Draws
import Verif.Props.GlobalStyle
import Verif.Props.StyleState
import Verif.Props.Invert
/-!
# C43 to C45, C53, C62, C65, C66, C68, C69, C75 to C88 at concrete graphs
-/
namespace Verif

/-! ## C43 and C75: adding and appending graphs -/

theorem pair_values : ∀ n ∈ graphNodes pairWorld.heap 1, ∃ i, (pairWorld.heap.node n).value = .int i := by
  intro n hn
  have key : ∀ n ∈ graphNodes pairWorld.heap 1, (pairWorld.heap.node n).value = .int 5 ∨ (pairWorld.heap.node n).value = .int 2 := by
    decide +kernel
  rcases key n hn with h | h <;> exact ⟨_, h⟩

theorem pair_sums : ∀ n ∈ graphNodes pairWorld.heap 1, (pairWorld.heap.node n).id ∈ namesOf pairWorld.heap 0 →
    ∃ v, addValues (pairWorld.heap.node n).value (pairWorld.heap.node n).value = .ok v := by
  intro n hn _
  obtain ⟨i, hi⟩ := pair_values n hn
  exact ⟨.int (i + i), by rw [hi]; exact C43_default_values.1 i i⟩

/-- The arguments of the constructor that makes the sum. -/
def sumArgs : GraphArgs Rat := { scheme := none, display := plainDisplay }

example := C43_union_partial (base := sumArgs) (order := List.reverse) (f := addValues) (w := pairWorld) (g := 0) (g2 := 1)
  pairHeap_reachable (by decide +kernel) (by decide +kernel) rfl rfl rfl rfl List.reverse_perm pair_sums
example := C43_labels_violated (base := sumArgs) (order := List.reverse) (f := addValues) (w := pairWorld) (g := 0) (g2 := 1)
  pairHeap_reachable (by decide +kernel) (by decide +kernel) rfl rfl rfl rfl List.reverse_perm pair_sums
example := C43_values_violated (base := sumArgs) (order := List.reverse) (w := pairWorld) (g := 0) (g2 := 1)
  pairHeap_reachable (by decide +kernel) (by decide +kernel) rfl rfl rfl rfl List.reverse_perm pair_values (n1 := 0) (n2 := 3)
  (by decide +kernel) (by decide +kernel) (by decide +kernel) (i := 1) (j := 2) (by decide +kernel) (by decide +kernel) (by decide)
example := C43_operand_violated (base := sumArgs) (order := List.reverse) (f := addValues) (w := pairWorld) (g := 0) (g2 := 1)
  pairHeap_reachable (by decide +kernel) (by decide +kernel) (by decide +kernel) rfl rfl rfl rfl List.reverse_perm pair_sums
  (k := .str "c") (by decide +kernel) (by decide +kernel)
example := C43_edges_violated (base := sumArgs) (order := List.reverse) (f := addValues) (w := gaudyWorld openDiamond) (g := 0) (g2 := 0)
  openDiamond_reachable (.inl (by decide +kernel))
example := C75_edges_violated (w := gaudyWorld openDiamond) openDiamond_reachable 0 (other := 0) (by decide +kernel)
example := C75_export_partial (w := pairWorld) (g := 0) pairHeap_reachable (by decide +kernel) rfl
theorem pair_dicts : (pairDisplay 1).Dicts := by constructor <;> simp [pairDisplay, NodeDict, NodeItem.attr]
example := C75_graph_partial (w := pairWorld) pairHeap_reachable (other := 1) (by decide +kernel) rfl (s := "pair") rfl rfl pair_dicts
  (by decide +kernel) sumArgs
example := C75_labels_violated (w := pairWorld) pairHeap_reachable (other := 1) (by decide +kernel) rfl (s := "pair") rfl rfl
  (by decide +kernel) sumArgs
example := C75_label_violated (w := unlabelled) pairHeap_reachable 0 (other := 1) rfl rfl

/-! ## C44, C45, C53, C62, C65, C66, C68, C69, C85: pictures -/

example := C44_source_partial (w := plainWorld diamond) diamond_reachable rfl diamond_owned diamond_drawable
example := C44_statements_partial (w := plainWorld diamond) diamond_reachable rfl diamond_owned diamond_drawable
example := C65_settings (w := plainWorld diamond) diamond_reachable rfl diamond_owned diamond_drawable
example := C66_violated (w := plainWorld diamond) diamond_reachable rfl diamond_owned diamond_drawable
example := C45_name (w := plainWorld diamond) (n := 0) (g := 0) (by decide +kernel) rfl
example := C45_label (w := plainWorld diamond) (n := 0) (g := 0) (by decide +kernel) rfl rfl
example := C45_edge_label (w := plainWorld diamond) (e := 0) (g := 0) (n := 0) (m := 1) (by decide +kernel) rfl (by decide +kernel)
  (by decide +kernel) (v := .int 3) (by decide +kernel) (by decide)
example := C53_node_copy (NodeStyle.make { colour := some (1 / 2 : Rat), shape := some "oval" }) (NodeStyle.Made.make _)
example := C53_edge_copy_partial (EdgeStyle.make { colour := some (1 / 2 : Rat) }) (EdgeStyle.Made.make _)
example := C53_edge_invert_partial (C := Rat) (fun c => by simp [Palette.invert]) { colour := some (1 / 2 : Rat) }
example := C53_node_invert_partial (C := Rat) (fun c => by simp [Palette.invert]) { colour := some (1 / 2 : Rat) } (.inl rfl)

theorem diamond_copies : copyWorld 0 (plainWorld diamond) = (.ok 1, (copyWorld 0 (plainWorld diamond)).2) := ran (by decide +kernel)

example := C62_structure_partial (w := plainWorld diamond) diamond_reachable (g := 0) (by decide +kernel) (by decide +kernel)
example := C62_violated diamond_copies 10 id {}
example := C62_violated_filter (w := plainWorld diamond) (g := 0) (g' := 1) (lim := 10) (nodes := [.key (.str "b")]) (direction := "to")
  (filterType := "include") (ran (by decide +kernel)) id {}

theorem diamond_renders : ∃ src, render 10 id 0 {} (plainWorld diamond) = (.ok src, (stylize 10 id 0 (plainWorld diamond)).2) := by
  have h1 : (render 10 id 0 {} (plainWorld diamond)).1.isOk = true := by decide +kernel
  cases h : (render 10 id 0 {} (plainWorld diamond)) with
  | mk o v =>
    cases o with
    | error e => rw [h] at h1; simp [Except.isOk, Except.toBool] at h1
    | ok s =>
      obtain ⟨d, -, h2, -⟩ := render_ok h
      exact ⟨s, by rw [h2]⟩

example := C68_render (w := plainWorld diamond) diamond_made diamond_reachable diamond_owned rfl diamond_renders.choose_spec diamond_drawn
example := C69_no_size_violated (w := plainWorld diamond) diamond_made diamond_reachable diamond_owned rfl diamond_renders.choose_spec diamond_drawn
example := C85_draws_partial (w := labelled (some "top") (some "red")) diamond_reachable (g := 0) rfl diamond_owned {}
example := (C85_label_violated (w := labelled none (some "red")) diamond_reachable (g := 0) rfl diamond_owned {} (l := "L") rfl).2 rfl (by decide)
example := C85_readded_violated (plainWorld diamondAgain) 0 (n := 1) (by decide +kernel) (by decide +kernel) {}

/-! ## C76 to C78: dictionaries -/

theorem fancy_runs : appendDictW 0 fancyDict (gaudyWorld openDiamond) = (.ok (), (appendDictW 0 fancyDict (gaudyWorld openDiamond)).2) :=
  ran (by decide +kernel)

example := C76_append_partial (w := gaudyWorld openDiamond) openDiamond_reachable (g := 0) (by decide +kernel) rfl fancy_runs
example := C76_edge_styles_violated (w := gaudyWorld openDiamond) openDiamond_reachable (g := 0) (by decide +kernel) rfl fancy_runs
example := C76_label_violated (w := gaudyWorld openDiamond) openDiamond_reachable (g := 0) (by decide +kernel) rfl (s := "fancy") rfl fancy_runs
example := C76_structure (w := gaudyWorld openDiamond) openDiamond_reachable (g := 0) (by decide +kernel) rfl fancy_runs
example := C76_succeeds (w := gaudyWorld openDiamond) (D := fancyDict) openDiamond_reachable (g := 0) (by decide +kernel) rfl
example := C77_construct_partial (w := gaudyWorld openDiamond) (a := sumArgs) (D := schemeDict) (g := 1) openDiamond_reachable
  (ran (by decide +kernel))
example := C77_display (w := gaudyWorld openDiamond) (a := sumArgs) (D := schemeDict) (g := 1) openDiamond_reachable (ran (by decide +kernel))
example := C77_structure (w := gaudyWorld openDiamond) (a := sumArgs) (D := fancyDict) (g := 1) openDiamond_reachable
  (ran (by decide +kernel))
/-- The dictionary's options and the caller's, neither of them the default. -/
example := C77_structure (w := gaudyWorld openDiamond) (a := { sumArgs with strict := true }) (D := { fancyDict with overwrite := some true })
  (g := 1) openDiamond_reachable (ran (by decide +kernel))
example := C77_succeeds (w := gaudyWorld openDiamond) (a := sumArgs) (D := fancyDict) openDiamond_reachable (g := 1) rfl
example := C77_violated (w := gaudyWorld openDiamond) (a := { scheme := some [1 / 3], display := plainDisplay }) (D := schemeDict) (g := 1)
  openDiamond_reachable (by decide +kernel) (by decide +kernel) (by decide +kernel) (by decide +kernel) (ran (by decide +kernel))

example := C78_node someNode_dict.1 someNode_dict.2
example := C78_edge someEdge_dict.1 someEdge_dict.2
example := C78_add_node (w := gaudyWorld openDiamond) openDiamond_reachable openDiamond_made (g := 0) (by decide +kernel) (x := "new")
  (by decide +kernel) { style := .dict someNode } rfl someNode_dict.1 someNode_dict.2
theorem open_edges {P : ERef → Prop} (h : ∀ e ∈ [0, 1, 2, 3], P e) : ∀ e, LiveEdge openDiamond 0 e → P e := by
  intro e he
  obtain ⟨es, h1, -, h2, -⟩ := C11_edges openDiamond_reachable 0
  rw [show graphEdges openDiamond 0 = .ok [0, 1, 2, 3] by decide +kernel] at h1
  cases h1
  exact h e ((h2 e).2 he)
example := C78_connect (w := gaudyWorld openDiamond) openDiamond_reachable openDiamond_made (g := 0) (s := .str "a") (t := .str "d")
  (by decide +kernel) (by decide +kernel) { style := .dict someEdge } (open_edges (by decide +kernel)) rfl someEdge_dict.1 someEdge_dict.2
example := C78_refused (w := gaudyWorld openDiamond) openDiamond_reachable (ln := [.fill none, .other]) (by simp) (le := [.other]) (by simp)
example := (C78_set_style (w := gaudyWorld openDiamond) openDiamond_made).1 0 someNode (by decide +kernel) someNode_dict.1 someNode_dict.2

/-! ## C79 to C81, C86: sessions -/

example := C79_private_partial duoWorld_private
example := C79_sessions spreadWorld_session.1
example := C80_stylize_partial (lim := 10) (shuffle := id) (fun l => List.Perm.refl l) 0 duoWorld_private
example := C80_picture_partial (lim := 10) (shuffle := id) (fun l => List.Perm.refl l) (g := 0) (g' := 1) (by decide) duoWorld_private {} {}
example := C81_copy_partial duoWorld_private.session (g := 1) (by decide +kernel) (by decide +kernel)
example := C81_violated (w := duoWorld) (g := 0) (n := 0) (by decide +kernel) (by decide +kernel)
theorem duo_styled : ∃ st, edgeLook (copyWorld 1 duoWorld).2 2 = some st :=
  Option.isSome_iff_exists.1 (by decide +kernel)
example := C86_copy_violated duoWorld_private.session (g := 1) (g' := 2) (by decide +kernel) (ran (by decide +kernel)) (es' := [2])
  (by decide +kernel) (e := 2) (by decide) duo_styled.choose_spec
example := C86_original (EdgeStyle.make { colour := some (1 / 2 : Rat) }) (EdgeStyle.Made.make _)

/-! ## C82 and C83: other ids -/

theorem demo_edges {P : ERef → Prop} (h : ∀ e ∈ [0, 3, 2, 1, 4], P e) : ∀ e, LiveEdge demo 0 e → P e := by
  intro e he
  obtain ⟨es, h1, -, h2, -⟩ := C11_edges demo_reachable 0
  rw [show graphEdges demo 0 = .ok [0, 3, 2, 1, 4] by decide +kernel] at h1
  cases h1
  exact h e ((h2 e).2 he)

theorem z_free : NameFree demo 0 (.str "z") := by
  intro m hm
  have key : ∀ m ∈ graphNodes demo 0, (demo.node m).id ≠ .str "z" := by decide
  exact key m hm

example := C82_edge_id_violated demo_reachable demo_live0 (n := 0) (m := 1) (by decide) (by decide) (a := { id := some (.int 9) }) rfl
  (demo_edges (by decide +kernel)) .warn
example := C82_edges_violated demo_reachable (n := 1) (by decide) z_free demo_live0 (.inr (by decide))
example := C82_lookup_violated demo_reachable (g := 0) (n := 1) (by decide) (y := .str "z") (by decide)
example := C82_remove_violated demo_reachable (n := 1) (by decide) z_free (a := .key (.str "b")) (by decide +kernel)
example := C82_structure_partial demo_reachable (g := 0) (n := 1) (by decide) (.str "z")
example := C83_foreign_violated demo_reachable (g := 0) (g' := 1) (by decide) (n := 4) (by decide) 1 (a := {}) rfl
example := C83_like_connect_partial demo_reachable (g := 0) (n := 0) (m := 3) (by decide) (by decide) {} .warn (demo_edges (by decide +kernel))
example := C83_taken_violated demo_reachable demo_live0 (n := 0) (m := 1) (by decide) (by decide) (a := {}) rfl (by decide)

/-! ## C84, C87, C88 -/

theorem diamond_saves : ∃ r, renderTo someEngine 10 id 0 (some "out/d.svg") true {} (plainWorld diamond) =
    (.ok r, (renderTo someEngine 10 id 0 (some "out/d.svg") true {} (plainWorld diamond)).2) := by
  have h : (renderTo someEngine 10 id 0 (some "out/d.svg") true {} (plainWorld diamond)).1.isOk = true := by decide +kernel
  cases hx : (renderTo someEngine 10 id 0 (some "out/d.svg") true {} (plainWorld diamond)).1 with
  | ok src => exact ⟨src, ran hx⟩
  | error e => rw [hx] at h; cases h

example := C84_returned (src := diamond_saves.choose.1) (log := diamond_saves.choose.2) diamond_saves.choose_spec
example := C84_saved_partial (src := diamond_saves.choose.1) (log := diamond_saves.choose.2) diamond_made diamond_reachable diamond_owned rfl
  diamond_saves.choose_spec
example := C84_format_violated (src := diamond_saves.choose.1) (log := diamond_saves.choose.2) diamond_saves.choose_spec "pdf"
example := C84_svg_text someEngine 10 id 0 true {} _ _ diamond_renders.choose_spec
example := C87_node_violated 10 id 0 (plainWorld diamond) rfl 0 .absent {}
example := C87_dictionaries 10 id 0 (plainWorld diamond) rfl .absent .absent (by simp) (by simp) rfl rfl
example := C88_node_partial ({ colour := some (1 / 2) } : NodeStyleArgs Rat) (.inl rfl)
example := C88_darker_violated ({ colour := some (1 / 2), lighter := false } : NodeStyleArgs Rat) rfl rfl

end Verif
