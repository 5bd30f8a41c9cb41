import Verif.Props.Faithful
import Verif.Cases.Sessions
/-!
# C121 at concrete graphs
-/
namespace Verif

/-- Two graphs, made alternately: the objects differ, the second graph is edited in between, the pictures are equal. -/
def doubles : Heap := runOps [.newGraph false true false, .newGraph false true false, .add 0 "a", .add 1 "x", .add 1 "a", .add 1 "b",
  .add 0 "b", .removeNode 1 (.key (.str "x")), .link 0 "a" "b", .link 1 "a" "b"] Heap.init

theorem doubles_reachable : Reachable doubles := by
  refine Reachable.runOps .init _ ?_
  simp only [AllOk, Op.Ok, Op.add, Op.link]
  decide +kernel

theorem doubles_drawable (g : GRef) (hg : g = 0 ∨ g = 1) :
    Drawable (plainWorld doubles) g { scheme := [0, 1 / 2, 1], stylist := .pensieve } {} where
  names := by rcases hg with rfl | rfl <;> decide +kernel
  labels := by
    intro n hn
    show Quotable (labelText doubles n).toList
    revert n
    rcases hg with rfl | rfl <;> decide +kernel
  tooltips := by rcases hg with rfl | rfl <;> decide +kernel
  looks := by rcases hg with rfl | rfl <;> decide +kernel
  edges := by
    intro es he
    rcases hg with rfl | rfl
    · have h3 : graphEdges doubles 0 = .ok [0] := by decide +kernel
      have : es = [0] := by
        have := h3.symm.trans he
        cases this
        rfl
      subst this
      decide +kernel
    · have h3 : graphEdges doubles 1 = .ok [1] := by decide +kernel
      have : es = [1] := by
        have := h3.symm.trans he
        cases this
        rfl
      subst this
      decide +kernel
  header := plainWorld_header

theorem doubles_alike : graphvizStr (plainWorld doubles) 0 {} = graphvizStr (plainWorld doubles) 1 {} := by decide +kernel

example {src : String} (h : graphvizStr (plainWorld doubles) 0 {} = .ok src) :=
  C121_same_partial (w := plainWorld doubles) (w' := plainWorld doubles) doubles_reachable doubles_reachable rfl rfl (g := 0) (g' := 1)
    (by decide +kernel) (by decide +kernel) (doubles_drawable 0 (.inl rfl)) (doubles_drawable 1 (.inr rfl)) h (doubles_alike ▸ h)
example {src : String} (h : graphvizStr (plainWorld doubles) 0 {} = .ok src) :=
  C121_shape_partial (w := plainWorld doubles) (w' := plainWorld doubles) doubles_reachable doubles_reachable rfl rfl (g := 0) (g' := 1)
    (by decide +kernel) (by decide +kernel) (doubles_drawable 0 (.inl rfl)) (doubles_drawable 1 (.inr rfl)) h (doubles_alike ▸ h)
example {src : String} (h : graphvizStr (plainWorld doubles) 0 {} = .ok src) :=
  C121_settings_partial (w := plainWorld doubles) (w' := plainWorld doubles) doubles_reachable doubles_reachable rfl rfl (g := 0) (g' := 1)
    (by decide +kernel) (by decide +kernel) (doubles_drawable 0 (.inl rfl)) (doubles_drawable 1 (.inr rfl)) h (doubles_alike ▸ h)
/-- There is such a source. -/
example : (graphvizStr (plainWorld doubles) 0 {}).toOption.isSome := by decide +kernel

example := C121_render_partial gallery_tidy.owned gallery_tidy.owned gallery_display gallery_display gallery_renders.choose_spec
  gallery_renders.choose_spec gallery_drawn gallery_drawn

end Verif
