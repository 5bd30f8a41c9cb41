import Verif.Props.Frames
import Verif.Props.Files
/-!
# Cases for C128: drawing with stacks of different sizes
-/
namespace Verif

/-- One frame is not enough to draw the diamond; what ten frames give, a thousand give. -/
example : (render 1 id 0 {} (plainWorld diamond)).1 = .error .recursionError ∧ (render 10 id 0 {} (plainWorld diamond)).1.isOk = true ∧
    render 10 id 0 {} (plainWorld diamond) = render 1000 id 0 {} (plainWorld diamond) := by
  have h1 : (render 10 id 0 {} (plainWorld diamond)).1.isOk = true := by decide +kernel
  refine ⟨by decide +kernel, h1, ?_⟩
  refine ((C128_draw (i := 10) (j := 1000) (by decide) id 0 {}).2 (plainWorld diamond)).resolve_right fun e => ?_
  rw [e] at h1
  cases h1

/-- Two stack sizes that are enough. -/
example : render 10 id 0 {} (plainWorld diamond) = render 12 id 0 {} (plainWorld diamond) := by
  have h1 : (render 10 id 0 {} (plainWorld diamond)).1.isOk = true := by decide +kernel
  have h2 : (render 12 id 0 {} (plainWorld diamond)).1.isOk = true := by decide +kernel
  exact C128_any_two 10 12 id 0 {} _ (fun e => by rw [e] at h1; cases h1) (fun e => by rw [e] at h2; cases h2)

/-- `filter` in the demo graph. -/
example : (graphFilter 1 0 [.key (.str "b")] "to" "include" demo).1 = .error .recursionError ∧
    graphFilter 5 0 [.key (.str "b")] "to" "include" demo = graphFilter 500 0 [.key (.str "b")] "to" "include" demo := by
  refine ⟨by decide +kernel, ?_⟩
  have h1 : (graphFilter 5 0 [.key (.str "b")] "to" "include" demo).1.isOk = true := by decide +kernel
  refine ((C128_filter (C := Rat) (i := 5) (j := 500) (by decide) 0 [.key (.str "b")] "to" "include").1 demo).resolve_right fun e => ?_
  rw [e] at h1
  cases h1

end Verif
