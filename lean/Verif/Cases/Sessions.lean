import Verif.Cases.Pictures
import Verif.Props.Tidy
/-!
# C12, C96 and C97 at concrete sessions
-/
namespace Verif

example := C12_known_partial demo_reachable (g := 0) (by decide +kernel) [.add 0 "x", .link 0 "a" "x"]
  (by simp only [AllOk, Op.Ok, Op.add, Op.link]; decide +kernel) (by simp [Op.Readds, Op.add, Op.link])
example := C12_owned_partial [.newGraph false false true, .add 0 "a", .add 0 "b", .link 0 "a" "b"]
  (by simp only [AllOk, Op.Ok, Op.add, Op.link]; decide +kernel) (g := 0) (by simp [Op.Readds, Op.add, Op.link])
example := C12_either demo_reachable (g := 0) (n := 0) (by decide +kernel)

theorem duoWorld_tidy : TidySession duoWorld := by
  refine TidySession.init.run duoCalls_fine.1 duoCalls_fine.2 ?_
  simp [duoCalls, Call.NoReadd, Op.Readds]

example := C12_session_partial duoWorld_tidy.owned
example := C97_hypotheses duoWorld_tidy

example := C96_call duoWorld_private.session (c := .copy 1) laterCalls_fine.1.1 (by simp [Call.Paints]) (g := 0) (by decide +kernel)
  (by simp [Call.on])
example := C96_private_partial duoWorld_private (c := .stylize 10 id 1)
  (okCall (by simp) (by decide +kernel) (by simp [Call.styles]) (fun _ => .refl _)) ⟨by simp [Call.styles], by simp [Call.sources]⟩
  (g := 0) (by decide +kernel) (by simp [Call.on])

theorem later_aside : NoCallOn 0 duoWorld laterCalls := by
  simp [laterCalls, NoCallOn, Call.on]

example := C96_calls_partial duoWorld_private laterCalls_fine.1 laterCalls_fine.2 (g := 0) (by decide +kernel) later_aside {}
/-- The calls between succeed in part, and the graph has a picture. -/
example : (render 10 id 1 {} (runCalls duoWorld [.copy 1])).1.isOk = true ∧ (graphvizStr duoWorld 0 {}).isOk = true := by decide +kernel

/-- A graph that may be styled again, and another one. -/
def galleryCalls : List (Call Rat) :=
  [.newGraph { overwrite := true, scheme := some [0, 1 / 2], display := plainDisplay },
   .addNode 0 (.str "a") { style := .dict [.colour 1] },
   .addNode 0 (.str "b") {},
   .connect 0 (.key (.str "a")) (.key (.str "b")) { style := .dict [.colour (1 / 2)] },
   .newGraph { scheme := some [1], display := plainDisplay },
   .addNode 1 (.str "c") {}]

def gallery : World Rat := runCalls World.init galleryCalls

theorem gallery_tidy : TidySession gallery := by
  refine TidySession.init.run ?_ ?_ ?_
  · simp only [galleryCalls, CallsOk]
    refine ⟨?_, ?_, ?_, ?_, ?_, ?_, trivial⟩ <;>
      exact okCall (by simp) (by decide +kernel) (by simp [Call.styles, NodeStyleArg.plain, EdgeStyleArg.plain]) trivial
  · simp only [galleryCalls, CallsPrivate]
    refine ⟨?_, ?_, ?_, ?_, ?_, ?_, trivial⟩ <;>
      exact ⟨by simp [Call.styles, NodeStyleArg.plain, EdgeStyleArg.plain], by simp [Call.sources]⟩
  · simp [galleryCalls, Call.NoReadd]

theorem gallery_renders : ∃ src, render 10 id 0 {} gallery = (.ok src, (stylize 10 id 0 gallery).2) := by
  have h1 : (render 10 id 0 {} gallery).1.isOk = true := by decide +kernel
  cases h : (render 10 id 0 {} gallery) with
  | mk o v =>
    cases o with
    | error e => rw [h] at h1; simp [Except.isOk, Except.toBool] at h1
    | ok s =>
      obtain ⟨d, -, h2, -⟩ := render_ok h
      exact ⟨s, by rw [h2]⟩

theorem gallery_display : gallery.display 0 = some { scheme := [0, 1 / 2], stylist := .pensieve } := rfl

theorem gallery_drawn : Drawable (stylize 10 id 0 gallery).2 0 { scheme := [0, 1 / 2], stylist := .pensieve }
    (renderArgs { scheme := [0, 1 / 2], stylist := .pensieve } {}) where
  names := by decide +kernel
  labels := by
    intro n hn
    show Quotable (labelText (stylize 10 id 0 gallery).2.heap n).toList
    revert n
    decide +kernel
  tooltips := by decide +kernel
  looks := by decide +kernel
  edges := by
    intro es he
    have h3 : graphEdges (stylize 10 id 0 gallery).2.heap 0 = .ok [0] := by decide +kernel
    have : es = [0] := by
      have := h3.symm.trans he
      cases this
      rfl
    subst this
    decide +kernel
  header := by
    have := plainWorld_header
    exact ⟨this.label, this.location, this.font, this.fontSize, this.labelColour, this.labelUrl, this.tooltip, this.kwargs,
      this.background, this.pad, this.height, this.width, by decide +kernel⟩

example := C97_shows_partial gallery_tidy.owned gallery_display gallery_renders.choose_spec gallery_drawn
example := C97_again_partial gallery_tidy (g := 0) (by decide +kernel) (fun _ => .refl _) gallery_renders.choose_spec
example := C97_lasting_partial gallery_tidy.private (g := 0) (by decide +kernel) gallery_display (fun _ => .refl _)
  gallery_renders.choose_spec (l := [.addNode 1 (.str "d") {}, .stylize 10 id 1])
  ⟨okCall (by simp) (by decide +kernel) (by simp [Call.styles, NodeStyleArg.plain]) trivial,
    okCall (by simp) (by decide +kernel) (by simp [Call.styles]) (fun _ => .refl _), trivial⟩
  ⟨⟨by simp [Call.styles, NodeStyleArg.plain], by simp [Call.sources]⟩, ⟨by simp [Call.styles], by simp [Call.sources]⟩, trivial⟩
  (by simp [NoCallOn, Call.on])

end Verif
