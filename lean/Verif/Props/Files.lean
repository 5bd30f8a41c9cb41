import Verif.Spec.Files
import Verif.Props.Restyle
/-!
# C84: saving a picture, and showing it in a notebook
-/
namespace Verif
variable {C : Type}

/-! ## `os.path.splitext` -/

theorem splitExt_of {p stem ext : List Char} (h : HasExtension p stem ext) : splitExt p = (stem, '.' :: ext) := by
  obtain ⟨rfl, ⟨h1, h2⟩, a, c, b, rfl, hc, hb⟩ := h
  have hrev : (a ++ c :: b ++ '.' :: ext).reverse = ext.reverse ++ '.' :: (a ++ c :: b).reverse := by simp
  have hall : ∀ x ∈ ext.reverse, (decide (x ≠ '.') && decide (x ≠ '/')) = true := by
    intro x hx
    have hx := List.mem_reverse.1 hx
    have k1 : x ≠ '.' := fun e => h1 (e ▸ hx)
    have k2 : x ≠ '/' := fun e => h2 (e ▸ hx)
    simp [k1, k2]
  have htake : (ext.reverse ++ '.' :: (a ++ c :: b).reverse).takeWhile (fun c => decide (c ≠ '.') && decide (c ≠ '/')) = ext.reverse := by
    rw [List.takeWhile_append_of_pos hall]; simp
  have hdrop : (ext.reverse ++ '.' :: (a ++ c :: b).reverse).dropWhile (fun c => decide (c ≠ '.') && decide (c ≠ '/')) =
      '.' :: (a ++ c :: b).reverse := by
    rw [List.dropWhile_append_of_pos hall]; simp
  have hany : ((a ++ c :: b).reverse.takeWhile (fun x => decide (x ≠ '/'))).any (fun x => decide (x ≠ '.')) = true := by
    have : (a ++ c :: b).reverse = (c :: b).reverse ++ a.reverse := by simp
    rw [this, List.takeWhile_append_of_pos (by
      intro x hx
      have hx := List.mem_reverse.1 hx
      simp only [decide_eq_true_eq]
      exact fun e => hb (e ▸ hx))]
    simp [hc]
  simp only [splitExt, hrev, htake, hdrop, hany, if_true, List.reverse_reverse]

theorem mem_takeWhile_imp' {α : Type} {q : α → Bool} {l : List α} {x : α} (h : x ∈ l.takeWhile q) : q x = true := by
  induction l with
  | nil => simp at h
  | cons a l ih =>
    rw [List.takeWhile_cons] at h
    split at h
    · rcases List.mem_cons.1 h with rfl | h
      · assumption
      · exact ih h
    · simp at h

/-- **C84**, the parts of a path: whatever precedes and follows the extension is kept, and the extension is what is called so. -/
theorem C84_path (p : List Char) :
    (splitExt p).1 ++ (splitExt p).2 = p ∧
    (∀ stem ext, HasExtension p stem ext ↔ splitExt p = (stem, '.' :: ext)) ∧
    ((∀ stem ext, ¬ HasExtension p stem ext) ↔ splitExt p = (p, [])) := by
  have key : splitExt p = (p, []) ∨ ∃ stem ext, splitExt p = (stem, '.' :: ext) ∧ HasExtension p stem ext := by
    unfold splitExt
    simp only
    split
    · next front hf =>
      split
      · next hany =>
        refine .inr ⟨_, _, rfl, ?_⟩
        have hp := (List.takeWhile_append_dropWhile (p := fun c => decide (c ≠ '.') && decide (c ≠ '/')) (l := p.reverse))
        rw [hf] at hp
        have hp' := congrArg List.reverse hp
        simp only [List.reverse_append, List.reverse_cons, List.reverse_reverse] at hp'
        refine ⟨by rw [List.append_assoc] at hp'; exact hp'.symm, ⟨?_, ?_⟩, ?_⟩
        · intro hc
          have := mem_takeWhile_imp' (List.mem_reverse.1 hc)
          simp at this
        · intro hc
          have := mem_takeWhile_imp' (List.mem_reverse.1 hc)
          simp at this
        · obtain ⟨c, hc, hcd⟩ := List.any_eq_true.1 hany
          simp only [decide_eq_true_eq] at hcd
          obtain ⟨u, v, huv⟩ := List.append_of_mem hc
          have hfr : front = u ++ c :: (v ++ front.dropWhile (· ≠ '/')) := by
            have := (List.takeWhile_append_dropWhile (p := fun x => decide (x ≠ '/')) (l := front)).symm
            rw [huv] at this
            simpa using this
          refine ⟨(v ++ front.dropWhile (· ≠ '/')).reverse, c, u.reverse, ?_, hcd, ?_⟩
          · conv_lhs => rw [hfr]
            simp
          · intro hs
            have : '/' ∈ front.takeWhile (fun x => decide (x ≠ '/')) := by
              rw [huv]
              rcases List.mem_cons.1 hs with hs | hs
              · rw [hs]; simp
              · exact List.mem_append_left _ (List.mem_reverse.1 hs)
            have := mem_takeWhile_imp' this
            simp at this
      · exact .inl rfl
    · exact .inl rfl
  refine ⟨?_, fun stem ext => ⟨splitExt_of, fun h => ?_⟩, fun h => ?_, fun h stem ext hc => ?_⟩
  · rcases key with h | ⟨stem, ext, h, hs⟩
    · rw [h]; simp
    · rw [h]; exact hs.split.symm
  · rcases key with h' | ⟨stem', ext', h', hs⟩
    · rw [h'] at h; simp at h
    · rw [h'] at h
      simp only [Prod.mk.injEq, List.cons.injEq, true_and] at h
      exact h.1 ▸ h.2 ▸ hs
  · rcases key with h' | ⟨stem, ext, -, hs⟩
    · exact h'
    · exact absurd hs (h stem ext)
  · rw [splitExt_of hc] at h
    simp at h

example : splitExt "out/graph.svg".toList = ("out/graph".toList, ".svg".toList) ∧ splitExt "out.d/graph".toList = ("out.d/graph".toList, []) ∧
    splitExt "out/.svg".toList = ("out/.svg".toList, []) ∧ splitExt "a.tar.gz".toList = ("a.tar".toList, ".gz".toList) := by decide +kernel

/-! ## Saving -/

section
variable [Palette C] [DecidableEq C]

omit [DecidableEq C] in
theorem graphvizSource_eq (w : World C) (g : GRef) (a : DrawArgs) (f : Option String) :
    graphvizSource w g a f = (graphvizStr w g a).map (·, none) := by
  obtain ⟨dir, hh, ww, pad⟩ := a
  unfold graphvizSource
  split
  · next h =>
    obtain ⟨h1, h2⟩ := h
    simp only at h1 h2
    subst h1 h2
    cases graphvizStr w g { direction := dir, height := none, width := none, pad := pad } <;> rfl
  · cases graphvizStr w g { direction := dir, height := hh, width := ww, pad := pad } <;> rfl

/-- **C84**: without a path, `render` saves nothing. -/
theorem C84_no_path (E : Engine) (lim : Nat) (shuffle : List NRef → List NRef) (g : GRef) (view : Bool) (a : DrawArgs) (w : World C) :
    renderTo E lim shuffle g none view a w =
      ((render lim shuffle g a w).1.map (·, []), (render lim shuffle g a w).2) := by
  unfold renderTo render
  cases hd : w.display g with
  | none => simp [W.display, W.bind_apply, hd, Except.map]
  | some d =>
    simp only [W.display, W.bind_apply, hd]
    cases hs : stylize lim shuffle g w with
    | mk o v =>
      cases o with
      | error e => rfl
      | ok u =>
        simp only [W.ask, graphvizSource_eq]
        cases graphvizStr v g { direction := some (directionOr d a.direction), height := none, width := none, pad := a.pad } <;> rfl

theorem renderTo_ok {E : Engine} {lim : Nat} {shuffle : List NRef → List NRef} {g : GRef} {p : String} {view : Bool} {a : DrawArgs}
    {w w' : World C} {src : String} {log : List Save}
    (hok : renderTo E lim shuffle g (some p) view a w = (.ok (src, log), w')) :
    ∃ d text s, w.display g = some d ∧ stylize lim shuffle g w = (.ok (), w') ∧
      graphvizStr w' g { a with direction := some (directionOr d a.direction) } = .ok text ∧
      s = { text := text, name := String.ofList (splitExt p.toList).1, format := none, view := view } ∧ E.save s = .ok () ∧ log = [s] ∧
      graphvizStr w' g (renderArgs d a) = .ok src := by
  unfold renderTo at hok
  cases hd : w.display g with
  | none => simp [W.display, W.bind_apply, hd] at hok
  | some d =>
    simp only [W.display, W.bind_apply, hd] at hok
    cases hs : stylize lim shuffle g w with
    | mk o v =>
      rw [hs] at hok
      cases o with
      | error e => simp at hok
      | ok u =>
        simp only [W.ask, graphvizSource_eq] at hok
        cases h1 : graphvizStr v g { a with direction := some (directionOr d a.direction) } with
        | error e => rw [h1] at hok; simp [Except.map] at hok
        | ok text =>
          rw [h1] at hok
          simp only [Except.map] at hok
          cases h2 : E.save { text := text, name := String.ofList (splitExt p.toList).1, format := none, view := view } with
          | error e => rw [h2] at hok; simp at hok
          | ok u =>
            rw [h2] at hok
            simp only at hok
            cases h3 : graphvizStr v g { direction := some (directionOr d a.direction), pad := a.pad } with
            | error e => rw [h3] at hok; simp at hok
            | ok src' =>
              rw [h3] at hok
              simp only [W.pure_apply, Prod.mk.injEq, Except.ok.injEq] at hok
              obtain ⟨⟨rfl, rfl⟩, rfl⟩ := hok
              exact ⟨d, text, _, rfl, rfl, h1, rfl, h2, rfl, h3⟩

/-- **C84**: with a path, `render` returns what it returns without one. -/
theorem C84_returned {E : Engine} {lim : Nat} {shuffle : List NRef → List NRef} {g : GRef} {p : String} {view : Bool} {a : DrawArgs}
    {w w' : World C} {src : String} {log : List Save}
    (hok : renderTo E lim shuffle g (some p) view a w = (.ok (src, log), w')) : render lim shuffle g a w = (.ok src, w') := by
  obtain ⟨d, text, s, hd, hs, -, -, -, -, h⟩ := renderTo_ok hok
  exact render_run hd hs h

/-- **C84**, what holds: if `render` returns, one text has been saved, under the path without its extension. It describes the graph as it
was styled, with the direction, padding, height and width that were asked for. Missing: the format (`C84_format_violated`). -/
theorem C84_saved_partial {E : Engine} {lim : Nat} {shuffle : List NRef → List NRef} {g : GRef} {p : String} {view : Bool} {a : DrawArgs}
    {w w' : World C} {src : String} {log : List Save} {d : Display C} (F : Made w.heap) (r : Reachable w.heap)
    (hown : ∀ n ∈ graphNodes w.heap g, (w.heap.node n).graph = some g) (hd : w.display g = some d)
    (hok : renderTo E lim shuffle g (some p) view a w = (.ok (src, log), w'))
    (D : Drawable w' g d { a with direction := some (directionOr d a.direction) }) :
    ∃ s, log = [s] ∧ E.save s = .ok () ∧ s.view = view ∧
      (∀ stem ext, HasExtension p.toList stem ext → s.name = String.ofList stem) ∧
      ((∀ stem ext, ¬ HasExtension p.toList stem ext) → s.name = p) ∧
      stylize lim shuffle g w = (.ok (), w') ∧ graphNodes w'.heap g = graphNodes w.heap g ∧
      ∃ es, graphEdges w.heap g = .ok es ∧
        readDot s.text = some (pictureOf w' g d { a with direction := some (directionOr d a.direction) } es) := by
  obtain ⟨d', text, s, hd', hs, ht, rfl, hsv, rfl, -⟩ := renderTo_ok hok
  rw [hd] at hd'
  cases hd'
  have q := (Silent.stylize (C := C) lim shuffle g).quiet F hs
  have hd' : w'.display g = some d := by rw [q.display]; exact hd
  obtain ⟨src', es, h1, h2, h3⟩ := C44_source_partial (q.reach r) hd'
    (by intro n hn; rw [← q.shape.graphNodes] at hn; rw [← q.shape.nodeGraph]; exact hown n hn) D
  rw [ht] at h1
  cases h1
  obtain ⟨-, h4, h5⟩ := C84_path p.toList
  refine ⟨_, rfl, hsv, rfl, fun stem ext hx => ?_, fun hx => ?_, hs, (q.shape.graphNodes g).symm, es, by rw [q.shape.graphEdges]; exact h2, h3⟩
  · simp only [(h4 stem ext).1 hx]
  · simp only [h5.1 hx, String.ofList_toList]

/-- **C84 is violated**: the extension is dropped and no format is asked for. Whatever the standard format of Graphviz is, the file at
the path is written only if the path has the extension of that format. -/
theorem C84_format_violated {E : Engine} {lim : Nat} {shuffle : List NRef → List NRef} {g : GRef} {p : String} {view : Bool} {a : DrawArgs}
    {w w' : World C} {src : String} {log : List Save}
    (hok : renderTo E lim shuffle g (some p) view a w = (.ok (src, log), w')) (standard : String) :
    ∃ s, log = [s] ∧ s.format = none ∧
      (s.file standard = p ↔ ∃ stem, HasExtension p.toList stem standard.toList) := by
  obtain ⟨d, text, s, -, -, -, rfl, -, rfl, -⟩ := renderTo_ok hok
  obtain ⟨h1, h2, h3⟩ := C84_path p.toList
  refine ⟨_, rfl, rfl, ?_⟩
  simp only [Save.file, Option.getD_none]
  constructor
  · intro h
    have h : (splitExt p.toList).1 ++ '.' :: standard.toList = p.toList := by
      conv_rhs => rw [← h]
      simp
    have h := List.append_cancel_left (h.trans h1.symm)
    exact ⟨_, (h2 (splitExt p.toList).1 standard.toList).2 (Prod.ext rfl h.symm)⟩
  · rintro ⟨stem, hx⟩
    have := (h2 _ _).1 hx
    rw [this]
    refine String.ext ?_
    simp [hx.split]

/-! ## Notebooks -/

omit [Palette C] [DecidableEq C] in
theorem directionOr_again (d : Display C) (x : Option String) : directionOr d (some (directionOr d x)) = directionOr d x := by
  cases x with
  | none => by_cases h : d.direction = "" <;> simp [directionOr, h]
  | some s => by_cases h : s = "" <;> simp [directionOr, h]

theorem render_direction {lim : Nat} {shuffle : List NRef → List NRef} {g : GRef} {a : DrawArgs} {w : World C} {d : Display C}
    (hd : w.display g = some d) (E : Engine) (path : Option String) (view : Bool) :
    renderTo E lim shuffle g path view { a with direction := some (directionOr d a.direction) } w = renderTo E lim shuffle g path view a w := by
  unfold renderTo
  simp only [W.display, W.bind_apply, hd, directionOr_again]

/-- **C84**: `get_svg` is the picture that Graphviz makes of what `render` returns; `get_html` is the same, once IPython is there; and a
notebook shows the picture with the standard settings. -/
theorem C84_svg (E : Engine) (lim : Nat) (shuffle : List NRef → List NRef) (g : GRef) (path : Option String) (view : Bool) (a : DrawArgs)
    (w : World C) :
    (∀ src w', render lim shuffle g a w = (.ok src, w') →
      getSvg E lim shuffle g none view a w = ((svgOf E src).map (·, []), w')) ∧
    (∀ e w', render lim shuffle g a w = (.error e, w') → getSvg E lim shuffle g none view a w = (.error e, w')) ∧
    (E.ipython = .ok () → getHtml E lim shuffle g path view a w = getSvg E lim shuffle g path view a w) ∧
    reprHtml E lim shuffle g w = getSvg E lim shuffle g none view {} w := by
  have run : ∀ path view, getSvg E lim shuffle g path view a w =
      match renderTo E lim shuffle g path view a w with
      | (.ok (src, log), w') => ((svgOf E src).map (·, log), w')
      | (.error e, w') => (.error e, w') := by
    intro path view
    unfold getSvg
    cases hd : w.display g with
    | none => simp [W.display, W.bind_apply, hd, renderTo]
    | some d =>
      simp only [W.display, W.bind_apply, hd, render_direction hd]
      cases renderTo E lim shuffle g path view a w with
      | mk o v =>
        cases o with
        | error e => rfl
        | ok r =>
          obtain ⟨src, log⟩ := r
          simp only [W.ask]
          cases svgOf E src <;> rfl
  refine ⟨fun src w' h => ?_, fun e w' h => ?_, fun hi => ?_, ?_⟩
  · rw [run, C84_no_path, h]; rfl
  · rw [run, C84_no_path, h]; rfl
  · unfold getHtml
    simp only [W.bind_apply, W.ask, hi]
    cases hd : w.display g with
    | none => simp [W.display, hd, getSvg, W.bind_apply]
    | some d =>
      simp only [W.display, hd]
      unfold getSvg
      simp only [W.display, W.bind_apply, hd, directionOr_again]
  · unfold reprHtml getSvg
    congr 1

/-- What a notebook is given, by the libraries' answers alone. If `render` succeeds, `get_svg` returns what `_repr_svg_` makes of the
rendered text; where that method is missing, what `pipe` makes of it; any other exception is passed on. Without IPython `get_html`
raises that exception and nothing happens to the graph, and no file is written. -/
theorem C84_svg_text (E : Engine) (lim : Nat) (shuffle : List NRef → List NRef) (g : GRef) (view : Bool) (a : DrawArgs)
    (w w' : World C) {src : String} (h : render lim shuffle g a w = (.ok src, w')) :
    (∀ s, E.reprSvg src = .ok s → getSvg E lim shuffle g none view a w = (.ok (s, []), w')) ∧
    (∀ s, E.reprSvg src = .error .attributeError → E.pipe src = .ok s →
      getSvg E lim shuffle g none view a w = (.ok (s, []), w')) ∧
    (∀ e, E.reprSvg src = .error .attributeError → E.pipe src = .error e →
      getSvg E lim shuffle g none view a w = (.error e, w')) ∧
    (∀ e, E.reprSvg src = .error e → e ≠ .attributeError → getSvg E lim shuffle g none view a w = (.error e, w')) ∧
    (∀ e path, E.ipython = .error e → getHtml E lim shuffle g path view a w = (.error e, w)) := by
  have hs := (C84_svg E lim shuffle g none view a w).1 _ _ h
  refine ⟨fun s h1 => ?_, fun s h1 h2 => ?_, fun e h1 h2 => ?_, fun e h1 h2 => ?_, fun e path h1 => ?_⟩
  · simp only [hs, svgOf, h1]; rfl
  · simp only [hs, svgOf, h1, h2]; rfl
  · simp only [hs, svgOf, h1, h2]; rfl
  · rw [hs]
    unfold svgOf
    rw [h1]
    cases e <;> first | rfl | exact absurd rfl h2
  · unfold getHtml
    simp only [W.bind_apply, W.ask, h1]

end

/-! ## Examples -/

/-- Libraries that save everything and put the text in brackets; `_repr_svg_` is missing. -/
def someEngine : Engine :=
  { save := fun _ => .ok (), reprSvg := fun _ => .error .attributeError, pipe := fun s => .ok ("<svg>" ++ s), ipython := .ok () }

/-- `render('out/d.svg', height=7)` of the diamond meets the hypotheses; the text saved has the size, the one returned has not, and
Graphviz writes `out/d.pdf`. -/
example : (renderTo someEngine 10 id 0 (some "out/d.svg") true { height := some 7 } (plainWorld diamond)).1.isOk = true ∧
    (renderTo someEngine 10 id 0 (some "out/d.svg") true { height := some 7 } (plainWorld diamond)).1.toOption.map (fun r =>
      r.2.map (fun s => (s.file "pdf", s.format, s.view))) = some [("out/d.pdf", none, true)] ∧
    HasExtension "out/d.svg".toList "out/d".toList "svg".toList ∧ ¬ ∃ stem, HasExtension "out/d.svg".toList stem "pdf".toList := by
  refine ⟨by decide +kernel, by decide +kernel, ?_, ?_⟩
  · exact (C84_path _).2.1 _ _ |>.2 (by decide +kernel)
  · rintro ⟨stem, h⟩
    have := splitExt_of h
    have h' : splitExt "out/d.svg".toList = ("out/d".toList, ".svg".toList) := by decide +kernel
    rw [h'] at this
    simp at this

/-- The diamond meets the hypothesis of `C84_svg_text`, and libraries without `_repr_svg_` give its picture by `pipe`. -/
example : ∃ src w', render 10 id 0 {} (plainWorld diamond) = (.ok src, w') ∧
    getSvg someEngine 10 id 0 none true {} (plainWorld diamond) = (.ok ("<svg>" ++ src, []), w') := by
  have h1 : (render 10 id 0 {} (plainWorld diamond)).1.isOk = true := by decide +kernel
  cases h : render 10 id 0 {} (plainWorld diamond) with
  | mk o v =>
    cases o with
    | error e => rw [h] at h1; simp [Except.isOk, Except.toBool] at h1
    | ok s => exact ⟨s, v, rfl, (C84_svg_text someEngine 10 id 0 true {} _ _ h).2.1 _ rfl rfl⟩

/-- What is saved of the diamond may be drawn, as `C84_saved_partial` asks. -/
example : Drawable (stylize 10 id 0 (plainWorld diamond)).2 0 { scheme := [0, 1 / 2, 1], stylist := .pensieve }
    { height := some 7, direction := some (directionOr ({ scheme := [0, 1 / 2, 1], stylist := .pensieve } : Display Rat) none) } :=
  let D := diamond_drawn
  { names := D.names, labels := D.labels, tooltips := D.tooltips, looks := D.looks, edges := D.edges
    header := by
      have := D.header
      exact ⟨this.label, this.location, this.font, this.fontSize, this.labelColour, this.labelUrl, this.tooltip, this.kwargs,
        this.background, this.pad, by decide +kernel, by decide +kernel, by decide +kernel⟩ }

/-- **C84 is violated** by graphs painted at random: whatever the libraries do, a notebook that shows the graph a second time gets a
`RuntimeError`. -/
theorem C84_twice_violated (E : Engine) :
    (render 10 id 0 {} (plainWorld diamond .random)).1.isOk = true ∧
    (reprHtml E 10 id 0 (reprHtml E 10 id 0 (plainWorld diamond .random)).2).1 = .error .runtimeError := by
  have h1 : (render 10 id 0 {} (plainWorld diamond .random)).1.isOk = true := by decide +kernel
  have h2 : (render 10 id 0 {} (render 10 id 0 {} (plainWorld diamond .random)).2).1 = .error .runtimeError := by decide +kernel
  refine ⟨h1, ?_⟩
  have hw : (reprHtml E 10 id 0 (plainWorld diamond .random)).2 = (render 10 id 0 {} (plainWorld diamond .random)).2 := by
    rw [(C84_svg E 10 id 0 none true {} _).2.2.2]
    cases h : render 10 id 0 {} (plainWorld diamond .random) with
    | mk o v =>
      cases o with
      | error e => rw [h] at h1; simp [Except.isOk, Except.toBool] at h1
      | ok s => rw [(C84_svg E 10 id 0 none true {} _).1 _ _ h]
  rw [hw, (C84_svg E 10 id 0 none true {} _).2.2.2]
  rw [(C84_svg E 10 id 0 none true {} _).2.1 _ _ (Prod.ext h2 rfl)]

end Verif
