import Verif.Props.Stylize
/-!
# C50 and C53: exactly when they hold
-/
namespace Verif
open Palette
variable {C : Type} [Palette C]

/-- **C53**, exactly: the copy of an edge style has the same Graphviz attributes if and only if the style writes the label
style `below`, whatever was done to the style before. -/
theorem C53_edge_copy_exact (s : EdgeStyle C) (h : s.Made) :
    ∃ t, s.copy = .ok t ∧ (t.attributes = s.attributes ↔ s.labelStyle.map stripQuotes = some "below") := by
  refine ⟨_, EdgeStyle.copy_eq s h.whole, ?_⟩
  have h1 : stripQuotes "below" = "below" := by decide +kernel
  rcases s with ⟨c0, text, ta, op, fo, ts, ar, la, lw⟩
  cases la <;> cases fo <;> cases ts <;> cases lw <;>
    simp [EdgeStyle.attributes, EdgeStyle.dictionary, EdgeStyle.textColour, AttrVal.ofStr, AttrVal.ofNum, AttrVal.shown, h1, eq_comm]

theorem NodeStyle.attributes_congr {u s : NodeStyle C} (e1 : u.fill = s.fill) (e2 : u.border = s.border) (e3 : u.text = s.text)
    (e4 : u.opacity = s.opacity) (e5 : u.font = s.font) (e6 : u.textSize = s.textSize) (e7 : u.shape = s.shape)
    (e8 : u.shapeStyle = s.shapeStyle) : u.attributes = s.attributes := by
  simp only [NodeStyle.attributes, NodeStyle.dictionary, e1, e2, e3, e4, e5, e6, e7, e8]

/-- **C53**, exactly: if inverting a colour twice gives the colour back, inverting a node style twice always works, and it
restores the three colours the style is drawn with if and only if each one that is marked as derived from the main colour is
what a style with `lighter_fill` derives from the main colour it has now. -/
theorem C53_node_invert_exact (hinv : ∀ c : C, invert (invert c) = c) (s : NodeStyle C) (h : s.Made) :
    ∃ t u, s.invertColours = .ok t ∧ t.invertColours = .ok u ∧ u.colour = s.colour ∧
      ((u.fill = s.fill ∧ u.border = s.border ∧ u.text = s.text) ↔
        ((s.fillAuto = true → s.fill = some (lighten s.colour differenceRatio)) ∧
         (s.borderAuto = true → s.border = some (darken s.colour (differenceRatio / 3))) ∧
         (s.textAuto = true → s.text = s.fill.map farthestGray))) ∧
      (u.fill = s.fill → u.border = s.border → u.text = s.text → u.attributes = s.attributes) := by
  have hf := h.full
  refine ⟨_, _, NodeStyle.invert_eq s hf, NodeStyle.invert_eq _ ?_, hinv _, ?_, ?_⟩
  · rcases s with ⟨c0, fill, border, text, fa, ba, ta, li, op, fo, ts, sh, ss⟩
    cases fill <;> cases border <;> cases text <;> simp_all [NodeStyle.Full] <;>
    cases fa <;> cases ba <;> cases ta <;> simp
  · rcases s with ⟨c0, fill, border, text, fa, ba, ta, li, op, fo, ts, sh, ss⟩
    cases fill <;> cases border <;> cases text <;> simp_all [NodeStyle.Full] <;>
    cases fa <;> cases ba <;> cases ta <;> simp [hinv] <;> grind
  · exact fun e1 e2 e3 => NodeStyle.attributes_congr e1 e2 e3 rfl rfl rfl rfl rfl

/-- **C53**, exactly: inverting an edge style twice always works, changes nothing but the label style and the text colour,
and restores the text colour if and only if it is the main colour or is not marked as derived from it. -/
theorem C53_edge_invert_exact (hinv : ∀ c : C, invert (invert c) = c) (s : EdgeStyle C) (h : s.Made) :
    ∃ t u, s.invertColours = .ok t ∧ t.invertColours = .ok u ∧
      (∃ x, u = { s with labelStyle := some "below", text := x }) ∧
      (u.text = s.text ↔ (s.textAuto = some true → s.text = some s.colour)) := by
  have hw := h.whole
  rcases s with ⟨c0, text, ta, op, fo, ts, ar, la, lw⟩
  cases text <;> cases ta <;> simp_all
  rename_i c b
  cases b <;>
    simp [EdgeStyle.make, EdgeStyle.setText, EdgeStyle.setColour, EdgeStyle.invertColours, EdgeStyle.copy, EdgeStyle.copied, hinv,
      EdgeStyle.textColour, bind, Except.bind, eq_comm]

/-- Setting the main colour of a style that has its colours leaves them behind: after that, inverting twice does not restore
the fill colour. -/
example : ∃ s t u : NodeStyle Rat, s = (NodeStyle.make { colour := some (1 / 2 : Rat) }).setColour 0 ∧ s.Made ∧
    s.invertColours = .ok t ∧ t.invertColours = .ok u ∧ s.fill = some (3 / 4) ∧ u.fill = some (1 / 2) := by
  refine ⟨_, _, _, rfl, .setColour _ (.make _), NodeStyle.invert_eq _ (NodeStyle.setColour_full _ _), NodeStyle.invert_eq _ ?_, ?_, ?_⟩
  · exact ⟨by decide +kernel, by decide +kernel, by decide +kernel⟩
  · decide +kernel
  · decide +kernel

/-- An edge style whose label style is written as `below` though it is another string. -/
example : ∃ t, (EdgeStyle.make { colour := some (0 : Rat), labelStyle := some "\"below\"" }).copy = .ok t ∧
    t.attributes = (EdgeStyle.make { colour := some (0 : Rat), labelStyle := some "\"below\"" }).attributes :=
  ⟨_, rfl, by decide +kernel⟩

theorem foldl_mul_start (l : List Rat) (a b : Rat) : l.foldl (· * ·) (a * b) = a * l.foldl (· * ·) b := by
  induction l generalizing a b with
  | nil => rfl
  | cons x l ih => simp only [List.foldl_cons, Rat.mul_assoc, ih]

/-- **C50**, exactly: the arrow of an edge without style gets half the size its own value says if and only if the values of
the edges without style before it multiply to one, or its own value is zero. -/
theorem C50_exact [DecidableEq C] {w : World C} (F : Fine w) (r : Reachable w.heap) {g : GRef} {d : Display C}
    (hd : w.display g = some d) (hown : ∀ n ∈ graphNodes w.heap g, (w.heap.node n).graph = some g) {lim : Nat}
    (hlim : (graphNodes w.heap g).length ≤ lim) (hs : d.scheme ≠ []) (hstr : ∀ n ∈ graphNodes w.heap g, ¬ Stranded w g n)
    (hval : ∀ e, LiveEdge w.heap g e → edgeLook w e = none → (w.heap.edge e).value.factor ≠ none)
    {w' : World C} (hok : stylizeWithPensieve lim g w = (.ok (), w')) {es fresh : List ERef}
    (hes : graphEdges w.heap g = .ok es) (hf : fresh = es.filter fun e => (w.heap.edge e).style.isNone)
    (j : Nat) (hj : j < fresh.length) :
    ∃ s, edgeLook w' fresh[j] = some s ∧
      (s.arrowSize = 1 / 2 * ((w.heap.edge fresh[j]).value.factor).getD 1 ↔
        ((fresh.take j).map fun e => ((w.heap.edge e).value.factor).getD 1).foldl (· * ·) 1 = 1 ∨
        ((w.heap.edge fresh[j]).value.factor).getD 1 = 0) := by
  obtain ⟨n, s, -, -, h3⟩ := C50_compound F r hd hown hlim hs hstr hval hok hes hf j hj
  refine ⟨_, h3, ?_⟩
  rw [List.take_succ_eq_append_getElem hj, List.map_append, List.foldl_append]
  generalize (fresh.take j).map (fun e => ((w.heap.edge e).value.factor).getD 1) = l
  generalize hx : ((w.heap.edge fresh[j]).value.factor).getD 1 = x
  have e : l.foldl (· * ·) (1 / 2) = 1 / 2 * l.foldl (· * ·) 1 := by
    rw [← foldl_mul_start, Rat.mul_one]
  show List.foldl (· * ·) (l.foldl (· * ·) (1 / 2)) [((w.heap.edge fresh[j]).value.factor).getD 1] = _ ↔ _
  rw [hx, e]
  generalize l.foldl (· * ·) 1 = p
  simp only [List.foldl_cons, List.foldl_nil]
  grind

end Verif
