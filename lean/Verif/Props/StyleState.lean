import Verif.Model.StyleState
import Verif.Props.Session
/-!
# C86: deep copies of style objects
-/
namespace Verif
variable {C : Type}

/-- **C86**, violated for node styles: no node style can be deep-copied or restored from a pickle. -/
theorem C86_node_violated (s : NodeStyle C) : s.deepcopy = .error .keyError := rfl

/-- A deep copy of an edge style has all its attributes but one. -/
theorem EdgeStyle.deepcopy_eq (s : EdgeStyle C) : s.deepcopy = .ok { s with textAuto := none } := rfl

section
variable [Palette C]

/-- **C86**, for edge styles, as far as the picture goes: every edge style can be deep-copied, the copy has the colours, the font,
the sizes, the opacity and the label style of the original and the same Graphviz attributes, and so has a copy of the copy. The copy
becomes a full style when its text colour is set: from then on it can be copied and inverted like the original.
Missing for the full property: node styles (`C86_node_violated`), and copying or inverting the copy (`C86_edge_violated`). -/
theorem C86_edge_partial (s : EdgeStyle C) :
    ∃ t, s.deepcopy = .ok t ∧ t.colour = s.colour ∧ t.text = s.text ∧ t.opacity = s.opacity ∧ t.font = s.font ∧
      t.textSize = s.textSize ∧ t.arrowSize = s.arrowSize ∧ t.labelStyle = s.labelStyle ∧ t.lineWidth = s.lineWidth ∧
      t.attributes = s.attributes ∧ t.deepcopy = .ok t ∧
      ∀ c, t.setText c = s.setText c ∧ ∃ u v, (t.setText c).copy = .ok u ∧ (t.setText c).invertColours = .ok v := by
  refine ⟨_, s.deepcopy_eq, rfl, rfl, rfl, rfl, rfl, rfl, rfl, rfl, rfl, rfl, fun c => ?_⟩
  cases c <;> exact ⟨rfl, _, _, rfl, rfl⟩

/-- **C86**, violated for edge styles: a deep copy of an edge style can be neither copied nor inverted. -/
theorem C86_edge_violated (s t : EdgeStyle C) (h : s.deepcopy = .ok t) :
    t.copy = .error .attributeError ∧ t.invertColours = .error .attributeError := by
  rw [s.deepcopy_eq] at h
  cases h
  exact ⟨rfl, rfl⟩

/-- The original can: every style that calls of the constructor, the setters, `copy` and `invert_colours` made. -/
theorem C86_original (s : EdgeStyle C) (h : s.Made) : ∃ u v, s.copy = .ok u ∧ s.invertColours = .ok v := by
  have := EdgeStyle.copy_eq s h.whole
  obtain ⟨v, hv⟩ : ∃ v, s.invertColours = .ok v := by
    rw [EdgeStyle.invertColours, this]
    exact ⟨_, rfl⟩
  exact ⟨_, v, this, hv⟩

variable [DecidableEq C]

/-- **C86**, violated for the edges of copied graphs: the style of an edge of a copy can be neither copied nor inverted. -/
theorem C86_copy_violated {w : World C} (s : Session w) {g g' : GRef} {w' : World C} (hg : g < w.heap.nG)
    (hc : copyWorld g w = (.ok g', w')) {es' : List ERef} (hes : graphEdges w'.heap g' = .ok es') {e : ERef} (he : e ∈ es')
    {st : EdgeStyle C} (hst : edgeLook w' e = some st) :
    st.copy = .error .attributeError ∧ st.invertColours = .error .attributeError := by
  have hns : ∀ n ∈ graphNodes w.heap g, (w.heap.node n).style = none := by
    intro n hn
    refine Classical.byContradiction fun hne => ?_
    have := C81_violated hn hne
    rw [hc] at this
    cases this
  obtain ⟨g1, m, w1, h1, hC, -, h3, -, -⟩ := C81_copy_partial s hg hns
  rw [hc] at h1
  cases h1
  obtain ⟨r, -, -⟩ := C79_sessions s
  have s' : Session ((Call.copy g).step w) := s.step _ (okCall (by simp) (by simpa [Call.graphs] using hg) (by simp [Call.styles]) trivial)
  have hstep : (Call.copy g).step w = w' := by simp [Call.step, hc]
  rw [hstep] at s'
  obtain ⟨r', -, -⟩ := C79_sessions s'
  obtain ⟨es, hes0, -, hl0, -⟩ := C11_edges r g
  obtain ⟨es1, hes1, -, hl1, -⟩ := C11_edges r' g'
  rw [hes] at hes1
  cases hes1
  obtain ⟨n', hn', os', ho', heo⟩ := (hl1 e).1 he
  rw [hC.nodes] at hn'
  obtain ⟨n, hn, rfl⟩ := List.mem_map.1 hn'
  obtain ⟨os, is, ho, ho1, -, -⟩ := hC.edges n hn
  rw [ho'] at ho1
  cases ho1
  obtain ⟨e0, he0, rfl⟩ := List.mem_map.1 heo
  have he0 := (hl0 e0).2 ⟨n, hn, os, ho, he0⟩
  have h4 := (h3 es hes0 e0 he0).2.1
  rw [hst] at h4
  cases hl : edgeLook w e0 with
  | none => rw [hl] at h4; cases h4
  | some x =>
    rw [hl] at h4
    simp only [Option.map_some, Option.some.injEq] at h4
    subst h4
    exact ⟨rfl, rfl⟩

end

/-- The second graph of `duoWorld` has a copy, whose edge has a style. -/
example : Session duoWorld ∧ (1 : GRef) < duoWorld.heap.nG ∧ (copyWorld 1 duoWorld).1 = .ok 2 ∧
    graphEdges (copyWorld 1 duoWorld).2.heap 2 = .ok [2] ∧ (edgeLook (copyWorld 1 duoWorld).2 2).isSome ∧
    ((edgeLook duoWorld 1).map fun s => s.copy.toBool) = some true :=
  ⟨duoWorld_private.session, by decide +kernel, by decide +kernel, by decide +kernel, by decide +kernel, by decide +kernel⟩

end Verif
