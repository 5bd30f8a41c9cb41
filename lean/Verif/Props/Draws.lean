import Verif.Props.Graphviz
import Verif.Lemmas.Export
import Verif.Props.Readd
/-!
# C85: which graphs can be drawn
-/
namespace Verif
variable {C : Type} [Palette C]

/-- The label has no place: it is on a coloured background (and no HTML of its own) without a location, or its location is empty. -/
def LabelLost (d : Display C) : Prop :=
  ∃ l, d.label = some l ∧
    (d.labelLocation = some "" ∨ (d.labelLocation = none ∧ d.labelBackground ≠ none ∧ ¬ IsHtml l))

omit [Palette C] in
theorem firstChar_ok {s : String} (h : s ≠ "") : ∃ c, firstChar (some s) = .ok c := by
  unfold firstChar
  cases hs : s.toList with
  | nil => exact absurd (String.toList_eq_nil_iff.1 hs) h
  | cons c t => exact ⟨c, by simp only [hs]⟩

/-- The header, as far as the label is concerned. -/
theorem labelAttributes_run (d : Display C) :
    (¬ LabelLost d → ∃ a, labelAttributes d = .ok a) ∧
    ((∃ l, d.label = some l ∧ d.labelLocation = some "") → labelAttributes d = .error .indexError) ∧
    ((∃ l, d.label = some l ∧ d.labelLocation = none ∧ d.labelBackground ≠ none ∧ ¬ IsHtml l) → labelAttributes d = .error .typeError) := by
  unfold labelAttributes
  cases hl : d.label with
  | none => exact ⟨fun _ => ⟨_, rfl⟩, by simp, by simp⟩
  | some l =>
    refine ⟨fun h => ?_, ?_, ?_⟩
    · have hne : d.labelLocation ≠ some "" := fun e => h ⟨l, hl, .inl e⟩
      have h1 : ∃ x, labelAttribute d l = .ok x := by
        unfold labelAttribute
        by_cases hh : IsHtml l
        · exact ⟨_, if_pos hh⟩
        · refine Exists.imp (fun _ h => (if_neg (show ¬ (l.toList.head? = some '<' ∧ l.toList.getLast? = some '>') from hh)).trans h) ?_
          cases hb : d.labelBackground with
          | none => exact ⟨_, rfl⟩
          | some bg =>
            cases hloc : d.labelLocation with
            | none => exact absurd ⟨l, hl, .inr ⟨hloc, by simp [hb], hh⟩⟩ h
            | some s =>
              obtain ⟨c, hc⟩ := firstChar_ok (s := s) (by rintro rfl; exact hne hloc)
              simp only [hc, bind, Except.bind]
              split
              · exact ⟨_, rfl⟩
              · exact ⟨_, rfl⟩
      obtain ⟨x, hx⟩ := h1
      simp only [hx, bind, Except.bind]
      cases hloc : d.labelLocation with
      | none =>
        cases d.labelUrl with
        | none => exact ⟨_, rfl⟩
        | some u => exact ⟨_, rfl⟩
      | some s =>
        obtain ⟨c, hc⟩ := firstChar_ok (s := s) (by rintro rfl; exact hne hloc)
        simp only [hc]
        cases d.labelUrl with
        | none => exact ⟨_, rfl⟩
        | some u => exact ⟨_, rfl⟩
    · rintro ⟨l', hl', hloc⟩
      obtain rfl : l = l' := Option.some.inj hl'
      have hfc : firstChar (some "") = .error .indexError := rfl
      by_cases h1 : labelAttribute d l = .error .indexError
      · simp only [h1, bind, Except.bind]
      · have : ∃ x, labelAttribute d l = .ok x := by
          unfold labelAttribute at h1 ⊢
          split at h1
          · next hh => rw [if_pos hh]; exact ⟨_, rfl⟩
          · next hh =>
            rw [if_neg hh]
            cases hb : d.labelBackground with
            | none => exact ⟨_, rfl⟩
            | some bg =>
              rw [hb] at h1
              simp only [hloc, hfc, bind, Except.bind] at h1
              exact absurd trivial h1
        obtain ⟨x, hx⟩ := this
        simp only [hx, bind, Except.bind, hloc, hfc]
    · rintro ⟨l', hl', hloc, hb, hh⟩
      obtain rfl : l = l' := Option.some.inj hl'
      have : labelAttribute d l = .error .typeError := by
        unfold labelAttribute
        rw [if_neg (show ¬ (l.toList.head? = some '<' ∧ l.toList.getLast? = some '>') from hh)]
        cases hb' : d.labelBackground with
        | none => exact absurd hb' hb
        | some bg => simp only [hloc, firstChar, bind, Except.bind]
      simp only [this, bind, Except.bind]

/-- Everything but the header can be written. -/
theorem graphvizStr_header {w : World C} (r : Reachable w.heap) {g : GRef} {d : Display C} (hd : w.display g = some d)
    (hown : ∀ n ∈ graphNodes w.heap g, (w.heap.node n).graph = some g) (a : DrawArgs) :
    (∀ e, labelAttributes d = .error e → graphvizStr w g a = .error e) ∧
    ((∃ x, labelAttributes d = .ok x) → ∃ src, graphvizStr w g a = .ok src) := by
  obtain ⟨A, H⟩ := r.hist
  have R := H.rep
  obtain ⟨es, he, -, hes, -⟩ := C11_edges r g
  obtain ⟨ns, hns, -⟩ := mapE_all (f := nodeGraphvizStr w) (l := graphNodes w.heap g) (by
    intro n hn
    simp only [nodeGraphvizStr, nodeDisplayLabel, hown n hn, displayOf, hd, bind, Except.bind]
    cases h : d.nodeConverter <;> exact ⟨_, rfl⟩)
  obtain ⟨ss, hss, -⟩ := mapE_all (f := edgeGraphvizStr w) (l := es) (by
    intro e hm
    obtain ⟨⟨k, l, i⟩, hi⟩ := (liveEdge_iff R).1 ((hes e).1 hm)
    obtain ⟨-, -, q1, -, n, m, q2, q3, q4, q5⟩ := R.edgeOk g k l i e hi
    have : ∃ v, edgeDisplayLabelOrValue w e = .ok v := by
      unfold edgeDisplayLabelOrValue
      split
      · exact ⟨_, rfl⟩
      · simp only [q1, displayOf, hd, bind, Except.bind]
        cases d.edgeConverter <;> exact ⟨_, rfl⟩
    obtain ⟨v, hv⟩ := this
    simp only [edgeGraphvizStr, hv, edgeStart, q4, edgeEnd, q5, bind, Except.bind]
    exact ⟨_, rfl⟩)
  constructor
  · intro x hx
    simp only [graphvizStr, hns, he, hss, graphvizHeader, displayOf, hd, headerAttributes, hx, bind, Except.bind]
  · rintro ⟨x, hx⟩
    simp only [graphvizStr, hns, he, hss, graphvizHeader, displayOf, hd, headerAttributes, hx, bind, Except.bind]
    exact ⟨_, rfl⟩

/-- **C85**, what holds: a graph whose nodes are its own can be drawn unless its label has no place. Missing: such labels
(`C85_label_violated`) and nodes that were removed and added again (`C85_readded_violated`). -/
theorem C85_draws_partial {w : World C} (r : Reachable w.heap) {g : GRef} {d : Display C} (hd : w.display g = some d)
    (hown : ∀ n ∈ graphNodes w.heap g, (w.heap.node n).graph = some g) (a : DrawArgs) :
    (∃ src, graphvizStr w g a = .ok src) ↔ ¬ LabelLost d := by
  obtain ⟨h1, h2, h3⟩ := labelAttributes_run d
  obtain ⟨h4, h5⟩ := graphvizStr_header r hd hown a
  refine ⟨?_, fun h => h5 (h1 h)⟩
  rintro ⟨src, hs⟩ ⟨l, hl, hx | ⟨hx, hb, hh⟩⟩
  · rw [h4 _ (h2 ⟨l, hl, hx⟩)] at hs; cases hs
  · rw [h4 _ (h3 ⟨l, hl, hx, hb, hh⟩)] at hs; cases hs

/-- **C85 is violated** by every graph whose label has no place: `IndexError` for an empty location, `TypeError` for none. -/
theorem C85_label_violated {w : World C} (r : Reachable w.heap) {g : GRef} {d : Display C} (hd : w.display g = some d)
    (hown : ∀ n ∈ graphNodes w.heap g, (w.heap.node n).graph = some g) (a : DrawArgs) {l : String} (hl : d.label = some l) :
    (d.labelLocation = some "" → graphvizStr w g a = .error .indexError) ∧
    (d.labelLocation = none → d.labelBackground ≠ none → ¬ IsHtml l → graphvizStr w g a = .error .typeError) := by
  obtain ⟨-, h2, h3⟩ := labelAttributes_run d
  obtain ⟨h4, -⟩ := graphvizStr_header r hd hown a
  exact ⟨fun h => h4 _ (h2 ⟨l, hl, h⟩), fun h hb hh => h4 _ (h3 ⟨l, hl, h, hb, hh⟩)⟩

theorem mapE_same_error {α β : Type} {f : α → Except PyErr β} {err : PyErr} {l : List α}
    (h : ∀ x ∈ l, (∃ y, f x = .ok y) ∨ f x = .error err) {x : α} (hx : x ∈ l) (he : f x = .error err) : mapE f l = .error err := by
  induction l with
  | nil => simp at hx
  | cons a l ih =>
    rcases h a (by simp) with ⟨y, hy⟩ | ha
    · have hxl : x ∈ l := by
        rcases List.mem_cons.1 hx with rfl | hx
        · rw [hy] at he; cases he
        · exact hx
      simp only [mapE, hy, ih (fun z hz => h z (by simp [hz])) hxl, bind, Except.bind]
    · exact mapE_error ha

/-- **C85 is violated** by every graph with a node that says it has no graph, as nodes do that were removed and added again: drawing it
raises `AttributeError`, whatever else is in it. -/
theorem C85_readded_violated (w : World C) (g : GRef) {n : NRef} (hn : n ∈ graphNodes w.heap g) (h0 : (w.heap.node n).graph = none)
    (a : DrawArgs) : graphvizStr w g a = .error .attributeError := by
  have : mapE (nodeGraphvizStr w) (graphNodes w.heap g) = .error .attributeError := by
    refine mapE_same_error (fun m _ => ?_) hn ?_
    · simp only [nodeGraphvizStr, nodeDisplayLabel, bind, Except.bind]
      cases (w.heap.node m).graph with
      | none => exact .inr rfl
      | some g' =>
        simp only [displayOf]
        cases w.display g' with
        | none => exact .inr rfl
        | some d => simp only; cases d.nodeConverter <;> exact .inl ⟨_, rfl⟩
    · simp only [nodeGraphvizStr, nodeDisplayLabel, h0, displayOf, bind, Except.bind]
  simp only [graphvizStr, this, bind, Except.bind]

/-! ## Examples -/

/-- The diamond with a label. -/
def labelled (loc bg : Option String) : World Rat :=
  { plainWorld diamond with display := fun _ => some { scheme := [0, 1 / 2, 1], stylist := .pensieve, label := some "L", labelLocation := loc, labelBackground := bg } }

example : Reachable (labelled none (some "red")).heap ∧
    (∀ n ∈ graphNodes (labelled none (some "red")).heap 0, ((labelled none (some "red")).heap.node n).graph = some 0) ∧
    (graphvizStr (labelled none (some "red")) 0 {}) = .error .typeError ∧
    (graphvizStr (labelled (some "") none) 0 {}) = .error .indexError ∧
    (graphvizStr (labelled none none) 0 {}).isOk = true ∧
    (graphvizStr (labelled (some "top") (some "red")) 0 {}).isOk = true :=
  ⟨diamond_reachable, by decide +kernel, by decide +kernel, by decide +kernel, by decide +kernel, by decide +kernel⟩

/-- The node b of the diamond, removed and added again, as `C12_readd_partial` describes it. -/
def diamondAgain : Heap := runOps [.removeNode 0 (.key (.str "b")), .addNodeObj 0 1] diamond

example : graphNodes diamondAgain 0 = [0, 2, 3, 1] ∧ (diamondAgain.node 1).graph = none ∧
    graphvizStr (plainWorld diamondAgain) 0 {} = .error .attributeError := by decide +kernel

end Verif
