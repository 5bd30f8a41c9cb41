import Verif.Lemmas.Settle
import Verif.Lemmas.Over
import Verif.Props.Restyle
import Verif.Props.AddNode
import Verif.Model.Session
import Verif.Spec.StyleDict
/-!
# C78: a style given as a dictionary
-/
namespace Verif
open Palette
variable {C : Type}

/-! ## Keyword arguments -/

/-- The arguments have what the setting says. -/
def NodeItem.Has (a : NodeStyleArgs C) : NodeItem C → Prop
  | .colour c => a.colour = some c
  | .fill c => a.fill = c
  | .border c => a.border = c
  | .text c => a.text = c
  | .opacity q => a.opacity = q
  | .font f => a.font = f
  | .textSize q => a.textSize = q
  | .shape f => a.shape = f
  | .shapeStyle f => a.shapeStyle = f
  | .lighter b => a.lighter = b
  | .other => True

def EdgeItemStyle.Has (a : EdgeStyleArgs C) : EdgeItemStyle C → Prop
  | .colour c => a.colour = some c
  | .text c => a.text = c
  | .opacity q => a.opacity = q
  | .font f => a.font = f
  | .textSize q => a.textSize = q
  | .arrowSize q => a.arrowSize = q
  | .labelStyle f => a.labelStyle = f
  | .lineWidth q => a.lineWidth = q
  | .other => True

theorem nodeArgs_cons {j : NodeItem C} {l : List (NodeItem C)} {a b : NodeStyleArgs C} (h : (j :: l).foldlM NodeItem.arg a = .ok b) :
    ∃ a1, NodeItem.arg a j = .ok a1 ∧ l.foldlM NodeItem.arg a1 = .ok b := by
  rw [List.foldlM_cons] at h
  cases ha : NodeItem.arg a j with
  | error e => rw [ha] at h; cases h
  | ok a1 => rw [ha] at h; exact ⟨a1, rfl, h⟩

theorem nodeArg_has {i : NodeItem C} {a b : NodeStyleArgs C} (h : NodeItem.arg a i = .ok b) : i.Has b := by
  cases i <;> simp only [NodeItem.arg, Except.ok.injEq, reduceCtorEq] at h <;> subst h <;> rfl

theorem nodeArgs_keep {l : List (NodeItem C)} {a b : NodeStyleArgs C} (h : l.foldlM NodeItem.arg a = .ok b) {i : NodeItem C} (hi : i.Has a)
    (hl : ∀ j ∈ l, j.attr ≠ i.attr) : i.Has b := by
  induction l generalizing a with
  | nil => cases h; exact hi
  | cons j l ih =>
    have hj := hl j (by simp)
    cases j with
    | other => cases h
    | _ =>
      refine ih (a := _) h ?_ (fun x hx => hl x (by simp [hx]))
      cases i <;> simp_all [NodeItem.Has, NodeItem.attr]

theorem nodeArgs_have {l : List (NodeItem C)} {a b : NodeStyleArgs C} (hd : NodeDict l) (h : l.foldlM NodeItem.arg a = .ok b) :
    ∀ i ∈ l, i.Has b := by
  induction l generalizing a with
  | nil => simp
  | cons j l ih =>
    obtain ⟨h1, h2⟩ := List.pairwise_cons.1 hd
    intro i hi
    rcases List.mem_cons.1 hi with rfl | hi
    · obtain ⟨a1, e1, e2⟩ := nodeArgs_cons h
      by_cases ho : i.attr = .other
      · cases i <;> trivial
      · exact nodeArgs_keep e2 (nodeArg_has e1) fun x hx e => ho (h1 x hx e.symm)
    · obtain ⟨a1, e1, e2⟩ := nodeArgs_cons h
      exact ih h2 e2 i hi

theorem edgeArgs_cons {j : EdgeItemStyle C} {l : List (EdgeItemStyle C)} {a b : EdgeStyleArgs C} (h : (j :: l).foldlM EdgeItemStyle.arg a = .ok b) :
    ∃ a1, EdgeItemStyle.arg a j = .ok a1 ∧ l.foldlM EdgeItemStyle.arg a1 = .ok b := by
  rw [List.foldlM_cons] at h
  cases ha : EdgeItemStyle.arg a j with
  | error e => rw [ha] at h; cases h
  | ok a1 => rw [ha] at h; exact ⟨a1, rfl, h⟩

theorem edgeArg_has {i : EdgeItemStyle C} {a b : EdgeStyleArgs C} (h : EdgeItemStyle.arg a i = .ok b) : i.Has b := by
  cases i <;> simp only [EdgeItemStyle.arg, Except.ok.injEq, reduceCtorEq] at h <;> subst h <;> rfl

theorem edgeArgs_keep {l : List (EdgeItemStyle C)} {a b : EdgeStyleArgs C} (h : l.foldlM EdgeItemStyle.arg a = .ok b) {i : EdgeItemStyle C}
    (hi : i.Has a) (hl : ∀ j ∈ l, j.attr ≠ i.attr) : i.Has b := by
  induction l generalizing a with
  | nil => cases h; exact hi
  | cons j l ih =>
    have hj := hl j (by simp)
    cases j with
    | other => cases h
    | _ =>
      refine ih (a := _) h ?_ (fun x hx => hl x (by simp [hx]))
      cases i <;> simp_all [EdgeItemStyle.Has, EdgeItemStyle.attr]

theorem edgeArgs_have {l : List (EdgeItemStyle C)} {a b : EdgeStyleArgs C} (hd : EdgeDict l) (h : l.foldlM EdgeItemStyle.arg a = .ok b) :
    ∀ i ∈ l, i.Has b := by
  induction l generalizing a with
  | nil => simp
  | cons j l ih =>
    obtain ⟨h1, h2⟩ := List.pairwise_cons.1 hd
    intro i hi
    rcases List.mem_cons.1 hi with rfl | hi
    · obtain ⟨a1, e1, e2⟩ := edgeArgs_cons h
      by_cases ho : i.attr = .other
      · cases i <;> trivial
      · exact edgeArgs_keep e2 (edgeArg_has e1) fun x hx e => ho (h1 x hx e.symm)
    · obtain ⟨a1, e1, e2⟩ := edgeArgs_cons h
      exact ih h2 e2 i hi

theorem nodeArgs_ok (l : List (NodeItem C)) (a : NodeStyleArgs C) :
    (.other ∉ l ∧ ∃ b, l.foldlM NodeItem.arg a = .ok b) ∨ (.other ∈ l ∧ l.foldlM NodeItem.arg a = .error .typeError) := by
  induction l generalizing a with
  | nil => exact .inl ⟨by simp, a, rfl⟩
  | cons j l ih =>
    cases j with
    | other => exact .inr ⟨by simp, rfl⟩
    | _ =>
      rcases ih (a := _) with ⟨h1, b, h2⟩ | ⟨h1, h2⟩
      · exact .inl ⟨by simpa using h1, b, h2⟩
      · exact .inr ⟨by simp [h1], h2⟩

theorem edgeArgs_ok (l : List (EdgeItemStyle C)) (a : EdgeStyleArgs C) :
    (.other ∉ l ∧ ∃ b, l.foldlM EdgeItemStyle.arg a = .ok b) ∨ (.other ∈ l ∧ l.foldlM EdgeItemStyle.arg a = .error .typeError) := by
  induction l generalizing a with
  | nil => exact .inl ⟨by simp, a, rfl⟩
  | cons j l ih =>
    cases j with
    | other => exact .inr ⟨by simp, rfl⟩
    | _ =>
      rcases ih (a := _) with ⟨h1, b, h2⟩ | ⟨h1, h2⟩
      · exact .inl ⟨by simpa using h1, b, h2⟩
      · exact .inr ⟨by simp [h1], h2⟩

variable [Palette C]

/-! ## C78 -/

/-- **C78.** A dictionary without unknown keys makes a node style, and that style is the one described: it shows every setting and
has the defaults, or the colours derived from its colour, for the rest. -/
theorem C78_node {l : List (NodeItem C)} (hd : NodeDict l) (hl : .other ∉ l) :
    ∃ s, NodeStyle.ofItems l = .ok s ∧ s.Described l := by
  rcases nodeArgs_ok l { colour := some Palette.default } with ⟨-, a, ha⟩ | ⟨h, -⟩
  swap; · exact absurd h hl
  refine ⟨.make a, by simp only [NodeStyle.ofItems, ha]; rfl, ?_⟩
  have have' := nodeArgs_have hd ha
  have keep : ∀ i : NodeItem C, i.Has { colour := some Palette.default } → (∀ j ∈ l, j.attr ≠ i.attr) → i.Has a :=
    fun i h1 h2 => nodeArgs_keep ha h1 h2
  have hcol : ∃ c, a.colour = some c := by
    by_cases h : ∃ c, .colour c ∈ l
    · obtain ⟨c, hc⟩ := h; exact ⟨c, have' _ hc⟩
    · refine ⟨Palette.default, keep (.colour Palette.default) rfl fun j hj e => h ?_⟩
      cases j <;> simp [NodeItem.attr] at e
      exact ⟨_, hj⟩
  have third : (1 / 2 / 3 : Rat) = 1 / 6 := by decide +kernel
  have no : ∀ (x : StyleAttr) (i : NodeItem C), i.attr = x → (∀ j ∈ l, j.attr ≠ x) → ∀ j ∈ l, j.attr ≠ i.attr := by
    rintro x i rfl h j hj; exact h j hj
  obtain ⟨c, hc⟩ := hcol
  have none_fill : (∀ c, .fill (some c) ∉ l) → a.fill = none := by
    intro h
    by_cases h' : .fill none ∈ l
    · exact have' _ h'
    · refine keep (.fill none) rfl fun j hj e => ?_
      cases j with
      | fill c => cases c with
        | none => exact h' hj
        | some c => exact h c hj
      | _ => simp [NodeItem.attr] at e
  have none_border : (∀ c, .border (some c) ∉ l) → a.border = none := by
    intro h
    by_cases h' : .border none ∈ l
    · exact have' _ h'
    · refine keep (.border none) rfl fun j hj e => ?_
      cases j with
      | border c => cases c with
        | none => exact h' hj
        | some c => exact h c hj
      | _ => simp [NodeItem.attr] at e
  have none_text : (∀ c, .text (some c) ∉ l) → a.text = none := by
    intro h
    by_cases h' : .text none ∈ l
    · exact have' _ h'
    · refine keep (.text none) rfl fun j hj e => ?_
      cases j with
      | text c => cases c with
        | none => exact h' hj
        | some c => exact h c hj
      | _ => simp [NodeItem.attr] at e
  have make_eq : NodeStyle.make a =
      let fill := a.fill.getD (if a.lighter then lighten c (1 / 2) else darken c (1 / 2))
      { colour := c, fill := some fill,
        border := some (a.border.getD (if a.lighter then darken c (1 / 6) else lighten c (1 / 6))),
        text := some (a.text.getD (farthestGray fill)), fillAuto := a.fill.isNone, borderAuto := a.border.isNone,
        textAuto := a.text.isNone, lighter := a.lighter, opacity := a.opacity, font := a.font, textSize := a.textSize,
        shape := a.shape, shapeStyle := a.shapeStyle } := by
    rcases a with ⟨c0, fill, border, op, fo, text, ts, sh, ss, li⟩
    simp only at hc
    subst hc
    cases fill <;> cases border <;> cases text <;>
      simp [NodeStyle.make, NodeStyle.setColour, NodeStyle.setFill, NodeStyle.setBorder, NodeStyle.setText, differenceRatio, third]
  rw [make_eq]
  constructor
  · intro i hi
    have := have' i hi
    cases i <;> simp_all [NodeItem.Has, NodeItem.Shows]
    all_goals (intro h; cases hx : (‹Option C›) <;> simp_all)
  · intro h
    have := keep (.colour Palette.default) rfl fun j hj e => by cases j <;> simp [NodeItem.attr] at e; exact h _ hj
    simp only [NodeItem.Has] at this
    rw [hc] at this
    exact Option.some.inj this
  · intro h; simp [none_fill h]
  · intro h; simp [none_border h]
  · intro h; simp [none_text h]
  · intro h; exact keep (.lighter true) rfl fun j hj e => by cases j <;> simp [NodeItem.attr] at e; exact h _ hj
  · intro h; exact keep (.opacity none) rfl fun j hj e => by cases j <;> simp [NodeItem.attr] at e; exact h _ hj
  · intro h; exact keep (.font (some "helvetica")) rfl fun j hj e => by cases j <;> simp [NodeItem.attr] at e; exact h _ hj
  · intro h; exact keep (.textSize (some 10)) rfl fun j hj e => by cases j <;> simp [NodeItem.attr] at e; exact h _ hj
  · intro h; exact keep (.shape (some "box")) rfl fun j hj e => by cases j <;> simp [NodeItem.attr] at e; exact h _ hj
  · intro h; exact keep (.shapeStyle (some "rounded, filled")) rfl fun j hj e => by cases j <;> simp [NodeItem.attr] at e; exact h _ hj

/-- **C78**, for edges. -/
theorem C78_edge {l : List (EdgeItemStyle C)} (hd : EdgeDict l) (hl : .other ∉ l) :
    ∃ s, EdgeStyle.ofItems l = .ok s ∧ s.Described l := by
  rcases edgeArgs_ok l { colour := some Palette.default } with ⟨-, a, ha⟩ | ⟨h, -⟩
  swap; · exact absurd h hl
  refine ⟨.make a, by simp only [EdgeStyle.ofItems, ha]; rfl, ?_⟩
  have have' := edgeArgs_have hd ha
  have keep : ∀ i : EdgeItemStyle C, i.Has { colour := some Palette.default } → (∀ j ∈ l, j.attr ≠ i.attr) → i.Has a :=
    fun i h1 h2 => edgeArgs_keep ha h1 h2
  have hcol : ∃ c, a.colour = some c := by
    by_cases h : ∃ c, .colour c ∈ l
    · obtain ⟨c, hc⟩ := h; exact ⟨c, have' _ hc⟩
    · refine ⟨Palette.default, keep (.colour Palette.default) rfl fun j hj e => h ?_⟩
      cases j <;> simp [EdgeItemStyle.attr] at e
      exact ⟨_, hj⟩
  obtain ⟨c, hc⟩ := hcol
  have none_text : (∀ c, .text (some c) ∉ l) → a.text = none := by
    intro h
    by_cases h' : .text none ∈ l
    · exact have' _ h'
    · refine keep (.text none) rfl fun j hj e => ?_
      cases j with
      | text c => cases c with
        | none => exact h' hj
        | some c => exact h c hj
      | _ => simp [EdgeItemStyle.attr] at e
  have make_eq : EdgeStyle.make a =
      { colour := c, text := some (a.text.getD c), textAuto := a.text.isNone, opacity := a.opacity, font := a.font,
        textSize := a.textSize, arrowSize := a.arrowSize, labelStyle := a.labelStyle, lineWidth := a.lineWidth } := by
    rcases a with ⟨c0, op, fo, text, ts, ar, la, lw⟩
    simp only at hc
    subst hc
    cases text <;> simp [EdgeStyle.make, EdgeStyle.setColour, EdgeStyle.setText]
  rw [make_eq]
  constructor
  · intro i hi
    have := have' i hi
    cases i <;> simp_all [EdgeItemStyle.Has, EdgeItemStyle.Shows]
    all_goals (intro h; cases hx : (‹Option C›) <;> simp_all)
  · intro h
    have := keep (.colour Palette.default) rfl fun j hj e => by cases j <;> simp [EdgeItemStyle.attr] at e; exact h _ hj
    simp only [EdgeItemStyle.Has] at this
    rw [hc] at this
    exact Option.some.inj this
  · intro h; simp [none_text h]
  · intro h; exact keep (.opacity (some 1)) rfl fun j hj e => by cases j <;> simp [EdgeItemStyle.attr] at e; exact h _ hj
  · intro h; exact keep (.font (some "helvetica")) rfl fun j hj e => by cases j <;> simp [EdgeItemStyle.attr] at e; exact h _ hj
  · intro h; exact keep (.textSize (some 8)) rfl fun j hj e => by cases j <;> simp [EdgeItemStyle.attr] at e; exact h _ hj
  · intro h; exact keep (.arrowSize (1 / 2)) rfl fun j hj e => by cases j <;> simp [EdgeItemStyle.attr] at e; exact h _ hj
  · intro h; exact keep (.labelStyle (some "below")) rfl fun j hj e => by cases j <;> simp [EdgeItemStyle.attr] at e; exact h _ hj
  · intro h; exact keep (.lineWidth (some 1)) rfl fun j hj e => by cases j <;> simp [EdgeItemStyle.attr] at e; exact h _ hj

/-- **C78**: a dictionary with an unknown key is refused. -/
theorem C78_unknown_key :
    (∀ l : List (NodeItem C), .other ∈ l → NodeStyle.ofItems l = .error .typeError) ∧
      ∀ l : List (EdgeItemStyle C), .other ∈ l → EdgeStyle.ofItems l = .error .typeError := by
  constructor
  · intro l hl
    rcases nodeArgs_ok l { colour := some Palette.default } with ⟨h, -⟩ | ⟨-, h⟩
    · exact absurd hl h
    · simp only [NodeStyle.ofItems, h]; rfl
  · intro l hl
    rcases edgeArgs_ok l { colour := some Palette.default } with ⟨h, -⟩ | ⟨-, h⟩
    · exact absurd hl h
    · simp only [EdgeStyle.ofItems, h]; rfl

/-- **C78**: a node added with a dictionary as its style has a style object of its own with what the dictionary describes; no other
style object changes. -/
theorem C78_add_node {w : World C} (r : Reachable w.heap) (md : Made w.heap) {g : GRef} (hg : g < w.heap.nG) {x : String}
    (hnew : Key.str x ∉ dkeys (w.heap.graph g).nodes) (a : NodeSpec C) {l : List (NodeItem C)} (hs : a.style = .dict l)
    (hd : NodeDict l) (hl : .other ∉ l) :
    ∃ w' s, addNodeW g (.str x) a w = (.ok w.heap.nN, w') ∧ (w'.heap.node w.heap.nN).style = some s ∧ (w'.ns s).Described l ∧
      (∀ n, (w.heap.node n).style ≠ some s) ∧ (∀ s', s' ≠ s → w'.ns s' = w.ns s') ∧ w'.es = w.es := by
  obtain ⟨st, h1, h2⟩ := C78_node hd hl
  have hv : a.args.style = .dict true := by simp [NodeSpec.args, hs, NodeStyleArg.plain, h1, Except.isOk, Except.toBool]
  obtain ⟨A, H⟩ := r.hist
  have hk : Key.str x ∉ (A.graph g).names := by
    unfold dkeys at hnew; rw [H.rep.nodes] at hnew; exact hnew
  obtain ⟨h', hrun, hR⟩ := H.rep.addNode_new hg hk a.args a.policy
  rw [hv] at hrun hR
  simp only [styleResult, Option.elim] at hrun hR
  refine ⟨{ w with heap := h', ns := upd w.ns w.heap.nStyle st }, w.heap.nStyle, ?_, ?_, ?_, ?_, ?_, rfl⟩
  · simp only [addNodeW, hs, nextNodeStyle, h1, W.bind_apply, W.look, W.setNs, W.lift, hrun]
  · simp [hR.2.1]
  · simpa using h2
  · intro n hn
    exact Nat.lt_irrefl _ (md.node n _ hn)
  · intro s' hs'
    exact upd_ne _ _ hs'

/-- **C78**, for a new edge. -/
theorem C78_connect {w : World C} (r : Reachable w.heap) (md : Made w.heap) {g : GRef} {s t : Key}
    (ks : s ∈ dkeys (w.heap.graph g).nodes) (kt : t ∈ dkeys (w.heap.graph g).nodes) (a : EdgeSpec C)
    (hnew : ∀ e, LiveEdge w.heap g e → edgeId w.heap e ≠ .ok (s, t, a.raw)) {l : List (EdgeItemStyle C)} (hs : a.style = .dict l)
    (hd : EdgeDict l) (hl : .other ∉ l) :
    ∃ w' i, connectW g s t a w = (.ok w.heap.nE, w') ∧ (w'.heap.edge w.heap.nE).style = some i ∧ (w'.es i).Described l ∧
      (∀ e, (w.heap.edge e).style ≠ some i) ∧ (∀ s', s' ≠ i → w'.es s' = w.es s') ∧ w'.ns = w.ns := by
  obtain ⟨st, h1, h2⟩ := C78_edge hd hl
  have hv : a.args.style = .dict true := by simp [EdgeSpec.args, hs, EdgeStyleArg.plain, h1, Except.isOk, Except.toBool]
  obtain ⟨A, H⟩ := r.hist
  have R := H.rep
  unfold dkeys at ks kt
  rw [R.nodes] at ks kt
  obtain ⟨⟨s', n⟩, hn, e1⟩ := List.mem_map.1 ks
  obtain ⟨⟨t', m⟩, hm, e2⟩ := List.mem_map.1 kt
  simp only at e1 e2
  subst e1
  subst e2
  have hraw : a.args.raw = a.raw := a.args_raw
  have hids : (s', t', a.args.raw) ∉ (A.graph g).ids := by
    intro hc
    obtain ⟨e, he⟩ := Rep.mem_ids.1 hc
    rw [hraw] at he
    exact hnew e ((liveEdge_iff R).2 ⟨_, he⟩) (R.edgeId_eq he)
  have hrun := R.connect_new (a := .key s') (b := .key t') (R.getNode_ok.2 ⟨_, rfl, hn⟩) (R.getNode_ok.2 ⟨_, rfl, hm⟩) hn hm a.args a.policy hids
  rw [hv] at hrun
  simp only [styleResult] at hrun
  obtain ⟨h', hh, hst⟩ : ∃ h', connect g (.key s') (.key t') a.args a.policy w.heap = (.ok w.heap.nE, h') ∧
      (h'.edge w.heap.nE).style = some w.heap.nStyle := ⟨_, hrun, by simp [newEdgeHeap]⟩
  refine ⟨{ w with heap := h', es := upd w.es w.heap.nStyle st }, w.heap.nStyle, ?_, hst, ?_, ?_, ?_, rfl⟩
  · simp only [connectW, hs, nextEdgeStyleObj, h1, W.bind_apply, W.look, W.setEs, W.lift, hh]
  · simpa using h2
  · intro n hn
    exact Nat.lt_irrefl _ (md.edge n _ hn)
  · intro s' hs'
    exact upd_ne _ _ hs'

/-- **C78**: a node or edge that is given a dictionary as its style for the first time gets a style object of its own with what
the dictionary describes; no other style object changes. -/
theorem C78_set_style {w : World C} (md : Made w.heap) :
    (∀ (n : NRef) (l : List (NodeItem C)), (w.heap.node n).style = none → NodeDict l → .other ∉ l →
      ∃ w' s, withNodeStyle (.dict l) (nodeSetStyle n) w = (.ok (), w') ∧ (w'.heap.node n).style = some s ∧ (w'.ns s).Described l ∧
        (∀ m, (w.heap.node m).style ≠ some s) ∧ (∀ m, m ≠ n → w'.heap.node m = w.heap.node m) ∧
        (∀ s', s' ≠ s → w'.ns s' = w.ns s') ∧ w'.es = w.es) ∧
    (∀ (e : ERef) (l : List (EdgeItemStyle C)), (w.heap.edge e).style = none → EdgeDict l → .other ∉ l →
      ∃ w' s, withEdgeStyle (.dict l) (edgeSetStyle e) w = (.ok (), w') ∧ (w'.heap.edge e).style = some s ∧ (w'.es s).Described l ∧
        (∀ m, (w.heap.edge m).style ≠ some s) ∧ (∀ m, m ≠ e → w'.heap.edge m = w.heap.edge m) ∧
        (∀ s', s' ≠ s → w'.es s' = w.es s') ∧ w'.ns = w.ns) := by
  constructor
  · intro n l hn hd hl
    obtain ⟨st, h1, h2⟩ := C78_node hd hl
    refine ⟨{ w with heap := { w.heap with node := upd w.heap.node n { w.heap.node n with style := some w.heap.nStyle }, nStyle := w.heap.nStyle + 1 }, ns := upd w.ns w.heap.nStyle st },
      w.heap.nStyle, by
      simp only [withNodeStyle, nextNodeStyle, h1, W.bind_apply, W.look, W.setNs, W.lift, NodeStyleArg.plain, Except.isOk,
        Except.toBool, nodeSetStyle, M.bind_apply, M.look_apply, hn, checkOverwrite, M.pure_apply, run_resolveStyle, styleResult,
        styleCount, Option.elim, M.modNode], ?_, ?_, ?_, ?_, ?_, rfl⟩
    · simp
    · simpa using h2
    · intro m hm
      exact Nat.lt_irrefl _ (md.node m _ hm)
    · intro m hm
      exact upd_ne _ _ hm
    · intro s' hs'
      exact upd_ne _ _ hs'
  · intro n l hn hd hl
    obtain ⟨st, h1, h2⟩ := C78_edge hd hl
    refine ⟨{ w with heap := { w.heap with edge := upd w.heap.edge n { w.heap.edge n with style := some w.heap.nStyle }, nStyle := w.heap.nStyle + 1 }, es := upd w.es w.heap.nStyle st },
      w.heap.nStyle, by
      simp only [withEdgeStyle, nextEdgeStyleObj, h1, W.bind_apply, W.look, W.setEs, W.lift, EdgeStyleArg.plain, Except.isOk,
        Except.toBool, edgeSetStyle, M.bind_apply, M.look_apply, hn, checkOverwrite, M.pure_apply, run_resolveStyle, styleResult,
        styleCount, Option.elim, M.modEdge], ?_, ?_, ?_, ?_, ?_, rfl⟩
    · simp
    · simpa using h2
    · intro m hm
      exact Nat.lt_irrefl _ (md.edge m _ hm)
    · intro m hm
      exact upd_ne _ _ hm
    · intro s' hs'
      exact upd_ne _ _ hs'

/-- **C78**: wherever a dictionary with an unknown key is given as a style, the call raises `TypeError`; no node, edge or style
changes. -/
theorem C78_refused {w : World C} (r : Reachable w.heap) {ln : List (NodeItem C)} (hn : .other ∈ ln) {le : List (EdgeItemStyle C)}
    (he : .other ∈ le) :
    (∀ (g : GRef) (x : String) (a : NodeSpec C), Key.str x ∉ dkeys (w.heap.graph g).nodes → a.style = .dict ln →
      ∃ w', addNodeW g (.str x) a w = (.error .typeError, w') ∧ (∀ g', (w'.heap.graph g').nodes = (w.heap.graph g').nodes) ∧
        w'.heap.node = w.heap.node ∧ w'.heap.edge = w.heap.edge ∧ w'.ns = w.ns ∧ w'.es = w.es) ∧
    (∀ (g : GRef) (s t : Key) (a : EdgeSpec C), s ∈ dkeys (w.heap.graph g).nodes → t ∈ dkeys (w.heap.graph g).nodes →
      (∀ e, LiveEdge w.heap g e → edgeId w.heap e ≠ .ok (s, t, a.raw)) → a.style = .dict le →
      connectW g s t a w = (.error .typeError, w)) ∧
    (∀ n, (w.heap.node n).style = none → withNodeStyle (.dict ln) (nodeSetStyle n) w = (.error .typeError, w)) ∧
    (∀ e, (w.heap.edge e).style = none → withEdgeStyle (.dict le) (edgeSetStyle e) w = (.error .typeError, w)) := by
  have hN := C78_unknown_key.1 ln hn
  have hE := C78_unknown_key.2 le he
  refine ⟨fun g x a hnew hs => ?_, fun g s t a ks kt hnew hs => ?_, fun n h0 => ?_, fun e h0 => ?_⟩
  · have hv : a.args.style = .dict false := by simp [NodeSpec.args, hs, NodeStyleArg.plain, hN, Except.isOk, Except.toBool]
    obtain ⟨h1, h2, h3, h4⟩ := C08_rejected hnew a.args a.policy (by simp [hv, StyleArg.Valid])
    refine ⟨{ w with heap := (addNode g (.str x) a.args a.policy w.heap).2 }, ?_, h2, h3, h4, rfl, rfl⟩
    simp only [addNodeW, hs, nextNodeStyle, hN, W.bind_apply, W.look, W.pure_apply, W.lift, h1]
  · have hv : a.args.style = .dict false := by simp [EdgeSpec.args, hs, EdgeStyleArg.plain, hE, Except.isOk, Except.toBool]
    obtain ⟨A, H⟩ := r.hist
    have R := H.rep
    unfold dkeys at ks kt
    rw [R.nodes] at ks kt
    obtain ⟨⟨s', n⟩, hn, e1⟩ := List.mem_map.1 ks
    obtain ⟨⟨t', m⟩, hm, e2⟩ := List.mem_map.1 kt
    simp only at e1 e2
    subst e1
    subst e2
    have hids : (s', t', a.args.raw) ∉ (A.graph g).ids := by
      intro hc
      obtain ⟨e, he⟩ := Rep.mem_ids.1 hc
      rw [a.args_raw] at he
      exact hnew e ((liveEdge_iff R).2 ⟨_, he⟩) (R.edgeId_eq he)
    have hrun := R.connect_new (a := .key s') (b := .key t') (R.getNode_ok.2 ⟨_, rfl, hn⟩) (R.getNode_ok.2 ⟨_, rfl, hm⟩) hn hm
      a.args a.policy hids
    rw [hv] at hrun
    simp only [styleResult, styleCount] at hrun
    simp only [connectW, hs, nextEdgeStyleObj, hE, W.bind_apply, W.look, W.pure_apply, W.lift, hrun]
  · simp only [withNodeStyle, nextNodeStyle, hN, W.bind_apply, W.look, W.pure_apply, W.lift, NodeStyleArg.plain, Except.isOk,
      Except.toBool, nodeSetStyle, M.bind_apply, M.look_apply, h0, checkOverwrite, M.pure_apply, run_resolveStyle, styleResult,
      styleCount, Option.elim]
  · simp only [withEdgeStyle, nextEdgeStyleObj, hE, W.bind_apply, W.look, W.pure_apply, W.lift, EdgeStyleArg.plain, Except.isOk,
      Except.toBool, edgeSetStyle, M.bind_apply, M.look_apply, h0, checkOverwrite, M.pure_apply, run_resolveStyle, styleResult,
      styleCount, Option.elim]

/-! ## A case -/

/-- Three settings, one of them `None`. -/
def someNode : List (NodeItem Rat) := [.border (some 1), .shape (some "oval"), .fill none]

/-- Three settings. -/
def someEdge : List (EdgeItemStyle Rat) := [.text (some 1), .lineWidth none, .arrowSize 2]

theorem someNode_dict : NodeDict someNode ∧ .other ∉ someNode := by
  constructor
  · simp [someNode, NodeDict, NodeItem.attr]
  · simp [someNode]

theorem someEdge_dict : EdgeDict someEdge ∧ .other ∉ someEdge := by
  constructor
  · simp [someEdge, EdgeDict, EdgeItemStyle.attr]
  · simp [someEdge]

/-- They meet the hypotheses of **C78**. -/
example : Reachable (gaudyWorld openDiamond).heap ∧ Made (gaudyWorld openDiamond).heap ∧
    Key.str "new" ∉ dkeys ((gaudyWorld openDiamond).heap.graph 0).nodes ∧
    (addNodeW 0 (.str "new") { style := .dict someNode } (gaudyWorld openDiamond)).1 = .ok 4 ∧
    ((addNodeW 0 (.str "new") { style := .dict someNode } (gaudyWorld openDiamond)).2.ns 0).border = some 1 :=
  ⟨openDiamond_reachable, openDiamond_made, by decide +kernel, by decide +kernel, by decide +kernel⟩

/-- An unknown key, and the setters, in **C78**. -/
example : Reachable (gaudyWorld openDiamond).heap ∧ .other ∈ (.other :: someNode) ∧ ((gaudyWorld openDiamond).heap.node 1).style = none ∧
    (withNodeStyle (.dict (.other :: someNode)) (nodeSetStyle 1) (gaudyWorld openDiamond)).1 = .error .typeError ∧
    (connectW 0 (.str "a") (.str "d") { style := .dict (.other :: someEdge) } (gaudyWorld openDiamond)).1 = .error .typeError ∧
    ((withNodeStyle (.dict someNode) (nodeSetStyle 1) (gaudyWorld openDiamond)).2.heap.node 1).style = some 0 :=
  ⟨openDiamond_reachable, by simp, by decide +kernel, by decide +kernel, by decide +kernel, by decide +kernel⟩

end Verif
