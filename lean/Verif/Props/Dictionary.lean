import Verif.Lemmas.Over
import Verif.Spec.Dictionary
import Verif.Props.Settings
/-!
# C76, C77: what a dictionary says about the picture
-/
namespace Verif
variable {C : Type}

theorem dget_eq_find {K V : Type} [DecidableEq K] (l : List (K × V)) (k : K) : dget l k = (l.find? fun p => p.1 = k).map (·.2) := by
  induction l with
  | nil => rfl
  | cons p l ih =>
    obtain ⟨a, b⟩ := p
    by_cases h : a = k
    · simp [dget, h]
    · simp [dget, h, ih]

theorem lastFor_cons {K V : Type} [DecidableEq K] (p : K × V) (l : List (K × V)) (k : K) :
    lastFor (p :: l) k = (lastFor l k).or (if p.1 = k then some p.2 else none) := by
  unfold lastFor
  rw [List.reverse_cons, List.find?_append]
  cases h : l.reverse.find? fun p => decide (p.1 = k) with
  | some q => simp
  | none =>
    by_cases hp : p.1 = k <;> simp [hp]

theorem dget_updates {K V : Type} [DecidableEq K] (l : List (K × V)) (d : Dict K V) (k : K) :
    dget (l.foldl (fun d p => dset d p.1 p.2) d) k = (lastFor l k).or (dget d k) := by
  induction l generalizing d with
  | nil => rfl
  | cons p l ih =>
    rw [List.foldl_cons, ih, lastFor_cons, dget_dset]
    cases lastFor l k with
    | some v => rfl
    | none => by_cases hp : p.1 = k <;> simp [hp]

theorem nodup_updates {K V : Type} [DecidableEq K] (l : List (K × V)) {d : Dict K V} (h : (dkeys d).Nodup) :
    (dkeys (l.foldl (fun d p => dset d p.1 p.2) d)).Nodup := by
  induction l generalizing d with
  | nil => exact h
  | cons p l ih => exact ih (nodup_dset h)

theorem mem_updates {K V : Type} [DecidableEq K] (l : List (K × V)) {d : Dict K V} {q : K × V}
    (h : q ∈ l.foldl (fun d p => dset d p.1 p.2) d) : q ∈ l ∨ q ∈ d := by
  induction l generalizing d with
  | nil => exact .inr h
  | cons p l ih =>
    rcases ih h with h | h
    · exact .inl (by simp [h])
    · have : ∀ (d : Dict K V), q ∈ dset d p.1 p.2 → q = p ∨ q ∈ d := by
        intro d
        induction d with
        | nil => intro h; simp [dset] at h; exact .inl h
        | cons a d ihd =>
          obtain ⟨k, v⟩ := a
          intro h
          simp only [dset] at h
          split at h
          · next e =>
            rcases List.mem_cons.1 h with h | h
            · left; rw [h, e]
            · right; simp [h]
          · rcases List.mem_cons.1 h with h | h
            · right; simp [h]
            · rcases ihd h with h | h
              · exact .inl h
              · right; simp [h]
      rcases this d h with h | h
      · exact .inl (by simp [h])
      · exact .inr h

theorem described_eq (D : GraphDict C) : D.described = (D.edges.getD []).filterMap EdgeEntry.ends := by
  unfold GraphDict.described
  congr 1

theorem dget_known (D : GraphDict C) (p : Key × Key) : dget (knownEdges (D.edges.getD []) []) p = lastFor D.described p := by
  unfold knownEdges
  rw [dget_updates, described_eq]
  simp [dget]

theorem foldl_setNode (l : Dict Key (List (NodeItem C))) (d : Display C) :
    l.foldl Display.setNode d = { d with nodeStyles := l.foldl (fun d p => dset d p.1 p.2) d.nodeStyles } := by
  induction l generalizing d with
  | nil => rfl
  | cons p l ih => rw [List.foldl_cons, ih]; rfl

theorem foldl_setNodeColour (l : Dict Key C) (d : Display C) :
    l.foldl Display.setNodeColour d = { d with nodeColours := l.foldl (fun d p => dset d p.1 p.2) d.nodeColours } := by
  induction l generalizing d with
  | nil => rfl
  | cons p l ih => rw [List.foldl_cons, ih]; rfl

theorem foldl_setEdge (D : GraphDict C) (l : List (EdgeSetting C)) (d : Display C) :
    l.foldl (Display.setEdge (knownEdges (D.edges.getD []) [])) d =
      { d with edgeColours := (D.coloursOf l).foldl (fun d p => dset d p.1 p.2) d.edgeColours } := by
  induction l generalizing d with
  | nil => rfl
  | cons x l ih =>
    rw [List.foldl_cons, ih]
    cases x with
    | other => rfl
    | pair s t c =>
      unfold GraphDict.coloursOf
      cases h : lastFor D.described (s, t) with
      | none => simp [Display.setEdge, dget_known, h]
      | some i => simp [Display.setEdge, dget_known, h]

/-- The display after `append`, all at once. -/
theorem after_eq (d : Display C) (D : GraphDict C) :
    d.after D = { (d.labelled D).told D with
      nodeStyles := D.nodeStyles.foldl (fun d p => dset d p.1 p.2) d.nodeStyles
      nodeColours := D.nodeColours.foldl (fun d p => dset d p.1 p.2) d.nodeColours
      edgeColours := (D.coloursOf (D.edgeStyles ++ D.edgeColours)).foldl (fun d p => dset d p.1 p.2) d.edgeColours } := by
  unfold Display.after Display.appended Display.stage3 Display.stage2 Display.stage1
  rw [foldl_setEdge, foldl_setNodeColour, foldl_setEdge, foldl_setNode]
  have hl : (d.labelled D).nodeStyles = d.nodeStyles ∧ (d.labelled D).nodeColours = d.nodeColours ∧ (d.labelled D).edgeColours = d.edgeColours := by
    unfold Display.labelled; split <;> exact ⟨rfl, rfl, rfl⟩
  simp [Display.told, hl, GraphDict.coloursOf, List.filterMap_append, List.foldl_append]

/-! ## C76 -/

section
variable [Palette C] {g : GRef} {w w' : World C} {d : Display C} {D : GraphDict C}

/-- **C76.** After a successful `append` of a dictionary, on any reachable graph: the tooltip, the link, the direction and the
styles for all nodes and for all edges are the ones the dictionary mentions, or else the old ones; the label is the one it
mentions after a line break, or else the old one; the settings of single nodes are the old ones overwritten with those it
mentions. The settings of edges are looked up under pairs of names, which stand for the last edge described between the two.
Nothing else about the picture of this graph changes, and nothing about those of other graphs.
Missing for the full property: the label is not what the dictionary says (`C76_label_violated`), and the styles of single edges
are stored as colours (`C76_edge_styles_violated`). -/
theorem C76_append_partial (r : Reachable w.heap) (hg : g < w.heap.nG) (hd : w.display g = some d)
    (hok : appendDictW g D w = (.ok (), w')) :
    ∃ d', w'.display g = some d' ∧ (∀ g', g' ≠ g → w'.display g' = w.display g') ∧
      d' = { d with
        label := d'.label, tooltip := D.tooltip.getD d.tooltip, labelUrl := D.labelUrl.getD d.labelUrl,
        globalNode := (D.globalNode <|> D.graphNode).getD d.globalNode,
        globalEdge := (D.globalEdge <|> D.graphEdge).getD d.globalEdge,
        direction := D.direction.getD d.direction,
        nodeStyles := d'.nodeStyles, nodeColours := d'.nodeColours, edgeColours := d'.edgeColours } ∧
      (D.label = none → d'.label = d.label) ∧ (∀ v, D.label = some v → ∃ s, v = .str s ∧ d'.label = some ("\n" ++ s)) ∧
      (∀ k, dget d'.nodeStyles k = (lastFor D.nodeStyles k).or (dget d.nodeStyles k)) ∧
      (∀ k, dget d'.nodeColours k = (lastFor D.nodeColours k).or (dget d.nodeColours k)) ∧
      (∀ i, dget d'.edgeColours i = (lastFor (D.coloursOf (D.edgeStyles ++ D.edgeColours)) i).or (dget d.edgeColours i)) := by
  obtain ⟨-, h1, h2⟩ := appendDictW_ok r hg hd hok
  refine ⟨d.after D, by rw [h2, upd_same], fun g' hne => by rw [h2, upd_ne _ _ hne], ?_, ?_, ?_, ?_, ?_, ?_⟩
  · rw [after_eq]
    unfold Display.told Display.labelled
    split <;> rfl
  · intro hl
    rw [after_eq]
    simp [Display.told, Display.labelled, hl]
  · intro v hv
    have : (labelCheck D.plain.label (graphSetOptions g D.plain.strict D.plain.ordering w.heap).2).1 = .ok () := by
      obtain ⟨_, k1, a1, h1⟩ := seqM_ok h1
      obtain ⟨_, k2, a2, -⟩ := seqM_ok h1
      cases a1
      exact congrArg Prod.fst a2
    have hv' : D.plain.label = some v := hv
    rw [hv'] at this
    cases v with
    | str s => exact ⟨s, rfl, by rw [after_eq]; simp [Display.told, Display.labelled, hv]⟩
    | _ => cases this
  · intro k; rw [after_eq, dget_updates]
  · intro k; rw [after_eq, dget_updates]
  · intro k; rw [after_eq, dget_updates]

/-- **C76**: the nodes and the edges do not depend on what the dictionary says about the picture: they are those of C37 and
C38. -/
theorem C76_structure (r : Reachable w.heap) (hg : g < w.heap.nG) (hd : w.display g = some d)
    (hok : appendDictW g D w = (.ok (), w')) : append g (.dict D.plain) w.heap = (.ok (), w'.heap) := by
  obtain ⟨-, h1, -⟩ := appendDictW_ok r hg hd hok
  simpa only [append] using h1

/-- **C76**: what it takes. `append` of a dictionary succeeds if and only if its nodes and edges can be appended and every setting
of an edge is for two names that are the ends of one of its edges. -/
theorem C76_succeeds (r : Reachable w.heap) (hg : g < w.heap.nG) (hd : w.display g = some d) :
    (appendDictW g D w).1 = .ok () ↔ (append g (.dict D.plain) w.heap).1 = .ok () ∧
      ∀ x ∈ D.edgeStyles ++ D.edgeColours, ∃ s t c, x = .pair s t c ∧ lastFor D.described (s, t) ≠ none := by
  have known : ∀ p, lastFor D.described p ≠ none ↔ p ∈ itemPairs ((D.edges.getD []).map EdgeEntry.plain) := by
    intro p
    rw [← mem_knownEdges, ← dget_known, ne_eq, dget_none]
    simp [dkeys]
  constructor
  · intro h
    obtain ⟨h0, h1, -⟩ := appendDictW_ok (w' := (appendDictW g D w).2) r hg hd (Prod.ext h rfl)
    refine ⟨by simp only [append]; rw [h1], fun x hx => ?_⟩
    obtain ⟨⟨s, t⟩, h2, h3⟩ := h0 x hx
    cases x with
    | other => cases h2
    | pair s' t' c => cases h2; exact ⟨_, _, c, rfl, (known _).2 h3⟩
  · rintro ⟨h1, h2⟩
    simp only [append] at h1
    obtain ⟨w1, h3, -⟩ := appendDictW_run (h' := (appendDict g D.plain w.heap).2) r hg hd (D := D) (by
      intro x hx
      obtain ⟨s, t, c, rfl, h⟩ := h2 x hx
      exact ⟨(s, t), rfl, (known _).1 h⟩) (Prod.ext h1 rfl)
    rw [h3]

/-- **C76 is violated** by labels: whatever the dictionary, the label of the graph is not the one it mentions. -/
theorem C76_label_violated (r : Reachable w.heap) (hg : g < w.heap.nG) (hd : w.display g = some d) {s : String}
    (hs : D.label = some (.str s)) (hok : appendDictW g D w = (.ok (), w')) :
    ∃ d', w'.display g = some d' ∧ d'.label ≠ some s := by
  obtain ⟨d', h1, -, -, -, h2, -⟩ := C76_append_partial r hg hd hok
  refine ⟨d', h1, ?_⟩
  obtain ⟨s', h3, h4⟩ := h2 _ hs
  cases h3
  rw [h4]
  intro h
  have := congrArg String.length (Option.some.inj h)
  simp at this

/-- **C76 is violated** by `edge_styles`: whatever the dictionary, the styles of single edges are not stored as such; every edge
for which it has a style gets a colour instead. -/
theorem C76_edge_styles_violated (r : Reachable w.heap) (hg : g < w.heap.nG) (hd : w.display g = some d)
    (hok : appendDictW g D w = (.ok (), w')) :
    ∃ d', w'.display g = some d' ∧ d'.edgeStyles = d.edgeStyles ∧
      ∀ x ∈ D.edgeStyles, ∃ s t c i, x = .pair s t c ∧ lastFor D.described (s, t) = some i ∧ dget d'.edgeColours i ≠ none := by
  obtain ⟨d', h1, -, h2, -, -, -, -, h3⟩ := C76_append_partial r hg hd hok
  refine ⟨d', h1, by rw [h2], fun x hx => ?_⟩
  obtain ⟨-, h4⟩ := (C76_succeeds r hg hd).1 (by rw [hok])
  obtain ⟨s, t, c, rfl, hk⟩ := h4 x (by simp [hx])
  obtain ⟨i, hi⟩ := Option.ne_none_iff_exists'.1 hk
  refine ⟨s, t, c, i, rfl, hi, ?_⟩
  rw [h3 i]
  have hmem : (i, c) ∈ D.coloursOf (D.edgeStyles ++ D.edgeColours) :=
    List.mem_filterMap.2 ⟨_, List.mem_append_left _ hx, by simp [hi]⟩
  have hlast : lastFor (D.coloursOf (D.edgeStyles ++ D.edgeColours)) i ≠ none := by
    unfold lastFor
    simp only [ne_eq, Option.map_eq_none_iff, List.find?_eq_none, List.mem_reverse, decide_eq_true_eq]
    exact fun h => h _ hmem rfl
  obtain ⟨v, hv⟩ := Option.ne_none_iff_exists'.1 hlast
  rw [hv]; simp

omit [Palette C] in
/-- Settings given as dictionaries make settings that are dictionaries. -/
theorem Dicts.after (h : d.Dicts) (hD : D.Dicts) : (d.after D).Dicts := by
  rw [after_eq]
  have hl : (d.labelled D).globalNode = d.globalNode ∧ (d.labelled D).globalEdge = d.globalEdge ∧ (d.labelled D).edgeStyles = d.edgeStyles := by
    unfold Display.labelled; split <;> exact ⟨rfl, rfl, rfl⟩
  refine ⟨?_, ?_, ⟨nodup_updates _ h.nodeStyles.1, ?_⟩, ?_, nodup_updates _ h.nodeColours, nodup_updates _ h.edgeColours⟩
  · intro l hl'
    simp only [Display.told] at hl'
    cases ho : (D.globalNode <|> D.graphNode) with
    | none => rw [ho, Option.getD_none, hl.1] at hl'; exact h.globalNode l hl'
    | some o => rw [ho, Option.getD_some] at hl'; subst hl'; exact hD.globalNode l ho
  · intro l hl'
    simp only [Display.told] at hl'
    cases ho : (D.globalEdge <|> D.graphEdge) with
    | none => rw [ho, Option.getD_none, hl.2.1] at hl'; exact h.globalEdge l hl'
    | some o => rw [ho, Option.getD_some] at hl'; subst hl'; exact hD.globalEdge l ho
  · intro p hp
    rcases mem_updates _ hp with hp | hp
    · exact hD.nodeStyles p hp
    · exact h.nodeStyles.2 p hp
  · simp only [Display.told, hl.2.2]; exact h.edgeStyles

end

/-- Two nodes, two edges between them, and all kinds of settings. -/
def fancyDict : GraphDict Rat :=
  { label := some (.str "fancy"), tooltip := some (some "tip"), graphNode := some (some [.shape (some "auto")]), direction := some "TB",
    nodes := some (.list [.str "x", .str "y"]),
    edges := some [.two (.str "x") (.str "y"), .three (.str "x") (.str "y") { id := some (.int 7), label := .str "l" }],
    nodeStyles := [(.str "x", [.fill (some 1)])], edgeStyles := [.pair (.str "x") (.str "y") (1 / 3)], nodeColours := [(.str "y", 1 / 4)] }

/-- It meets the hypotheses of **C76**, on a graph that has settings already. -/
example : Reachable (gaudyWorld openDiamond).heap ∧ 0 < (gaudyWorld openDiamond).heap.nG ∧
    (appendDictW 0 fancyDict (gaudyWorld openDiamond)).1 = .ok () ∧
    (((appendDictW 0 fancyDict (gaudyWorld openDiamond)).2.display 0).map fun d => (d.label, d.direction)) = some (some "\nfancy", "TB") ∧
    (((appendDictW 0 fancyDict (gaudyWorld openDiamond)).2.display 0).bind fun d => dget d.edgeColours (.str "x", .str "y", .key (.int 7))) =
      some (1 / 3) :=
  ⟨openDiamond_reachable, by decide +kernel, by decide +kernel, by decide +kernel, by decide +kernel⟩

end Verif
