import Verif.Lemmas.Alone
/-!
# C77: the constructor
-/
namespace Verif
variable {C : Type} [Palette C]

/-- The display of a graph made by the constructor before `append`. -/
def startDisplay (a : GraphArgs C) (D : Option (GraphDict C)) : Display C :=
  { a.display with
    scheme := (a.scheme <|> D.bind (·.scheme)).getD []
    stylist := match D with
      | none => a.stylist.getD .other
      | some D => (a.stylist <|> D.stylist).getD .pensieve
    nodeStyles := [], edgeStyles := [], nodeColours := [], edgeColours := [] }

/-- The heap after the constructor up to `append`. -/
def startHeap (a : GraphArgs C) (D : Option (GraphDict C)) (h : Heap) : Heap :=
  (graphInit a.strict a.ordering ((D.bind (·.overwrite)).getD a.overwrite) h).2

omit [Palette C] in
theorem constructW_run (a : GraphArgs C) (D : Option (GraphDict C)) (w : World C) :
    constructW a D w = (.ok w.heap.nG,
      { w with heap := startHeap a D w.heap, display := upd w.display w.heap.nG (some (startDisplay a D)) }) := rfl

omit [Palette C] in
theorem startHeap_reachable {a : GraphArgs C} {D : Option (GraphDict C)} {h : Heap} (r : Reachable h) :
    Reachable (startHeap a D h) :=
  Reachable.step (.newGraph a.strict a.ordering ((D.bind (·.overwrite)).getD a.overwrite)) r trivial

omit [Palette C] in
theorem startHeap_graph (a : GraphArgs C) (D : Option (GraphDict C)) (h : Heap) :
    (startHeap a D h).graph h.nG =
      { strict := a.strict, ordering := a.ordering, overwrite := some ((D.bind (·.overwrite)).getD a.overwrite) } := by
  simp [startHeap, graphInit, M.newGraph]

omit [Palette C] in
theorem startHeap_others {a : GraphArgs C} {D : Option (GraphDict C)} {h : Heap} (r : Reachable h) {g : GRef} (hg : g < h.nG) :
    Untouched h (startHeap a D h) g :=
  C10_isolated r (.newGraph a.strict a.ordering ((D.bind (·.overwrite)).getD a.overwrite)) trivial hg (by simp [Op.on])

section
variable {a : GraphArgs C} {D : GraphDict C} {w w' : World C} {g : GRef}

omit [Palette C] in
/-- The state after the constructor up to `append`. -/
def World.started (w : World C) (a : GraphArgs C) (D : GraphDict C) : World C :=
  { w with heap := startHeap a (some D) w.heap, display := upd w.display w.heap.nG (some (startDisplay a (some D))) }

/-- What a successful `Graph(obj=D)` consists of. -/
theorem graphOfDict_ok (r : Reachable w.heap) (hok : graphOfDict a D w = (.ok g, w')) :
    g = w.heap.nG ∧ D.EdgesKnown ∧ appendDict g D.plain (startHeap a (some D) w.heap) = (.ok (), w'.heap) ∧
      w'.display = upd w.display g (some ((startDisplay a (some D)).after D)) := by
  obtain ⟨g1, w1, a1, hr⟩ := seqW_ok hok
  rw [constructW_run] at a1
  cases a1
  obtain ⟨_, w2, a2, hr⟩ := seqW_ok hr
  cases hr
  obtain ⟨h1, h2, h3⟩ := appendDictW_ok (startHeap_reachable r) (Nat.lt_succ_self _) (upd_same _ _ _) a2
  refine ⟨rfl, h1, h2, ?_⟩
  rw [h3]
  funext x
  by_cases hx : x = w.heap.nG
  · subst hx; simp
  · rw [upd_ne _ _ hx, upd_ne _ _ hx]
    exact upd_ne _ _ hx

/-- When `Graph(obj=D)` succeeds. -/
theorem graphOfDict_run (r : Reachable w.heap) (hk : D.EdgesKnown) {h' : Heap}
    (hr : appendDict w.heap.nG D.plain (startHeap a (some D) w.heap) = (.ok (), h')) :
    ∃ w', graphOfDict a D w = (.ok w.heap.nG, w') ∧ w'.heap = h' ∧
      w'.display = upd w.display w.heap.nG (some ((startDisplay a (some D)).after D)) := by
  obtain ⟨w', e, -⟩ := appendDictW_run (w := w.started a D) (startHeap_reachable r) (Nat.lt_succ_self _)
    (upd_same _ _ _) hk hr
  have : graphOfDict a D w = (.ok w.heap.nG, w') := by
    show (constructW a (some D) >>= fun g => appendDictW g D >>= fun _ => pure g) w = _
    rw [W.bind_apply, constructW_run]
    have e' := e
    unfold World.started at e'
    simp only [W.bind_apply, e']
    rfl
  obtain ⟨-, -, h2, h3⟩ := graphOfDict_ok r this
  rw [hr] at h2
  cases h2
  exact ⟨w', this, rfl, h3⟩

/-- **C77.** In every reachable state, if `Graph(obj=D, …)` returns, it returns a new graph. The colour scheme is the argument,
or the one of `D` if the argument is `None`; so is the stylist. Strictness, ordering and the permission to overwrite styles
are those of `D`, or else the arguments. No other graph is touched, nor what is said about its picture.
Missing for the full property: the two arguments have defaults that are not `None`, so that a caller who gives none
gets the defaults and not what `D` says (`C77_violated`). -/
theorem C77_construct_partial (r : Reachable w.heap) (hok : graphOfDict a D w = (.ok g, w')) :
    g = w.heap.nG ∧ Reachable w'.heap ∧
      (∃ d, w'.display g = some d ∧ d.scheme = (a.scheme.or D.scheme).getD [] ∧ d.stylist = (a.stylist.or D.stylist).getD .pensieve) ∧
      (w'.heap.graph g).overwrite = some (D.overwrite.getD a.overwrite) ∧
      (w'.heap.graph g).strict = D.strict.getD a.strict ∧ (w'.heap.graph g).ordering = D.ordering.getD a.ordering ∧
      ∀ g', g' < w.heap.nG → Untouched w.heap w'.heap g' ∧ w'.display g' = w.display g' := by
  obtain ⟨rfl, -, h1, h2⟩ := graphOfDict_ok r hok
  obtain ⟨r1, -, o1, u1⟩ := (Alone.dict D.plain).alone (startHeap a (some D) w.heap) (startHeap_reachable r) (Nat.lt_succ_self _)
  obtain ⟨s1, s2⟩ := appendDict_options (Nat.lt_succ_self _) h1
  rw [h1] at r1 o1 u1
  rw [startHeap_graph] at o1 s1 s2
  refine ⟨rfl, r1, ⟨_, by rw [h2, upd_same], ?_, ?_⟩, o1, s1, s2, fun g' hg => ⟨?_, ?_⟩⟩
  · rw [after_eq]
    simp only [Display.told]
    have : ((startDisplay a (some D)).labelled D).scheme = (startDisplay a (some D)).scheme := by unfold Display.labelled; split <;> rfl
    rw [this]
    cases ha : a.scheme <;> simp [startDisplay, ha]
  · rw [after_eq]
    simp only [Display.told]
    have : ((startDisplay a (some D)).labelled D).stylist = (startDisplay a (some D)).stylist := by unfold Display.labelled; split <;> rfl
    rw [this]
    cases ha : a.stylist <;> simp [startDisplay, ha]
  · exact (startHeap_others r hg).trans r (startHeap_reachable r) (u1 g' (Nat.lt_succ_of_lt hg) (Nat.ne_of_lt hg))
  · rw [h2, upd_ne _ _ (Nat.ne_of_lt hg)]

/-- **C77**: everything else about the picture is as if `D` had been appended to a graph made with the same arguments and
without a dictionary. -/
theorem C77_display (r : Reachable w.heap) (hok : graphOfDict a D w = (.ok g, w')) :
    ∃ d, w'.display g = some d ∧ d = { a.display with
      scheme := d.scheme, stylist := d.stylist, label := d.label, tooltip := D.tooltip.getD a.display.tooltip,
      labelUrl := D.labelUrl.getD a.display.labelUrl,
      globalNode := (D.globalNode.or D.graphNode).getD a.display.globalNode,
      globalEdge := (D.globalEdge.or D.graphEdge).getD a.display.globalEdge,
      direction := D.direction.getD a.display.direction,
      nodeStyles := d.nodeStyles, edgeStyles := [], nodeColours := d.nodeColours, edgeColours := d.edgeColours } ∧
      (D.label = none → d.label = a.display.label) ∧
      (∀ k, dget d.nodeStyles k = lastFor D.nodeStyles k) ∧ (∀ k, dget d.nodeColours k = lastFor D.nodeColours k) ∧
      (∀ i, dget d.edgeColours i = lastFor (D.coloursOf (D.edgeStyles ++ D.edgeColours)) i) := by
  obtain ⟨rfl, -, h1, h2⟩ := graphOfDict_ok r hok
  refine ⟨_, by rw [h2, upd_same], ?_, ?_, ?_, ?_, ?_⟩
  · rw [after_eq]
    have e1 : (D.globalNode <|> D.graphNode) = D.globalNode.or D.graphNode := by cases D.globalNode <;> rfl
    have e2 : (D.globalEdge <|> D.graphEdge) = D.globalEdge.or D.graphEdge := by cases D.globalEdge <;> rfl
    unfold Display.told Display.labelled startDisplay
    rw [e1, e2]
    split <;> rfl
  · intro hl
    rw [after_eq]
    simp [Display.told, Display.labelled, hl, startDisplay]
  · intro k; rw [after_eq, dget_updates]; simp [startDisplay, dget]
  · intro k; rw [after_eq, dget_updates]; simp [startDisplay, dget]
  · intro k; rw [after_eq, dget_updates]; simp [startDisplay, dget]

/-- **C77**: the heap is the one that `append` of `D` makes of a new graph with the options of the call, the permission to overwrite
styles coming from `D` where it has one; the nodes and edges are those described by C37. -/
theorem C77_structure (r : Reachable w.heap) (hok : graphOfDict a D w = (.ok g, w')) :
    ∃ h1, graphInit a.strict a.ordering (D.overwrite.getD a.overwrite) w.heap = (.ok g, h1) ∧
      append g (.dict D.plain) h1 = (.ok (), w'.heap) := by
  obtain ⟨rfl, -, e, -⟩ := graphOfDict_ok r hok
  exact ⟨_, rfl, by simp only [append]; exact e⟩

/-- **C77**: when it succeeds. -/
theorem C77_succeeds (r : Reachable w.heap) {g : GRef} {h1 : Heap}
    (hg : graphInit a.strict a.ordering (D.overwrite.getD a.overwrite) w.heap = (.ok g, h1)) :
    (graphOfDict a D w).1 = .ok g ↔ (append g (.dict D.plain) h1).1 = .ok () ∧
      ∀ x ∈ D.edgeStyles ++ D.edgeColours, ∃ s t c, x = .pair s t c ∧ lastFor D.described (s, t) ≠ none := by
  have known : ∀ p, lastFor D.described p ≠ none ↔ p ∈ itemPairs ((D.edges.getD []).map EdgeEntry.plain) := by
    intro p
    rw [← mem_knownEdges, ← dget_known, ne_eq, dget_none]
    simp [dkeys]
  have hh : startHeap a (some D) w.heap = h1 := by unfold startHeap; exact congrArg Prod.snd hg
  have hgg : g = w.heap.nG := (Except.ok.inj (congrArg Prod.fst hg)).symm
  subst hgg
  constructor
  · intro h
    have e : graphOfDict a D w = (.ok w.heap.nG, (graphOfDict a D w).2) := Prod.ext h rfl
    obtain ⟨-, h0, ha, -⟩ := graphOfDict_ok r e
    rw [hh] at ha
    refine ⟨by simp only [append]; rw [ha], fun x hx => ?_⟩
    obtain ⟨⟨s, t⟩, h2, h3⟩ := h0 x hx
    cases x with
    | other => cases h2
    | pair s' t' c => cases h2; exact ⟨_, _, c, rfl, (known _).2 h3⟩
  · rintro ⟨h5, h6⟩
    simp only [append] at h5
    have h5 : appendDict w.heap.nG D.plain h1 = (.ok (), (appendDict w.heap.nG D.plain h1).2) := Prod.ext h5 rfl
    obtain ⟨w1, e1, -⟩ := graphOfDict_run (a := a) (D := D) r (by
      intro x hx
      obtain ⟨s, t, c, rfl, h⟩ := h6 x hx
      exact ⟨(s, t), rfl, (known _).1 h⟩) (by rw [hh]; exact h5)
    rw [e1]

/-- **C77 is violated** whenever the caller leaves the colour scheme or the stylist to the dictionary: the arguments have defaults
(`colour_scheme='pensieve2'`, `stylist='pensieve'`), and these win. -/
theorem C77_violated (r : Reachable w.heap) (h1 : a.scheme ≠ none) (h2 : a.stylist ≠ none) (ns : D.scheme ≠ a.scheme)
    (nt : D.stylist ≠ a.stylist) (hok : graphOfDict a D w = (.ok g, w')) :
    ∃ d, w'.display g = some d ∧ D.scheme ≠ some d.scheme ∧ D.stylist ≠ some d.stylist := by
  obtain ⟨-, -, ⟨d, h3, h4, h5⟩, -⟩ := C77_construct_partial r hok
  obtain ⟨s0, h1⟩ := Option.ne_none_iff_exists'.1 h1
  obtain ⟨t0, h2⟩ := Option.ne_none_iff_exists'.1 h2
  refine ⟨d, h3, ?_, ?_⟩
  · rw [h4, h1]; rw [h1] at ns; simpa using ns
  · rw [h5, h2]; rw [h2] at nt; simpa using nt

end

/-- A dictionary with settings for the constructor. -/
def schemeDict : GraphDict Rat :=
  { fancyDict with scheme := some [1 / 2], stylist := some .random, overwrite := some true, strict := some true }

/-- A display without settings. -/
def plainDisplay : Display Rat := { scheme := [] }

/-- It meets the hypotheses of **C77** and of its violation, in a state with a graph. -/
example : ∃ a : GraphArgs Rat, a.scheme ≠ none ∧ a.stylist ≠ none ∧ schemeDict.scheme ≠ a.scheme ∧ schemeDict.stylist ≠ a.stylist ∧
    Reachable (gaudyWorld openDiamond).heap ∧ (graphOfDict a schemeDict (gaudyWorld openDiamond)).1 = .ok 1 :=
  ⟨{ scheme := some [1 / 3], display := plainDisplay }, by decide +kernel, by decide +kernel, by decide +kernel, by decide +kernel,
    openDiamond_reachable, by decide +kernel⟩

/-- A caller who says `None` gets what the dictionary says. -/
example : (((graphOfDict { scheme := none, stylist := none, display := plainDisplay } schemeDict (gaudyWorld openDiamond)).2.display 1).map
    fun d => (d.scheme, d.stylist)) = some ([1 / 2], .random) := by decide +kernel

end Verif
