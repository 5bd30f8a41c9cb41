import Verif.Props.TextOrder
import Mathlib.Data.List.Forall2
/-!
# C129: the graph of an indented text depends on its layout only
-/
namespace Verif
open M

/-- Two lines of outlines at the same depth, or two empty lines. -/
inductive Entry.Abreast : Entry → Entry → Prop
  | blank : Abreast .blank .blank
  | text (d : Nat) (t t' : Line) : Abreast (.text d t) (.text d t')

theorem fromItems_layout (g : GRef) : ∀ {items items' : List Item},
    items.map (fun it => (it.index, it.parent)) = items'.map (fun it => (it.index, it.parent)) → fromItems g items = fromItems g items'
  | [], [], _ => rfl
  | [], _ :: _, e => by simp at e
  | _ :: _, [], e => by simp at e
  | it :: items, it' :: items', e => by
    simp only [List.map_cons, List.cons.injEq, Prod.mk.injEq] at e
    rw [fromItems, fromItems, e.1.1, e.1.2, fromItems_layout g e.2]

theorem readFrom_layout (shown shown' : Nat → Line → Line) {es es' : List Entry} (H : List.Forall₂ Entry.Abreast es es') :
    ∀ above i, (readFrom shown above i es).1.map (fun it => (it.index, it.parent)) =
        (readFrom shown' above i es').1.map (fun it => (it.index, it.parent)) ∧
      (readFrom shown above i es).2 = (readFrom shown' above i es').2 := by
  induction H with
  | nil => intro above i; exact ⟨rfl, rfl⟩
  | cons h _ ih =>
    intro above i
    cases h with
    | blank =>
      cases above with
      | nil => exact ⟨rfl, rfl⟩
      | cons a above =>
        simp only [readFrom, List.map_cons]
        exact ⟨by rw [(ih _ _).1], (ih _ _).2⟩
    | text d t t' =>
      simp only [readFrom]
      split
      · simp only [List.map_cons]
        exact ⟨by rw [(ih _ _).1], (ih _ _).2⟩
      · exact ⟨rfl, rfl⟩

theorem fromIndentedText_layout (root : String) {lines lines' : List Line} {indent indent' : Option Line} {es es' : List Entry}
    (H : List.Forall₂ Entry.Abreast es es') {shown shown' : Nat → Line → Line}
    (e : parseIndentations lines indent = readOutline shown es) (e' : parseIndentations lines' indent' = readOutline shown' es') :
    fromIndentedText root lines indent = fromIndentedText root lines' indent' := by
  obtain ⟨h1, h2⟩ := readFrom_layout shown shown' H [] 0
  unfold fromIndentedText
  rw [e, e']
  unfold readOutline
  rw [h2]
  simp only [fun g => fromItems_layout g h1]

/-- **C129.** An outline can be written with another unit of blanks and tabs, with other line ends and with other texts, line
by line at the same depths: `from_indented_text`, told the unit, does the very same thing - the same graph with the same
effect on everything else, or the same exception. -/
theorem C129_reindent (root : String) (u u' : Line) (hu : ∀ c ∈ u, c = ' ' ∨ c = '\t') (hne : u ≠ [])
    (hu' : ∀ c ∈ u', c = ' ' ∨ c = '\t') (hne' : u' ≠ []) (eol eol' : Nat → Nat) {es es' : List Entry}
    (hp : ∀ e ∈ es, e.Plain) (hp' : ∀ e ∈ es', e.Plain) (H : List.Forall₂ Entry.Abreast es es') (h : Heap) :
    fromIndentedText root (es.mapIdx fun j e => e.write u (eol j)) (some u) h =
      fromIndentedText root (es'.mapIdx fun j e => e.write u' (eol' j)) (some u') h :=
  congrFun (fromIndentedText_layout root H (C39_exact u hu hne eol es hp) (C39_exact u' hu' hne' eol' es' hp')) h

/-- **C129**, the unit not given: for an outline whose depths are in order - a text first, not indented, and no step down by
more than one level - it makes no difference either whether the unit is told. -/
theorem C129_detected (root : String) (u u' : Line) (hu : ∀ c ∈ u, c = ' ' ∨ c = '\t') (hne : u ≠ [])
    (hu' : ∀ c ∈ u', c = ' ' ∨ c = '\t') (hne' : u' ≠ []) (eol eol' : Nat → Nat) {es es' : List Entry}
    (hp : ∀ e ∈ es, e.Plain) (hp' : ∀ e ∈ es', e.Plain) (H : List.Forall₂ Entry.Abreast es es')
    (hok : (readOutline (fun _ t => t) es).2 = none) (h : Heap) :
    fromIndentedText root (es.mapIdx fun j e => e.write u (eol j)) none h =
        fromIndentedText root (es.mapIdx fun j e => e.write u (eol j)) (some u) h ∧
      fromIndentedText root (es.mapIdx fun j e => e.write u (eol j)) none h =
        fromIndentedText root (es'.mapIdx fun j e => e.write u' (eol' j)) none h := by
  have self : List.Forall₂ Entry.Abreast es es :=
    List.forall₂_same.2 fun e _ => by cases e with
      | blank => exact .blank
      | text d t => exact .text d t t
  have hok' : (readOutline (fun _ t => t) es').2 = none := by
    rw [← hok]; exact ((readFrom_layout _ _ H [] 0).2).symm
  have e1 := C39_detected_exact u hu hne eol es hp _ hok
  exact ⟨congrFun (fromIndentedText_layout root self e1 (C39_exact u hu hne eol es hp)) h,
    congrFun (fromIndentedText_layout root H e1 (C39_detected_exact u' hu' hne' eol' es' hp' _ hok')) h⟩

/-- The edges of the graph of a text. -/
theorem text_ids {h : Heap} (r : Reachable h) {root : String} {lines : List Line} {indent : Option Line} {g : GRef} {h' : Heap}
    (ok : fromIndentedText root lines indent h = (.ok g, h')) :
    (parseIndentations lines indent).2 = none ∧
    ∀ k, (∃ e, LiveEdge h' g e ∧ edgeId h' e = .ok k) ↔
      ∃ it ∈ (parseIndentations lines indent).1, k = (lineName it.parent, lineName (some it.index), .none) := by
  have hp : (parseIndentations lines indent).2 = none := by
    cases hp : (parseIndentations lines indent).2 with
    | none => rfl
    | some err =>
      obtain ⟨h'', e, -⟩ := C40_text_raises r root lines indent err hp
      rw [ok] at e
      cases e
  refine ⟨hp, ?_⟩
  obtain ⟨h'', e, -, D, -⟩ := C40_text r root lines indent hp
  rw [ok] at e
  cases e
  obtain ⟨ds, -, hs, ho, hes⟩ := D.edges
  have live : ∀ e, LiveEdge h' h.nG e ↔ e ∈ ds := by
    intro e
    constructor
    · rintro ⟨n, hn, os, h1, h2⟩
      rw [(ho n hn).2.1] at h1
      cases h1
      exact (List.mem_filter.1 h2).1
    · intro q
      obtain ⟨-, ⟨n, hn, h1⟩, -⟩ := hes e q
      exact ⟨n, hn, _, (ho n hn).2.1, List.mem_filter.2 ⟨q, by simp [h1]⟩⟩
  intro k
  constructor
  · rintro ⟨e, he, ek⟩
    have : seenEdge h' e ∈ (textEdges (parseIndentations lines indent).1).map Except.ok := by
      rw [← hs]; exact List.mem_map.2 ⟨e, (live e).1 he, rfl⟩
    obtain ⟨v, hv, ev⟩ := List.mem_map.1 this
    obtain ⟨it, hi, rfl⟩ := List.mem_map.1 hv
    have := seenEdge_ok ev.symm
    rw [ek] at this
    cases this
    exact ⟨it, hi, rfl⟩
  · rintro ⟨it, hi, rfl⟩
    have : Except.ok (ε := PyErr) ({ id := (lineName it.parent, lineName (some it.index), .none) } : EdgeD) ∈ ds.map (seenEdge h') := by
      rw [hs]; exact List.mem_map.2 ⟨_, List.mem_map.2 ⟨it, hi, rfl⟩, rfl⟩
    obtain ⟨e, he, ev⟩ := List.mem_map.1 this
    exact ⟨e, (live e).2 he, seenEdge_ok ev⟩

/-- **C129**, the other way round: the layout can be read off the graph. If the graphs of two texts, made in whatever states,
have edges between the same names, the texts have the same number of lines, and their lines the same levels. -/
theorem C129_recover {h1 h2 : Heap} (r1 : Reachable h1) (r2 : Reachable h2) {root1 root2 : String} {lines1 lines2 : List Line}
    {indent1 indent2 : Option Line} {g1 g2 : GRef} {h1' h2' : Heap} (ok1 : fromIndentedText root1 lines1 indent1 h1 = (.ok g1, h1'))
    (ok2 : fromIndentedText root2 lines2 indent2 h2 = (.ok g2, h2'))
    (same : ∀ k, (∃ e, LiveEdge h1' g1 e ∧ edgeId h1' e = .ok k) ↔ ∃ e, LiveEdge h2' g2 e ∧ edgeId h2' e = .ok k) :
    lines1.length = lines2.length ∧
      (parseIndentations lines1 indent1).1.map Item.level = (parseIndentations lines2 indent2).1.map Item.level := by
  obtain ⟨p1, i1⟩ := text_ids r1 ok1
  obtain ⟨p2, i2⟩ := text_ids r2 ok2
  have L1 := (C40_all_lines lines1 indent1).1 p1
  have L2 := (C40_all_lines lines2 indent2).1 p2
  have T1 := text_levels lines1 indent1
  have T2 := text_levels lines2 indent2
  have P1 := fun i it h => (C40_parent lines1 indent1 i it h).1
  have P2 := fun i it h => (C40_parent lines2 indent2 i it h).1
  rw [← L1, ← L2]
  clear L1 L2
  generalize (parseIndentations lines1 indent1).1 = A at *
  generalize (parseIndentations lines2 indent2).1 = B at *
  have step : ∀ {A B : List Item}, (∀ (i : Nat) (it : Item), A[i]? = some it → it.index = i) → (∀ (i : Nat) (it : Item), B[i]? = some it → it.index = i) →
      (∀ k : EdgeId, (∃ it ∈ A, k = (lineName it.parent, lineName (some it.index), .none)) →
        ∃ it ∈ B, k = (lineName it.parent, lineName (some it.index), .none)) →
      ∀ (i : Nat) (it : Item), A[i]? = some it → ∃ it' : Item, B[i]? = some it' ∧ it'.parent = it.parent := by
    intro A B PA PB S i it hi
    obtain ⟨it', m', e⟩ := S _ ⟨it, List.mem_of_getElem? hi, rfl⟩
    simp only [Prod.mk.injEq, lineName_inj, Option.some.injEq, and_true] at e
    obtain ⟨j, hj⟩ := List.getElem?_of_mem m'
    rw [PA i it hi, PB j it' hj] at e
    obtain ⟨e1, rfl⟩ := e
    exact ⟨it', hj, e1.symm⟩
  have s12 := step P1 P2 (fun k hk => (i2 k).1 ((same k).1 ((i1 k).2 hk)))
  have s21 := step P2 P1 (fun k hk => (i1 k).1 ((same k).2 ((i2 k).2 hk)))
  have len : A.length = B.length := by
    rcases Nat.lt_trichotomy A.length B.length with h | h | h
    · obtain ⟨_, e, -⟩ := s21 A.length _ (List.getElem?_eq_getElem h)
      simp at e
    · exact h
    · obtain ⟨_, e, -⟩ := s12 B.length _ (List.getElem?_eq_getElem h)
      simp at e
  refine ⟨len, ?_⟩
  have par : ∀ i, i < A.length → parentOf A i = parentOf B i := by
    intro i hi
    obtain ⟨it', e, ep⟩ := s12 i _ (List.getElem?_eq_getElem hi)
    rw [parentOf_eq e, parentOf_eq (List.getElem?_eq_getElem hi), ep]
  have lev : ∀ i, i < A.length → levelOf A i = levelOf B i := by
    intro i
    induction i using Nat.strongRecOn with
    | ind i ih =>
      intro hi
      obtain ⟨a0, a1⟩ := T1 i hi
      obtain ⟨b0, b1⟩ := T2 i (len ▸ hi)
      have hpar := par i hi
      rcases Nat.eq_zero_or_pos (levelOf A i) with ha | ha <;> rcases Nat.eq_zero_or_pos (levelOf B i) with hb | hb
      · rw [ha, hb]
      · obtain ⟨p, hp, -⟩ := b1 hb
        rw [a0 ha, hp] at hpar
        cases hpar
      · obtain ⟨p, hp, -⟩ := a1 ha
        rw [b0 hb, hp] at hpar
        cases hpar
      · obtain ⟨p, hp, hlt, hl⟩ := a1 ha
        obtain ⟨q, hq, -, hl'⟩ := b1 hb
        rw [hp, hq] at hpar
        cases hpar
        have := ih p hlt (by omega)
        omega
  apply List.ext_getElem
  · simpa using len
  · intro i h1 h2
    simp only [List.length_map] at h1 h2
    have := lev i h1
    rw [levelOf_eq (List.getElem?_eq_getElem h1), levelOf_eq (List.getElem?_eq_getElem h2)] at this
    simpa using this

/-- The menu in other words. -/
def carte : List Entry :=
  [.text 0 "soupes".toList, .text 1 "chaudes".toList, .blank, .text 2 "bortsch".toList, .text 0 "salades".toList]

theorem carte_plain : ∀ e ∈ carte, e.Plain := by
  intro e he
  simp only [carte, List.mem_cons, List.not_mem_nil, or_false] at he
  rcases he with rfl | rfl | rfl | rfl | rfl
  · exact ⟨⟨_, _, rfl, by decide⟩, by decide⟩
  · exact ⟨⟨_, _, rfl, by decide⟩, by decide⟩
  · trivial
  · exact ⟨⟨_, _, rfl, by decide⟩, by decide⟩
  · exact ⟨⟨_, _, rfl, by decide⟩, by decide⟩

/-- The menu indented with tabs and its translation indented with two blanks, unit not given. -/
example (h : Heap) : fromIndentedText "top" (menu.mapIdx fun j e => e.write "\t".toList (j % 2)) none h =
    fromIndentedText "top" (carte.mapIdx fun _ e => e.write "  ".toList 1) none h :=
  (C129_detected "top" "\t".toList "  ".toList (by decide) (by decide) (by decide) (by decide) (fun j => j % 2) (fun _ => 1) menu_plain carte_plain
    (.cons (.text _ _ _) (.cons (.text _ _ _) (.cons .blank (.cons (.text _ _ _) (.cons (.text _ _ _) .nil))))) (by decide +kernel) h).2

/-- Both make a graph. -/
example : ∃ h1 h2, fromIndentedText "top" (menu.mapIdx fun j e => e.write "\t".toList (j % 2)) none demo = (.ok demo.nG, h1) ∧
    fromIndentedText "top" (carte.mapIdx fun _ e => e.write "  ".toList 1) none h1 = (.ok h1.nG, h2) := by
  obtain ⟨h1, e1, r1, -⟩ := C40_text demo_reachable "top" (menu.mapIdx fun j e => e.write "\t".toList (j % 2)) none (by decide +kernel)
  obtain ⟨h2, e2, -⟩ := C40_text r1 "top" (carte.mapIdx fun _ e => e.write "  ".toList 1) none (by decide +kernel)
  exact ⟨h1, h2, e1, e2⟩

end Verif
