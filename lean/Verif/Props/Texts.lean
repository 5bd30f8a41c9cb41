import Verif.Props.Style
/-!
# C78: texts in a style
-/
namespace Verif
variable {C : Type} [Palette C]

/-- `v` is the text `t` without the quotes around it. -/
def Unquoted (t v : String) : Prop :=
  (∃ a b, t.toList = List.replicate a '"' ++ v.toList ++ List.replicate b '"') ∧
    v.toList.head? ≠ some '"' ∧ v.toList.getLast? ≠ some '"'

theorem dropQuotes (l : List Char) : ∃ a, l = List.replicate a '"' ++ l.dropWhile (· = '"') := by
  induction l with
  | nil => exact ⟨0, rfl⟩
  | cons c l ih =>
    by_cases h : c = '"'
    · obtain ⟨a, ha⟩ := ih
      refine ⟨a + 1, ?_⟩
      simp only [List.dropWhile_cons, h, decide_true, ↓reduceIte, List.replicate_succ, List.cons_append]
      rw [← ha]
    · exact ⟨0, by simp [h]⟩

theorem head_dropQuotes (l : List Char) : (l.dropWhile (· = '"')).head? ≠ some '"' := by
  induction l with
  | nil => simp
  | cons c l ih =>
    by_cases h : c = '"'
    · simpa [List.dropWhile_cons, h] using ih
    · simp [h]

theorem unquoted_stripQuotes (t : String) : Unquoted t (stripQuotes t) := by
  obtain ⟨a, ha⟩ := dropQuotes t.toList
  obtain ⟨b, hb⟩ := dropQuotes (t.toList.dropWhile (· = '"')).reverse
  have h1 := head_dropQuotes t.toList
  have h2 := head_dropQuotes (t.toList.dropWhile (· = '"')).reverse
  have hs : (stripQuotes t).toList = ((t.toList.dropWhile (· = '"')).reverse.dropWhile (· = '"')).reverse := by
    simp [stripQuotes]
  generalize t.toList.dropWhile (· = '"') = u at *
  generalize u.reverse.dropWhile (· = '"') = v at *
  have hu : u = v.reverse ++ List.replicate b '"' := by
    rw [← List.reverse_inj, hb]; simp
  refine ⟨⟨a, b, by rw [ha, hs, hu, List.append_assoc]⟩, ?_, ?_⟩
  · rw [hs]
    intro hc
    apply h1
    rw [hu, List.head?_append, hc]; rfl
  · rw [hs, List.getLast?_reverse]
    exact h2

/-- There is only one such text, so the theorem below says which one is shown. -/
theorem Unquoted.unique {t v w : String} (h : Unquoted t v) (h' : Unquoted t w) : v = w := by
  obtain ⟨⟨a, b, e⟩, h1, h2⟩ := h
  obtain ⟨⟨a', b', e'⟩, h1', h2'⟩ := h'
  have drop : ∀ (x y : List Char) (a a' : Nat), List.replicate a '"' ++ x = List.replicate a' '"' ++ y → x.head? ≠ some '"' →
      y.head? ≠ some '"' → x = y := by
    intro x y a
    induction a with
    | zero =>
      intro a' e hx _
      cases a' with
      | zero => simpa using e
      | succ a' => rw [List.replicate_zero, List.nil_append] at e; rw [e] at hx; simp [List.replicate_succ] at hx
    | succ a ih =>
      intro a' e hx hy
      cases a' with
      | zero => rw [List.replicate_zero, List.nil_append] at e; rw [← e] at hy; simp [List.replicate_succ] at hy
      | succ a' => simp only [List.replicate_succ, List.cons_append, List.cons.injEq, true_and] at e; exact ih a' e hx hy
  have empty : ∀ (x y : List Char) (a b a' b' : Nat), List.replicate a '"' ++ x ++ List.replicate b '"' =
      List.replicate a' '"' ++ y ++ List.replicate b' '"' → x = [] → y.head? ≠ some '"' → y = [] := by
    rintro x y a b a' b' e rfl hy
    cases y with
    | nil => rfl
    | cons c y =>
      have : c ∈ List.replicate a '"' ++ [] ++ List.replicate b '"' := by rw [e]; simp
      simp only [List.append_nil, List.mem_append, List.mem_replicate] at this
      rcases this with h | h <;> simp [h.2] at hy
  have head : ∀ (x : List Char) (b : Nat), x ≠ [] → x.head? ≠ some '"' → (x ++ List.replicate b '"').head? ≠ some '"' := by
    intro x b hx h
    cases x with
    | nil => exact absurd rfl hx
    | cons c x => simpa using h
  apply String.toList_inj.1
  rw [e] at e'
  by_cases hv : v.toList = []
  · rw [hv, empty _ _ _ _ _ _ e' hv h1']
  · have hw : w.toList ≠ [] := fun hw => hv (empty _ _ _ _ _ _ e'.symm hw h1)
    have e2 := drop _ _ a a' (by simpa only [List.append_assoc] using e') (head _ b hv h1) (head _ b' hw h1')
    have e3 := congrArg List.reverse e2
    simp only [List.reverse_append, List.reverse_replicate] at e3
    exact List.reverse_inj.1 (drop _ _ b b' e3 (by rw [List.head?_reverse]; exact h2) (by rw [List.head?_reverse]; exact h2'))

/-- **C78**, texts: a style shows its font, shape and shape style, or its font and label style, each without the quotes around
it (`Unquoted.unique`) and unchanged otherwise; those that are `None` are not shown. -/
theorem C78_texts (s : NodeStyle C) (e : EdgeStyle C) :
    (∀ key setting, (key, setting) ∈ [("fontname", s.font), ("shape", s.shape), ("style", s.shapeStyle)] →
      (∀ v, (key, v) ∈ s.attributes ↔ ∃ t, setting = some t ∧ Unquoted t v)) ∧
    (∀ key setting, (key, setting) ∈ [("fontname", e.font), ("lblstyle", e.labelStyle)] →
      (∀ v, (key, v) ∈ e.attributes ↔ ∃ t, setting = some t ∧ Unquoted t v)) := by
  have k1 : ["color", "fillcolor", "fontname", "fontcolor", "fontsize", "opacity", "shape", "style", "arrowsize", "lblstyle", "penwidth"].map stripQuotes =
      ["color", "fillcolor", "fontname", "fontcolor", "fontsize", "opacity", "shape", "style", "arrowsize", "lblstyle", "penwidth"] := by
    decide +kernel
  simp only [List.map_cons, List.map_nil, List.cons.injEq, and_true] at k1
  obtain ⟨q1, q2, q3, q4, q5, q6, q7, q8, q9, q10, q11⟩ := k1
  have main : ∀ (o : Option String) (op : Option Rat) v, (AttrVal.ofStr (C := C) o).shown op = some v ↔ ∃ t, o = some t ∧ Unquoted t v := by
    intro o op v
    cases o with
    | none => simp [AttrVal.ofStr, AttrVal.shown]
    | some t =>
      simp only [AttrVal.ofStr, AttrVal.shown, Option.some.injEq, exists_eq_left']
      exact ⟨fun h => h ▸ unquoted_stripQuotes t, fun h => (unquoted_stripQuotes t).unique h⟩
  constructor
  · intro key setting hk v
    simp only [List.mem_cons, Prod.mk.injEq, List.not_mem_nil, or_false] at hk
    rcases hk with ⟨rfl, rfl⟩ | ⟨rfl, rfl⟩ | ⟨rfl, rfl⟩ <;>
    · rw [← main _ s.opacity]
      simp [NodeStyle.attributes, NodeStyle.dictionary, q1, q2, q3, q4, q5, q6, q7, q8]
  · intro key setting hk v
    simp only [List.mem_cons, Prod.mk.injEq, List.not_mem_nil, or_false] at hk
    rcases hk with ⟨rfl, rfl⟩ | ⟨rfl, rfl⟩ <;>
    · rw [← main _ e.opacity]
      simp [EdgeStyle.attributes, EdgeStyle.dictionary, q1, q3, q4, q5, q9, q10, q11]

example : Unquoted "\"two \"words\"\"" "two \"words" := by
  refine ⟨⟨1, 2, by decide +kernel⟩, by decide +kernel, by decide +kernel⟩

end Verif
