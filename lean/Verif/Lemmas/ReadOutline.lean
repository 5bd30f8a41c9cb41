import Verif.Spec.Outline
import Mathlib.Data.List.Nodup
/-!
# Reading an outline

The drawing of a forest determines it, up to the names of the nodes, if the labels have no line breaks and do not end with a star.
-/
namespace Verif
namespace Outline

/-- No line break, and no star at the end. -/
def Tame (s : String) : Prop := '\n' ∉ s.toList ∧ s.toList.getLast? ≠ some '*'

/-- An occurrence with labels for nodes. -/
def labelled (label : Nat → String) (o : Nat × Bool × List Nat) : String × Bool × List String :=
  (label o.1, o.2.1, o.2.2.map label)

/-- The text does not go on below `ind`. -/
def Stops (ind X : List Char) : Prop := ∀ c rest, X = ind ++ c :: rest → c ≠ '└' ∧ c ≠ '├' ∧ c ≠ '│' ∧ c ≠ ' '

theorem Stops.deeper {ind X : List Char} (h : Stops ind X) {c : Char} (hc : c = '│' ∨ c = ' ') (l : List Char) : Stops (ind ++ c :: l) X := by
  intro x rest e
  rw [List.append_assoc, List.cons_append] at e
  obtain ⟨-, -, h3, h4⟩ := h c _ e
  rcases hc with rfl | rfl
  · exact absurd rfl h3
  · exact absurd rfl h4

theorem stops_at {ind : List Char} {c d : Char} (h : c ≠ d) (l m : List Char) : Stops (ind ++ c :: l) (ind ++ d :: m) := by
  intro x rest e
  rw [List.append_assoc, List.cons_append] at e
  have := List.append_cancel_left e
  simp only [List.cons.injEq] at this
  exact absurd this.1.symm h

theorem cut_line {a b a' b' : List Char} (h : '\n' ∉ a) (h' : '\n' ∉ a') (e : a ++ '\n' :: b = a' ++ '\n' :: b') : a = a' ∧ b = b' := by
  induction a generalizing a' with
  | nil =>
    cases a' with
    | nil => simpa using e
    | cons y l => simp only [List.nil_append, List.cons_append, List.cons.injEq] at e; exact absurd (e.1 ▸ List.mem_cons_self) h'
  | cons z k ih =>
    cases a' with
    | nil => simp only [List.nil_append, List.cons_append, List.cons.injEq] at e; exact absurd (e.1 ▸ List.mem_cons_self) h
    | cons y l =>
      simp only [List.cons_append, List.cons.injEq] at e
      obtain ⟨h1, h2⟩ := ih (fun q => h (List.mem_cons_of_mem _ q)) (fun q => h' (List.mem_cons_of_mem _ q)) e.2
      exact ⟨by rw [e.1, h1], h2⟩

theorem line_inj {a a' : String} {s s' : Bool} (ha : Tame a) (ha' : Tame a') {X X' : List Char}
    (e : a.toList ++ (if s then ['*'] else []) ++ '\n' :: X = a'.toList ++ (if s' then ['*'] else []) ++ '\n' :: X') :
    a = a' ∧ s = s' ∧ X = X' := by
  have no : ∀ (a : String) (s : Bool), Tame a → '\n' ∉ a.toList ++ (if s then ['*'] else []) := by
    intro a s h hm
    rcases List.mem_append.1 hm with hm | hm
    · exact h.1 hm
    · cases s <;> simp at hm
  obtain ⟨h1, h2⟩ := cut_line (no a s ha) (no a' s' ha') e
  have : s = s' := by
    have h3 := congrArg List.getLast? h1
    cases s <;> cases s' <;> first | rfl | skip
    · simp at h3; exact absurd h3 ha.2
    · simp at h3; exact absurd h3.symm ha'.2
  subst this
  exact ⟨String.toList_inj.1 (List.append_cancel_right h1), rfl, h2⟩

variable {lab lab' : Nat → String}

theorem draw_toList (lab : Nat → String) (ind : String) (n : Nat) (s : Bool) (below : List Outline) :
    (draw lab ind (mk n s below)).toList =
      (lab n).toList ++ (if s then ['*'] else []) ++ '\n' :: (drawAll lab ind below).toList := by
  cases s <;> simp [draw]

theorem drawAll_cons (lab : Nat → String) (ind : String) (t : Outline) (ts : List Outline) :
    (drawAll lab ind (t :: ts)).toList = ind.toList ++ (if ts = [] then '└' else '├') :: ' ' ::
      ((draw lab (ind ++ (if ts = [] then "  " else "│ ")) t).toList ++ (drawAll lab ind ts).toList) := by
  cases ts <;> simp [drawAll]

mutual
theorem draw_inj (t : Outline) (ht : ∀ o ∈ occ t, Tame (lab o.1)) (t' : Outline) (ht' : ∀ o ∈ occ t', Tame (lab' o.1)) (ind : String)
    {X X' : List Char} (hX : Stops ind.toList X) (hX' : Stops ind.toList X')
    (e : (draw lab ind t).toList ++ X = (draw lab' ind t').toList ++ X') :
    (occ t).map (labelled lab) = (occ t').map (labelled lab') ∧ lab t.top = lab' t'.top ∧ X = X' := by
  match t, t' with
  | mk n s below, mk n' s' below' =>
    rw [draw_toList, draw_toList, List.append_assoc, List.append_assoc _ _ X', List.cons_append, List.cons_append] at e
    simp only [occ, List.mem_cons] at ht ht'
    obtain ⟨h1, h2, h3⟩ := line_inj (ht _ (.inl rfl)) (ht' _ (.inl rfl)) e
    obtain ⟨h4, h5, h6⟩ := drawAll_inj below (fun o ho => ht o (.inr ho)) below' (fun o ho => ht' o (.inr ho)) ind hX hX' h3
    refine ⟨?_, h1, h6⟩
    simp only [occ, List.map_cons, labelled, h4, h1, h2, List.map_map]
    rw [show below.map (lab ∘ top) = below'.map (lab' ∘ top) from h5]
theorem drawAll_inj (ts : List Outline) (ht : ∀ o ∈ occAll ts, Tame (lab o.1)) (ts' : List Outline) (ht' : ∀ o ∈ occAll ts', Tame (lab' o.1))
    (ind : String) {X X' : List Char} (hX : Stops ind.toList X) (hX' : Stops ind.toList X')
    (e : (drawAll lab ind ts).toList ++ X = (drawAll lab' ind ts').toList ++ X') :
    (occAll ts).map (labelled lab) = (occAll ts').map (labelled lab') ∧ ts.map (lab ∘ top) = ts'.map (lab' ∘ top) ∧ X = X' := by
  match ts, ts' with
  | [], [] => exact ⟨rfl, rfl, by simpa [drawAll] using e⟩
  | [], t' :: ts' =>
    rw [drawAll_cons] at e
    simp only [drawAll, String.toList_empty, List.nil_append, List.append_assoc, List.cons_append] at e
    have := hX _ _ e
    split at this <;> simp at this
  | t :: ts, [] =>
    rw [drawAll_cons] at e
    simp only [drawAll, String.toList_empty, List.nil_append, List.append_assoc, List.cons_append] at e
    have := hX' _ _ e.symm
    split at this <;> simp at this
  | t :: ts, t' :: ts' =>
    rw [drawAll_cons, drawAll_cons, List.append_assoc, List.append_assoc _ _ X'] at e
    have e := List.append_cancel_left e
    simp only [List.cons_append, List.cons.injEq, true_and, List.append_assoc] at e
    obtain ⟨e1, e2⟩ := e
    have hts : ts = [] ↔ ts' = [] := by
      by_cases a : ts = [] <;> by_cases b : ts' = [] <;> simp_all
    simp only [occAll, List.mem_append] at ht ht'
    by_cases a : ts = []
    · have b := hts.1 a
      subst a b
      simp only [if_true, drawAll, String.toList_empty, List.nil_append] at e2
      obtain ⟨h1, h2, h3⟩ := draw_inj t (fun o ho => ht o (.inl ho)) t' (fun o ho => ht' o (.inl ho)) (ind ++ "  ")
        (by rw [String.toList_append]; exact hX.deeper (.inr rfl) _) (by rw [String.toList_append]; exact hX'.deeper (.inr rfl) _) e2
      exact ⟨by simp [occAll, h1], by simp [h2], h3⟩
    · have b : ts' ≠ [] := fun q => a (hts.2 q)
      rw [if_neg a, if_neg b] at e2
      have st : ∀ (lab : Nat → String) (ts : List Outline), ts ≠ [] → ∀ X, Stops (ind ++ "│ ").toList ((drawAll lab ind ts).toList ++ X) := by
        intro lab ts hts X
        match ts with
        | t :: ts =>
          rw [drawAll_cons, String.toList_append, List.append_assoc]
          refine stops_at ?_ _ _
          split <;> decide
      obtain ⟨h1, h2, h3⟩ := draw_inj t (fun o ho => ht o (.inl ho)) t' (fun o ho => ht' o (.inl ho)) (ind ++ "│ ")
        (st lab ts a X) (st lab' ts' b X') e2
      obtain ⟨h4, h5, h6⟩ := drawAll_inj ts (fun o ho => ht o (.inr ho)) ts' (fun o ho => ht' o (.inr ho)) ind hX hX' h3
      exact ⟨by simp [occAll, h1, h4], by simp only [List.map_cons, Function.comp_def, h2]; exact congrArg _ h5, h6⟩
end

theorem forest_inj (F : List Outline) (hF : ∀ o ∈ occAll F, Tame (lab o.1)) (F' : List Outline) (hF' : ∀ o ∈ occAll F', Tame (lab' o.1))
    (e : String.intercalate "\n" (F.map (draw lab "")) = String.intercalate "\n" (F'.map (draw lab' ""))) :
    (occAll F).map (labelled lab) = (occAll F').map (labelled lab') ∧ F.map (lab ∘ top) = F'.map (lab' ∘ top) := by
  have ne : ∀ (lab : Nat → String) (t : Outline) (X : List Char), (draw lab "" t).toList ++ X ≠ [] := by
    intro lab t X q
    match t with
    | mk n s below => rw [draw_toList] at q; simp at q
  have cat : ∀ (lab : Nat → String) (t : Outline) (ts : List Outline), (String.intercalate "\n" ((t :: ts).map (draw lab ""))).toList =
      (draw lab "" t).toList ++ (if ts = [] then [] else '\n' :: (String.intercalate "\n" (ts.map (draw lab ""))).toList) := by
    intro lab t ts
    cases ts with
    | nil => simp [String.intercalate_singleton]
    | cons t' ts => simp [String.intercalate_cons_cons]
  have stop : ∀ (l : List Char) (c : Prop) [Decidable c], Stops "".toList (if c then [] else '\n' :: l) := by
    intro l c _ x rest q
    split at q
    · simp at q
    · simp only [String.toList_empty, List.nil_append, List.cons.injEq] at q
      rw [← q.1]; decide
  induction F generalizing F' with
  | nil =>
    cases F' with
    | nil => exact ⟨rfl, rfl⟩
    | cons t' ts' =>
      have := congrArg String.toList e
      rw [cat] at this
      exact absurd (this.symm.trans (by simp)) (ne lab' t' _)
  | cons t ts ih =>
    cases F' with
    | nil =>
      have := congrArg String.toList e
      rw [cat] at this
      exact absurd (this.trans (by simp)) (ne lab t _)
    | cons t' ts' =>
      have q := congrArg String.toList e
      rw [cat, cat] at q
      simp only [occAll, List.mem_append] at hF hF'
      obtain ⟨h1, h2, h3⟩ := draw_inj t (fun o ho => hF o (.inl ho)) t' (fun o ho => hF' o (.inl ho)) "" (stop _ _) (stop _ _) q
      by_cases a : ts = []
      · have b : ts' = [] := by
          refine Classical.byContradiction fun b => ?_
          rw [if_pos a, if_neg b] at h3; cases h3
        subst a b
        exact ⟨by simp [occAll, h1], by simp [h2]⟩
      · have b : ts' ≠ [] := by
          intro b
          rw [if_neg a, if_pos b] at h3; cases h3
        rw [if_neg a, if_neg b] at h3
        obtain ⟨h4, h5⟩ := ih (fun o ho => hF o (.inr ho)) ts' (fun o ho => hF' o (.inr ho)) (String.toList_inj.1 (List.cons.inj h3).2)
        exact ⟨by simp [occAll, h1, h4], by simp only [List.map_cons, Function.comp_def, h2]; exact congrArg _ h5⟩

end Outline
end Verif
