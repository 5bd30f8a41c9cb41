import Verif.Lemmas.Again
import Verif.Spec.Settings
/-!
# What settings do to a single node or edge
-/
namespace Verif
open Palette W
variable {C : Type}

/-! ## Dictionaries of settings -/

section
variable [Palette C]

theorem set_shows (s : NodeStyle C) (i : NodeItem C) : i.Shows (s.set i) := by
  rcases s with ⟨c0, fill, border, text, fa, ba, ta, li, op, fo, ts, sh, ss⟩
  cases i with
  | colour c => cases fill <;> cases border <;> cases text <;> simp [NodeItem.Shows, NodeStyle.set, NodeStyle.setColour]
  | fill c => cases c <;> simp [NodeItem.Shows, NodeStyle.set, NodeStyle.setFill]
  | border c => cases c <;> simp [NodeItem.Shows, NodeStyle.set, NodeStyle.setBorder]
  | text c => cases c <;> simp [NodeItem.Shows, NodeStyle.set, NodeStyle.setText]
  | _ => simp [NodeItem.Shows, NodeStyle.set]

theorem set_keeps {s : NodeStyle C} (hs : s.Complete) {i j : NodeItem C} (hi : i.Shows s) (hj : j.attr ≠ i.attr) : i.Shows (s.set j) := by
  rcases s with ⟨c0, fill, border, text, fa, ba, ta, li, op, fo, ts, sh, ss⟩
  obtain ⟨h1, h2, h3⟩ := hs
  obtain ⟨f, rfl⟩ := Option.ne_none_iff_exists'.1 h1
  obtain ⟨b, rfl⟩ := Option.ne_none_iff_exists'.1 h2
  obtain ⟨t, rfl⟩ := Option.ne_none_iff_exists'.1 h3
  cases j with
  | fill c => cases c <;> cases i <;> simp_all [NodeItem.Shows, NodeStyle.set, NodeStyle.setFill, NodeItem.attr]
  | border c => cases c <;> cases i <;> simp_all [NodeItem.Shows, NodeStyle.set, NodeStyle.setBorder, NodeItem.attr]
  | text c => cases c <;> cases i <;> simp_all [NodeItem.Shows, NodeStyle.set, NodeStyle.setText, NodeItem.attr]
  | colour c => cases i <;> simp_all [NodeItem.Shows, NodeStyle.set, NodeStyle.setColour, NodeItem.attr]
  | _ => cases i <;> simp_all [NodeItem.Shows, NodeStyle.set, NodeItem.attr]

theorem complement_keeps {s : NodeStyle C} (hs : s.Complete) {l : List (NodeItem C)} {i : NodeItem C} (hi : i.Shows s)
    (hl : ∀ j ∈ l, j.attr ≠ i.attr) : i.Shows (s.complement l) := by
  induction l generalizing s with
  | nil => exact hi
  | cons j l ih =>
    exact ih (full_set hs j) (set_keeps hs hi (hl j (by simp))) (fun x hx => hl x (by simp [hx]))

omit [Palette C] in
theorem shows_other {s : NodeStyle C} {i : NodeItem C} (h : i.attr = .other) : i.Shows s := by
  cases i <;> simp_all [NodeItem.attr, NodeItem.Shows]

theorem complement_shows {s : NodeStyle C} (hs : s.Complete) {l : List (NodeItem C)} (hl : NodeDict l) : ∀ i ∈ l, i.Shows (s.complement l) := by
  induction l generalizing s with
  | nil => simp
  | cons j l ih =>
    obtain ⟨h1, h2⟩ := List.pairwise_cons.1 hl
    intro i hi
    rcases List.mem_cons.1 hi with rfl | hi
    · by_cases ho : i.attr = .other
      · exact shows_other ho
      · exact complement_keeps (full_set hs i) (set_shows s i) (fun x hx e => ho (h1 x hx e.symm))
    · exact ih (full_set hs j) h2 i hi

theorem recolour_eq (s : NodeStyle C) (c : C) : s.recolour c =
    ⟨c, some (lighten c (1 / 2)), some (darken c (1 / 6)), some (farthestGray (lighten c (1 / 2))), true, true, true, true,
      s.opacity, s.font, s.textSize, s.shape, s.shapeStyle⟩ := by
  rcases s with ⟨c0, fill, border, text, fa, ba, ta, li, op, fo, ts, sh, ss⟩
  have : (1 / 2 / 3 : Rat) = 1 / 6 := by decide +kernel
  cases fill <;> cases border <;> cases text <;>
    simp [NodeStyle.recolour, NodeStyle.copy, NodeStyle.resetColours, NodeStyle.setColour, NodeStyle.make, NodeStyle.setFill, NodeStyle.setBorder,
      NodeStyle.setText, differenceRatio, this]

theorem recolour_shows (s : NodeStyle C) (c : C) : ∀ i ∈ colourSettings c, i.Shows (s.recolour c) := by
  rw [recolour_eq]
  simp [colourSettings, NodeItem.Shows]

theorem recolour_keeps {s : NodeStyle C} {c : C} {i : NodeItem C} (hi : i.Shows s) (hj : ∀ j ∈ colourSettings c, j.attr ≠ i.attr) :
    i.Shows (s.recolour c) := by
  rw [recolour_eq]
  simp only [colourSettings, List.mem_cons, List.not_mem_nil, or_false, forall_eq_or_imp, forall_eq, NodeItem.attr] at hj
  cases i <;> simp_all [NodeItem.Shows]

end

theorem edge_set_shows (s : EdgeStyle C) (i : EdgeItemStyle C) : i.Shows (s.set i) := by
  rcases s with ⟨c0, text, ta, op, fo, ts, ar, ls, lw⟩
  cases i with
  | colour c => cases text <;> simp [EdgeItemStyle.Shows, EdgeStyle.set, EdgeStyle.setColour]
  | text c => cases c <;> simp [EdgeItemStyle.Shows, EdgeStyle.set, EdgeStyle.setText]
  | _ => simp [EdgeItemStyle.Shows, EdgeStyle.set]

theorem edge_set_keeps {s : EdgeStyle C} {i j : EdgeItemStyle C} (hi : i.Shows s) (hj : j.attr ≠ i.attr) : i.Shows (s.set j) := by
  rcases s with ⟨c0, text, ta, op, fo, ts, ar, ls, lw⟩
  cases j with
  | text c => cases c <;> cases i <;> simp_all [EdgeItemStyle.Shows, EdgeStyle.set, EdgeStyle.setText, EdgeItemStyle.attr]
  | colour c =>
    cases i with
    | text x =>
      cases x with
      | none => simp [EdgeItemStyle.Shows]
      | some x =>
        cases text with
        | none => simp [EdgeItemStyle.Shows] at hi
        | some t => simpa [EdgeItemStyle.Shows, EdgeStyle.set, EdgeStyle.setColour] using hi
    | _ => cases text <;> simp_all [EdgeItemStyle.Shows, EdgeStyle.set, EdgeStyle.setColour, EdgeItemStyle.attr]
  | _ => cases i <;> simp_all [EdgeItemStyle.Shows, EdgeStyle.set, EdgeItemStyle.attr]

theorem edge_complement_keeps {s : EdgeStyle C} {l : List (EdgeItemStyle C)} {i : EdgeItemStyle C} (hi : i.Shows s)
    (hl : ∀ j ∈ l, j.attr ≠ i.attr) : i.Shows (s.complement l) := by
  induction l generalizing s with
  | nil => exact hi
  | cons j l ih => exact ih (edge_set_keeps hi (hl j (by simp))) (fun x hx => hl x (by simp [hx]))

theorem edge_shows_other {s : EdgeStyle C} {i : EdgeItemStyle C} (h : i.attr = .other) : i.Shows s := by
  cases i <;> simp_all [EdgeItemStyle.attr, EdgeItemStyle.Shows]

theorem edge_complement_shows {s : EdgeStyle C} {l : List (EdgeItemStyle C)} (hl : EdgeDict l) : ∀ i ∈ l, i.Shows (s.complement l) := by
  induction l generalizing s with
  | nil => simp
  | cons j l ih =>
    obtain ⟨h1, h2⟩ := List.pairwise_cons.1 hl
    intro i hi
    rcases List.mem_cons.1 hi with rfl | hi
    · by_cases ho : i.attr = .other
      · exact edge_shows_other ho
      · exact edge_complement_keeps (s := s.set i) (l := l) (edge_set_shows s i) (fun x hx e => ho (h1 x hx e.symm))
    · exact ih h2 i hi

section
variable [Palette C]

theorem redye_eq (s : EdgeStyle C) (c : C) : s.redye c = ⟨c, some c, some true, s.opacity, s.font, s.textSize, s.arrowSize, some "below", s.lineWidth⟩ := by
  rcases s with ⟨c0, text, ta, op, fo, ts, ar, ls, lw⟩
  simp [EdgeStyle.redye, EdgeStyle.copied, EdgeStyle.make, EdgeStyle.resetColours, EdgeStyle.setColour, EdgeStyle.setText]

theorem redye_shows (s : EdgeStyle C) (c : C) : ∀ i ∈ edgeColourSettings c, i.Shows (s.redye c) := by
  rw [redye_eq]
  simp [edgeColourSettings, EdgeItemStyle.Shows]

theorem redye_keeps {s : EdgeStyle C} {c : C} {i : EdgeItemStyle C} (hi : i.Shows s) (hj : ∀ j ∈ edgeColourSettings c, j.attr ≠ i.attr) :
    i.Shows (s.redye c) := by
  rw [redye_eq]
  simp only [edgeColourSettings, List.mem_cons, List.not_mem_nil, or_false, forall_eq_or_imp, forall_eq, EdgeItemStyle.attr] at hj
  cases i <;> simp_all [EdgeItemStyle.Shows]

/-- The arguments made from settings. -/
def EdgeItemStyle.ShowsArg (a : EdgeStyleArgs C) : EdgeItemStyle C → Prop
  | .colour c => a.colour = some c
  | .text c => a.text = c
  | .opacity q => a.opacity = q
  | .font f => a.font = f
  | .textSize q => a.textSize = q
  | .arrowSize q => a.arrowSize = q
  | .labelStyle f => a.labelStyle = f
  | .lineWidth q => a.lineWidth = q
  | .other => True

theorem edge_make_shows {a : EdgeStyleArgs C} {i : EdgeItemStyle C} (hi : i.ShowsArg a) : i.Shows (EdgeStyle.make a) := by
  rcases a with ⟨c0, op, fo, text, ts, ar, ls, lw⟩
  cases i with
  | colour c => simp only [EdgeItemStyle.ShowsArg] at hi; cases text <;> simp_all [EdgeItemStyle.Shows, EdgeStyle.make, EdgeStyle.setColour, EdgeStyle.setText]
  | text c =>
    simp only [EdgeItemStyle.ShowsArg] at hi; subst hi
    cases text <;> simp [EdgeItemStyle.Shows, EdgeStyle.make, EdgeStyle.setColour, EdgeStyle.setText]
  | _ => simp_all [EdgeItemStyle.Shows, EdgeItemStyle.ShowsArg, EdgeStyle.make]

omit [Palette C] in
theorem edge_args_keep {a b : EdgeStyleArgs C} {i : EdgeItemStyle C} {l : List (EdgeItemStyle C)} (hi : i.ShowsArg a)
    (hl : ∀ j ∈ l, j.attr ≠ i.attr) (h : l.foldlM EdgeItemStyle.arg a = .ok b) : i.ShowsArg b := by
  induction l generalizing a with
  | nil => cases h; exact hi
  | cons j l ih =>
    rw [List.foldlM_cons] at h
    cases ha : j.arg a with
    | error e => rw [ha] at h; cases h
    | ok a' =>
      rw [ha] at h
      refine ih (a := a') ?_ (fun x hx => hl x (by simp [hx])) h
      have := hl j (by simp)
      cases j <;> cases ha <;> cases i <;> simp_all [EdgeItemStyle.ShowsArg, EdgeItemStyle.attr]

omit [Palette C] in
theorem edge_args_show {a b : EdgeStyleArgs C} {l : List (EdgeItemStyle C)} (hl : EdgeDict l)
    (h : l.foldlM EdgeItemStyle.arg a = .ok b) : ∀ i ∈ l, i.ShowsArg b := by
  induction l generalizing a with
  | nil => simp
  | cons j l ih =>
    obtain ⟨h1, h2⟩ := List.pairwise_cons.1 hl
    rw [List.foldlM_cons] at h
    cases ha : j.arg a with
    | error e => rw [ha] at h; cases h
    | ok a' =>
      rw [ha] at h
      intro i hi
      rcases List.mem_cons.1 hi with rfl | hi
      · by_cases ho : i.attr = .other
        · cases i <;> trivial
        · refine edge_args_keep (a := a') ?_ (fun x hx e => ho (h1 x hx e.symm)) h
          cases i <;> cases ha <;> rfl
      · exact ih h2 h i hi

theorem edge_ofItems_shows {l : List (EdgeItemStyle C)} (hl : EdgeDict l) {s : EdgeStyle C} (h : EdgeStyle.ofItems l = .ok s) : ∀ i ∈ l, i.Shows s := by
  unfold EdgeStyle.ofItems at h
  cases ha : l.foldlM EdgeItemStyle.arg { colour := some (Palette.default : C) } with
  | error e => rw [ha] at h; cases h
  | ok a =>
    rw [ha] at h
    cases h
    exact fun i hi => edge_make_shows (edge_args_show hl ha i hi)

/-! ## Folds over dictionaries -/

omit [Palette C] in
/-- Only the entry for the own name has an effect. -/
theorem fold_own {κ ν β : Type} [DecidableEq κ] {Q : κ → Except PyErr Nat} {F : ν → β → β} {l : List (κ × ν)} {k : κ} {n : Nat}
    (hn : (l.map (·.1)).Nodup) (hQ : ∀ k', Q k' = .ok n ↔ k' = k) (o : β) :
    l.foldl (fun o p => atResult (Q p.1) (F p.2) n o) o = ((dget l k).map (fun v => F v o)).getD o := by
  have skip : ∀ k', k' ≠ k → ∀ v o, atResult (Q k') (F v) n o = o := by
    intro k' hk v o
    unfold atResult
    cases hq : Q k' with
    | error e => rfl
    | ok m => exact onlyAt_ne (fun e => hk ((hQ k').1 (by rw [hq, e]))) _ _
  induction l generalizing o with
  | nil => rfl
  | cons p l ih =>
    obtain ⟨k', v⟩ := p
    simp only [List.map_cons, List.nodup_cons] at hn
    rw [List.foldl_cons, ih hn.2]
    by_cases hk : k' = k
    · subst hk
      have : dget l k' = none := by
        cases hd : dget l k' with
        | none => rfl
        | some x => exact absurd (List.mem_map_of_mem (mem_of_dget hd)) hn.1
      rw [this]
      simp [dget, atResult, (hQ k').2 rfl]
    · simp only [skip k' hk]
      simp [dget, hk]

omit [Palette C] in
/-- Every element is treated once. -/
theorem fold_once {β : Type} {f : β → β} {l : List Nat} (hl : l.Nodup) (n : Nat) (o : β) :
    l.foldl (fun o m => onlyAt m f n o) o = if n ∈ l then f o else o := by
  induction l generalizing o with
  | nil => rfl
  | cons m l ih =>
    simp only [List.nodup_cons] at hl
    rw [List.foldl_cons, ih hl.2]
    by_cases h : n = m
    · subst h; simp [hl.1]
    · simp [onlyAt_ne h, h]

omit [Palette C] in
theorem foldl_const {α β : Type} (l : List α) (o : β) : l.foldl (fun o _ => o) o = o := by
  induction l with
  | nil => rfl
  | cons a l ih => exact ih

/-! ## The steps -/

variable {h : Heap} {g : GRef}

theorem nodeStyleOverwrite_effect (p : Key × List (NodeItem C)) : Paints h (nodeStyleOverwrite g p)
    (atResult (getNode h g (.key p.1)) (Option.map (·.complement p.2))) (fun _ o => o) := by
  refine .ask (Q := getNode h g (.key p.1)) (fun w S => (S.getNode _ _).symm) fun n hn => ?_
  rw [hn]
  exact complementNode_effect

theorem nodeColourOverwrite_effect (p : Key × C) : Paints h (nodeColourOverwrite g p)
    (atResult (getNode h g (.key p.1)) (Option.map (·.recolour p.2))) (fun _ o => o) := by
  refine .ask (Q := getNode h g (.key p.1)) (fun w S => (S.getNode _ _).symm) fun n hn => ?_
  rw [hn]
  exact recolourNode_effect p.2 n

theorem edgeColourOverwrite_effect (p : EdgeId × C) : Paints h (edgeColourOverwrite g p)
    (fun _ o => o) (atResult (edgeById h g p.1) (Option.map (·.redye p.2))) := by
  refine .ask (Q := edgeById h g p.1) (fun _ S => edgeById_same S _ _) fun n hn => ?_
  rw [hn]
  exact redyeEdge_effect p.2 n

/-- The style made of settings. -/
def setEdge (l : List (EdgeItemStyle C)) (o : Option (EdgeStyle C)) : Option (EdgeStyle C) :=
  match EdgeStyle.ofItems l with
  | .ok s => some s
  | .error _ => o

/-- The style made of settings. -/
def setNode (l : List (NodeItem C)) (o : Option (NodeStyle C)) : Option (NodeStyle C) :=
  match NodeStyle.ofItems l with
  | .ok s => some s
  | .error _ => o

theorem assignEdges_effect (l : List (EdgeItemStyle C)) {ns : List ERef} (hn : ns.Nodup) : Paints h (assignEdges l ns) (fun _ o => o)
    (fun n o => if n ∈ ns then setEdge l o else o) := by
  induction ns with
  | nil => exact fun w w' O hok => Paints.nothing w w' O hok
  | cons n ns ih =>
    simp only [List.nodup_cons] at hn
    have := Paints.seq (h := h) (.checkEdge n) checkEdge_effect (Paints.ask (h := h) (q := fun _ : World C => EdgeStyle.ofItems l) (Q := EdgeStyle.ofItems l)
      (fun _ _ => rfl) (f := fun st => assignEdge n st >>= fun _ => assignEdges l ns)
      (Φ := fun _ o => o) (Ψ := fun m o => if m ∈ n :: ns then setEdge l o else o) fun st hst => ?_)
    · exact this
    · intro w w' O hok
      obtain ⟨a, b⟩ := Paints.seq (.assignEdge n (whole_ofItems hst)) assignEdge_effect (ih hn.2) w w' O hok
      refine ⟨a, fun m => ?_⟩
      rw [b m]
      by_cases e : m = n
      · subst e; simp [hn.1, setEdge, hst]
      · simp [e, onlyAt_ne e]

theorem assignNodes_effect (l : List (NodeItem C)) {ns : List NRef} (hn : ns.Nodup) : Paints h (assignNodes l ns)
    (fun n o => if n ∈ ns then setNode l o else o) (fun _ o => o) := by
  induction ns with
  | nil => exact fun w w' O hok => Paints.nothing w w' O hok
  | cons n ns ih =>
    simp only [List.nodup_cons] at hn
    have := Paints.seq (h := h) (.checkNode n) checkNode_effect (Paints.ask (h := h) (q := fun _ : World C => NodeStyle.ofItems l) (Q := NodeStyle.ofItems l)
      (fun _ _ => rfl) (f := fun st => assignNode n st >>= fun _ => assignNodes l ns)
      (Ψ := fun _ o => o) (Φ := fun m o => if m ∈ n :: ns then setNode l o else o) fun st hst => ?_)
    · exact this
    · intro w w' O hok
      obtain ⟨a, b⟩ := Paints.seq (.assignNode n (full_ofItems hst)) assignNode_effect (ih hn.2) w w' O hok
      refine ⟨fun m => ?_, b⟩
      rw [a m]
      by_cases e : m = n
      · subst e; simp [hn.1, setNode, hst]
      · simp [e, onlyAt_ne e]

theorem assignEdges_ok {l : List (EdgeItemStyle C)} {n : ERef} {ns : List ERef} (hn : n ∈ ns) {w w' : World C}
    (hok : assignEdges l ns w = (.ok (), w')) : ∃ st, EdgeStyle.ofItems l = .ok st := by
  cases ns with
  | nil => simp at hn
  | cons m ns =>
    unfold assignEdges at hok
    obtain ⟨w1, h1, h2⟩ := seq_ok hok
    cases hs : EdgeStyle.ofItems l with
    | ok st => exact ⟨st, rfl⟩
    | error e => rw [bind_apply, ask_apply, hs] at h2; cases h2

theorem assignNodes_ok {l : List (NodeItem C)} {n : NRef} {ns : List NRef} (hn : n ∈ ns) {w w' : World C}
    (hok : assignNodes l ns w = (.ok (), w')) : ∃ st, NodeStyle.ofItems l = .ok st := by
  cases ns with
  | nil => simp at hn
  | cons m ns =>
    unfold assignNodes at hok
    obtain ⟨w1, h1, h2⟩ := seq_ok hok
    cases hs : NodeStyle.ofItems l with
    | ok st => exact ⟨st, rfl⟩
    | error e => rw [bind_apply, ask_apply, hs] at h2; cases h2

theorem edgeStyleOverwrite_effect (p : EdgeId × List (EdgeItemStyle C)) : Paints h (edgeStyleOverwrite g p)
    (fun _ o => o) (atResult (edgeById h g p.1) (setEdge p.2)) := by
  refine .ask (Q := edgeById h g p.1) (fun _ S => edgeById_same S _ _) fun n hn => ?_
  rw [hn]
  intro w w' O hok
  obtain ⟨a, b⟩ := assignEdges_effect p.2 (ns := [n]) (by simp) w w' O hok
  refine ⟨a, fun m => ?_⟩
  rw [b m]
  simp [atResult, onlyAt]

/-- The global style as it is used. -/
def globalItems (h : Heap) (g : GRef) (l : List (NodeItem C)) : List (NodeItem C) :=
  match smartStyle h g l with
  | .ok l' => l'
  | .error _ => l

theorem globalNodeComplement_effect (hnd : (graphNodes h g).Nodup) (l : List (NodeItem C)) : Paints h (globalNodeComplement g (some l))
    (fun n o => if n ∈ graphNodes h g then o.map (·.complement (globalItems h g l)) else o) (fun _ o => o) := by
  refine .ask (Q := smartStyle h g l) (fun w S => smartStyle_same S g l) fun l' hl => ?_
  refine .ask (q := fun w => .ok (graphNodes w.heap g)) (Q := .ok (graphNodes h g)) (fun w S => by rw [S.graphNodes]) fun ns hns => ?_
  cases hns
  intro w w' O hok
  obtain ⟨a, b⟩ := Paints.forEach (graphNodes h g) (.complementNode l') (fun n => complementNode_effect) w w' O hok
  refine ⟨fun n => ?_, fun e => ?_⟩
  · refine (a n).trans ?_
    simp only [globalItems, hl]
    exact fold_once hnd n _
  · exact (b e).trans (foldl_const _ _)

omit [Palette C] in
theorem globalEdgeComplement_effect {es : List ERef} (hes : graphEdges h g = .ok es) (hnd : es.Nodup) (l : List (EdgeItemStyle C)) :
    Paints h (globalEdgeComplement g (some l)) (fun _ o => o)
    (fun n o => if n ∈ es then o.map (·.complement l) else o) := by
  refine .ask (Q := .ok es) (fun w S => by rw [← S.graphEdges, hes]) fun ns hns => ?_
  cases hns
  intro w w' O hok
  obtain ⟨a, b⟩ := Paints.forEach es (.complementEdge l) (fun n => complementEdge_effect) w w' O hok
  refine ⟨fun n => ?_, fun e => ?_⟩
  · exact (a n).trans (foldl_const _ _)
  · exact (b e).trans (fold_once hnd e _)

theorem globalNodeAssign_effect (hnd : (graphNodes h g).Nodup) (l : List (NodeItem C)) : Paints h (globalNodeAssign g (some l))
    (fun n o => if n ∈ graphNodes h g then setNode (globalItems h g l) o else o) (fun _ o => o) := by
  refine .ask (Q := smartStyle h g l) (fun w S => smartStyle_same S g l) fun l' hl => ?_
  refine .ask (q := fun w => .ok (graphNodes w.heap g)) (Q := .ok (graphNodes h g)) (fun w S => by rw [S.graphNodes]) fun ns hns => ?_
  cases hns
  simp only [globalItems, hl]
  exact assignNodes_effect l' hnd

theorem globalEdgeAssign_effect {es : List ERef} (hes : graphEdges h g = .ok es) (hnd : es.Nodup) (l : List (EdgeItemStyle C)) :
    Paints h (globalEdgeAssign g (some l)) (fun _ o => o) (fun n o => if n ∈ es then setEdge l o else o) := by
  refine .ask (Q := .ok es) (fun w S => by rw [← S.graphEdges, hes]) fun ns hns => ?_
  cases hns
  exact assignEdges_effect l hnd

/-! ## What success needs -/

omit [Palette C] in
theorem forEach_mem {α : Type} {f : α → W C Unit} (sf : ∀ a, Silent (f a)) {l : List α} {w w' : World C} (F : Fine w)
    (hok : forEach f l w = (.ok (), w')) {a : α} (ha : a ∈ l) : ∃ w1 w2, Quiet w w1 ∧ f a w1 = (.ok (), w2) ∧ Quiet w2 w' := by
  induction l generalizing w with
  | nil => simp at ha
  | cons b l ih =>
    obtain ⟨w1, h1, h2⟩ := seq_ok hok
    have q1 := (sf b).quiet F h1
    rcases List.mem_cons.1 ha with rfl | ha
    · exact ⟨w, w1, .refl F, h1, (Silent.forEach sf l).quiet q1.fine h2⟩
    · obtain ⟨v1, v2, a1, a2, a3⟩ := ih q1.fine h2 ha
      exact ⟨v1, v2, q1.trans a1, a2, a3⟩

theorem complementNode_needs {l : List (NodeItem C)} {n : NRef} {w w' : World C} (hok : complementNode l n w = (.ok (), w')) : nodeLook w n ≠ none := by
  simp only [complementNode, W.bind_apply, look_apply] at hok
  intro h1
  rw [nodeLook_none] at h1
  rw [h1] at hok; cases hok

omit [Palette C] in
theorem complementEdge_needs {l : List (EdgeItemStyle C)} {n : ERef} {w w' : World C} (hok : complementEdge l n w = (.ok (), w')) : edgeLook w n ≠ none := by
  simp only [complementEdge, W.bind_apply, look_apply] at hok
  intro h1
  rw [edgeLook_none] at h1
  rw [h1] at hok; cases hok

theorem recolourNode_needs {c : C} {n : NRef} {w w' : World C} (hok : recolourNode c n w = (.ok (), w')) : nodeLook w n ≠ none := by
  simp only [recolourNode, W.bind_apply, look_apply] at hok
  intro h1
  rw [nodeLook_none] at h1
  rw [h1] at hok; cases hok

theorem redyeEdge_needs {c : C} {n : ERef} {w w' : World C} (hok : redyeEdge c n w = (.ok (), w')) : edgeLook w n ≠ none := by
  simp only [redyeEdge, W.bind_apply, look_apply] at hok
  intro h1
  rw [edgeLook_none] at h1
  rw [h1] at hok; cases hok

/-! ## The shape of the global style -/

omit [Palette C] in
theorem shapeOf_none {l : List (NodeItem C)} (h : shapeOf l = none) : ∀ y, NodeItem.shape y ∉ l := by
  induction l with
  | nil => simp
  | cons i l ih => cases i <;> simp_all [shapeOf]

omit [Palette C] in
theorem shapeOf_some {l : List (NodeItem C)} (hl : NodeDict l) {x : Option String} (h : shapeOf l = some x) :
    ∀ y, NodeItem.shape y ∈ l → y = x := by
  induction l with
  | nil => simp
  | cons i l ih =>
    obtain ⟨h1, h2⟩ := List.pairwise_cons.1 hl
    intro y hy
    cases i with
    | shape z =>
      simp only [shapeOf, Option.some.injEq] at h
      rcases List.mem_cons.1 hy with e | hy
      · cases e; exact h
      · exact absurd (h1 _ hy rfl) (by simp [NodeItem.attr])
    | _ =>
      simp only [shapeOf] at h
      rcases List.mem_cons.1 hy with e | hy
      · cases e
      · exact ih h2 h y hy

omit [Palette C] in
theorem smartStyle_shape {l l' : List (NodeItem C)} (hl : NodeDict l) (h1 : smartStyle h g l = .ok l') : l' = l.map (autoShape h g) := by
  unfold smartStyle at h1
  have keep : ∀ {l : List (NodeItem C)}, (∀ i ∈ l, autoShape h g i = i) → l = l.map (autoShape h g) := by
    intro l hl; rw [List.map_congr_left hl]; simp
  have short : (graphNodes h g).all (fun n => decide ((h.node n).id.toStr.length < 3)) = true ↔ ShortNames h g := by
    simp [ShortNames]
  cases hs : shapeOf l with
  | none =>
    rw [hs] at h1
    cases h1
    refine keep fun i hi => ?_
    cases i with
    | shape y => exact absurd hi (shapeOf_none hs y)
    | _ => rfl
  | some x =>
    have key := shapeOf_some hl hs
    rw [hs] at h1
    cases x with
    | none => cases h1
    | some s =>
      simp only at h1
      split at h1
      · next ha =>
        split at h1
        · cases h1
        · split at h1
          · next hsh =>
            cases h1
            refine List.map_congr_left fun i hi => ?_
            cases i with
            | shape y =>
              have := key y hi
              subst this
              simp only [autoShape]; rw [if_pos ⟨ha, short.1 hsh⟩]
            | _ => rfl
          · next hsh =>
            cases h1
            refine keep fun i hi => ?_
            cases i with
            | shape y =>
              have := key y hi
              subst this
              simp [autoShape, mt short.2 hsh]
            | _ => rfl
      · next ha =>
        cases h1
        refine keep fun i hi => ?_
        cases i with
        | shape y =>
          have := key y hi
          subst this
          simp only [autoShape]; rw [if_neg fun hh => ha hh.1]
        | _ => rfl

omit [Palette C] in
theorem autoShape_attr (i : NodeItem C) : (autoShape h g i).attr = i.attr := by
  cases i with
  | shape y =>
    cases y with
    | none => rfl
    | some y => simp only [autoShape]; split <;> rfl
  | _ => rfl

omit [Palette C] in
theorem autoShape_dict {l : List (NodeItem C)} (hl : NodeDict l) : NodeDict (l.map (autoShape h g)) := by
  refine List.pairwise_map.2 (hl.imp fun {a b} hab => ?_)
  simpa only [autoShape_attr] using hab

/-! ## The final styles -/

/-- The settings of a single node, then its colour, then the settings for all nodes. -/
def settleNode (h : Heap) (g : GRef) (d : Display C) (k : Key) (s : NodeStyle C) : NodeStyle C :=
  let s1 := s.complement ((dget d.nodeStyles k).getD [])
  let s2 := ((dget d.nodeColours k).map (s1.recolour ·)).getD s1
  s2.complement (globalNodeSettings h g d)

theorem settleNode_prevail {d : Display C} {k : Key} {s : NodeStyle C} (hs : s.Complete)
    (h1 : ∀ l, d.globalNode = some l → NodeDict l) (h2 : ∀ l, dget d.nodeStyles k = some l → NodeDict l) :
    NodePrevail (nodeSettings h g d k) (settleNode h g d k s) := by
  have c1 : (s.complement ((dget d.nodeStyles k).getD [])).Complete := full_complement hs _
  have d1 : NodeDict ((dget d.nodeStyles k).getD []) := by
    cases hk : dget d.nodeStyles k with
    | none => exact .nil
    | some l => exact h2 l hk
  have d2 : NodeDict (globalNodeSettings h g d) := by
    unfold globalNodeSettings
    cases hk : d.globalNode with
    | none => exact .nil
    | some l => exact autoShape_dict (h1 l hk)
  have c2 : (((dget d.nodeColours k).map ((s.complement ((dget d.nodeStyles k).getD [])).recolour ·)).getD (s.complement ((dget d.nodeStyles k).getD []))).Complete := by
    cases dget d.nodeColours k with
    | none => exact c1
    | some c => exact full_recolour _ _
  intro A l B hsplit i hi hA
  simp only [nodeSettings] at hsplit
  unfold settleNode
  simp only
  match A, hsplit with
  | [], hsplit =>
    simp only [List.nil_append, List.cons.injEq] at hsplit
    obtain ⟨rfl, -⟩ := hsplit
    exact complement_shows c2 d2 i hi
  | [a], hsplit =>
    simp only [List.cons_append, List.nil_append, List.cons.injEq] at hsplit
    obtain ⟨rfl, rfl, -⟩ := hsplit
    refine complement_keeps c2 ?_ (hA _ (by simp))
    cases hc : dget d.nodeColours k with
    | none => simp [hc] at hi
    | some c => simp only [hc, Option.map_some, Option.getD_some] at hi ⊢; exact recolour_shows _ c i hi
  | [a, b], hsplit =>
    simp only [List.cons_append, List.nil_append, List.cons.injEq] at hsplit
    obtain ⟨rfl, rfl, rfl, -⟩ := hsplit
    refine complement_keeps c2 ?_ (hA _ (by simp))
    have hi' := complement_shows hs d1 i hi
    have hb := hA _ (List.mem_cons_of_mem _ (List.mem_cons_self ..))
    cases hc : dget d.nodeColours k with
    | none => exact hi'
    | some c => rw [hc] at hb; exact recolour_keeps hi' hb
  | a :: b :: c :: A, hsplit => simp at hsplit

/-- The settings of a single edge replace its style; then its colour, then the settings for all edges. -/
def settleEdge (d : Display C) (i : EdgeId) (o : Option (EdgeStyle C)) : Option (EdgeStyle C) :=
  let o1 := ((dget d.edgeStyles i).map (fun l => setEdge l o)).getD o
  let o2 := ((dget d.edgeColours i).map (fun c => o1.map (·.redye c))).getD o1
  o2.map (·.complement (d.globalEdge.getD []))

theorem settleEdge_prevail {d : Display C} {k : EdgeId} {o : Option (EdgeStyle C)} {t : EdgeStyle C} (ht : settleEdge d k o = some t)
    (h1 : ∀ l, d.globalEdge = some l → EdgeDict l) (h2 : ∀ l, dget d.edgeStyles k = some l → EdgeDict l ∧ ∃ s, EdgeStyle.ofItems l = .ok s) :
    EdgePrevail (edgeSettings d k) t := by
  have d2 : EdgeDict (d.globalEdge.getD []) := by
    cases hk : d.globalEdge with
    | none => exact .nil
    | some l => exact h1 l hk
  unfold settleEdge at ht
  simp only [Option.map_eq_some_iff] at ht
  obtain ⟨s2, e2, rfl⟩ := ht
  have hs2 : ∀ i ∈ (dget d.edgeStyles k).getD [], (∀ j ∈ ((dget d.edgeColours k).map edgeColourSettings).getD [], j.attr ≠ i.attr) → i.Shows s2 := by
    cases hk : dget d.edgeStyles k with
    | none => simp
    | some l =>
      obtain ⟨hl, s, hs⟩ := h2 l hk
      intro i hi hj
      have hi' := edge_ofItems_shows hl hs i hi
      rw [hk] at e2
      simp only [Option.map_some, Option.getD_some, setEdge, hs] at e2
      cases hc : dget d.edgeColours k with
      | none => rw [hc] at e2; cases e2; exact hi'
      | some c => rw [hc] at e2 hj; cases e2; exact redye_keeps hi' hj
  intro A l B hsplit i hi hA
  simp only [edgeSettings] at hsplit
  match A, hsplit with
  | [], hsplit =>
    simp only [List.nil_append, List.cons.injEq] at hsplit
    obtain ⟨rfl, -⟩ := hsplit
    exact edge_complement_shows d2 i hi
  | [a], hsplit =>
    simp only [List.cons_append, List.nil_append, List.cons.injEq] at hsplit
    obtain ⟨rfl, rfl, -⟩ := hsplit
    refine edge_complement_keeps ?_ (hA _ (by simp))
    cases hc : dget d.edgeColours k with
    | none => simp [hc] at hi
    | some c =>
      simp only [hc, Option.map_some, Option.getD_some, Option.map_eq_some_iff] at hi e2
      obtain ⟨s1, -, rfl⟩ := e2
      exact redye_shows _ c i hi
  | [a, b], hsplit =>
    simp only [List.cons_append, List.nil_append, List.cons.injEq] at hsplit
    obtain ⟨rfl, rfl, rfl, -⟩ := hsplit
    exact edge_complement_keeps (hs2 i hi (hA _ (List.mem_cons_of_mem _ (List.mem_cons_self ..)))) (hA _ (by simp))
  | a :: b :: c :: A, hsplit => simp at hsplit

/-- What `after` makes of a node. -/
theorem after_node {d : Display C} {n : NRef} {k : Key} {w w' : World C} (O : Okay h w) (hok : after g d w = (.ok (), w'))
    (hnd : (graphNodes h g).Nodup) (hn : n ∈ graphNodes h g) (hQ : ∀ k', getNode h g (.key k') = .ok n ↔ k' = k)
    (k1 : (d.nodeStyles.map (·.1)).Nodup) (k2 : (d.nodeColours.map (·.1)).Nodup) (h1 : ∀ l, d.globalNode = some l → NodeDict l) :
    nodeLook w' n = (nodeLook w n).map (settleNode h g d k) ∧
    ((d.globalNode ≠ none ∨ dget d.nodeColours k ≠ none ∨ dget d.nodeStyles k ≠ none) → nodeLook w' n ≠ none) := by
  obtain ⟨w1, a1, hok⟩ := seq_ok hok
  obtain ⟨w2, a2, hok⟩ := seq_ok hok
  obtain ⟨w3, a3, hok⟩ := seq_ok hok
  obtain ⟨w4, a4, hok⟩ := seq_ok hok
  obtain ⟨w5, a5, a6⟩ := seq_ok hok
  have q1 := (Silent.forEach (.nodeStyleOverwrite g) _).quiet O.fine a1
  have q2 := (Silent.forEach (.edgeStyleOverwrite g) _).quiet q1.fine a2
  have q3 := (Silent.forEach (.nodeColourOverwrite g) _).quiet q2.fine a3
  have q4 := (Silent.forEach (.edgeColourOverwrite g) _).quiet q3.fine a4
  have q5 := (Silent.globalNodeComplement _ _).quiet q4.fine a5
  have q6 := (Silent.globalEdgeComplement _ _).quiet q5.fine a6
  have O1 := O.quiet q1
  have O2 := O1.quiet q2
  have O3 := O2.quiet q3
  have O4 := O3.quiet q4
  have O5 := O4.quiet q5
  have e1 : nodeLook w1 n = (nodeLook w n).map (·.complement ((dget d.nodeStyles k).getD [])) := by
    refine ((Paints.forEach d.nodeStyles (.nodeStyleOverwrite g) (nodeStyleOverwrite_effect (h := h)) w w1 O a1).1 n).trans ?_
    refine (fold_own (F := fun v => Option.map (fun s : NodeStyle C => s.complement v)) k1 hQ _).trans ?_
    cases dget d.nodeStyles k with
    | none => simp [NodeStyle.complement]
    | some l => rfl
  have e2 : nodeLook w2 n = nodeLook w1 n :=
    ((Paints.forEach d.edgeStyles (.edgeStyleOverwrite g) (edgeStyleOverwrite_effect (h := h)) w1 w2 O1 a2).1 n).trans (foldl_const _ _)
  have e3 : nodeLook w3 n = ((dget d.nodeColours k).map fun c => (nodeLook w2 n).map (·.recolour c)).getD (nodeLook w2 n) := by
    refine ((Paints.forEach d.nodeColours (.nodeColourOverwrite g) (nodeColourOverwrite_effect (h := h)) w2 w3 O2 a3).1 n).trans ?_
    exact fold_own (F := fun v => Option.map (fun s : NodeStyle C => s.recolour v)) k2 hQ _
  have e4 : nodeLook w4 n = nodeLook w3 n :=
    ((Paints.forEach d.edgeColours (.edgeColourOverwrite g) (edgeColourOverwrite_effect (h := h)) w3 w4 O3 a4).1 n).trans (foldl_const _ _)
  have e5 : nodeLook w5 n = (nodeLook w4 n).map (·.complement (globalNodeSettings h g d)) ∧ (d.globalNode ≠ none → nodeLook w4 n ≠ none) := by
    unfold globalNodeSettings
    cases hg : d.globalNode with
    | none =>
      rw [hg] at a5
      cases a5
      simp [NodeStyle.complement]
    | some l =>
      rw [hg] at a5
      constructor
      · rw [(globalNodeComplement_effect hnd l w4 w5 O4 a5).1 n]
        simp only [hn, if_true, Option.getD_some, globalItems]
        cases hs : smartStyle h g l with
        | ok l' => rw [smartStyle_shape (h1 l hg) hs]
        | error e =>
          rw [globalNodeComplement, ask_cases (fun w S => smartStyle_same S g l) _ O4.body, hs] at a5
          cases a5
      · intro _
        rw [globalNodeComplement, ask_cases (fun w S => smartStyle_same S g l) _ O4.body] at a5
        cases hs : smartStyle h g l with
        | error e => rw [hs] at a5; cases a5
        | ok l' =>
          rw [hs] at a5
          simp only [W.bind_apply, look_apply] at a5
          obtain ⟨v1, v2, b1, b2, b3⟩ := forEach_mem (.complementNode l') O4.fine a5 (a := n) (by rw [← O4.body.graphNodes]; exact hn)
          have := complementNode_needs b2
          intro hno
          rw [← O4.body.graphNodes g] at a5
          have := (Paints.forEach (h := h) (graphNodes h g) (.complementNode l') (fun n => complementNode_effect) w4 w5 O4 a5).1 n
          rw [hno] at this
          have e : nodeLook w5 n = none := by
            refine this.trans ?_
            refine (fold_once (f := Option.map (fun s : NodeStyle C => s.complement l')) hnd n none).trans ?_
            simp
          exact b3.nodes n ((Silent.complementNode l' n).quiet b1.fine b2 |>.nodes n ‹_›) e
  have e6 : nodeLook w' n = nodeLook w5 n := by
    cases hg : d.globalEdge with
    | none => rw [hg] at a6; cases a6; rfl
    | some l =>
      rw [hg] at a6
      cases hes : graphEdges h g with
      | error e => rw [globalEdgeComplement, ask_cases (fun w S => (S.graphEdges g).symm) _ O5.body, hes] at a6; cases a6
      | ok es =>
        rw [globalEdgeComplement, ask_cases (fun w S => (S.graphEdges g).symm) _ O5.body, hes] at a6
        exact ((Paints.forEach (h := h) es (.complementEdge l) (fun n => complementEdge_effect) w5 w' O5 a6).1 n).trans (foldl_const _ _)
  refine ⟨?_, ?_⟩
  · rw [e6, e5.1, e4, e3, e2, e1]
    cases nodeLook w n with
    | none => cases dget d.nodeColours k <;> rfl
    | some s => cases hc : dget d.nodeColours k <;> simp [settleNode, hc]
  · rintro (hg | hc | hs)
    · exact q6.nodes n (q5.nodes n (e5.2 hg))
    · obtain ⟨c, hc⟩ := Option.ne_none_iff_exists'.1 hc
      obtain ⟨v1, v2, b1, b2, b3⟩ := forEach_mem (.nodeColourOverwrite g) O2.fine a3 (mem_of_dget hc)
      have O' := O2.quiet b1
      have b2' := b2
      rw [show nodeColourOverwrite g (k, c) = (W.ask (fun w => getNode w.heap g (.key k)) >>= recolourNode c) from rfl,
        ask_cases (fun w S => (S.getNode _ _).symm) _ O'.body, (hQ k).2 rfl] at b2
      have := recolourNode_needs b2
      exact q6.nodes n (q5.nodes n (q4.nodes n (b3.nodes n ((Silent.nodeColourOverwrite g (k, c)).quiet b1.fine b2' |>.nodes n this))))
    · obtain ⟨l, hl⟩ := Option.ne_none_iff_exists'.1 hs
      obtain ⟨v1, v2, b1, b2, b3⟩ := forEach_mem (.nodeStyleOverwrite g) O.fine a1 (mem_of_dget hl)
      have O' := O.quiet b1
      have b2' := b2
      rw [show nodeStyleOverwrite g (k, l) = (W.ask (fun w => getNode w.heap g (.key k)) >>= complementNode l) from rfl,
        ask_cases (fun w S => (S.getNode _ _).symm) _ O'.body, (hQ k).2 rfl] at b2
      have := complementNode_needs b2
      exact q6.nodes n (q5.nodes n (q4.nodes n (q3.nodes n (q2.nodes n (b3.nodes n ((Silent.nodeStyleOverwrite g (k, l)).quiet b1.fine b2' |>.nodes n this))))))

/-- What `after` makes of an edge. -/
theorem after_edge {d : Display C} {n : ERef} {k : EdgeId} {w w' : World C} (O : Okay h w) (hok : after g d w = (.ok (), w'))
    {es : List ERef} (hes : graphEdges h g = .ok es) (hnd : es.Nodup) (hn : n ∈ es) (hQ : ∀ k', edgeById h g k' = .ok n ↔ k' = k)
    (k1 : (d.edgeStyles.map (·.1)).Nodup) (k2 : (d.edgeColours.map (·.1)).Nodup) :
    edgeLook w' n = settleEdge d k (edgeLook w n) ∧
    ((d.globalEdge ≠ none ∨ dget d.edgeColours k ≠ none ∨ dget d.edgeStyles k ≠ none) → edgeLook w' n ≠ none) ∧
    (∀ l, dget d.edgeStyles k = some l → ∃ s, EdgeStyle.ofItems l = .ok s) := by
  obtain ⟨w1, a1, hok⟩ := seq_ok hok
  obtain ⟨w2, a2, hok⟩ := seq_ok hok
  obtain ⟨w3, a3, hok⟩ := seq_ok hok
  obtain ⟨w4, a4, hok⟩ := seq_ok hok
  obtain ⟨w5, a5, a6⟩ := seq_ok hok
  have q1 := (Silent.forEach (.nodeStyleOverwrite g) _).quiet O.fine a1
  have q2 := (Silent.forEach (.edgeStyleOverwrite g) _).quiet q1.fine a2
  have q3 := (Silent.forEach (.nodeColourOverwrite g) _).quiet q2.fine a3
  have q4 := (Silent.forEach (.edgeColourOverwrite g) _).quiet q3.fine a4
  have q5 := (Silent.globalNodeComplement _ _).quiet q4.fine a5
  have q6 := (Silent.globalEdgeComplement _ _).quiet q5.fine a6
  have O1 := O.quiet q1
  have O2 := O1.quiet q2
  have O3 := O2.quiet q3
  have O4 := O3.quiet q4
  have O5 := O4.quiet q5
  have ok1 : ∀ l, dget d.edgeStyles k = some l → ∃ s, EdgeStyle.ofItems l = .ok s := by
    intro l hl
    obtain ⟨v1, v2, b1, b2, b3⟩ := forEach_mem (.edgeStyleOverwrite g) O1.fine a2 (mem_of_dget hl)
    rw [show edgeStyleOverwrite g (k, l) = (W.ask (fun w => edgeById w.heap g k) >>= fun e => assignEdges l [e]) from rfl,
      ask_cases (fun w S => edgeById_same S _ _) _ (O1.quiet b1).body, (hQ k).2 rfl] at b2
    exact assignEdges_ok (List.mem_singleton.2 rfl) b2
  have e1 : edgeLook w1 n = edgeLook w n :=
    ((Paints.forEach d.nodeStyles (.nodeStyleOverwrite g) (nodeStyleOverwrite_effect (h := h)) w w1 O a1).2 n).trans (foldl_const _ _)
  have e2 : edgeLook w2 n = ((dget d.edgeStyles k).map fun l => setEdge l (edgeLook w1 n)).getD (edgeLook w1 n) := by
    refine ((Paints.forEach d.edgeStyles (.edgeStyleOverwrite g) (edgeStyleOverwrite_effect (h := h)) w1 w2 O1 a2).2 n).trans ?_
    exact fold_own (F := setEdge) k1 hQ _
  have e3 : edgeLook w3 n = edgeLook w2 n :=
    ((Paints.forEach d.nodeColours (.nodeColourOverwrite g) (nodeColourOverwrite_effect (h := h)) w2 w3 O2 a3).2 n).trans (foldl_const _ _)
  have e4 : edgeLook w4 n = ((dget d.edgeColours k).map fun c => (edgeLook w3 n).map (·.redye c)).getD (edgeLook w3 n) := by
    refine ((Paints.forEach d.edgeColours (.edgeColourOverwrite g) (edgeColourOverwrite_effect (h := h)) w3 w4 O3 a4).2 n).trans ?_
    exact fold_own (F := fun v => Option.map (fun s : EdgeStyle C => s.redye v)) k2 hQ _
  have e5 : edgeLook w5 n = edgeLook w4 n := by
    cases hg : d.globalNode with
    | none => rw [hg] at a5; cases a5; rfl
    | some l =>
      rw [hg, globalNodeComplement, ask_cases (fun w S => smartStyle_same S g l) _ O4.body] at a5
      cases hs : smartStyle h g l with
      | error e => rw [hs] at a5; cases a5
      | ok l' =>
        rw [hs] at a5
        simp only [W.bind_apply, look_apply] at a5
        exact ((Paints.forEach (h := h) _ (.complementNode l') (fun n => complementNode_effect) w4 w5 O4 a5).2 n).trans (foldl_const _ _)
  have e6 : edgeLook w' n = (edgeLook w5 n).map (·.complement (d.globalEdge.getD [])) ∧ (d.globalEdge ≠ none → edgeLook w' n ≠ none) := by
    cases hg : d.globalEdge with
    | none =>
      rw [hg] at a6
      cases a6
      simp [EdgeStyle.complement]
    | some l =>
      rw [hg] at a6
      constructor
      · rw [(globalEdgeComplement_effect hes hnd l w5 w' O5 a6).2 n]
        simp [hn]
      · intro _
        rw [globalEdgeComplement, ask_cases (fun w S => (S.graphEdges g).symm) _ O5.body, hes] at a6
        obtain ⟨v1, v2, b1, b2, b3⟩ := forEach_mem (.complementEdge l) O5.fine a6 hn
        exact b3.edges n ((Silent.complementEdge l n).quiet b1.fine b2 |>.edges n (complementEdge_needs b2))
  have look : edgeLook w' n = settleEdge d k (edgeLook w n) := by
    rw [e6.1, e5, e4, e3, e2, e1]
    rfl
  refine ⟨look, ?_, ok1⟩
  rintro (hg | hc | hs)
  · exact e6.2 hg
  · obtain ⟨c, hc⟩ := Option.ne_none_iff_exists'.1 hc
    obtain ⟨v1, v2, b1, b2, b3⟩ := forEach_mem (.edgeColourOverwrite g) O3.fine a4 (mem_of_dget hc)
    have b2' := b2
    rw [show edgeColourOverwrite g (k, c) = (W.ask (fun w => edgeById w.heap g k) >>= redyeEdge c) from rfl,
      ask_cases (fun w S => edgeById_same S _ _) _ (O3.quiet b1).body, (hQ k).2 rfl] at b2
    have := redyeEdge_needs b2
    exact q6.edges n (q5.edges n (b3.edges n ((Silent.edgeColourOverwrite g (k, c)).quiet b1.fine b2' |>.edges n this)))
  · obtain ⟨l, hl⟩ := Option.ne_none_iff_exists'.1 hs
    obtain ⟨s, hs⟩ := ok1 l hl
    have : edgeLook w2 n ≠ none := by rw [e2, hl]; simp [setEdge, hs]
    exact q6.edges n (q5.edges n (q4.edges n (q3.edges n this)))

end
end Verif
