import Verif.Lemmas.Replay
/-!
# Styling once more: what the steps do to a style
-/
namespace Verif
open Palette W
variable {C : Type}

/-! ## Functions that make no difference the second time -/

/-- New values for some attributes of a node style. -/
structure NodePatch (C : Type) where
  colour : Option C := none
  fill : Option C := none
  border : Option C := none
  text : Option C := none
  fillAuto : Option Bool := none
  borderAuto : Option Bool := none
  textAuto : Option Bool := none
  lighter : Option Bool := none
  opacity : Option (Option Rat) := none
  font : Option (Option String) := none
  textSize : Option (Option Rat) := none
  shape : Option (Option String) := none
  shapeStyle : Option (Option String) := none

namespace NodePatch

def apply (p : NodePatch C) (s : NodeStyle C) : NodeStyle C :=
  { colour := p.colour.getD s.colour, fill := p.fill <|> s.fill, border := p.border <|> s.border, text := p.text <|> s.text,
    fillAuto := p.fillAuto.getD s.fillAuto, borderAuto := p.borderAuto.getD s.borderAuto, textAuto := p.textAuto.getD s.textAuto,
    lighter := p.lighter.getD s.lighter, opacity := p.opacity.getD s.opacity, font := p.font.getD s.font,
    textSize := p.textSize.getD s.textSize, shape := p.shape.getD s.shape, shapeStyle := p.shapeStyle.getD s.shapeStyle }

/-- First `p`, then `q`. -/
def next (p q : NodePatch C) : NodePatch C :=
  { colour := q.colour <|> p.colour, fill := q.fill <|> p.fill, border := q.border <|> p.border, text := q.text <|> p.text,
    fillAuto := q.fillAuto <|> p.fillAuto, borderAuto := q.borderAuto <|> p.borderAuto, textAuto := q.textAuto <|> p.textAuto,
    lighter := q.lighter <|> p.lighter, opacity := q.opacity <|> p.opacity, font := q.font <|> p.font,
    textSize := q.textSize <|> p.textSize, shape := q.shape <|> p.shape, shapeStyle := q.shapeStyle <|> p.shapeStyle }

theorem getD_orElse {α : Type} (a b : Option α) (x : α) : (a <|> b).getD x = a.getD (b.getD x) := by cases a <;> rfl

theorem orElse_orElse {α : Type} (a b c : Option α) : ((a <|> b) <|> c) = (a <|> (b <|> c)) := by cases a <;> rfl

theorem apply_next (p q : NodePatch C) (s : NodeStyle C) : (p.next q).apply s = q.apply (p.apply s) := by
  simp only [apply, next, getD_orElse, orElse_orElse]

theorem apply_apply (p : NodePatch C) (s : NodeStyle C) : p.apply (p.apply s) = p.apply s := by
  rw [← apply_next]
  congr 1
  rcases p with ⟨a, b, c, d, e, f, g, h, i, j, k, l, m⟩
  simp only [next, NodePatch.mk.injEq]
  refine ⟨?_, ?_, ?_, ?_, ?_, ?_, ?_, ?_, ?_, ?_, ?_, ?_, ?_⟩ <;> (first | (cases a; rfl; rfl) | skip)
  all_goals first
    | (cases b; rfl; rfl)
    | (cases c; rfl; rfl)
    | (cases d; rfl; rfl)
    | (cases e; rfl; rfl)
    | (cases f; rfl; rfl)
    | (cases g; rfl; rfl)
    | (cases h; rfl; rfl)
    | (cases i; rfl; rfl)
    | (cases j; rfl; rfl)
    | (cases k; rfl; rfl)
    | (cases l; rfl; rfl)
    | (cases m; rfl; rfl)

theorem full {p : NodePatch C} {s : NodeStyle C} (h : s.Complete) : (p.apply s).Complete := by
  obtain ⟨h1, h2, h3⟩ := h
  constructor
  · simp only [apply]; cases p.fill <;> simp [h1]
  · simp only [apply]; cases p.border <;> simp [h2]
  · simp only [apply]; cases p.text <;> simp [h3]

end NodePatch

/-- If there is a style, all its colours are set. -/
def FullO (o : Option (NodeStyle C)) : Prop := ∀ s, o = some s → s.Complete

/-- Sets some attributes, or the whole style. -/
inductive NodeFn (f : Option (NodeStyle C) → Option (NodeStyle C)) : Prop where
  | patch (p : NodePatch C) (h : ∀ o, FullO o → f o = o.map p.apply)
  | const (s : NodeStyle C) (hs : s.Complete) (h : ∀ o, FullO o → f o = some s)

namespace NodeFn

theorem full {f : Option (NodeStyle C) → Option (NodeStyle C)} (hf : NodeFn f) {o : Option (NodeStyle C)} (ho : FullO o) : FullO (f o) := by
  intro s hs
  cases hf with
  | patch p h =>
    rw [h o ho] at hs
    simp only [Option.map_eq_some_iff] at hs
    obtain ⟨t, rfl, rfl⟩ := hs
    exact NodePatch.full (ho t rfl)
  | const t ht h =>
    rw [h o ho] at hs
    cases hs; exact ht

theorem comp {f f' : Option (NodeStyle C) → Option (NodeStyle C)} (hf : NodeFn f) (hf' : NodeFn f') : NodeFn (fun o => f' (f o)) := by
  cases hf' with
  | const s hs h => exact .const s hs fun o ho => h _ (hf.full ho)
  | patch p h =>
    cases hf with
    | const s hs h' =>
      refine .const (p.apply s) (NodePatch.full hs) fun o ho => ?_
      rw [h' o ho, h _ (by rintro _ ⟨⟩; exact hs)]; rfl
    | patch q h' =>
      refine .patch (q.next p) fun o ho => ?_
      rw [h _ (NodeFn.full (.patch q h') ho), h' o ho]
      cases o with
      | none => rfl
      | some s => simp [NodePatch.apply_next]

theorem twice {f : Option (NodeStyle C) → Option (NodeStyle C)} (hf : NodeFn f) {o : Option (NodeStyle C)} (ho : FullO o) : f (f o) = f o := by
  have h1 := hf.full ho
  cases hf with
  | patch p h =>
    rw [h _ h1, h _ ho]
    cases o with
    | none => rfl
    | some s => simp [NodePatch.apply_apply]
  | const s hs h => rw [h _ h1, h _ ho]

theorem id : NodeFn (fun o : Option (NodeStyle C) => o) := .patch {} fun o _ => by
  cases o with
  | none => rfl
  | some s =>
    simp only [Option.map_some, Option.some.injEq]
    rcases s with ⟨_, a, b, c, _⟩
    cases a <;> cases b <;> cases c <;> rfl

theorem only {f : Option (NodeStyle C) → Option (NodeStyle C)} (hf : NodeFn f) (n m : Nat) : NodeFn (onlyAt n f m) := by
  by_cases h : m = n
  · subst h
    have : onlyAt m f m = f := by funext o; simp
    rw [this]; exact hf
  · have : onlyAt n f m = fun o => o := by funext o; rw [onlyAt_ne h]
    rw [this]; exact .id

variable [Palette C]

theorem set (i : NodeItem C) : NodeFn (Option.map (fun s : NodeStyle C => s.set i)) := by
  have key : ∃ p : NodePatch C, ∀ s : NodeStyle C, s.Complete → s.set i = p.apply s := by
    have aux : ∀ s : NodeStyle C, s.Complete → ∃ c0 f b t fa ba ta li op fo ts sh ss, s = ⟨c0, some f, some b, some t, fa, ba, ta, li, op, fo, ts, sh, ss⟩ := by
      rintro ⟨c0, fill, border, text, fa, ba, ta, li, op, fo, ts, sh, ss⟩ ⟨h1, h2, h3⟩
      obtain ⟨f, rfl⟩ := Option.ne_none_iff_exists'.1 h1
      obtain ⟨b, rfl⟩ := Option.ne_none_iff_exists'.1 h2
      obtain ⟨t, rfl⟩ := Option.ne_none_iff_exists'.1 h3
      exact ⟨_, _, _, _, _, _, _, _, _, _, _, _, _, rfl⟩
    cases i with
    | colour c => exact ⟨{ colour := some c }, fun s hs => by obtain ⟨_, _, _, _, _, _, _, _, _, _, _, _, _, rfl⟩ := aux s hs; rfl⟩
    | fill c => exact ⟨{ fill := c }, fun s hs => by obtain ⟨_, _, _, _, _, _, _, _, _, _, _, _, _, rfl⟩ := aux s hs; cases c <;> rfl⟩
    | border c => exact ⟨{ border := c }, fun s hs => by obtain ⟨_, _, _, _, _, _, _, _, _, _, _, _, _, rfl⟩ := aux s hs; cases c <;> rfl⟩
    | text c => exact ⟨{ text := c, textAuto := c.map fun _ => false }, fun s hs => by obtain ⟨_, _, _, _, _, _, _, _, _, _, _, _, _, rfl⟩ := aux s hs; cases c <;> rfl⟩
    | opacity c => exact ⟨{ opacity := some c }, fun s hs => by obtain ⟨_, _, _, _, _, _, _, _, _, _, _, _, _, rfl⟩ := aux s hs; rfl⟩
    | font c => exact ⟨{ font := some c }, fun s hs => by obtain ⟨_, _, _, _, _, _, _, _, _, _, _, _, _, rfl⟩ := aux s hs; rfl⟩
    | textSize c => exact ⟨{ textSize := some c }, fun s hs => by obtain ⟨_, _, _, _, _, _, _, _, _, _, _, _, _, rfl⟩ := aux s hs; rfl⟩
    | shape c => exact ⟨{ shape := some c }, fun s hs => by obtain ⟨_, _, _, _, _, _, _, _, _, _, _, _, _, rfl⟩ := aux s hs; rfl⟩
    | shapeStyle c => exact ⟨{ shapeStyle := some c }, fun s hs => by obtain ⟨_, _, _, _, _, _, _, _, _, _, _, _, _, rfl⟩ := aux s hs; rfl⟩
    | lighter c => exact ⟨{ lighter := some c }, fun s hs => by obtain ⟨_, _, _, _, _, _, _, _, _, _, _, _, _, rfl⟩ := aux s hs; rfl⟩
    | other => exact ⟨{}, fun s hs => by obtain ⟨_, _, _, _, _, _, _, _, _, _, _, _, _, rfl⟩ := aux s hs; rfl⟩
  obtain ⟨p, hp⟩ := key
  refine .patch p fun o ho => ?_
  cases o with
  | none => rfl
  | some s => simp [hp s (ho s rfl)]

theorem complement (l : List (NodeItem C)) : NodeFn (Option.map (fun s : NodeStyle C => s.complement l)) := by
  induction l with
  | nil =>
    have : (Option.map fun s : NodeStyle C => s.complement []) = fun o => o := by funext o; cases o <;> rfl
    rw [this]; exact .id
  | cons i l ih =>
    have : (Option.map fun s : NodeStyle C => s.complement (i :: l)) = fun o => Option.map (fun s => s.complement l) (Option.map (fun s => s.set i) o) := by
      funext o; cases o <;> rfl
    rw [this]; exact (set i).comp ih

theorem recolour (c : C) : NodeFn (Option.map (fun s : NodeStyle C => s.recolour c)) := by
  refine .patch { colour := some c, fill := some (lighten c (1 / 2)), border := some (darken c (1 / 6)),
                  text := some (farthestGray (lighten c (1 / 2))), fillAuto := some true, borderAuto := some true,
                  textAuto := some true, lighter := some true } fun o _ => ?_
  cases o with
  | none => rfl
  | some s => simp [recolour_tinted, tinted, NodePatch.apply]

end NodeFn

/-- Leaves the style alone, or sets it. -/
inductive IdOrConst {S : Type} (G : S → Prop) (f : Option S → Option S) : Prop where
  | id (h : ∀ o, f o = o)
  | const (s : S) (hs : G s) (h : ∀ o, f o = some s)

theorem IdOrConst.comp {S : Type} {G : S → Prop} {f f' : Option S → Option S} (hf : IdOrConst G f) (hf' : IdOrConst G f') :
    IdOrConst G (fun o => f' (f o)) := by
  cases hf' with
  | const s hs h => exact .const s hs fun o => h _
  | id h =>
    cases hf with
    | id h' => exact .id fun o => by rw [h, h']
    | const s hs h' => exact .const s hs fun o => by rw [h, h']

theorem IdOrConst.nodeFn {f : Option (NodeStyle C) → Option (NodeStyle C)} (hf : IdOrConst NodeStyle.Complete f) : NodeFn f := by
  cases hf with
  | id h =>
    have : f = fun o => o := funext h
    rw [this]; exact .id
  | const s hs h => exact .const s hs fun o _ => h o

section
variable [Palette C]

/-- `style.copy()`, `reset_colours()` and the new colour. -/
def EdgeStyle.redye (s : EdgeStyle C) (c : C) : EdgeStyle C := s.copied.resetColours.setColour c

theorem redye_redye (s : EdgeStyle C) (c c' : C) : (s.redye c).redye c' = s.redye c' := by
  rcases s with ⟨c0, t, ta, op, fo, ts, ar, ls, lw⟩
  simp [EdgeStyle.redye, EdgeStyle.copied, EdgeStyle.make, EdgeStyle.resetColours, EdgeStyle.setColour, EdgeStyle.setText]

/-- Leaves the style alone, sets its colours, or sets all of it. -/
inductive EdgeFn (f : Option (EdgeStyle C) → Option (EdgeStyle C)) : Prop where
  | id (h : ∀ o, f o = o)
  | redye (c : C) (h : ∀ o, f o = o.map (·.redye c))
  | const (s : EdgeStyle C) (h : ∀ o, f o = some s)

theorem EdgeFn.comp {f f' : Option (EdgeStyle C) → Option (EdgeStyle C)} (hf : EdgeFn f) (hf' : EdgeFn f') : EdgeFn (fun o => f' (f o)) := by
  cases hf' with
  | const s h => exact .const s fun o => h _
  | id h =>
    have : (fun o => f' (f o)) = f := by funext o; rw [h]
    rw [this]; exact hf
  | redye c h =>
    cases hf with
    | id h' => exact .redye c fun o => by rw [h, h']
    | redye c' h' =>
      refine .redye c fun o => ?_
      rw [h, h']
      cases o with
      | none => rfl
      | some s => simp [redye_redye]
    | const s h' => exact .const (s.redye c) fun o => by rw [h, h']; rfl

theorem EdgeFn.twice {f : Option (EdgeStyle C) → Option (EdgeStyle C)} (hf : EdgeFn f) (o : Option (EdgeStyle C)) : f (f o) = f o := by
  cases hf with
  | id h => rw [h, h]
  | redye c h =>
    rw [h, h]
    cases o with
    | none => rfl
    | some s => simp [redye_redye]
  | const s h => rw [h, h]

theorem EdgeFn.only {f : Option (EdgeStyle C) → Option (EdgeStyle C)} (hf : EdgeFn f) (n m : Nat) : EdgeFn (onlyAt n f m) := by
  by_cases h : m = n
  · subst h
    have : onlyAt m f m = f := by funext o; simp
    rw [this]; exact hf
  · exact .id fun o => onlyAt_ne h _ _

end
end Verif
