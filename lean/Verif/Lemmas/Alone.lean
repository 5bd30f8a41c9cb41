import Verif.Props.Dictionary
/-!
# Steps of `append` concern one graph only
-/
namespace Verif
open M

/-- A computation made of legal calls on graph `g` that leaves the other graphs, and the permission to overwrite styles, as
they were. -/
structure Alone {α : Type} (g : GRef) (x : M α) : Prop where
  alone : ∀ h, Reachable h → g < h.nG → Reachable (x h).2 ∧ h.nG ≤ (x h).2.nG ∧
    ((x h).2.graph g).overwrite = (h.graph g).overwrite ∧ ∀ g', g' < h.nG → g' ≠ g → Untouched h (x h).2 g'

namespace Alone
variable {α β : Type} {g : GRef}

theorem still {x : M α} (hx : ∀ h, (x h).2 = h) : Alone g x :=
  ⟨fun h r _ => by rw [hx h]; exact ⟨r, Nat.le_refl _, rfl, fun _ _ _ => .refl _ _⟩⟩

theorem pure (a : α) : Alone g (Pure.pure a : M α) := still fun _ => rfl
theorem raise (e : PyErr) : Alone g (M.raise e : M α) := still fun _ => rfl
theorem ask (q : Q α) : Alone g (M.ask q) := still fun _ => rfl

theorem bind {x : M α} {f : α → M β} (hx : Alone g x) (hf : ∀ a, Alone g (f a)) : Alone g (x >>= f) := by
  constructor
  intro h r hg
  obtain ⟨r1, g1, o1, u1⟩ := hx.alone h r hg
  rw [bind_apply]
  cases hr : x h with
  | mk res h1 =>
    rw [hr] at r1 g1 o1 u1
    cases res with
    | error e => exact ⟨r1, g1, o1, u1⟩
    | ok a =>
      obtain ⟨r2, g2, o2, u2⟩ := (hf a).alone h1 r1 (Nat.lt_of_lt_of_le hg g1)
      exact ⟨r2, Nat.le_trans g1 g2, o2.trans o1, fun g' h1 h2 => (u1 g' h1 h2).trans r r1 (u2 g' (Nat.lt_of_lt_of_le h1 g1) h2)⟩

theorem ofOp {x : M α} {op : Op} {f : α → Out} (hx : op.step = (do return f (← x))) (hok : ∀ h, g < h.nG → op.Ok h)
    (hon : ∀ h g', g' ≠ g → ¬ op.on h g') : Alone g x := by
  constructor
  intro h r hg
  have e : (x h).2 = (op.step h).2 := by
    rw [hx, bind_apply]
    cases x h with
    | mk a b => cases a <;> rfl
  rw [e]
  exact ⟨.step op r (hok h hg), (Grows.step op h).nG, ((Grows.step op h).graph g hg).2.1, fun g' h1 h2 => C10_isolated r op (hok h hg) h1 (hon h g' h2)⟩

theorem addNode (x : Key) (a : NodeArgs) (p : IfExists) : Alone g (Verif.addNode g x a p) :=
  ofOp (op := .addNode g x a p) rfl (fun _ h => h) fun _ _ h => by simpa [Op.on] using h.symm

theorem connect (s t : Key) (a : EdgeArgs) (p : IfExists) : Alone g (Verif.connect g (.key s) (.key t) a p) :=
  ofOp (op := .connect g (.key s) (.key t) a p) rfl (fun _ h => h) fun _ _ h => by simpa [Op.on] using h.symm

theorem options (s o : Option Bool) : Alone g (graphSetOptions g s o) :=
  ofOp (op := .setOptions g s o) (f := fun _ => .none) rfl (fun _ h => h) fun _ _ h => by simpa [Op.on] using h.symm

theorem label (v : Option Val) : Alone g (labelCheck v) := by
  unfold labelCheck; split
  · exact .pure _
  · exact .pure _
  · exact .raise _

theorem nodeDict (l : List (Key × NodeArgs × IfExists)) : Alone g (appendNodeDict g l) := by
  induction l with
  | nil => exact .pure _
  | cons q l ih =>
    obtain ⟨x, a, p⟩ := q
    exact (addNode x a p).bind fun _ => ih

theorem edgeList (l : List EdgeItem) (known : List (Key × Key)) : Alone g (appendEdgeList g l known) := by
  induction l generalizing known with
  | nil => exact .pure _
  | cons x l ih =>
    cases x with
    | two s t => exact (connect s t {} .warn).bind fun e => (ask _).bind fun _ => ih _
    | three s t a p => exact (connect s t a p).bind fun e => (ask _).bind fun _ => ih _
    | few => exact .raise _
    | many => exact .raise _

theorem lookups (known l : List (Key × Key)) : Alone g (appendLookups known l) := by
  induction l with
  | nil => exact .pure _
  | cons k l ih =>
    unfold appendLookups
    split
    · exact ih
    · exact .raise _

theorem dict (D : GDict) : Alone g (appendDict g D) := by
  have hN : Alone g (appendNodes g D.nodes) := by
    cases D.nodes with
    | none => exact .raise _
    | some N => rw [appendNodes_eq]; exact nodeDict _
  have hE : Alone g (appendEdges g D.edges) := by
    cases D.edges with
    | none => exact .raise _
    | some E => exact edgeList E []
  exact (options _ _).bind fun _ => (label _).bind fun _ => hN.bind fun _ => hE.bind fun known =>
    (lookups known _).bind fun _ => lookups known _

mutual
theorem append (x : Appendable) : Alone g (Verif.append g x) := by
  cases x with
  | items l => simp only [Verif.append]; exact appendAll l
  | dict D => simp only [Verif.append]; exact dict D
  | object r =>
    cases r with
    | ok D => simp only [Verif.append]; exact dict D
    | error e =>
      by_cases h : e = .attributeError
      · subst h; exact .raise _
      · have : Verif.append g (.object (.error e)) = M.raise e := by cases e <;> first | rfl | exact absurd rfl h
        rw [this]; exact .raise _
theorem appendAll (l : List Appendable) : Alone g (Verif.appendAll g l) := by
  match l with
  | [] => exact .pure _
  | x :: l => exact (append x).bind fun _ => appendAll l
end

end Alone

/-- The options after `append` of a dictionary. -/
theorem appendDict_options {g : GRef} {D : GDict} {h h' : Heap} (hg : g < h.nG) (hr : appendDict g D h = (.ok (), h')) :
    (h'.graph g).strict = D.strict.getD (h.graph g).strict ∧ (h'.graph g).ordering = D.ordering.getD (h.graph g).ordering := by
  have hN : Grows (fun _ => False) (fun _ => False) (fun _ => False) (appendNodes g D.nodes) := by
    cases D.nodes with
    | none => exact .raise _
    | some N =>
      rw [appendNodes_eq]
      generalize N.toList = l
      induction l with
      | nil => exact .pure _
      | cons q l ih => obtain ⟨x, a, p⟩ := q; exact (Grows.addNode g x a p).bind fun _ => ih
  have hE : Grows (fun _ => False) (fun _ => False) (fun _ => False) (appendEdges g D.edges) := by
    cases D.edges with
    | none => exact .raise _
    | some E =>
      simp only [appendEdges]
      generalize ([] : List (Key × Key)) = known
      induction E generalizing known with
      | nil => exact .pure _
      | cons x l ih =>
        cases x with
        | two s t => exact (Grows.connect _ _ _ _ _).bind fun e => (Grows.ask _).bind fun _ => ih _
        | three s t a p => exact (Grows.connect _ _ _ _ _).bind fun e => (Grows.ask _).bind fun _ => ih _
        | few => exact .raise _
        | many => exact .raise _
  have hL : ∀ known l, Grows (fun _ => False) (fun _ => False) (fun _ => False) (appendLookups known l) := by
    intro known l
    induction l with
    | nil => exact .pure _
    | cons k l ih =>
      unfold appendLookups
      split
      · exact ih
      · exact .raise _
  have hB : Grows (fun _ => False) (fun _ => False) (fun _ => False) (labelCheck D.label) := by
    unfold labelCheck; split
    · exact .pure _
    · exact .pure _
    · exact .raise _
  have all := hB.bind fun _ => hN.bind fun _ => hE.bind fun known => (hL known D.edgeStyles).bind fun _ => hL known D.edgeColours
  have hg' : g < (graphSetOptions g D.strict D.ordering h).2.nG := hg
  have := ((all (graphSetOptions g D.strict D.ordering h).2).graph g hg').2.2 id
  have e : appendDict g D h = (labelCheck D.label >>= fun _ => appendNodes g D.nodes >>= fun _ => appendEdges g D.edges >>= fun known =>
      appendLookups known D.edgeStyles >>= fun _ => appendLookups known D.edgeColours) (graphSetOptions g D.strict D.ordering h).2 := rfl
  rw [← e, hr] at this
  rw [this.1, this.2]
  simp [graphSetOptions, modGraph]

end Verif
