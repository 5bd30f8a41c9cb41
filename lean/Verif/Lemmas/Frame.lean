import Verif.Lemmas.HistRep
import Verif.Spec.Draft
/-!
# Which objects each call can touch
-/
namespace Verif
open M

/-- `x` changes at most the attributes of node `n` and the counters of styles and warnings. -/
def OnlyNode {α : Type} (n : NRef) (x : M α) : Prop :=
  ∀ h, ∃ o k w, (x h).2 = { h with node := upd h.node n o, nStyle := k, warns := w } ∧
    o.graph = (h.node n).graph ∧ o.id = (h.node n).id ∧ o.outE = (h.node n).outE ∧ o.inE = (h.node n).inE ∧
    o.index = (h.node n).index ∧ o.tooltip = (h.node n).tooltip

/-- `x` changes at most the attributes of edge `e` and the counters of styles and warnings. -/
def OnlyEdge {α : Type} (e : ERef) (x : M α) : Prop :=
  ∀ h, ∃ o k w, (x h).2 = { h with edge := upd h.edge e o, nStyle := k, warns := w } ∧
    o.graph = (h.edge e).graph ∧ o.raw = (h.edge e).raw ∧ o.start = (h.edge e).start ∧ o.stop = (h.edge e).stop ∧
    o.tooltip = (h.edge e).tooltip

theorem checkOverwrite_heap (s : Option SRef) (g : Option GRef) (h : Heap) : (checkOverwrite s g h).2 = h := by
  cases s with
  | none => rfl
  | some s =>
    cases g with
    | none => rfl
    | some g =>
      simp only [checkOverwrite, bind_apply, look_apply]
      cases (h.graph g).overwrite with
      | none => rfl
      | some b => cases b <;> rfl

theorem upd_self {α : Type} (f : Nat → α) (n : Nat) : upd f n (f n) = f := by
  funext x; by_cases hx : x = n
  · subst hx; simp
  · rw [upd_ne _ _ hx]

namespace OnlyNode
variable {n : NRef} {α β : Type}

theorem still {x : M α} (hx : ∀ h, ∃ k w, (x h).2 = { h with nStyle := k, warns := w }) : OnlyNode n x := by
  intro h
  obtain ⟨k, w, hk⟩ := hx h
  exact ⟨h.node n, k, w, by rw [hk, upd_self], rfl, rfl, rfl, rfl, rfl, rfl⟩

theorem pure (a : α) : OnlyNode n (Pure.pure a : M α) := still fun h => ⟨h.nStyle, h.warns, rfl⟩
theorem raise (e : PyErr) : OnlyNode n (M.raise e : M α) := still fun h => ⟨h.nStyle, h.warns, rfl⟩
theorem look (f : Heap → α) : OnlyNode n (M.look f) := still fun h => ⟨h.nStyle, h.warns, rfl⟩
theorem resolveStyle (o : Option SRef) (s : StyleArg) : OnlyNode n (Verif.resolveStyle o s) :=
  still fun h => ⟨_, h.warns, by rw [run_resolveStyle]⟩

theorem checkOverwrite (s : Option SRef) (g : Option GRef) : OnlyNode n (Verif.checkOverwrite s g) := by
  exact still fun h => ⟨h.nStyle, h.warns, checkOverwrite_heap s g h⟩

theorem check (p : IfExists) (e : PyErr) : OnlyNode n (p.check e) := by
  refine still fun h => ?_
  cases p
  · exact ⟨h.nStyle, h.warns, rfl⟩
  · exact ⟨h.nStyle, h.warns + 1, rfl⟩
  · exact ⟨h.nStyle, h.warns, rfl⟩

theorem bind {x : M α} {f : α → M β} (hx : OnlyNode n x) (hf : ∀ a, OnlyNode n (f a)) : OnlyNode n (x >>= f) := by
  intro h
  obtain ⟨o, k, w, e, h1, h2, h3, h4, h5, h6⟩ := hx h
  simp only [bind_apply]
  cases hxh : x h with
  | mk r h' =>
    rw [hxh] at e
    cases r with
    | error err => exact ⟨o, k, w, e, h1, h2, h3, h4, h5, h6⟩
    | ok a =>
      simp only at e ⊢
      subst e
      obtain ⟨o', k', w', e', g1, g2, g3, g4, g5, g6⟩ := hf a { h with node := upd h.node n o, nStyle := k, warns := w }
      simp only [upd_same] at g1 g2 g3 g4 g5 g6
      refine ⟨o', k', w', ?_, g1.trans h1, g2.trans h2, g3.trans h3, g4.trans h4, g5.trans h5, g6.trans h6⟩
      rw [e']; simp [upd_upd]

theorem modNode {f : NodeObj → NodeObj} (h1 : ∀ o, (f o).graph = o.graph) (h2 : ∀ o, (f o).id = o.id)
    (h3 : ∀ o, (f o).outE = o.outE) (h4 : ∀ o, (f o).inE = o.inE) (h5 : ∀ o, (f o).index = o.index)
    (h6 : ∀ o, (f o).tooltip = o.tooltip) : OnlyNode n (M.modNode n f) :=
  fun h => ⟨_, h.nStyle, h.warns, rfl, h1 _, h2 _, h3 _, h4 _, h5 _, h6 _⟩

theorem nodeSetStyle (s : StyleArg) : OnlyNode n (Verif.nodeSetStyle n s) :=
  (look _).bind fun _ => (checkOverwrite _ _).bind fun _ => (resolveStyle _ _).bind fun _ =>
    modNode (fun _ => rfl) (fun _ => rfl) (fun _ => rfl) (fun _ => rfl) (fun _ => rfl) (fun _ => rfl)

theorem nodeSetValue (v : Val) : OnlyNode n (Verif.nodeSetValue n v) := by
  refine (look _).bind fun o => ?_
  split
  · exact .raise _
  · exact modNode (fun _ => rfl) (fun _ => rfl) (fun _ => rfl) (fun _ => rfl) (fun _ => rfl) (fun _ => rfl)

theorem nodeSetLabel (v : Val) : OnlyNode n (Verif.nodeSetLabel n v) :=
  modNode (fun _ => rfl) (fun _ => rfl) (fun _ => rfl) (fun _ => rfl) (fun _ => rfl) (fun _ => rfl)

theorem nodeFreeze (b : Bool) : OnlyNode n (Verif.nodeFreeze n b) :=
  modNode (fun _ => rfl) (fun _ => rfl) (fun _ => rfl) (fun _ => rfl) (fun _ => rfl) (fun _ => rfl)

theorem nodeSetParam (k : String) (v : Val) : OnlyNode n (Verif.nodeSetParam n k v) :=
  modNode (fun _ => rfl) (fun _ => rfl) (fun _ => rfl) (fun _ => rfl) (fun _ => rfl) (fun _ => rfl)

theorem onlyIf {c : Prop} [Decidable c] {x : M Unit} (hx : OnlyNode n x) : OnlyNode n (Verif.onlyIf c x) := by
  unfold Verif.onlyIf
  split
  · exact hx
  · exact .pure _

theorem nodeUpdate (l v : Val) (s : StyleArg) : OnlyNode n (Verif.nodeUpdate n l v s) :=
  (onlyIf (nodeSetStyle _)).bind fun _ => (onlyIf (nodeSetLabel _)).bind fun _ => onlyIf (nodeSetValue _)

end OnlyNode

namespace OnlyEdge
variable {n : ERef} {α β : Type}

theorem still {x : M α} (hx : ∀ h, ∃ k w, (x h).2 = { h with nStyle := k, warns := w }) : OnlyEdge n x := by
  intro h
  obtain ⟨k, w, hk⟩ := hx h
  exact ⟨h.edge n, k, w, by rw [hk, upd_self], rfl, rfl, rfl, rfl, rfl⟩

theorem pure (a : α) : OnlyEdge n (Pure.pure a : M α) := still fun h => ⟨h.nStyle, h.warns, rfl⟩
theorem raise (e : PyErr) : OnlyEdge n (M.raise e : M α) := still fun h => ⟨h.nStyle, h.warns, rfl⟩
theorem look (f : Heap → α) : OnlyEdge n (M.look f) := still fun h => ⟨h.nStyle, h.warns, rfl⟩
theorem resolveStyle (o : Option SRef) (s : StyleArg) : OnlyEdge n (Verif.resolveStyle o s) :=
  still fun h => ⟨_, h.warns, by rw [run_resolveStyle]⟩

theorem checkOverwrite (s : Option SRef) (g : Option GRef) : OnlyEdge n (Verif.checkOverwrite s g) := by
  exact still fun h => ⟨h.nStyle, h.warns, checkOverwrite_heap s g h⟩

theorem check (p : IfExists) (e : PyErr) : OnlyEdge n (p.check e) := by
  refine still fun h => ?_
  cases p
  · exact ⟨h.nStyle, h.warns, rfl⟩
  · exact ⟨h.nStyle, h.warns + 1, rfl⟩
  · exact ⟨h.nStyle, h.warns, rfl⟩

theorem bind {x : M α} {f : α → M β} (hx : OnlyEdge n x) (hf : ∀ a, OnlyEdge n (f a)) : OnlyEdge n (x >>= f) := by
  intro h
  obtain ⟨o, k, w, e, h1, h2, h3, h4, h5⟩ := hx h
  simp only [bind_apply]
  cases hxh : x h with
  | mk r h' =>
    rw [hxh] at e
    cases r with
    | error err => exact ⟨o, k, w, e, h1, h2, h3, h4, h5⟩
    | ok a =>
      simp only at e ⊢
      subst e
      obtain ⟨o', k', w', e', g1, g2, g3, g4, g5⟩ := hf a { h with edge := upd h.edge n o, nStyle := k, warns := w }
      simp only [upd_same] at g1 g2 g3 g4 g5
      refine ⟨o', k', w', ?_, g1.trans h1, g2.trans h2, g3.trans h3, g4.trans h4, g5.trans h5⟩
      rw [e']; simp [upd_upd]

theorem modEdge {f : EdgeObj → EdgeObj} (h1 : ∀ o, (f o).graph = o.graph) (h2 : ∀ o, (f o).raw = o.raw)
    (h3 : ∀ o, (f o).start = o.start) (h4 : ∀ o, (f o).stop = o.stop)
    (h6 : ∀ o, (f o).tooltip = o.tooltip) : OnlyEdge n (M.modEdge n f) :=
  fun h => ⟨_, h.nStyle, h.warns, rfl, h1 _, h2 _, h3 _, h4 _, h6 _⟩

theorem edgeSetStyle (s : StyleArg) : OnlyEdge n (Verif.edgeSetStyle n s) :=
  (look _).bind fun _ => (checkOverwrite _ _).bind fun _ => (resolveStyle _ _).bind fun _ =>
    modEdge (fun _ => rfl) (fun _ => rfl) (fun _ => rfl) (fun _ => rfl) (fun _ => rfl)

theorem edgeSetValue (v : Val) : OnlyEdge n (Verif.edgeSetValue n v) := by
  refine (look _).bind fun o => ?_
  split
  · exact .raise _
  · exact modEdge (fun _ => rfl) (fun _ => rfl) (fun _ => rfl) (fun _ => rfl) (fun _ => rfl)

theorem edgeSetLabel (v : Val) : OnlyEdge n (Verif.edgeSetLabel n v) :=
  modEdge (fun _ => rfl) (fun _ => rfl) (fun _ => rfl) (fun _ => rfl) (fun _ => rfl)

theorem edgeFreeze (b : Bool) : OnlyEdge n (Verif.edgeFreeze n b) :=
  modEdge (fun _ => rfl) (fun _ => rfl) (fun _ => rfl) (fun _ => rfl) (fun _ => rfl)

theorem edgeSetParam (k : String) (v : Val) : OnlyEdge n (Verif.edgeSetParam n k v) :=
  modEdge (fun _ => rfl) (fun _ => rfl) (fun _ => rfl) (fun _ => rfl) (fun _ => rfl)

theorem onlyIf {c : Prop} [Decidable c] {x : M Unit} (hx : OnlyEdge n x) : OnlyEdge n (Verif.onlyIf c x) := by
  unfold Verif.onlyIf
  split
  · exact hx
  · exact .pure _

theorem edgeUpdate (l v : Val) (s : StyleArg) : OnlyEdge n (Verif.edgeUpdate n l v s) :=
  (onlyIf (edgeSetStyle _)).bind fun _ => (onlyIf (edgeSetLabel _)).bind fun _ => onlyIf (edgeSetValue _)

end OnlyEdge

/-- A successful update of an edge sets exactly the given label and value. -/
theorem edgeUpdate_ok {e : ERef} {l v : Val} {s : StyleArg} {h h' : Heap} (hr : edgeUpdate e l v s h = (.ok (), h')) :
    (h'.edge e).label = given l (h.edge e).label ∧ (h'.edge e).value = given v (h.edge e).value ∧
    (h'.edge e).frozen = (h.edge e).frozen ∧ (h'.edge e).params = (h.edge e).params ∧
    (s = .none → (h'.edge e).style = (h.edge e).style) := by
  simp only [edgeUpdate, bind_apply] at hr
  -- first: the style
  have key : ∃ h1, onlyIf (s ≠ .none) (edgeSetStyle e s) h = (.ok (), h1) ∧
      (h1.edge e).label = (h.edge e).label ∧ (h1.edge e).value = (h.edge e).value ∧
      (h1.edge e).frozen = (h.edge e).frozen ∧ (h1.edge e).params = (h.edge e).params ∧
      (s = .none → (h1.edge e).style = (h.edge e).style) := by
    cases hx : onlyIf (s ≠ .none) (edgeSetStyle e s) h with
    | mk r h1 =>
      rw [hx] at hr
      cases r with
      | error err => simp at hr
      | ok u =>
        refine ⟨h1, rfl, ?_⟩
        by_cases hs : s = .none
        · simp [onlyIf, hs] at hx
          subst hx; simp
        · simp only [onlyIf, ne_eq, hs, not_false_eq_true, ↓reduceIte, edgeSetStyle, bind_apply, look_apply] at hx
          have hc' := checkOverwrite_heap (h.edge e).style (h.edge e).graph h
          cases hy : checkOverwrite (h.edge e).style (h.edge e).graph h with
          | mk r2 h2 =>
            rw [hy] at hx hc'
            simp only at hc'
            subst hc'
            cases r2 with
            | error err => simp at hx
            | ok u2 =>
              simp only [run_resolveStyle] at hx
              cases hz : styleResult (h2.edge e).style h2.nStyle s with
              | none => simp [hz] at hx
              | some sr =>
                simp only [hz, Option.elim, modEdge, Prod.mk.injEq, true_and] at hx
                subst hx
                simp [hs]
  obtain ⟨h1, e1, k1, k2, k3, k4, k5⟩ := key
  simp only [e1] at hr
  have key2 : ∃ h2, onlyIf (l ≠ .none) (edgeSetLabel e l) h1 = (.ok (), h2) ∧
      (h2.edge e).label = given l (h1.edge e).label ∧ (h2.edge e).value = (h1.edge e).value ∧
      (h2.edge e).frozen = (h1.edge e).frozen ∧ (h2.edge e).params = (h1.edge e).params ∧
      (h2.edge e).style = (h1.edge e).style := by
    by_cases hl : l = .none
    · exact ⟨h1, by simp [onlyIf, hl], by simp [given, hl], rfl, rfl, rfl, rfl⟩
    · refine ⟨(edgeSetLabel e l h1).2, by simp [onlyIf, hl, edgeSetLabel, modEdge], ?_⟩
      simp [edgeSetLabel, modEdge, given, hl]
  obtain ⟨h2, e2, l1, l2, l3, l4, l5⟩ := key2
  simp only [e2] at hr
  by_cases hv : v = .none
  · simp [onlyIf, hv] at hr
    subst hr
    refine ⟨by rw [l1, k1], by rw [l2, k2]; simp [given, hv], by rw [l3, k3], by rw [l4, k4], fun hs => by rw [l5, k5 hs]⟩
  · simp only [onlyIf, ne_eq, hv, not_false_eq_true, ↓reduceIte, edgeSetValue, bind_apply, look_apply] at hr
    split at hr
    · simp at hr
    · simp only [modEdge, Prod.mk.injEq, true_and] at hr
      subst hr
      refine ⟨by simp [l1, k1], by simp [given, hv], by simp [l3, k3], by simp [l4, k4], fun hs => by simp [l5, k5 hs]⟩

/-- A successful update of a node sets exactly the given label and value. -/
theorem nodeUpdate_ok {e : NRef} {l v : Val} {s : StyleArg} {h h' : Heap} (hr : nodeUpdate e l v s h = (.ok (), h')) :
    (h'.node e).label = given l (h.node e).label ∧ (h'.node e).value = given v (h.node e).value ∧
    (h'.node e).frozen = (h.node e).frozen ∧ (h'.node e).params = (h.node e).params ∧
    (s = .none → (h'.node e).style = (h.node e).style) := by
  simp only [nodeUpdate, bind_apply] at hr
  have key : ∃ h1, onlyIf (s ≠ .none) (nodeSetStyle e s) h = (.ok (), h1) ∧
      (h1.node e).label = (h.node e).label ∧ (h1.node e).value = (h.node e).value ∧
      (h1.node e).frozen = (h.node e).frozen ∧ (h1.node e).params = (h.node e).params ∧
      (s = .none → (h1.node e).style = (h.node e).style) := by
    cases hx : onlyIf (s ≠ .none) (nodeSetStyle e s) h with
    | mk r h1 =>
      rw [hx] at hr
      cases r with
      | error err => simp at hr
      | ok u =>
        refine ⟨h1, rfl, ?_⟩
        by_cases hs : s = .none
        · simp [onlyIf, hs] at hx
          subst hx; simp
        · simp only [onlyIf, ne_eq, hs, not_false_eq_true, ↓reduceIte, nodeSetStyle, bind_apply, look_apply] at hx
          have hc' := checkOverwrite_heap (h.node e).style (h.node e).graph h
          cases hy : checkOverwrite (h.node e).style (h.node e).graph h with
          | mk r2 h2 =>
            rw [hy] at hx hc'
            simp only at hc'
            subst hc'
            cases r2 with
            | error err => simp at hx
            | ok u2 =>
              simp only [run_resolveStyle] at hx
              cases hz : styleResult (h2.node e).style h2.nStyle s with
              | none => simp [hz] at hx
              | some sr =>
                simp only [hz, Option.elim, modNode, Prod.mk.injEq, true_and] at hx
                subst hx
                simp [hs]
  obtain ⟨h1, e1, k1, k2, k3, k4, k5⟩ := key
  simp only [e1] at hr
  have key2 : ∃ h2, onlyIf (l ≠ .none) (nodeSetLabel e l) h1 = (.ok (), h2) ∧
      (h2.node e).label = given l (h1.node e).label ∧ (h2.node e).value = (h1.node e).value ∧
      (h2.node e).frozen = (h1.node e).frozen ∧ (h2.node e).params = (h1.node e).params ∧
      (h2.node e).style = (h1.node e).style := by
    by_cases hl : l = .none
    · exact ⟨h1, by simp [onlyIf, hl], by simp [given, hl], rfl, rfl, rfl, rfl⟩
    · refine ⟨(nodeSetLabel e l h1).2, by simp [onlyIf, hl, nodeSetLabel, modNode], ?_⟩
      simp [nodeSetLabel, modNode, given, hl]
  obtain ⟨h2, e2, l1, l2, l3, l4, l5⟩ := key2
  simp only [e2] at hr
  by_cases hv : v = .none
  · simp [onlyIf, hv] at hr
    subst hr
    refine ⟨by rw [l1, k1], by rw [l2, k2]; simp [given, hv], by rw [l3, k3], by rw [l4, k4], fun hs => by rw [l5, k5 hs]⟩
  · simp only [onlyIf, ne_eq, hv, not_false_eq_true, ↓reduceIte, nodeSetValue, bind_apply, look_apply] at hr
    split at hr
    · simp at hr
    · simp only [modNode, Prod.mk.injEq, true_and] at hr
      subst hr
      refine ⟨by simp [l1, k1], by simp [given, hv], by simp [l3, k3], by simp [l4, k4], fun hs => by simp [l5, k5 hs]⟩

end Verif
