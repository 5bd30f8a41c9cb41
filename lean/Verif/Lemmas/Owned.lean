import Verif.Props.Remove
import Verif.Model.Session
/-!
# Which nodes know their graph
-/
namespace Verif
open M

/-- Every node of the abstract graph has it as its home. -/
def Spec.Owns (A : Spec) (g : GRef) : Prop := ∀ k n, (k, n) ∈ (A.graph g).nodes → A.home n = some g

theorem Rep.owns_iff {h : Heap} {A : Spec} (R : Rep h A) (g : GRef) :
    A.Owns g ↔ ∀ n ∈ graphNodes h g, (h.node n).graph = some g := by
  constructor
  · intro H n hn
    obtain ⟨k, hk⟩ := (mem_graphNodes R).1 hn
    rw [← R.home]
    exact H k n hk
  · intro H k n hk
    rw [R.home]
    exact H n ((mem_graphNodes R).2 ⟨k, hk⟩)

theorem Spec.Owns.connect {A : Spec} {g : GRef} (H : A.Owns g) (g' : GRef) (s t : NodeArg) (r : RawId) (e : ERef) :
    (A.connect g' s t r e).Owns g := by
  unfold Spec.connect
  split
  · intro k n hn
    refine H k n ?_
    simp only [Spec.on] at hn
    by_cases hg : g = g'
    · subst hg
      rw [upd_same] at hn
      unfold SGraph.addEdge at hn
      split at hn <;> exact hn
    · rw [upd_ne _ _ hg] at hn
      exact hn
  · exact H

theorem Spec.Owns.step {h : Heap} {A : Spec} (R : Rep h A) (op : Op) (ok : op.Ok h) {g : GRef} (H : A.Owns g)
    (hno : ¬ op.Readds g) : (A.step op (op.step h).1).Owns g := by
  have R' := R.step op ok
  revert R'
  cases hr : (op.step h).1 with
  | error err => intro _; exact H
  | ok out =>
    intro R'
    cases op with
    | addNode g' x a p =>
      cases out with
      | node n =>
        simp only [Spec.step, Spec.register] at R' ⊢
        split
        · exact H
        · rename_i hx
          rw [if_neg hx] at R'
          intro k m hm
          by_cases hg : g = g'
          · subst hg
            simp only [upd_same, SGraph.addNode, if_neg hx, List.mem_append, List.mem_singleton, Prod.mk.injEq] at hm
            by_cases hmn : m = n
            · simp [hmn]
            · rcases hm with hm | ⟨-, hm⟩
              · simp only [upd_ne _ _ hmn]
                exact H k m hm
              · exact absurd hm hmn
          · have hm' := hm
            simp only [upd_ne _ _ hg] at hm
            by_cases hmn : m = n
            · subst hmn
              have := R'.nodeUniq g g' k x m hm' (by simp [SGraph.addNode, if_neg hx])
              exact absurd this hg
            · simp only [upd_ne _ _ hmn]
              exact H k m hm
      | _ => exact H
    | addNodeObj g' n =>
      have hg : g ≠ g' := fun hc => hno hc.symm
      simp only [Spec.step, Spec.register]
      split
      · exact H
      · intro k m hm
        simp only [upd_ne _ _ hg] at hm
        have := H k m hm
        by_cases hmn : m = n
        · subst hmn; simpa using this
        · simp only [upd_ne _ _ hmn]; exact this
    | removeNode g' a =>
      simp only [Spec.step]
      split
      · rename_i k0 _
        intro k m hm
        simp only [Spec.unregister] at hm ⊢
        by_cases hg : g = g'
        · subst hg
          simp only [upd_same, SGraph.delNode, List.mem_filter, decide_eq_true_eq] at hm
          rw [if_neg]
          · exact H k m hm.1
          · intro hc
            have h1 := (R.nodeOk _ _ _ hc).2.1
            have h2 := (R.nodeOk _ _ _ hm.1).2.1
            exact hm.2 (by rw [← h2, h1])
        · simp only [upd_ne _ _ hg] at hm
          rw [if_neg (fun hc => hg (R.nodeUniq _ _ _ _ _ hm hc))]
          exact H k m hm
      · exact H
    | connect g' s t a p => cases out with
      | edge e => exact H.connect _ _ _ _ _
      | _ => exact H
    | connectTo n t a p => cases out with
      | edge e =>
        simp only [Spec.step]
        split
        · exact H.connect _ _ _ _ _
        · exact H
      | _ => exact H
    | connectFrom n s a p => cases out with
      | edge e =>
        simp only [Spec.step]
        split
        · exact H.connect _ _ _ _ _
        · exact H
      | _ => exact H
    | disconnect e => exact H
    | removeSelf e => exact H
    | copy g0 => cases out with
      | copied g' m =>
        simp only [Spec.step, Spec.copy] at R' ⊢
        intro k x hx
        by_cases hg : g = g'
        · subst hg
          simp only [upd_same, List.mem_map, Prod.mk.injEq] at hx
          obtain ⟨p, hp, h1, h2⟩ := hx
          simp only
          rw [if_pos (List.mem_map.2 ⟨p, hp, h2⟩)]
        · have hx' := hx
          simp only [upd_ne _ _ hg] at hx
          simp only
          rw [if_neg]
          · exact H k x hx
          · intro hc
            obtain ⟨p, hp, h2⟩ := List.mem_map.1 hc
            refine hg (R'.nodeUniq g g' k p.1 x hx' ?_)
            simp only [upd_same, List.mem_map]
            exact ⟨p, hp, by rw [h2]⟩
      | _ => exact H
    | _ => exact H

theorem Reachable.owned_step {h : Heap} (r : Reachable h) {op : Op} (ok : op.Ok h) {g : GRef}
    (hown : ∀ n ∈ graphNodes h g, (h.node n).graph = some g) (hno : ¬ op.Readds g) :
    ∀ n ∈ graphNodes (op.step h).2 g, ((op.step h).2.node n).graph = some g := by
  obtain ⟨A, H⟩ := r.hist
  have R := H.rep
  exact ((R.step op ok).owns_iff g).1 (Spec.Owns.step R op ok ((R.owns_iff g).2 hown) hno)

end Verif
