import Verif.Lemmas.Stylize
/-!
# `inherit_style`
-/
namespace Verif
open Palette
variable {C : Type} [Palette C]

omit [Palette C] in
theorem parentStyles_ok {apart : NRef → Except PyErr Bool} {style : NRef → Except PyErr (NodeStyle C)} {q : NRef → Bool}
    {st : NRef → NodeStyle C} {ps : List NRef} (hq : ∀ p ∈ ps, apart p = .ok (q p))
    (hs : ∀ p ∈ ps, q p = true → style p = .ok (st p)) : parentStyles apart style ps = .ok ((ps.filter q).map st) := by
  induction ps with
  | nil => rfl
  | cons p ps ih =>
    have h1 := hq p (by simp)
    have h2 := ih (fun x hx => hq x (by simp [hx])) (fun x hx => hs x (by simp [hx]))
    unfold parentStyles
    simp only [h1, h2, bind, Except.bind]
    cases hp : q p with
    | false => simp [hp]
    | true => simp [hp, hs p (by simp) hp]

omit [Palette C] in
theorem parentStyles_err {apart : NRef → Except PyErr Bool} {style : NRef → Except PyErr (NodeStyle C)} {q : NRef → Bool}
    {err : PyErr} {ps : List NRef} (hq : ∀ p ∈ ps, apart p = .ok (q p))
    (hs : ∀ p ∈ ps, q p = true → (∃ s, style p = .ok s) ∨ style p = .error err)
    (hx : ∃ p ∈ ps, q p = true ∧ style p = .error err) : parentStyles apart style ps = .error err := by
  induction ps with
  | nil => simp at hx
  | cons p ps ih =>
    have h1 := hq p (by simp)
    have h2 := ih (fun x hx => hq x (by simp [hx])) (fun x hx => hs x (by simp [hx]))
    unfold parentStyles
    simp only [h1, bind, Except.bind]
    obtain ⟨y, hy, hqy, hey⟩ := hx
    cases hp : q p with
    | false =>
      refine h2 ⟨y, ?_, hqy, hey⟩
      rcases List.mem_cons.1 hy with rfl | hy
      · rw [hp] at hqy; cases hqy
      · exact hy
    | true =>
      rcases hs p (by simp) hp with ⟨s, h3⟩ | h3
      · have := h2 ⟨y, by
          rcases List.mem_cons.1 hy with rfl | hy
          · rw [h3] at hey; cases hey
          · exact hy, hqy, hey⟩
        simp [h3, this]
      · simp [h3]

section
variable {w : World C} (r : Reachable w.heap) {g : GRef} (hown : ∀ n ∈ graphNodes w.heap g, (w.heap.node n).graph = some g)
  {lim : Nat} (hlim : (graphNodes w.heap g).length ≤ lim)
include r hown hlim

theorem inherit_run (light : Rat) (fuel : Nat) : ∀ (n : NRef) (d : Rat) (V : List NRef), n ∈ graphNodes w.heap g → V.Nodup →
    (∀ v ∈ V, v ∈ graphNodes w.heap g) → n ∉ V → (∀ v ∈ V, Path w.heap g n v ∧ ¬ Path w.heap g v n) →
    (graphNodes w.heap g).length ≤ fuel + V.length →
    (∃ s, inheritStyle lim w light fuel n d = .ok s ∧ TintBy light w.heap g (nodeLook w) d n s) ∨
    (inheritStyle lim w light fuel n d = .error .attributeError ∧
      ∃ m, m ∈ graphNodes w.heap g ∧ SemiRoot w.heap g m ∧ nodeLook w m = none ∧ (m = n ∨ Path w.heap g m n)) := by
  classical
  induction fuel with
  | zero =>
    intro n d V hn hV hsub hnV _ hf
    exfalso
    have : (n :: V).length ≤ (graphNodes w.heap g).length := by
      refine List.Subperm.length_le (List.subperm_of_subset (List.nodup_cons.2 ⟨hnV, hV⟩) ?_)
      intro x hx
      rcases List.mem_cons.1 hx with rfl | hx
      · exact hn
      · exact hsub x hx
    simp at this hf
    exact absurd (Nat.le_trans this hf) (Nat.not_succ_le_self _)
  | succ fuel ih =>
    intro n d V hn hV hsub hnV hpath hf
    -- one step up
    have up : ∀ p, Arrow w.heap g p n → ¬ Path w.heap g n p → ∀ d,
        (∃ s, inheritStyle lim w light fuel p d = .ok s ∧ TintBy light w.heap g (nodeLook w) d p s) ∨
        (inheritStyle lim w light fuel p d = .error .attributeError ∧
          ∃ m, m ∈ graphNodes w.heap g ∧ SemiRoot w.heap g m ∧ nodeLook w m = none ∧ (m = n ∨ Path w.heap g m n)) := by
      intro p ha hnp d
      have hp := (arrow_mem r ha).1
      have v1 : ∀ v ∈ n :: V, v ∈ graphNodes w.heap g := by
        intro x hx
        rcases List.mem_cons.1 hx with rfl | hx
        · exact hn
        · exact hsub x hx
      have v2 : p ∉ n :: V := by
        intro hx
        rcases List.mem_cons.1 hx with rfl | hx
        · exact hnp (.single ha)
        · exact (hpath p hx).2 (.single ha)
      have v3 : ∀ v ∈ n :: V, Path w.heap g p v ∧ ¬ Path w.heap g v p := by
        intro v hv
        rcases List.mem_cons.1 hv with rfl | hv
        · exact ⟨.single ha, hnp⟩
        · exact ⟨.head ha (hpath v hv).1, fun hc => (hpath v hv).2 (hc.tail ha)⟩
      have v4 : (graphNodes w.heap g).length ≤ fuel + (n :: V).length := by simp only [List.length_cons]; omega
      rcases ih p d (n :: V) hp (List.nodup_cons.2 ⟨hnV, hV⟩) v1 v2 v3 v4 with h1 | ⟨h1, m, m1, m2, m3, m4⟩
      · exact .inl h1
      · refine .inr ⟨h1, m, m1, m2, m3, .inr ?_⟩
        rcases m4 with rfl | m4
        · exact .single ha
        · exact m4.tail ha
    unfold inheritStyle
    simp only [isRoot_eq r hown hlim hn, bind, Except.bind, nodeParents_eq r hown hn]
    by_cases hr : SemiRoot w.heap g n
    · simp only [hr, decide_true, if_true, ownStyle]
      cases hst : (w.heap.node n).style with
      | none => exact .inr ⟨rfl, n, hn, hr, by simp [nodeLook, hst], .inl rfl⟩
      | some s => exact .inl ⟨_, rfl, .own hr (by simp [nodeLook, hst])⟩
    · simp only [hr, decide_false, Bool.false_eq_true, if_false]
      obtain ⟨q, hqa, hql⟩ : ∃ q, Arrow w.heap g q n ∧ ¬ OnLoop w.heap g q := by
        unfold SemiRoot at hr
        simpa using hr
      have hqn : ¬ Path w.heap g n q := fun hc => hql (.head hqa hc)
      have hqp : q ∈ pars w.heap n := (mem_pars r hn).2 hqa
      rcases hps : pars w.heap n with _ | ⟨p, _ | ⟨p', rest⟩⟩
      · rw [hps] at hqp; cases hqp
      · -- one parent
        simp only
        have hpq : q = p := by rw [hps] at hqp; simpa using hqp
        subst hpq
        have hq := (arrow_mem r hqa).1
        obtain ⟨cs, c1, c2, c3⟩ := (C52_rank r hn hq (hown q hq)).1 hqa
        simp only [c1, c2]
        rcases up q hqa hqn d with ⟨s, h1, h2⟩ | ⟨h1, h2⟩
        · obtain ⟨x, -, hx⟩ := (C47_select cs.length _ false).1 c3
          have hne : cs.length ≠ 0 := by omega
          simp only [h1, siblingColour, if_neg hne, hx, bind, Except.bind]
          refine .inl ⟨_, rfl, ?_⟩
          rw [recolour_tinted]
          exact .only hr (by rw [nodeParents_eq r hown hn, hps]) c1 rfl hx h2
        · simp only [h1]
          exact .inr ⟨trivial, h2⟩
      · -- several parents
        simp only
        rw [← hps]
        have hpar : ∀ p ∈ pars w.heap n, Arrow w.heap g p n := fun p hp => (mem_pars r hn).1 hp
        have hqf : ∀ p ∈ pars w.heap n, (do return !(← nodeIsInLoopWith lim w.heap n p) : Except PyErr Bool) = .ok (decide (¬ Path w.heap g n p)) := by
          intro p hp
          have ha := hpar p hp
          rw [nodeIsInLoopWith_eq r hown hlim hn (arrow_mem r ha).1]
          simp only [bind, Except.bind, pure, Except.pure, Except.ok.injEq]
          by_cases hc : Path w.heap g n p
          · have : Path w.heap g p n := .single ha
            simp [hc, this]
          · simp [hc]
        have hcase : ∀ p ∈ pars w.heap n, decide (¬ Path w.heap g n p) = true →
            (∃ s, inheritStyle lim w light fuel p 0 = .ok s ∧ TintBy light w.heap g (nodeLook w) 0 p s) ∨
            (inheritStyle lim w light fuel p 0 = .error .attributeError ∧
              ∃ m, m ∈ graphNodes w.heap g ∧ SemiRoot w.heap g m ∧ nodeLook w m = none ∧ (m = n ∨ Path w.heap g m n)) := by
          intro p hp hd
          exact up p (hpar p hp) (by simpa using hd) 0
        by_cases hall : ∃ p ∈ pars w.heap n, decide (¬ Path w.heap g n p) = true ∧ inheritStyle lim w light fuel p 0 = .error .attributeError
        · have := parentStyles_err hqf (fun p hp hd => (hcase p hp hd).imp (fun ⟨s, h1, _⟩ => ⟨s, h1⟩) (fun h => h.1)) hall
          simp only [bind, Except.bind] at this
          rw [this]
          obtain ⟨p, hp, hd, he⟩ := hall
          rcases hcase p hp hd with ⟨s, h1, -⟩ | ⟨-, h2⟩
          · rw [he] at h1; cases h1
          · exact .inr ⟨rfl, h2⟩
        · have hok : ∀ p ∈ pars w.heap n, decide (¬ Path w.heap g n p) = true →
              ∃ s, inheritStyle lim w light fuel p 0 = .ok s ∧ TintBy light w.heap g (nodeLook w) 0 p s := by
            intro p hp hd
            rcases hcase p hp hd with h1 | ⟨h1, -⟩
            · exact h1
            · exact absurd ⟨p, hp, hd, h1⟩ hall
          let st : NRef → NodeStyle C := fun p => match inheritStyle lim w light fuel p 0 with
            | .ok s => s
            | .error _ => defaultNode Palette.default
          have hst : ∀ p ∈ pars w.heap n, decide (¬ Path w.heap g n p) = true →
              inheritStyle lim w light fuel p 0 = .ok (st p) ∧ TintBy light w.heap g (nodeLook w) 0 p (st p) := by
            intro p hp hd
            obtain ⟨s, h1, h2⟩ := hok p hp hd
            simp only [st, h1]
            exact ⟨trivial, h2⟩
          have := parentStyles_ok hqf (fun p hp hd => (hst p hp hd).1)
          simp only [bind, Except.bind] at this
          rw [this]
          have hqfil : q ∈ (pars w.heap n).filter (fun p => decide (¬ Path w.heap g n p)) :=
            List.mem_filter.2 ⟨hqp, by simpa using hqn⟩
          cases hfl : (pars w.heap n).filter (fun p => decide (¬ Path w.heap g n p)) with
          | nil => rw [hfl] at hqfil; cases hqfil
          | cons first more =>
            refine .inl ⟨_, rfl, ?_⟩
            rw [recolour_tinted, ← List.map_cons, List.map_map]
            refine TintBy.mix st hr (nodeParents_eq r hown hn) (by rw [hps]; simp) hfl ?_
            intro p hp
            rw [← hfl] at hp
            obtain ⟨h1, h2⟩ := List.mem_filter.1 hp
            exact (hst p h1 h2).2

/-- From the top. -/
theorem inherit_top (light : Rat) {n : NRef} (hn : n ∈ graphNodes w.heap g) (d : Rat) {fuel : Nat} (hf : (graphNodes w.heap g).length ≤ fuel) :
    (∃ s, inheritStyle lim w light fuel n d = .ok s ∧ TintBy light w.heap g (nodeLook w) d n s) ∨
    (inheritStyle lim w light fuel n d = .error .attributeError ∧
      ∃ m, m ∈ graphNodes w.heap g ∧ SemiRoot w.heap g m ∧ nodeLook w m = none ∧ (m = n ∨ Path w.heap g m n)) :=
  inherit_run r hown hlim light fuel n d [] hn (by simp) (by simp) (by simp) (by simp) (by simpa using hf)

end
end Verif
