import Verif.Lemmas.Passes
import Verif.Spec.Brush
/-!
# The stylists with given styles
-/
namespace Verif
open Palette W
variable {C : Type} [Palette C]

theorem fresh_brushed (w : World C) (main : Option SRef) (c : C) : freshStyle w main c = brushed (main.map w.ns) c := by
  cases main with
  | none => exact make_plain c
  | some s => exact recolour_tinted _ c

theorem nextEdge_given (E : Option (EdgeStyle C)) (H : ∀ s, E = some s → s.textAuto ≠ none) (c : C) :
    nextEdgeStyleWith E c = .ok (penned E c (firstSize E)) := by
  cases E with
  | none => simp [nextEdgeStyleWith, EdgeStyle.make, EdgeStyle.setText, EdgeStyle.setColour, penned, defaultEdge, firstSize]
  | some s =>
    cases ht : s.textAuto with
    | none => exact absurd ht (H s rfl)
    | some b =>
      simp only [nextEdgeStyleWith, EdgeStyle.copy, ht, EdgeStyle.copied, EdgeStyle.make, bind, Except.bind, EdgeStyle.resetColours,
        EdgeStyle.setColour, penned, firstSize]

theorem nextEdge_last (E : Option (EdgeStyle C)) (c c' : C) (a : Rat) :
    nextEdgeStyleWith (some (penned E c' a)) c = .ok (penned E c a) := by
  have := nextEdge_given (some (penned E c' a)) (by intro s hs; cases hs; cases E <;> simp [penned, defaultEdge]) c
  rw [this]
  cases E <;> simp [penned, defaultEdge, firstSize]

omit [Palette C] in
theorem scaleArrow_penned (E : Option (EdgeStyle C)) (c : C) (a : Rat) {v : Val} {x : Rat} (h : v.factor = some x) :
    (penned E c a).scaleArrow v = .ok (penned E c (a * x)) := by
  cases v with
  | none =>
    have : x = 1 := by simpa [Val.factor] using h.symm
    subst this
    simp [EdgeStyle.scaleArrow, Rat.mul_one]
  | int i =>
    have : x = i := by simpa [Val.factor] using h.symm
    subst this
    cases E <;> rfl
  | str _ => simp [Val.factor] at h
  | obj _ => simp [Val.factor] at h

/-! ## Inheritance -/

theorem inheritWith_none (lim : Nat) (w : World C) (light : Rat) (fuel : Nat) (n : NRef) (d : Rat) :
    inheritStyleWith lim w none light fuel n d = inheritStyle lim w light fuel n d := by
  induction fuel generalizing n d with
  | zero => rfl
  | succ fuel ih =>
    unfold inheritStyleWith inheritStyle
    simp only [ih, rootStyle, mixStylesWith, bind, Except.bind]
    cases isRootOrParentsInLoop lim w.heap n with
    | error _ => rfl
    | ok b =>
      cases b
      · cases nodeParents w.heap n with
        | error _ => rfl
        | ok ps => rcases ps with _ | ⟨p, _ | ⟨p', rest⟩⟩ <;> rfl
      · rfl

theorem SameBody.shade {h h' : Heap} (S : SameBody h h') {light : Rat} {g : GRef} {c : C} {d : Rat} {n : NRef} {c' : C}
    (T : Shade light h g c d n c') : Shade light h' g c d n c' := by
  induction T with
  | own h1 => exact .own (by rw [← S.semiRoot]; exact h1)
  | only h1 h2 h3 h4 h5 =>
    refine .only (by rw [← S.semiRoot]; exact h1) (by rw [← S.nodeParents]; exact h2) (by rw [← S.nodeChildren]; exact h3) ?_ h5
    rw [← h4]
    congr 1
    funext c
    rw [S.nodeLt]
  | @mix d n parents colour h1 h2 h3 _ ih =>
    have := Shade.mix (light := light) (c := c) (d := d) colour (by rw [← S.semiRoot]; exact h1)
      (by rw [← S.nodeParents]; exact h2) h3 (fun p hp hn => ih p hp (by rw [S.path]; exact hn))
    rw [← S.path] at this
    exact this

theorem Takes.move {b : Brush} {given : Option (NodeStyle C)} {h h' : Heap} (S : SameBody h h') {g : GRef}
    {base base' : NRef → Option (NodeStyle C)} (H : ∀ n, SemiRoot h g n → base n = base' n) {n : NRef} {s : NodeStyle C}
    (T : Takes b given h g base n s) : Takes b given h' g base' n s := by
  cases given with
  | none => exact TintBy.move S H T
  | some main =>
    obtain ⟨c, h1, h2⟩ := T
    exact ⟨c, S.shade h1, h2⟩

section
variable {w : World C} (r : Reachable w.heap) {g : GRef} (hown : ∀ n ∈ graphNodes w.heap g, (w.heap.node n).graph = some g)
  {lim : Nat} (hlim : (graphNodes w.heap g).length ≤ lim)
include r hown hlim

theorem inherit_given (o : SRef) (light : Rat) (fuel : Nat) : ∀ (n : NRef) (d : Rat) (V : List NRef), n ∈ graphNodes w.heap g → V.Nodup →
    (∀ v ∈ V, v ∈ graphNodes w.heap g) → n ∉ V → (∀ v ∈ V, Path w.heap g n v ∧ ¬ Path w.heap g v n) →
    (graphNodes w.heap g).length ≤ fuel + V.length →
    ∃ s, inheritStyleWith lim w (some o) light fuel n d = .ok s ∧ Shade light w.heap g (w.ns o).colour d n s.colour ∧
      (¬ SemiRoot w.heap g n → s = tinted (w.ns o) s.colour) := by
  classical
  induction fuel with
  | zero =>
    intro n d V hn hV hsub hnV _ hf
    exfalso
    have : (n :: V).length ≤ (graphNodes w.heap g).length := by
      refine List.Subperm.length_le (List.subperm_of_subset (List.nodup_cons.2 ⟨hnV, hV⟩) ?_)
      intro x hx
      rcases List.mem_cons.1 hx with rfl | hx
      · exact hn
      · exact hsub x hx
    simp at this hf
    exact absurd (Nat.le_trans this hf) (Nat.not_succ_le_self _)
  | succ fuel ih =>
    intro n d V hn hV hsub hnV hpath hf
    have up : ∀ p, Arrow w.heap g p n → ¬ Path w.heap g n p →
        ∃ s, inheritStyleWith lim w (some o) light fuel p 0 = .ok s ∧ Shade light w.heap g (w.ns o).colour 0 p s.colour := by
      intro p ha hnp
      have hp := (arrow_mem r ha).1
      have v1 : ∀ v ∈ n :: V, v ∈ graphNodes w.heap g := by
        intro x hx
        rcases List.mem_cons.1 hx with rfl | hx
        · exact hn
        · exact hsub x hx
      have v2 : p ∉ n :: V := by
        intro hx
        rcases List.mem_cons.1 hx with rfl | hx
        · exact hnp (.single ha)
        · exact (hpath p hx).2 (.single ha)
      have v3 : ∀ v ∈ n :: V, Path w.heap g p v ∧ ¬ Path w.heap g v p := by
        intro v hv
        rcases List.mem_cons.1 hv with rfl | hv
        · exact ⟨.single ha, hnp⟩
        · exact ⟨.head ha (hpath v hv).1, fun hc => (hpath v hv).2 (hc.tail ha)⟩
      have v4 : (graphNodes w.heap g).length ≤ fuel + (n :: V).length := by simp only [List.length_cons]; omega
      obtain ⟨s, h1, h2, -⟩ := ih p 0 (n :: V) hp (List.nodup_cons.2 ⟨hnV, hV⟩) v1 v2 v3 v4
      exact ⟨s, h1, h2⟩
    unfold inheritStyleWith
    simp only [isRoot_eq r hown hlim hn, bind, Except.bind, nodeParents_eq r hown hn]
    by_cases hr : SemiRoot w.heap g n
    · simp only [hr, decide_true, if_true, rootStyle]
      refine ⟨_, rfl, ?_, by simp⟩
      have : (w.ns o).copy.colour = (w.ns o).colour := by
        simp only [NodeStyle.copy, NodeStyle.make, NodeStyle.setColour]
        rcases (w.ns o).fill with _ | _ <;> rcases (w.ns o).border with _ | _ <;> rcases (w.ns o).text with _ | _ <;>
          simp [NodeStyle.setFill, NodeStyle.setBorder, NodeStyle.setText]
      rw [this]
      exact .own hr
    · simp only [hr, decide_false, Bool.false_eq_true, if_false]
      obtain ⟨q, hqa, hql⟩ : ∃ q, Arrow w.heap g q n ∧ ¬ OnLoop w.heap g q := by
        unfold SemiRoot at hr
        simpa using hr
      have hqn : ¬ Path w.heap g n q := fun hc => hql (.head hqa hc)
      have hqp : q ∈ pars w.heap n := (mem_pars r hn).2 hqa
      rcases hps : pars w.heap n with _ | ⟨p, _ | ⟨p', rest⟩⟩
      · rw [hps] at hqp; cases hqp
      · simp only
        have hpq : q = p := by rw [hps] at hqp; simpa using hqp
        subst hpq
        have hq := (arrow_mem r hqa).1
        obtain ⟨cs, c1, c2, c3⟩ := (C52_rank r hn hq (hown q hq)).1 hqa
        obtain ⟨x, -, hx⟩ := (C47_select cs.length _ false).1 c3
        have hne : cs.length ≠ 0 := by omega
        simp only [c1, c2, siblingColour, if_neg hne, hx, bind, Except.bind, recolour_tinted]
        exact ⟨_, rfl, .only hr (by rw [nodeParents_eq r hown hn, hps]) c1 rfl hx, fun _ => rfl⟩
      · simp only
        rw [← hps]
        have hpar : ∀ p ∈ pars w.heap n, Arrow w.heap g p n := fun p hp => (mem_pars r hn).1 hp
        have hqf : ∀ p ∈ pars w.heap n, (do return !(← nodeIsInLoopWith lim w.heap n p) : Except PyErr Bool) = .ok (decide (¬ Path w.heap g n p)) := by
          intro p hp
          have ha := hpar p hp
          rw [nodeIsInLoopWith_eq r hown hlim hn (arrow_mem r ha).1]
          simp only [bind, Except.bind, pure, Except.pure, Except.ok.injEq]
          by_cases hc : Path w.heap g n p
          · have : Path w.heap g p n := .single ha
            simp [hc, this]
          · simp [hc]
        let st : NRef → NodeStyle C := fun p => match inheritStyleWith lim w (some o) light fuel p 0 with
          | .ok s => s
          | .error _ => defaultNode Palette.default
        have hst : ∀ p ∈ pars w.heap n, decide (¬ Path w.heap g n p) = true →
            inheritStyleWith lim w (some o) light fuel p 0 = .ok (st p) ∧ Shade light w.heap g (w.ns o).colour 0 p (st p).colour := by
          intro p hp hd
          obtain ⟨s, h1, h2⟩ := up p (hpar p hp) (by simpa using hd)
          simp only [st, h1]
          exact ⟨trivial, h2⟩
        have := parentStyles_ok hqf (fun p hp hd => (hst p hp hd).1)
        simp only [bind, Except.bind] at this
        rw [this]
        simp only [mixStylesWith, recolour_tinted, List.map_map]
        refine ⟨_, rfl, ?_, fun _ => rfl⟩
        exact Shade.mix (fun p => (st p).colour) hr (nodeParents_eq r hown hn) (by rw [hps]; simp)
          (fun p hp hn => (hst p hp (by simpa using hn)).2)

/-- What `inherit_style` returns for a node that inherits from somebody. -/
theorem inherit_takes (b : Brush) {n : NRef} (hn : n ∈ graphNodes w.heap g) (hr : ¬ SemiRoot w.heap g n)
    (hroots : ∀ n ∈ graphNodes w.heap g, SemiRoot w.heap g n → nodeLook w n ≠ none) :
    ∃ s, inheritStyleWith lim w b.node b.pale lim n b.divergence = .ok s ∧ Takes b (b.node.map w.ns) w.heap g (nodeLook w) n s := by
  cases hb : b.node with
  | none =>
    simp only [inheritWith_none, Option.map_none, Takes]
    rcases inherit_top r hown hlim b.pale hn b.divergence hlim with h | ⟨-, m, m1, m2, m3, -⟩
    · exact h
    · exact absurd m3 (hroots m m1 m2)
  | some o =>
    obtain ⟨s, h1, h2, h3⟩ := inherit_given r hown hlim o b.pale lim n b.divergence [] hn (by simp) (by simp) (by simp) (by simp)
      (by simpa using hlim)
    exact ⟨s, h1, s.colour, h2, h3 hr⟩
end
end Verif
