import Verif.Lemmas.Trace
import Verif.Lemmas.AncestorsPure
/-!
# How many stack frames a traversal needs
-/
namespace Verif

variable {α : Type} {next : α → List α}

theorem Trace.of_pre {V todo out : List α} (h : Pre next V todo out) (p : α) (k : Nat) :
    ∃ t, Trace next V p k todo t ∧ t.map (·.node) = out := by
  induction h generalizing p k with
  | nil => exact ⟨[], .nil _ _ _, rfl⟩
  | skip hx _ ih =>
    obtain ⟨t, h1, h2⟩ := ih p k
    exact ⟨t, .skip hx h1, h2⟩
  | @visit V x xs sub rest hx _ _ ih1 ih2 =>
    obtain ⟨s, h1, h2⟩ := ih1 x (k + 1)
    obtain ⟨t, h3, h4⟩ := ih2 p k
    exact ⟨_, .visit hx h1 (by rw [h2]; exact h3), by simp [h2, h4]⟩

/-- A find was made so many steps from the start as its depth says. -/
theorem Trace.walk {V todo : List α} {p : α} {k : Nat} {t : List (Find α)} (h : Trace next V p k todo t) :
    ∀ f ∈ t, ∃ c ∈ todo, ∃ j, f.depth = k + j ∧ Walk (Step next) j c f.node := by
  induction h with
  | nil => simp
  | skip _ _ ih =>
    intro f hf
    obtain ⟨c, hc, q⟩ := ih f hf
    exact ⟨c, List.mem_cons_of_mem _ hc, q⟩
  | @visit V p x k xs sub rest hx _ _ ih1 ih2 =>
    intro f hf
    rcases List.mem_append.1 hf with hf | hf
    · rcases List.mem_cons.1 hf with rfl | hf
      · exact ⟨x, List.mem_cons_self, 0, rfl, .zero _⟩
      · obtain ⟨c, hc, j, e, w⟩ := ih1 f hf
        exact ⟨x, List.mem_cons_self, j + 1, by omega, .step hc w⟩
    · obtain ⟨c, hc, q⟩ := ih2 f hf
      exact ⟨c, List.mem_cons_of_mem _ hc, q⟩

variable [DecidableEq α]

/-- The loop over the neighbours, with `fuel` frames left. -/
theorem objFold_stack {V todo : List α} {p : α} {k : Nat} {t : List (Find α)} (h : Trace next V p k todo t) :
    ∀ (fuel : Nat) (l : List α) (d : Dict Nat (List α)),
      let run := todo.foldlM (fun s child =>
        if child ∈ s.2.2 then Except.ok s
        else do
          let acc := addDirect (fun x l => decide (x ∈ l)) child (s.1, s.2.1)
          let sub ← objTraverse next fuel child s.2.2 none
          let acc := absorb (fun x l => decide (x ∈ l)) sub.1 sub.2.1 acc
          Except.ok (acc.1, acc.2, sub.2.2)) (l, d, V)
      if ∀ f ∈ t, f.depth < k + fuel then ∃ l' d', run = .ok (l', d', V ++ t.map (·.node)) else run = .error .recursionError := by
  induction h with
  | nil V p k =>
    intro fuel l d
    simp only [List.foldlM_nil, List.not_mem_nil, false_implies, implies_true, if_true, List.map_nil, List.append_nil]
    exact ⟨l, d, rfl⟩
  | skip hx _ ih =>
    intro fuel l d
    have := ih fuel l d
    simp only [List.foldlM_cons, hx, if_true, bind, Except.bind] at this ⊢
    exact this
  | @visit V p x k xs sub rest hx h1 h2 ih1 ih2 =>
    intro fuel l d
    simp only [List.foldlM_cons, hx, if_false, bind, Except.bind]
    cases fuel with
    | zero =>
      rw [if_neg (by intro q; exact absurd (q ⟨x, k, p⟩ (by simp)) (by simp))]
      rfl
    | succ fuel =>
      have key : if ∀ f ∈ sub, f.depth < k + 1 + fuel then
          ∃ l' d', objTraverse next (fuel + 1) x V none = .ok (l', d', V ++ x :: sub.map (·.node))
          else objTraverse next (fuel + 1) x V none = .error .recursionError := by
        have := ih1 fuel [] [(1, [])]
        rw [objTraverse]
        simp only [Option.any_none, Bool.false_eq_true, if_false, Option.map_none]
        by_cases hn : (next x).length = 0
        · rw [if_pos hn]
          have hn := List.eq_nil_of_length_eq_zero hn
          rw [hn] at h1
          cases h1
          simp only [List.not_mem_nil, false_implies, implies_true, if_true, List.map_nil]
          exact ⟨_, _, rfl⟩
        · rw [if_neg hn]
          simpa only [List.append_assoc, List.singleton_append] using this
      by_cases hs : ∀ f ∈ sub, f.depth < k + 1 + fuel
      · rw [if_pos hs] at key
        obtain ⟨l', d', e⟩ := key
        rw [e]
        simp only
        have := ih2 (fuel + 1) (absorb (fun x l => decide (x ∈ l)) l' d' (addDirect (fun x l => decide (x ∈ l)) x (l, d))).1
          (absorb (fun x l => decide (x ∈ l)) l' d' (addDirect (fun x l => decide (x ∈ l)) x (l, d))).2
        by_cases hr : ∀ f ∈ rest, f.depth < k + (fuel + 1)
        · rw [if_pos hr] at this
          rw [if_pos]
          · have e2 : V ++ (⟨x, k, p⟩ :: sub ++ rest).map (·.node) = V ++ x :: sub.map (·.node) ++ rest.map (·.node) := by simp
            rw [e2]
            exact this
          · intro f hf
            rcases List.mem_append.1 hf with hf | hf
            · rcases List.mem_cons.1 hf with rfl | hf
              · simp only; omega
              · have := hs f hf; omega
            · exact hr f hf
        · rw [if_neg hr] at this
          rw [if_neg]
          · exact this
          · exact fun q => hr fun f hf => q f (List.mem_append_right _ hf)
      · rw [if_neg hs] at key
        rw [key]
        rw [if_neg]
        exact fun q => hs fun f hf => by have := q f (List.mem_append_left _ (List.mem_cons_of_mem _ hf)); omega

/-- The traversal needs one frame more than the deepest find is deep, and no more. -/
theorem objTraverse_stack {x : α} {t : List (Find α)} (h : Trace next [x] x 1 (next x) t) (lim : Nat) :
    if 0 < lim ∧ ∀ f ∈ t, f.depth < lim then ∃ q, objTraverse next lim x [] none = .ok q
    else objTraverse next lim x [] none = .error .recursionError := by
  cases lim with
  | zero => rw [if_neg (by simp)]; rfl
  | succ fuel =>
    have := objFold_stack h fuel [] [(1, [])]
    have e : ∀ f ∈ t, (f.depth < fuel + 1 ↔ f.depth < 1 + fuel) := by intro f _; omega
    rw [objTraverse]
    simp only [Option.any_none, Bool.false_eq_true, if_false, Option.map_none, List.nil_append]
    by_cases hn : (next x).length = 0
    · have hn' := List.eq_nil_of_length_eq_zero hn
      rw [hn'] at h
      cases h
      rw [if_pos hn, if_pos (by simp)]
      exact ⟨_, rfl⟩
    · rw [if_neg hn]
      by_cases hs : ∀ f ∈ t, f.depth < 1 + fuel
      · rw [if_pos hs] at this
        rw [if_pos ⟨by omega, fun f hf => (e f hf).2 (hs f hf)⟩]
        obtain ⟨l', d', q⟩ := this
        exact ⟨_, q⟩
      · rw [if_neg hs] at this
        rw [if_neg (fun q => hs fun f hf => (e f hf).1 (q.2 f hf))]
        exact this

theorem ancFold_stack {V todo : List α} {p : α} {k : Nat} {t : List (Find α)} (h : Trace next V p k todo t) :
    ∀ (fuel : Nat) (l : List α) (d : Dict Nat (List α)),
      let run := todo.foldlM (fun s parent =>
        let acc := addDirect inList parent (s.1, s.2.1)
        if parent ∈ s.2.2 then Except.ok (acc.1, acc.2, s.2.2)
        else do
          let sub ← ancTraverse next fuel parent s.2.2
          let acc := absorb inList sub.1 sub.2.1 acc
          Except.ok (acc.1, acc.2, sub.2.2)) (l, d, V)
      if ∀ f ∈ t, f.depth < k + fuel then ∃ l' d', run = .ok (l', d', V ++ t.map (·.node)) else run = .error .recursionError := by
  induction h with
  | nil V p k =>
    intro fuel l d
    simp only [List.foldlM_nil, List.not_mem_nil, false_implies, implies_true, if_true, List.map_nil, List.append_nil]
    exact ⟨l, d, rfl⟩
  | @skip V p x k xs out hx _ ih =>
    intro fuel l d
    have := ih fuel (addDirect inList x (l, d)).1 (addDirect inList x (l, d)).2
    simp only [List.foldlM_cons, hx, if_true, bind, Except.bind] at this ⊢
    exact this
  | @visit V p x k xs sub rest hx h1 h2 ih1 ih2 =>
    intro fuel l d
    simp only [List.foldlM_cons, hx, if_false, bind, Except.bind]
    cases fuel with
    | zero =>
      rw [if_neg (by intro q; exact absurd (q ⟨x, k, p⟩ (by simp)) (by simp))]
      rfl
    | succ fuel =>
      have key : if ∀ f ∈ sub, f.depth < k + 1 + fuel then
          ∃ l' d', ancTraverse next (fuel + 1) x V = .ok (l', d', V ++ x :: sub.map (·.node))
          else ancTraverse next (fuel + 1) x V = .error .recursionError := by
        have := ih1 fuel [] [(1, [])]
        rw [ancTraverse]
        by_cases hn : (next x).length = 0
        · rw [if_pos hn]
          have hn := List.eq_nil_of_length_eq_zero hn
          rw [hn] at h1
          cases h1
          simp only [List.not_mem_nil, false_implies, implies_true, if_true, List.map_nil]
          exact ⟨_, _, rfl⟩
        · rw [if_neg hn]
          simpa only [List.append_assoc, List.singleton_append] using this
      by_cases hs : ∀ f ∈ sub, f.depth < k + 1 + fuel
      · rw [if_pos hs] at key
        obtain ⟨l', d', e⟩ := key
        rw [e]
        simp only
        have := ih2 (fuel + 1) (absorb inList l' d' (addDirect inList x (l, d))).1 (absorb inList l' d' (addDirect inList x (l, d))).2
        by_cases hr : ∀ f ∈ rest, f.depth < k + (fuel + 1)
        · rw [if_pos hr] at this
          rw [if_pos]
          · have e2 : V ++ (⟨x, k, p⟩ :: sub ++ rest).map (·.node) = V ++ x :: sub.map (·.node) ++ rest.map (·.node) := by simp
            rw [e2]
            exact this
          · intro f hf
            rcases List.mem_append.1 hf with hf | hf
            · rcases List.mem_cons.1 hf with rfl | hf
              · simp only; omega
              · have := hs f hf; omega
            · exact hr f hf
        · rw [if_neg hr] at this
          rw [if_neg]
          · exact this
          · exact fun q => hr fun f hf => q f (List.mem_append_right _ hf)
      · rw [if_neg hs] at key
        rw [key]
        rw [if_neg]
        exact fun q => hs fun f hf => by have := q f (List.mem_append_left _ (List.mem_cons_of_mem _ hf)); omega

theorem ancTraverse_stack {x : α} {t : List (Find α)} (h : Trace next [x] x 1 (next x) t) (lim : Nat) :
    if 0 < lim ∧ ∀ f ∈ t, f.depth < lim then ∃ q, ancTraverse next lim x [] = .ok q
    else ancTraverse next lim x [] = .error .recursionError := by
  cases lim with
  | zero => rw [if_neg (by simp)]; rfl
  | succ fuel =>
    have := ancFold_stack h fuel [] [(1, [])]
    have e : ∀ f ∈ t, (f.depth < fuel + 1 ↔ f.depth < 1 + fuel) := by intro f _; omega
    rw [ancTraverse]
    simp only [List.nil_append]
    by_cases hn : (next x).length = 0
    · have hn' := List.eq_nil_of_length_eq_zero hn
      rw [hn'] at h
      cases h
      rw [if_pos hn, if_pos (by simp)]
      exact ⟨_, rfl⟩
    · rw [if_neg hn]
      by_cases hs : ∀ f ∈ t, f.depth < 1 + fuel
      · rw [if_pos hs] at this
        rw [if_pos ⟨by omega, fun f hf => (e f hf).2 (hs f hf)⟩]
        obtain ⟨l', d', q⟩ := this
        exact ⟨_, q⟩
      · rw [if_neg hs] at this
        rw [if_neg (fun q => hs fun f hf => (e f hf).1 (q.2 f hf))]
        exact this

end Verif
