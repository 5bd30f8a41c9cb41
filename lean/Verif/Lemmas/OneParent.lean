import Verif.Lemmas.Chain
/-!
# Every entry of a distance dictionary lists neighbours of a single node
-/
namespace Verif

variable {α : Type} [DecidableEq α] {next : α → List α}

/-- Entry `k` lists neighbours of one node, which is `k - 1` steps away. -/
def OneParent (next : α → List α) (x : α) (d : Dict Nat (List α)) : Prop :=
  ∀ k l, (k, l) ∈ d → 1 ≤ k ∧ ∃ p, Walk (Step next) (k - 1) x p ∧ ∀ y ∈ l, y ∈ next p

omit [DecidableEq α] in
theorem OneParent.set {x : α} {d : Dict Nat (List α)} (h : OneParent next x d) {k : Nat} {l : List α} (hk : 1 ≤ k) {p : α}
    (hw : Walk (Step next) (k - 1) x p) (hp : ∀ y ∈ l, y ∈ next p) : OneParent next x (dset d k l) := by
  intro k' l' hm
  rcases mem_dset hm with hm | hm | hm
  · cases hm; exact ⟨hk, p, hw, hp⟩
  · exact h _ _ hm.1
  · exact h _ _ hm

omit [DecidableEq α] in
theorem OneParent.shift {x c : α} {e : Dict Nat (List α)} (he : OneParent next c e) (hc : c ∈ next x) {d : Dict Nat (List α)}
    (h : OneParent next x d) : OneParent next x (e.foldl (fun d p => dset d (p.1 + 1) p.2) d) := by
  have key : ∀ e' : Dict Nat (List α), (∀ p ∈ e', p ∈ e) → ∀ d, OneParent next x d →
      OneParent next x (e'.foldl (fun d p => dset d (p.1 + 1) p.2) d) := by
    intro e'
    induction e' with
    | nil => intro _ d h; exact h
    | cons q e' ih =>
      intro hq d h
      obtain ⟨hk, p, hw, hp⟩ := he q.1 q.2 (hq q (by simp))
      refine ih (fun q hq' => hq q (by simp [hq'])) _ (h.set (p := p) (by omega) ?_ hp)
      have : q.1 + 1 - 1 = (q.1 - 1) + 1 := by omega
      rw [this]
      exact .step hc hw
  exact key e (fun _ h => h) d h

theorem OneParent.absorb {x c : α} {sub : List α} {e : Dict Nat (List α)} (he : OneParent next c e) (hc : c ∈ next x) :
    ∀ {acc : List α × Dict Nat (List α)}, OneParent next x acc.2 → OneParent next x (absorb inList sub e acc).2 := by
  induction sub with
  | nil => intro acc h; exact h
  | cons y sub ih =>
    intro acc h
    unfold Verif.absorb
    rw [List.foldl_cons]
    split
    · exact ih h
    · exact ih (acc := (acc.1 ++ [y], e.foldl (fun d p => dset d (p.1 + 1) p.2) acc.2)) (he.shift hc h)

theorem OneParent.addDirect {x c : α} (hc : c ∈ next x) {acc : List α × Dict Nat (List α)} (h : OneParent next x acc.2) :
    OneParent next x (addDirect inList c acc).2 := by
  unfold Verif.addDirect
  split
  · exact h
  · refine h.set (p := x) (Nat.le_refl 1) (.zero x) ?_
    intro y hy
    rcases List.mem_append.1 hy with hy | hy
    · cases hd : dget acc.2 1 with
      | none => rw [hd] at hy; cases hy
      | some l =>
        rw [hd] at hy
        obtain ⟨-, p, hw, hp⟩ := h 1 l (mem_of_dget hd)
        cases hw
        exact hp y hy
    · rw [List.mem_singleton.1 hy]; exact hc

theorem foldlM_keeps {σ β ε : Type} {P : σ → Prop} {f : σ → β → Except ε σ} : ∀ {l : List β}
    (_ : ∀ b ∈ l, ∀ s s', P s → f s b = .ok s' → P s') {s s' : σ} (_ : P s) (_ : l.foldlM f s = .ok s'), P s' := by
  intro l
  induction l with
  | nil => intro _ s s' hs h; cases h; exact hs
  | cons b l ih =>
    intro hf s s' hs h
    rw [List.foldlM_cons] at h
    cases hb : f s b with
    | error e => rw [hb] at h; cases h
    | ok s1 =>
      rw [hb] at h
      exact ih (fun c hc => hf c (by simp [hc])) (hf b (by simp) s s1 hs hb) h

omit [DecidableEq α] in
theorem oneParent_start (x : α) : OneParent next x [(1, [])] := by
  intro k l hm
  simp at hm
  obtain ⟨rfl, rfl⟩ := hm
  exact ⟨Nat.le_refl 1, x, .zero x, by simp⟩

theorem ancTraverse_one (fuel : Nat) {x : α} {V anc : List α} {d : Dict Nat (List α)} {t : List α}
    (h : ancTraverse next fuel x V = .ok (anc, d, t)) : OneParent next x d := by
  induction fuel generalizing x V anc d t with
  | zero => cases h
  | succ fuel ih =>
    unfold ancTraverse at h
    split at h
    · cases h; intro k l hm; cases hm
    · refine foldlM_keeps (P := fun s : List α × Dict Nat (List α) × List α => OneParent next x s.2.1) ?_ (oneParent_start x) h
      intro c hc s s' hs he
      simp only at he
      split at he
      · cases he; exact OneParent.addDirect hc (acc := (s.1, s.2.1)) hs
      · cases hr : ancTraverse next fuel c s.2.2 with
        | error e => rw [hr] at he; cases he
        | ok q =>
          rw [hr] at he
          cases he
          exact (ih (t := q.2.2) hr).absorb hc (OneParent.addDirect hc (acc := (s.1, s.2.1)) hs)

theorem objTraverse_one (fuel : Nat) {x : α} {V anc : List α} {m : Option Int} {d : Dict Nat (List α)} {t : List α}
    (h : objTraverse next fuel x V m = .ok (anc, d, t)) : OneParent next x d := by
  induction fuel generalizing x V m anc d t with
  | zero => cases h
  | succ fuel ih =>
    unfold objTraverse at h
    split at h
    · cases h; intro k l hm; cases hm
    split at h
    · cases h; intro k l hm; cases hm
    · refine foldlM_keeps (P := fun s : List α × Dict Nat (List α) × List α => OneParent next x s.2.1) ?_ (oneParent_start x) h
      intro c hc s s' hs he
      simp only at he
      split at he
      · cases he; exact hs
      · cases hr : objTraverse next fuel c s.2.2 (m.map (· - 1)) with
        | error e => rw [hr] at he; cases he
        | ok q =>
          rw [hr] at he
          cases he
          exact (ih (t := q.2.2) hr).absorb hc (OneParent.addDirect hc (acc := (s.1, s.2.1)) hs)

theorem walk_start_mem {h : Heap} (r : Reachable h) {g : GRef} {k : Nat} {n m : NRef} (hm : m ∈ graphNodes h g)
    (w : Walk (Arrow h g) k n m) : n ∈ graphNodes h g := by
  cases w with
  | zero => exact hm
  | step hs _ => exact (arrow_mem r hs).1

theorem walk_end_mem {h : Heap} (r : Reachable h) {g : GRef} {k : Nat} {n m : NRef} (hn : n ∈ graphNodes h g)
    (w : Walk (Arrow h g) k n m) : m ∈ graphNodes h g := by
  induction w with
  | zero => exact hn
  | step hs _ ih => exact ih (arrow_mem r hs).2

omit [DecidableEq α] in
theorem walk_level {R : α → α → Prop} {level : α → Nat} (hl : ∀ a b, R a b → level b = level a + 1) {k : Nat} {a b : α}
    (w : Walk R k a b) : level b = level a + k := by
  induction w with
  | zero => rfl
  | step hs _ ih => rw [ih, hl _ _ hs]; omega

end Verif
