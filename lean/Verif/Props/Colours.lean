import Verif.Model.Colour
import Verif.Spec.Append
import Verif.Lemmas.Dict
import Verif.Props.Builders
/-!
# C46, C47: handing out colours, and the numbers that spread siblings
-/
namespace Verif

section LeastUsed
variable {C : Type} [DecidableEq C]

/-- `k` calls of `get_least_used_colour` on the same dict: the colours returned, and the dict afterwards. -/
def handOut : Nat → Dict C Nat → Except PyErr (List C × Dict C Nat)
  | 0, d => .ok ([], d)
  | k + 1, d => do
    let r ← handOut k d
    let s ← getLeastUsedColour r.2
    .ok (r.1 ++ [s.1], s.2)

/-- The counts after `q` full rounds and `r` more calls. -/
def rounds (cs : List C) (q r : Nat) : Dict C Nat :=
  (cs.take r).map (·, q + 1) ++ (cs.drop r).map (·, q)

omit [DecidableEq C] in
theorem minLoop_ge (d : Dict C Nat) (best : C × Nat) (H : ∀ p ∈ d, best.2 ≤ p.2) : minLoop d best = best := by
  induction d with
  | nil => rfl
  | cons p d ih =>
    have h1 := H p (by simp)
    rw [minLoop, if_neg (by omega)]
    exact ih (fun p hp => H p (by simp [hp]))

omit [DecidableEq C] in
theorem minLoop_high (d d' : Dict C Nat) (c : C) (q : Nat) (best : C × Nat) (hb : best.2 = q + 1)
    (H : ∀ p ∈ d, p.2 = q + 1) (H' : ∀ p ∈ d', p.2 = q) : minLoop (d ++ (c, q) :: d') best = (c, q) := by
  induction d generalizing best with
  | nil =>
    rw [List.nil_append, minLoop, if_pos (by simp [hb])]
    exact minLoop_ge _ _ (fun p hp => by simp [H' p hp])
  | cons p d ih =>
    have h1 := H p (by simp)
    rw [List.cons_append, minLoop, if_neg (by omega)]
    exact ih best hb (fun p hp => H p (by simp [hp]))

theorem dset_split (d d' : Dict C Nat) (c : C) (v w : Nat) (H : c ∉ dkeys d) :
    dset (d ++ (c, v) :: d') c w = d ++ (c, w) :: d' := by
  induction d with
  | nil => simp [dset]
  | cons p d ih =>
    simp only [dkeys, List.map_cons, List.mem_cons, not_or] at H
    rw [List.cons_append, dset, if_neg (fun h => H.1 h.symm), ih H.2]
    rfl

theorem rounds_step (cs : List C) (nd : cs.Nodup) (q r : Nat) (hr : r < cs.length) :
    getLeastUsedColour (rounds cs q r) = .ok (cs[r], rounds cs q (r + 1)) := by
  have hd : cs.drop r = cs[r] :: cs.drop (r + 1) := List.drop_eq_getElem_cons hr
  have ht : cs.take (r + 1) = cs.take r ++ [cs[r]] := by
    rw [List.take_succ_eq_append_getElem hr]
  have hnot : cs[r] ∉ cs.take r := by
    intro h
    have h2 : (cs.take r ++ cs.drop r).Nodup := by rw [List.take_append_drop]; exact nd
    rw [List.nodup_append] at h2
    exact h2.2.2 _ h _ (by rw [hd]; exact List.mem_cons_self) rfl
  have hform : rounds cs q r = (cs.take r).map (·, q + 1) ++ (cs[r], q) :: (cs.drop (r + 1)).map (·, q) := by
    rw [rounds, hd]; rfl
  have hnext : rounds cs q (r + 1) = (cs.take r).map (·, q + 1) ++ (cs[r], q + 1) :: (cs.drop (r + 1)).map (·, q) := by
    rw [rounds, ht, List.map_append, List.append_assoc]; rfl
  have hset := dset_split ((cs.take r).map (·, q + 1)) ((cs.drop (r + 1)).map (·, q)) cs[r] q (q + 1)
    (by simpa [dkeys, Function.comp_def] using hnot)
  rw [hnext, ← hset, hform]
  cases hl : cs.take r with
  | nil =>
    simp only [List.map_nil, List.nil_append, getLeastUsedColour]
    rw [minLoop_ge _ _ (by simp [-List.map_take, -List.map_drop])]
  | cons x l =>
    simp only [List.map_cons, List.cons_append, getLeastUsedColour]
    rw [minLoop_high _ _ _ _ _ rfl (by simp) (by simp [-List.map_take, -List.map_drop])]

omit [DecidableEq C] in
theorem rounds_wrap (cs : List C) (q : Nat) : rounds cs q cs.length = rounds cs (q + 1) 0 := by
  simp [rounds]

omit [DecidableEq C] in
theorem rounds_keys (cs : List C) (q r : Nat) : dkeys (rounds cs q r) = cs := by
  simp [rounds, dkeys, Function.comp_def]

theorem dset_zero (d : Dict C Nat) (c : C) (H : ∀ p ∈ d, p.2 = 0) :
    dset d c 0 = if c ∈ dkeys d then d else d ++ [(c, 0)] := by
  induction d with
  | nil => simp [dset, dkeys]
  | cons p d ih =>
    have h1 := H p (by simp)
    have h2 := ih (fun p hp => H p (by simp [hp]))
    obtain ⟨x, n⟩ := p
    simp only at h1
    subst h1
    by_cases hc : x = c
    · subst hc; simp [dset, dkeys]
    · have : ¬ c = x := fun h => hc h.symm
      rw [dset, if_neg hc, h2]
      have hm : c ∈ dkeys ((x, 0) :: d) ↔ c ∈ dkeys d := by simp [dkeys, this]
      by_cases hd : c ∈ dkeys d
      · rw [if_pos hd, if_pos (hm.2 hd)]
      · rw [if_neg hd, if_neg (fun h => hd (hm.1 h))]; rfl

/-- The dict the stylists start with: every colour once, in scheme order, not used yet. -/
theorem coloursUnused_eq (l : List C) : coloursUnused l = (firsts l).map (·, 0) := by
  unfold coloursUnused
  rw [← List.reverse_reverse l]
  induction l.reverse with
  | nil => rfl
  | cons c l ih =>
    rw [List.reverse_cons]
    generalize l.reverse = l at ih
    rw [List.foldl_append, List.foldl_cons, List.foldl_nil, ih, dset_zero _ _ (by simp), firsts_append]
    have : dkeys ((firsts l).map (fun x => (x, 0))) = firsts l := by simp [dkeys, Function.comp_def]
    rw [this]
    by_cases h : c ∈ l
    · rw [if_pos (mem_firsts.2 h), if_pos h]
    · rw [if_neg (fun x => h (mem_firsts.1 x)), if_neg h]; simp

theorem nodup_firsts (l : List C) : (firsts l).Nodup := by
  induction l with
  | nil => simp [firsts]
  | cons x l ih => simp only [firsts, List.nodup_cons]; exact ⟨by simp, ih.filter _⟩

theorem handOut_eq (cs : List C) (nd : cs.Nodup) (hm : 0 < cs.length) (k : Nat) :
    handOut k (cs.map (·, 0)) =
      .ok ((List.range k).map (fun i => cs[i % cs.length]'(Nat.mod_lt _ hm)), rounds cs (k / cs.length) (k % cs.length)) := by
  induction k with
  | zero => simp [handOut, rounds]
  | succ k ih =>
    have hk := Nat.mod_lt k hm
    have hdm := Nat.div_add_mod k cs.length
    have hstep : rounds cs (k / cs.length) (k % cs.length + 1) = rounds cs ((k + 1) / cs.length) ((k + 1) % cs.length) := by
      by_cases hc : k % cs.length + 1 = cs.length
      · have e : k + 1 = cs.length * (k / cs.length + 1) := by rw [Nat.mul_add]; omega
        have e1 : (k + 1) / cs.length = k / cs.length + 1 := by rw [e, Nat.mul_div_cancel_left _ hm]
        have e2 : (k + 1) % cs.length = 0 := by rw [e, Nat.mul_mod_right]
        rw [hc, rounds_wrap, e1, e2]
      · have e : k + 1 = (k % cs.length + 1) + cs.length * (k / cs.length) := by omega
        have hlt : k % cs.length + 1 < cs.length := by omega
        have e1 : (k + 1) / cs.length = k / cs.length := by
          rw [e, Nat.add_mul_div_left _ _ hm, Nat.div_eq_of_lt hlt, Nat.zero_add]
        have e2 : (k + 1) % cs.length = k % cs.length + 1 := by
          rw [e, Nat.add_mul_mod_self_left, Nat.mod_eq_of_lt hlt]
        rw [e1, e2]
    simp only [handOut, ih, bind, Except.bind, rounds_step cs nd _ _ hk, List.range_succ, List.map_append, List.map_cons,
      List.map_nil, hstep]

theorem rounds_get (cs : List C) (q r : Nat) (c : C) (hc : c ∈ cs) :
    dget (rounds cs q r) c = some (if c ∈ cs.take r then q + 1 else q) := by
  have h0 : ∀ (l : List C) (v : Nat) (d : Dict C Nat),
      dget (l.map (·, v) ++ d) c = if c ∈ l then some v else dget d c := by
    intro l v d
    induction l with
    | nil => simp
    | cons x l ih =>
      simp only [List.map_cons, List.cons_append, dget, ih, List.mem_cons]
      by_cases hx : x = c
      · subst hx; simp
      · have : ¬ c = x := fun h => hx h.symm
        simp [hx, this]
  rw [rounds, h0]
  by_cases h1 : c ∈ cs.take r
  · simp [h1]
  · have h2 : c ∈ cs.drop r := by
      have : c ∈ cs.take r ++ cs.drop r := by rw [List.take_append_drop]; exact hc
      exact (List.mem_append.1 this).resolve_left h1
    have := h0 (cs.drop r) q []
    rw [List.append_nil] at this
    rw [this]; simp [h1, h2]

theorem handOut_count (cs : List C) (nd : cs.Nodup) (hm : 0 < cs.length) (k : Nat) (c : C) (hc : c ∈ cs) :
    dget (rounds cs (k / cs.length) (k % cs.length)) c =
      some (((List.range k).map (fun i => cs[i % cs.length]'(Nat.mod_lt _ hm))).count c) := by
  induction k with
  | zero => rw [rounds_get cs _ _ c hc]; simp
  | succ k ih =>
    have e1 := handOut_eq cs nd hm k
    have e2 := handOut_eq cs nd hm (k + 1)
    have hk := Nat.mod_lt k hm
    simp only [handOut, e1, bind, Except.bind, rounds_step cs nd _ _ hk, Except.ok.injEq, Prod.mk.injEq] at e2
    rw [← e2.2, List.range_succ, List.map_append, List.count_append, List.map_cons, List.map_nil, List.count_singleton]
    rw [rounds_get cs _ _ c hc] at ih ⊢
    have ht : cs.take (k % cs.length + 1) = cs.take (k % cs.length) ++ [cs[k % cs.length]] := by
      rw [List.take_succ_eq_append_getElem hk]
    have hnd : (cs.take (k % cs.length) ++ [cs[k % cs.length]]).Nodup := by
      rw [← ht]; exact nd.sublist (List.take_sublist _ _)
    rw [List.nodup_append] at hnd
    rw [ht]
    simp only [Option.some.injEq] at ih ⊢
    by_cases h1 : cs[k % cs.length] = c
    · have h2 : c ∉ cs.take (k % cs.length) := fun h => hnd.2.2 c h c (by simp [h1]) rfl
      rw [if_neg h2] at ih
      rw [if_pos (by simp [h1]), if_pos (by simp [h1])]
      omega
    · have h3 : c ∈ cs.take (k % cs.length) ++ [cs[k % cs.length]] ↔ c ∈ cs.take (k % cs.length) := by
        have : ¬ c = cs[k % cs.length] := fun h => h1 h.symm
        simp only [List.mem_append, List.mem_singleton, this, or_false]
      rw [if_neg (c := (cs[k % cs.length] == c) = true) (by simpa using h1), ← ih]
      by_cases h4 : c ∈ cs.take (k % cs.length)
      · rw [if_pos h4, if_pos (h3.2 h4), Nat.add_zero]
      · rw [if_neg h4, if_neg (fun h => h4 (h3.1 h)), Nat.add_zero]

/-- **C46.** `k` calls on the fresh dict of any scheme with at least one colour: call number `i` returns colour number
`i mod m` of the scheme (every colour counted once, where it first appears). -/
theorem C46_round_robin (scheme : List C) (hne : scheme ≠ []) (k : Nat) :
    ∃ l d, handOut k (coloursUnused scheme) = .ok (l, d) ∧ l.length = k ∧
      ∀ i < k, l[i]? = (firsts scheme)[i % (firsts scheme).length]? := by
  have hm : 0 < (firsts scheme).length := by
    cases scheme with
    | nil => exact absurd rfl hne
    | cons x l => simp [firsts]
  refine ⟨_, _, by rw [coloursUnused_eq]; exact handOut_eq _ (nodup_firsts scheme) hm k, by simp, ?_⟩
  intro i hi
  rw [List.getElem?_map, List.getElem?_range hi, Option.map_some,
    List.getElem?_eq_getElem (Nat.mod_lt i hm)]

/-- **C46.** The dict counts exactly the uses, and no colour of the scheme is ever used more than once more than another. -/
theorem C46_even (scheme : List C) (k : Nat) (l : List C) (d : Dict C Nat)
    (H : handOut k (coloursUnused scheme) = .ok (l, d)) :
    (∀ c ∈ scheme, dget d c = some (l.count c)) ∧
      ∀ c ∈ scheme, ∀ c' ∈ scheme, l.count c ≤ l.count c' + 1 := by
  cases hs : scheme with
  | nil => simp
  | cons x xs =>
    rw [← hs]
    have hm : 0 < (firsts scheme).length := by rw [hs]; simp [firsts]
    have nd := nodup_firsts scheme
    rw [coloursUnused_eq, handOut_eq _ nd hm k] at H
    simp only [Except.ok.injEq, Prod.mk.injEq] at H
    obtain ⟨rfl, rfl⟩ := H
    have h1 : ∀ c ∈ scheme, _ := fun c hc => handOut_count _ nd hm k c (mem_firsts.2 hc)
    refine ⟨h1, fun c hc c' hc' => ?_⟩
    have a1 := h1 c hc
    have a2 := h1 c' hc'
    rw [rounds_get _ _ _ _ (mem_firsts.2 hc)] at a1
    rw [rounds_get _ _ _ _ (mem_firsts.2 hc')] at a2
    rw [Option.some.injEq] at a1 a2
    rw [← a1, ← a2]
    split <;> split <;> omega

/-- **C46.** A scheme without colours: the first call already fails. -/
theorem C46_empty (k : Nat) : handOut (C := C) (k + 1) (coloursUnused []) = .error (.valueError "min() arg is an empty sequence") := by
  induction k with
  | zero => rfl
  | succ k ih => rw [handOut, ih]; rfl

example : handOut 7 (coloursUnused ["red", "green", "red", "blue"]) =
    .ok (["red", "green", "blue", "red", "green", "blue", "red"], [("red", 3), ("green", 2), ("blue", 2)]) := by decide +kernel

end LeastUsed

/-! ## Diverging numbers -/

theorem gen_even (m : Nat) : generateDivergingNumbers (2 * m) =
    (List.range' 1 m).map (fun x : Nat => (x : Rat) / m) ++ (List.range' 1 m).map (fun x : Nat => -((x : Rat) / m)) := by
  cases m with
  | zero => rfl
  | succ k =>
    have h2 : ((2 * k + 1 + 1 : Nat) : Rat) / 2 = ((k + 1 : Nat) : Rat) := by grind
    rw [show 2 * (k + 1) = (2 * k + 1) + 1 by omega, generateDivergingNumbers, if_neg (by omega), if_pos (by omega), h2,
      show (2 * k + 1 + 1) / 2 = k + 1 by omega]
    congr 2
    grind

theorem gen_odd (m : Nat) : generateDivergingNumbers (2 * m + 1) = 0 :: generateDivergingNumbers (2 * m) := by
  rw [generateDivergingNumbers]
  by_cases h : m = 0
  · subst h; rfl
  · rw [if_neg (by omega), if_neg (by omega)]

theorem mem_gen_even (m : Nat) (x : Rat) : x ∈ generateDivergingNumbers (2 * m) ↔
    ∃ k : Nat, 1 ≤ k ∧ k ≤ m ∧ (x = (k : Rat) / m ∨ x = -((k : Rat) / m)) := by
  rw [gen_even]
  simp only [List.mem_append, List.mem_map, List.mem_range'_1]
  constructor
  · rintro (⟨k, h, rfl⟩ | ⟨k, h, rfl⟩)
    · exact ⟨k, by omega, by omega, .inl rfl⟩
    · exact ⟨k, by omega, by omega, .inr rfl⟩
  · rintro ⟨k, h1, h2, rfl | rfl⟩
    · exact .inl ⟨k, by omega, rfl⟩
    · exact .inr ⟨k, by omega, rfl⟩

theorem ratio_bounds (k m : Nat) (h1 : 1 ≤ k) (h2 : k ≤ m) : 0 < (k : Rat) / m ∧ (k : Rat) / m ≤ 1 := by
  have hm : (0 : Rat) < m := by exact_mod_cast (by omega : 0 < m)
  have hk : (0 : Rat) < k := by exact_mod_cast h1
  have hkm : (k : Rat) ≤ m := by exact_mod_cast h2
  refine ⟨by rw [Rat.lt_div_iff hm]; grind, Rat.not_lt.1 fun h => ?_⟩
  rw [Rat.lt_div_iff hm] at h
  grind

theorem ratio_inj (k j m : Nat) (hm : 0 < m) (h : (k : Rat) / m = (j : Rat) / m) : k = j := by
  have hm : ((m : Nat) : Rat) ≠ 0 := by exact_mod_cast (by omega : m ≠ 0)
  have : (k : Rat) = j := by grind
  exact_mod_cast this

theorem even_or_odd (n : Nat) : ∃ m, n = 2 * m ∨ n = 2 * m + 1 := ⟨n / 2, by omega⟩

theorem gen_length (n : Nat) : (generateDivergingNumbers n).length = n := by
  have he : ∀ m, (generateDivergingNumbers (2 * m)).length = 2 * m := by
    intro m; rw [gen_even]; simp; omega
  rcases even_or_odd n with ⟨m, rfl | rfl⟩
  · exact he m
  · rw [gen_odd, List.length_cons, he]

theorem gen_even_nodup (m : Nat) : (generateDivergingNumbers (2 * m)).Nodup := by
  rw [gen_even, List.nodup_append]
  have hr : (List.range' 1 m).Nodup := List.nodup_range'
  refine ⟨?_, ?_, ?_⟩
  · refine List.Nodup.map_on ?_ hr
    intro k hk j hj h
    rw [List.mem_range'_1] at hk
    exact ratio_inj k j m (by omega) h
  · refine List.Nodup.map_on ?_ hr
    intro k hk j hj h
    rw [List.mem_range'_1] at hk
    exact ratio_inj k j m (by omega) (by grind)
  · intro a ha b hb hab
    simp only [List.mem_map, List.mem_range'_1] at ha hb
    obtain ⟨k, hk, rfl⟩ := ha
    obtain ⟨j, hj, rfl⟩ := hb
    have h1 := ratio_bounds k m (by omega) (by omega)
    have h2 := ratio_bounds j m (by omega) (by omega)
    grind

theorem zero_not_mem_even (m : Nat) : (0 : Rat) ∉ generateDivergingNumbers (2 * m) := by
  rw [mem_gen_even]
  rintro ⟨k, h1, h2, h | h⟩ <;> have := ratio_bounds k m h1 h2 <;> grind

/-- **C47.** `generate_diverging_numbers(n)`: `n` different numbers between -1 and 1, with every number its negative,
and 0 among them exactly when `n` is odd. -/
theorem C47_spread (n : Nat) :
    (generateDivergingNumbers n).length = n ∧ (generateDivergingNumbers n).Nodup ∧
      (∀ x ∈ generateDivergingNumbers n, -1 ≤ x ∧ x ≤ 1) ∧
      (∀ x ∈ generateDivergingNumbers n, -x ∈ generateDivergingNumbers n) ∧
      ((0 : Rat) ∈ generateDivergingNumbers n ↔ n % 2 = 1) := by
  refine ⟨gen_length n, ?_⟩
  have hb : ∀ m, ∀ x ∈ generateDivergingNumbers (2 * m), -1 ≤ x ∧ x ≤ 1 := by
    intro m x hx
    rw [mem_gen_even] at hx
    obtain ⟨k, h1, h2, h⟩ := hx
    have := ratio_bounds k m h1 h2
    grind
  have hn : ∀ m, ∀ x ∈ generateDivergingNumbers (2 * m), -x ∈ generateDivergingNumbers (2 * m) := by
    intro m x hx
    rw [mem_gen_even] at hx ⊢
    obtain ⟨k, h1, h2, h⟩ := hx
    exact ⟨k, h1, h2, by grind⟩
  rcases even_or_odd n with ⟨m, rfl | rfl⟩
  · exact ⟨gen_even_nodup m, hb m, hn m, by simp [zero_not_mem_even]⟩
  · rw [gen_odd]
    refine ⟨List.nodup_cons.2 ⟨zero_not_mem_even m, gen_even_nodup m⟩, ?_, ?_, by simp⟩
    · intro x hx
      rcases List.mem_cons.1 hx with rfl | hx
      · grind
      · exact hb m x hx
    · intro x hx
      rcases List.mem_cons.1 hx with rfl | hx
      · simp
      · exact List.mem_cons_of_mem _ (hn m x hx)

theorem insertRat_perm (le : Rat → Rat → Bool) (x : Rat) (l : List Rat) : (insertRat le x l).Perm (x :: l) := by
  induction l with
  | nil => rfl
  | cons y l ih =>
    rw [insertRat]
    split
    · rfl
    · exact (List.Perm.cons y ih).trans (List.Perm.swap x y l)

theorem sortRat_perm (b : Bool) (l : List Rat) : (sortRat b l).Perm l := by
  induction l with
  | nil => rfl
  | cons x l ih => exact (insertRat_perm _ x _).trans (List.Perm.cons x ih)

theorem insertRat_pairwise {le : Rat → Rat → Bool} (ht : ∀ a b c, le a b → le b c → le a c) (hl : ∀ a b, le a b = false → le b a)
    (x : Rat) (l : List Rat) (H : l.Pairwise (fun a b => le a b = true)) :
    (insertRat le x l).Pairwise (fun a b => le a b = true) := by
  induction l with
  | nil => simp [insertRat]
  | cons y l ih =>
    rw [List.pairwise_cons] at H
    rw [insertRat]
    by_cases h : le x y = true
    · rw [if_pos h, List.pairwise_cons]
      refine ⟨fun z hz => ?_, List.pairwise_cons.2 H⟩
      rcases List.mem_cons.1 hz with rfl | hz
      · exact h
      · exact ht _ _ _ h (H.1 z hz)
    · rw [if_neg h, List.pairwise_cons]
      refine ⟨fun z hz => ?_, ih H.2⟩
      rcases List.mem_cons.1 ((insertRat_perm le x l).mem_iff.1 hz) with rfl | hz
      · exact hl _ _ (by simpa using h)
      · exact H.1 z hz

theorem sortRat_pairwise (b : Bool) (l : List Rat) :
    (sortRat b l).Pairwise (fun x y => if b then y ≤ x else x ≤ y) := by
  have key : (sortRat b l).Pairwise (fun x y => (if b then decide (y ≤ x) else decide (x ≤ y)) = true) := by
    unfold sortRat
    induction l with
    | nil => simp
    | cons x l ih =>
      refine insertRat_pairwise ?_ ?_ x _ ih
      · intro a c d h1 h2; cases b <;> simp at * <;> grind
      · intro a c h1; cases b <;> simp at * <;> grind
  refine key.imp ?_
  intro x y h
  cases b <;> simpa using h

/-- **C47.** Every rank below `n` selects one of the numbers, a larger rank a larger number (a smaller one with
`reverse`), and a rank that is too large raises `IndexError`. -/
theorem C47_select (n i : Nat) (reverse : Bool) :
    (i < n → ∃ x ∈ generateDivergingNumbers n, getDivergingNumber i n reverse = .ok x) ∧
      (n ≤ i → getDivergingNumber i n reverse = .error .indexError) ∧
      (∀ j x y, i < j → getDivergingNumber i n reverse = .ok x → getDivergingNumber j n reverse = .ok y →
        if reverse then y < x else x < y) := by
  have hp := sortRat_perm reverse (generateDivergingNumbers n)
  have hlen : (sortRat reverse (generateDivergingNumbers n)).length = n := by rw [hp.length_eq, gen_length]
  have hnd : (sortRat reverse (generateDivergingNumbers n)).Nodup := hp.nodup_iff.2 (C47_spread n).2.1
  have hsort := sortRat_pairwise reverse (generateDivergingNumbers n)
  refine ⟨fun h => ?_, fun h => ?_, ?_⟩
  · have hi : i < (sortRat reverse (generateDivergingNumbers n)).length := by omega
    refine ⟨_, hp.mem_iff.1 (List.getElem_mem hi), ?_⟩
    rw [getDivergingNumber, List.getElem?_eq_getElem hi]
  · rw [getDivergingNumber, List.getElem?_eq_none (by omega)]
  · intro j x y hij hx hy
    have get : ∀ k z, getDivergingNumber k n reverse = .ok z →
        (sortRat reverse (generateDivergingNumbers n))[k]? = some z := by
      intro k z h
      rw [getDivergingNumber] at h
      split at h
      · simp_all
      · cases h
    have h1 := get i x hx
    have h2 := get j y hy
    obtain ⟨a1, rfl⟩ := List.getElem?_eq_some_iff.1 h1
    obtain ⟨a2, rfl⟩ := List.getElem?_eq_some_iff.1 h2
    have h3 := List.pairwise_iff_getElem.1 hsort i j a1 a2 hij
    have h4 := List.pairwise_iff_getElem.1 hnd i j a1 a2 hij
    cases reverse <;> simp at h3 ⊢ <;> grind

example : generateDivergingNumbers 5 = [0, 1/2, 1, -1/2, -1] := by decide +kernel
example : getDivergingNumber 1 5 false = .ok (-1/2) ∧ getDivergingNumber 4 5 true = .ok (-1) := by decide +kernel

end Verif
