import Verif.Spec.Trace
import Verif.Lemmas.TraversePure
/-!
# The distance dictionary of a traversal, from the finds of the search
-/
namespace Verif

variable {α : Type} {next : α → List α}

/-- The same find, seen from one step farther away. -/
def Find.far (f : Find α) : Find α := { f with depth := f.depth + 1 }

namespace Trace
variable {V : List α} {p : α} {k : Nat} {todo : List α} {t : List (Find α)}

theorem pre (h : Trace next V p k todo t) : Pre next V todo (t.map (·.node)) := by
  induction h with
  | nil => exact .nil _
  | skip hx _ ih => exact .skip hx ih
  | visit hx _ _ ih1 ih2 =>
    rw [List.map_append, List.map_cons]
    exact .visit hx ih1 ih2

theorem far (h : Trace next V p k todo t) : Trace next V p (k + 1) todo (t.map Find.far) := by
  have e : ∀ l : List (Find α), (l.map Find.far).map (·.node) = l.map (·.node) := by intro l; simp [Find.far]
  induction h with
  | nil => exact .nil _ _ _
  | skip hx _ ih => exact .skip hx ih
  | visit hx _ _ ih1 ih2 =>
    rw [List.map_append, List.map_cons]
    exact .visit hx ih1 (by rw [e]; exact ih2)

/-- What is found at once comes from `p`; everything else comes from something found, and is deeper. -/
theorem via (h : Trace next V p k todo t) :
    ∀ f ∈ t, (f.depth = k ∧ f.via = p) ∨ (k < f.depth ∧ f.via ∈ t.map (·.node)) := by
  induction h with
  | nil => simp
  | skip _ _ ih => exact ih
  | @visit V p x k xs sub rest hx _ _ ih1 ih2 =>
    intro f hf
    rcases List.mem_append.1 hf with hf | hf
    · rcases List.mem_cons.1 hf with rfl | hf
      · exact .inl ⟨rfl, rfl⟩
      · refine .inr ?_
        rcases ih1 f hf with ⟨h1, h2⟩ | ⟨h1, h2⟩
        · exact ⟨by omega, by simp [h2]⟩
        · refine ⟨by omega, ?_⟩
          rw [List.map_append, List.map_cons]
          exact List.mem_append_left _ (List.mem_cons_of_mem _ h2)
    · rcases ih2 f hf with h | ⟨h1, h2⟩
      · exact .inl h
      · refine .inr ⟨h1, ?_⟩
        rw [List.map_append]
        exact List.mem_append_right _ h2

/-- The first find of all is not deep. -/
theorem first (h : Trace next V p k todo t) (ht : t ≠ []) : ∃ f ∈ t, f.depth = k := by
  induction h with
  | nil => exact absurd rfl ht
  | skip _ _ ih => exact ih ht
  | visit => exact ⟨_, List.mem_append_left _ (List.mem_cons_self ..), rfl⟩

end Trace

theorem foundAt_append (s t : List (Find α)) (k : Nat) : foundAt (s ++ t) k = foundAt s k ++ foundAt t k := by
  simp [foundAt]

section
variable [DecidableEq α]

theorem lastFamily_none {t : List (Find α)} {k : Nat} : lastFamily t k = none ↔ ∀ f ∈ t, f.depth ≠ k := by
  simp [lastFamily]

theorem lastFamily_append_none {s t : List (Find α)} {k : Nat} (h : ∀ f ∈ t, f.depth ≠ k) : lastFamily (s ++ t) k = lastFamily s k := by
  have e : ∀ (q : Find α → Prop) [DecidablePred q], t.filter (fun f => decide (f.depth = k ∧ q f)) = [] := by
    intro q _
    rw [List.filter_eq_nil_iff]
    intro f hf
    simp [h f hf]
  have e1 : t.filter (fun f => decide (f.depth = k)) = [] := by
    rw [List.filter_eq_nil_iff]
    intro f hf
    simp [h f hf]
  simp only [lastFamily, List.filter_append, e1, List.append_nil]
  cases (List.filter (fun f => decide (f.depth = k)) s).getLast? with
  | none => rfl
  | some l => simp only [Option.map_some, e (fun f => f.via = l.via), List.append_nil]

theorem lastFamily_append_some {s t : List (Find α)} {k : Nat} (h : ∃ f ∈ t, f.depth = k)
    (hv : ∀ f ∈ s, ∀ l ∈ t, f.depth = k → l.depth = k → f.via ≠ l.via) : lastFamily (s ++ t) k = lastFamily t k := by
  obtain ⟨f, hf, hk⟩ := h
  have ne : t.filter (fun f => decide (f.depth = k)) ≠ [] := by
    intro e
    have : f ∈ t.filter (fun f => decide (f.depth = k)) := List.mem_filter.2 ⟨hf, by simp [hk]⟩
    rw [e] at this
    cases this
  simp only [lastFamily, List.filter_append, List.getLast?_append]
  rw [List.getLast?_eq_some_getLast ne]
  simp only [Option.some_or, Option.map_some]
  have hm := List.getLast_mem ne
  obtain ⟨hm1, hm2⟩ := List.mem_filter.1 hm
  have : s.filter (fun f => decide (f.depth = k ∧ f.via = ((t.filter (fun f => decide (f.depth = k))).getLast ne).via)) = [] := by
    rw [List.filter_eq_nil_iff]
    intro f hf
    have := hv f hf _ hm1
    simp only [decide_eq_true_eq] at hm2 ⊢
    grind
  rw [this]
  simp

theorem lastFamily_far (t : List (Find α)) (k : Nat) : lastFamily (t.map Find.far) (k + 1) = lastFamily t k := by
  have e : ((fun f : Find α => decide (f.depth = k + 1)) ∘ Find.far) = fun f => decide (f.depth = k) := by
    funext f; simp [Find.far]
  simp only [lastFamily, List.filter_map, e, List.getLast?_map, Option.map_map]
  congr 1
  funext l
  simp only [Function.comp, Find.far, List.map_map]
  congr 1
  exact List.filter_congr (by intro f _; simp [Find.far])

/-- If all come from the same node, the last family is all. -/
theorem lastFamily_one {t : List (Find α)} {k : Nat} {p : α} (h : ∃ f ∈ t, f.depth = k) (hv : ∀ f ∈ t, f.depth = k → f.via = p) :
    lastFamily t k = some (foundAt t k) := by
  obtain ⟨f, hf, hk⟩ := h
  have ne : t.filter (fun f => decide (f.depth = k)) ≠ [] := by
    intro e
    have : f ∈ t.filter (fun f => decide (f.depth = k)) := List.mem_filter.2 ⟨hf, by simp [hk]⟩
    rw [e] at this
    cases this
  simp only [lastFamily, foundAt]
  rw [List.getLast?_eq_some_getLast ne]
  obtain ⟨hm1, hm2⟩ := List.mem_filter.1 (List.getLast_mem ne)
  simp only [Option.map_some, Option.some.injEq]
  congr 1
  refine List.filter_congr fun f hf => ?_
  rw [decide_eq_decide]
  simp only [decide_eq_true_eq] at hm2
  rw [hv _ hm1 hm2]
  exact ⟨fun h => h.1, fun h => ⟨h, hv f hf h⟩⟩

/-! ## Writing a shifted dictionary -/

/-- The own dictionary, with the one of a neighbour written over it. -/
def shiftInto (e d : Dict Nat (List α)) : Dict Nat (List α) := e.foldl (fun d p => dset d (p.1 + 1) p.2) d

omit [DecidableEq α] in
theorem dget_shiftInto {e : Dict Nat (List α)} (he : (dkeys e).Nodup) (d : Dict Nat (List α)) (k : Nat) :
    dget (shiftInto e d) (k + 1) = (dget e k).or (dget d (k + 1)) := by
  induction e generalizing d with
  | nil => simp [shiftInto, dget]
  | cons p e ih =>
    obtain ⟨j, l⟩ := p
    have hn := List.nodup_cons.1 he
    have := ih hn.2 (dset d (j + 1) l)
    unfold shiftInto at this ⊢
    rw [List.foldl_cons, this, dget_dset]
    by_cases hj : j = k
    · subst hj
      have : dget e j = none := dget_none.2 hn.1
      simp [this, dget]
    · simp [hj, dget]

omit [DecidableEq α] in
theorem nodup_shiftInto {e d : Dict Nat (List α)} (hd : (dkeys d).Nodup) : (dkeys (shiftInto e d)).Nodup := by
  induction e generalizing d with
  | nil => exact hd
  | cons p e ih => exact ih (nodup_dset hd)

omit [DecidableEq α] in
theorem pos_shiftInto {e d : Dict Nat (List α)} (hd : ∀ k ∈ dkeys d, 1 ≤ k) : ∀ k ∈ dkeys (shiftInto e d), 1 ≤ k := by
  induction e generalizing d with
  | nil => exact hd
  | cons p e ih =>
    refine ih fun k hk => ?_
    obtain ⟨q, hq, rfl⟩ := List.mem_map.1 hk
    rcases mem_dset hq with rfl | h | h
    · show 1 ≤ p.1 + 1; omega
    · exact hd _ (List.mem_map.2 ⟨q, h.1, rfl⟩)
    · exact hd _ (List.mem_map.2 ⟨q, h, rfl⟩)

omit [DecidableEq α] in
theorem keys_dset {d : Dict Nat (List α)} {n k : Nat} {l : List α} (hd : dkeys d = List.range' 1 n) (hk : 1 ≤ k) (hn : k ≤ n + 1) :
    dkeys (dset d k l) = List.range' 1 (max n k) := by
  by_cases h : k ≤ n
  · have hm : k ∈ dkeys d := by rw [hd, List.mem_range'_1]; omega
    rw [dkeys, keys_dset_of_mem hm, Nat.max_eq_left h]
    exact hd
  · have hm : k ∉ dkeys d := by rw [hd, List.mem_range'_1]; omega
    have : k = n + 1 := by omega
    subst this
    rw [dset_of_not_mem hm, Nat.max_eq_right (by omega), List.range'_concat, ← hd]
    simp [dkeys, Nat.add_comm]

omit [DecidableEq α] in
theorem keys_shiftInto {e d : Dict Nat (List α)} {a m n : Nat} (he : dkeys e = List.range' a m) (hd : dkeys d = List.range' 1 n)
    (h : a ≤ n) : dkeys (shiftInto e d) = List.range' 1 (max n (a + m)) := by
  induction e generalizing d a m n with
  | nil =>
    have : m = 0 := by
      have := congrArg List.length he
      simpa [dkeys] using this.symm
    subst this
    rw [Nat.add_zero, Nat.max_eq_left h]
    exact hd
  | cons p e ih =>
    obtain ⟨k, l⟩ := p
    cases m with
    | zero => simp [dkeys] at he
    | succ m =>
      rw [List.range'_succ] at he
      obtain ⟨rfl, he⟩ := List.cons.inj he
      have := ih (d := dset d (k + 1) l) (a := k + 1) (m := m) (n := max n (k + 1)) he (keys_dset hd (by omega) (by omega)) (by omega)
      refine this.trans ?_
      congr 1
      omega

theorem keys_absorb {e : Dict Nat (List α)} {m n : Nat} (he : dkeys e = List.range' 1 m) {sub : List α} {acc : List α × Dict Nat (List α)}
    (ha : dkeys acc.2 = List.range' 1 n) (hn : 1 ≤ n) : ∃ n', 1 ≤ n' ∧ dkeys (absorb inList sub e acc).2 = List.range' 1 n' := by
  induction sub generalizing acc n with
  | nil => exact ⟨n, hn, ha⟩
  | cons y sub ih =>
    unfold absorb
    rw [List.foldl_cons]
    split
    · exact ih ha hn
    · exact ih (acc := (acc.1 ++ [y], shiftInto e acc.2)) (keys_shiftInto he ha hn) (by omega)

/-- Absorbing something new writes the dictionary of the neighbour over the own one. -/
theorem absorb_snd {e : Dict Nat (List α)} (he : (dkeys e).Nodup) {sub : List α} {acc : List α × Dict Nat (List α)}
    (ha : (dkeys acc.2).Nodup) (hap : ∀ k ∈ dkeys acc.2, 1 ≤ k) (hnew : ∃ y ∈ sub, y ∉ acc.1) :
    (dkeys (absorb inList sub e acc).2).Nodup ∧ (∀ k ∈ dkeys (absorb inList sub e acc).2, 1 ≤ k) ∧
      ∀ k, dget (absorb inList sub e acc).2 (k + 1) = (dget e k).or (dget acc.2 (k + 1)) := by
  induction sub generalizing acc with
  | nil => simp at hnew
  | cons y sub ih =>
    unfold absorb
    rw [List.foldl_cons]
    by_cases hy : y ∈ acc.1
    · simp only [inList, hy, decide_true, if_true]
      refine ih ha hap ?_
      obtain ⟨z, hz, hz'⟩ := hnew
      rcases List.mem_cons.1 hz with rfl | hz
      · exact absurd hy hz'
      · exact ⟨z, hz, hz'⟩
    · simp only [inList, hy, decide_false, Bool.false_eq_true, if_false]
      have n1 := nodup_shiftInto (e := e) ha
      have p1 := pos_shiftInto (e := e) hap
      by_cases hq : ∃ z ∈ sub, z ∉ acc.1 ++ [y]
      · obtain ⟨i1, i2, i3⟩ := ih (acc := (acc.1 ++ [y], shiftInto e acc.2)) n1 p1 hq
        refine ⟨i1, i2, fun k => (i3 k).trans ?_⟩
        rw [dget_shiftInto he]
        cases dget e k <;> simp
      · have hq' : ∀ z ∈ sub, z ∈ acc.1 ++ [y] := fun z hz => Classical.byContradiction fun h => hq ⟨z, hz, h⟩
        have : ∀ (s : List α) (b : List α × Dict Nat (List α)), (∀ z ∈ s, z ∈ b.1) → absorb inList s e b = b := by
          intro s
          induction s with
          | nil => intro b _; rfl
          | cons z s ihs =>
            intro b hb
            unfold absorb
            rw [List.foldl_cons]
            simp only [inList, hb z (by simp), decide_true, if_true]
            exact ihs b fun u hu => hb u (by simp [hu])
        have := this sub (acc.1 ++ [y], shiftInto e acc.2) hq'
        unfold absorb at this
        simp only [inList, shiftInto] at this n1 p1
        rw [this]
        exact ⟨n1, p1, fun k => dget_shiftInto he _ k⟩

/-! ## The traversal -/

/-- The dictionary that goes with the finds. -/
structure Charted (next : α → List α) (x : α) (t : List (Find α)) (d : Dict Nat (List α)) : Prop where
  nodup : (dkeys d).Nodup
  pos : ∀ k ∈ dkeys d, 1 ≤ k
  keys : ∃ n, dkeys d = List.range' 1 n
  one : dget d 1 = if next x = [] then none else some (foundAt t 1)
  more : ∀ k, 2 ≤ k → dget d k = lastFamily t k

theorem objTraverse_trace {fuel : Nat} {x : α} {V : List α} {q : List α × Dict Nat (List α) × List α}
    (h : objTraverse next fuel x V none = .ok q) :
    ∃ t, Trace next (V ++ [x]) x 1 (next x) t ∧ q.1 = t.map (·.node) ∧ q.2.2 = V ++ x :: t.map (·.node) ∧ Charted next x t q.2.1 := by
  induction fuel generalizing x V q with
  | zero => cases h
  | succ fuel ih =>
    unfold objTraverse at h
    simp only [Option.any_none, Bool.false_eq_true, if_false, Option.map_none] at h
    by_cases hl : (next x).length = 0
    · have hnil : next x = [] := List.length_eq_zero_iff.1 hl
      rw [if_pos hl] at h
      cases h
      refine ⟨[], by rw [hnil]; exact .nil _ _ _, rfl, rfl, by simp [dkeys], by simp [dkeys], ⟨0, rfl⟩, by simp [hnil, dget], fun k _ => ?_⟩
      rw [lastFamily_none.2 (by simp)]; rfl
    rw [if_neg hl] at h
    have hne : next x ≠ [] := fun e => hl (by rw [e]; rfl)
    have loop : ∀ todo T d, (∀ f ∈ T, f.depth = 1 ∨ f.via ∈ T.map (·.node)) → (dkeys d).Nodup → (∀ k ∈ dkeys d, 1 ≤ k) → (∃ n, 1 ≤ n ∧ dkeys d = List.range' 1 n) →
        dget d 1 = some (foundAt T 1) → (∀ k, 2 ≤ k → dget d k = lastFamily T k) → ∀ q,
        todo.foldlM (m := Except PyErr) (fun s child =>
          if child ∈ s.2.2 then .ok s
          else do
            let acc := addDirect (fun x l => decide (x ∈ l)) child (s.1, s.2.1)
            let sub ← objTraverse next fuel child s.2.2 none
            let acc := absorb (fun x l => decide (x ∈ l)) sub.1 sub.2.1 acc
            .ok (acc.1, acc.2, sub.2.2)) (T.map (·.node), d, V ++ [x] ++ T.map (·.node)) = .ok q →
        ∃ t, Trace next (V ++ [x] ++ T.map (·.node)) x 1 todo t ∧ q.1 = (T ++ t).map (·.node) ∧ q.2.2 = V ++ [x] ++ (T ++ t).map (·.node) ∧
          Charted next x (T ++ t) q.2.1 := by
      intro todo
      induction todo with
      | nil =>
        intro T d _ hn hp hK h1 h2 q hq
        cases hq
        refine ⟨[], .nil _ _ _, by simp, by simp, ?_⟩
        rw [List.append_nil]
        exact ⟨hn, hp, ⟨_, hK.choose_spec.2⟩, by rw [if_neg hne]; exact h1, h2⟩
      | cons c todo ihl =>
        intro T d hT hn hp hK h1 h2 q hq
        rw [List.foldlM_cons] at hq
        by_cases hm : c ∈ V ++ [x] ++ T.map (·.node)
        · simp only [if_pos hm] at hq
          obtain ⟨t, a, b⟩ := ihl T d hT hn hp hK h1 h2 q hq
          exact ⟨t, .skip hm a, b⟩
        simp only [if_neg hm] at hq
        cases hr : objTraverse next fuel c (V ++ [x] ++ T.map (·.node)) none with
        | error e => rw [hr] at hq; cases hq
        | ok s =>
        rw [hr] at hq
        obtain ⟨S, tr, e1, e2, ch⟩ := ih hr
        obtain ⟨sl, e, sv⟩ := s
        simp only at e1 e2 ch
        subst e1 e2
        have hca : c ∉ T.map (·.node) := fun h => hm (List.mem_append_right _ h)
        have dis := tr.pre.disjoint
        have hadd : addDirect (fun x l => decide (x ∈ l)) c (T.map (·.node), d) =
            (T.map (·.node) ++ [c], dset d 1 (foundAt T 1 ++ [c])) := by simp [addDirect, hca, h1]
        have hnew : ∀ y ∈ S.map (·.node), y ∉ T.map (·.node) ++ [c] := by
          intro y hy hy'
          refine dis y hy ?_
          rcases List.mem_append.1 hy' with hy' | hy' <;> simp_all
        have habs : (absorb inList (S.map (·.node)) e (T.map (·.node) ++ [c], dset d 1 (foundAt T 1 ++ [c]))).1 =
            T.map (·.node) ++ c :: S.map (·.node) := by
          rw [absorb_fst tr.pre.nodup]
          have : (S.map (·.node)).filter (fun y => decide (y ∉ T.map (·.node) ++ [c])) = S.map (·.node) := by
            rw [List.filter_eq_self]
            intro y hy
            simpa using hnew y hy
          simp only [this, List.append_assoc, List.singleton_append]
        -- the finds so far
        have eN : ∀ l : List (Find α), (l.map Find.far).map (·.node) = l.map (·.node) := by intro l; simp [Find.far]
        have eT : (T ++ { node := c, depth := 1, via := x } :: S.map Find.far).map (·.node) = T.map (·.node) ++ c :: S.map (·.node) := by
          rw [List.map_append, List.map_cons, eN]
        have deep : ∀ f ∈ S.map Find.far, 2 ≤ f.depth ∧ (f.via = c ∨ f.via ∈ S.map (·.node)) := by
          intro f hf
          obtain ⟨s, hs, rfl⟩ := List.mem_map.1 hf
          rcases tr.via s hs with ⟨a, b⟩ | ⟨a, b⟩
          · exact ⟨by simp only [Find.far]; omega, .inl b⟩
          · exact ⟨by simp only [Find.far]; omega, .inr b⟩
        have at1 : foundAt (T ++ { node := c, depth := 1, via := x } :: S.map Find.far) 1 = foundAt T 1 ++ [c] := by
          rw [foundAt_append]
          congr 1
          have : (S.map Find.far).filter (fun f => decide (f.depth = 1)) = [] := by
            rw [List.filter_eq_nil_iff]
            intro f hf
            have := (deep f hf).1
            simp only [decide_eq_true_eq]; omega
          simp [foundAt, this]
        have n1 : (dkeys (dset d 1 (foundAt T 1 ++ [c]))).Nodup := nodup_dset hn
        have p1 : ∀ k ∈ dkeys (dset d 1 (foundAt T 1 ++ [c])), 1 ≤ k := by
          intro k hk
          obtain ⟨r, hr, rfl⟩ := List.mem_map.1 hk
          rcases mem_dset hr with rfl | h | h
          · exact Nat.le_refl _
          · exact hp _ (List.mem_map.2 ⟨r, h.1, rfl⟩)
          · exact hp _ (List.mem_map.2 ⟨r, h, rfl⟩)
        have D : (dkeys (absorb inList (S.map (·.node)) e (T.map (·.node) ++ [c], dset d 1 (foundAt T 1 ++ [c]))).2).Nodup ∧
            (∀ k ∈ dkeys (absorb inList (S.map (·.node)) e (T.map (·.node) ++ [c], dset d 1 (foundAt T 1 ++ [c]))).2, 1 ≤ k) ∧
            dget (absorb inList (S.map (·.node)) e (T.map (·.node) ++ [c], dset d 1 (foundAt T 1 ++ [c]))).2 1 =
              some (foundAt (T ++ { node := c, depth := 1, via := x } :: S.map Find.far) 1) ∧
            ∀ k, 2 ≤ k → dget (absorb inList (S.map (·.node)) e (T.map (·.node) ++ [c], dset d 1 (foundAt T 1 ++ [c]))).2 k =
              lastFamily (T ++ { node := c, depth := 1, via := x } :: S.map Find.far) k := by
          rw [at1]
          by_cases hS : S = []
          · subst hS
            refine ⟨n1, p1, by simp [absorb, dget_dset], fun k hk => ?_⟩
            show dget (dset d 1 (foundAt T 1 ++ [c])) k = _
            rw [dget_dset, if_neg (by omega), h2 k hk, lastFamily_append_none]
            intro f hf
            simp only [List.map_nil, List.mem_singleton] at hf
            subst hf
            show 1 ≠ k
            omega
          · obtain ⟨f0, hf0, hd0⟩ := tr.first hS
            obtain ⟨i1, i2, i3⟩ := absorb_snd (sub := S.map (·.node)) (acc := (T.map (·.node) ++ [c], dset d 1 (foundAt T 1 ++ [c])))
              ch.nodup n1 p1 ⟨f0.node, List.mem_map.2 ⟨f0, hf0, rfl⟩, hnew _ (List.mem_map.2 ⟨f0, hf0, rfl⟩)⟩
            have e0 : dget e 0 = none := dget_none.2 fun h => by have := ch.pos 0 h; omega
            refine ⟨i1, i2, ?_, ?_⟩
            · rw [i3 0, e0, dget_dset]
              simp
            · intro k hk
              obtain ⟨j, rfl⟩ : ∃ j, k = j + 1 := ⟨k - 1, by omega⟩
              have cne : next c ≠ [] := by
                intro e
                rw [e] at tr
                cases tr
                exact hS rfl
              have ej : dget e j = lastFamily S j := by
                by_cases hj : j = 1
                · subst hj
                  rw [ch.one, if_neg cne, lastFamily_one (p := c) ⟨f0, hf0, hd0⟩]
                  intro f hf hfd
                  rcases tr.via f hf with h | h
                  · exact h.2
                  · omega
                · exact ch.more j (by omega)
              rw [i3 j, ej, dget_dset, if_neg (by omega), h2 _ hk]
              by_cases hex : ∃ f ∈ S, f.depth = j
              · have ex' : ∃ f ∈ ({ node := c, depth := 1, via := x } : Find α) :: S.map Find.far, f.depth = j + 1 := by
                  obtain ⟨f, hf, hfj⟩ := hex
                  exact ⟨f.far, List.mem_cons_of_mem _ (List.mem_map.2 ⟨f, hf, rfl⟩), by simp [Find.far, hfj]⟩
                rw [lastFamily_append_some ex']
                · have : lastFamily (({ node := c, depth := 1, via := x } : Find α) :: S.map Find.far) (j + 1) =
                      lastFamily (S.map Find.far) (j + 1) := by
                    refine lastFamily_append_some (s := [{ node := c, depth := 1, via := x }]) ?_ ?_
                    · obtain ⟨f, hf, hfj⟩ := hex
                      exact ⟨f.far, List.mem_map.2 ⟨f, hf, rfl⟩, by simp [Find.far, hfj]⟩
                    · intro f hf l _ hfd
                      simp only [List.mem_singleton] at hf
                      subst hf
                      simp only at hfd
                      omega
                  rw [this, lastFamily_far]
                  cases hlf : lastFamily S j with
                  | some l => rfl
                  | none =>
                    obtain ⟨f, hf, hfj⟩ := hex
                    exact absurd hfj (lastFamily_none.1 hlf f hf)
                · intro f hf l hl hfd hld hv
                  rcases hT f hf with h | h
                  · omega
                  rcases List.mem_cons.1 hl with rfl | hl
                  · simp only at hld; omega
                  · rcases (deep l hl).2 with h' | h'
                    · exact hca (by rw [← h', ← hv]; exact h)
                    · exact hnew _ h' (by rw [← hv]; exact List.mem_append_left _ h)
              · have no : ∀ f ∈ S, f.depth ≠ j := fun f hf h => hex ⟨f, hf, h⟩
                rw [lastFamily_none.2 no, Option.none_or, lastFamily_append_none]
                intro f hf
                rcases List.mem_cons.1 hf with rfl | hf
                · show 1 ≠ j + 1; omega
                · obtain ⟨s, hs, rfl⟩ := List.mem_map.1 hf
                  have := no s hs
                  simp only [Find.far]; omega
        obtain ⟨d1, d2, d3, d4⟩ := D
        obtain ⟨t, a, b1, b2, b3⟩ := ihl (T ++ { node := c, depth := 1, via := x } :: S.map Find.far)
          (absorb inList (S.map (·.node)) e (T.map (·.node) ++ [c], dset d 1 (foundAt T 1 ++ [c]))).2 (by
            intro f hf
            rw [eT]
            rcases List.mem_append.1 hf with hf | hf
            · rcases hT f hf with h | h
              · exact .inl h
              · exact .inr (List.mem_append_left _ h)
            · rcases List.mem_cons.1 hf with rfl | hf
              · exact .inl rfl
              · rcases (deep f hf).2 with h | h
                · exact .inr (by rw [h]; simp)
                · exact .inr (List.mem_append_right _ (List.mem_cons_of_mem _ h))) d1 d2 (by
            obtain ⟨m, hm⟩ := ch.keys
            obtain ⟨n, hn1, hn⟩ := hK
            exact keys_absorb (sub := S.map (·.node)) (acc := (T.map (·.node) ++ [c], dset d 1 (foundAt T 1 ++ [c]))) hm (keys_dset hn (Nat.le_refl _) (by omega)) (by omega)) d3 d4 q (by
            refine Eq.trans ?_ hq
            show List.foldlM _ _ todo = List.foldlM _ _ todo
            congr 1
            simp only [hadd, eT]
            rw [habs]
            simp)
        refine ⟨{ node := c, depth := 1, via := x } :: S.map Find.far ++ t, ?_, ?_, ?_, ?_⟩
        · refine .visit hm tr.far ?_
          rw [eN]
          simpa [eN, Function.comp] using a
        · simpa using b1
        · simpa using b2
        · simpa using b3
    obtain ⟨t, a, b1, b2, b3⟩ := loop (next x) [] [(1, [])] (by simp) (by simp [dkeys]) (by simp [dkeys]) ⟨1, Nat.le_refl _, rfl⟩ (by simp [dget, foundAt])
      (by intro k hk; rw [lastFamily_none.2 (by simp)]; simp [dget]; omega) q (by simpa using h)
    exact ⟨t, by simpa using a, by simpa using b1, by simpa using b2, by simpa using b3⟩

end
end Verif
