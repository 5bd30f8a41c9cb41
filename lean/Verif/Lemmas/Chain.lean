import Verif.Lemmas.TraverseTop
/-!
# On chains the distance dictionaries are complete
-/
namespace Verif

variable {α : Type} [DecidableEq α] {next : α → List α}

omit [DecidableEq α] in
theorem dget_shift {e d : Dict Nat (List α)} (hn : (dkeys e).Nodup) {k : Nat} {l : List α} (hk : (k, l) ∈ e) :
    dget (e.foldl (fun d p => dset d (p.1 + 1) p.2) d) (k + 1) = some l := by
  induction e generalizing d with
  | nil => cases hk
  | cons p e ih =>
    rw [List.foldl_cons]
    have hn' := List.nodup_cons.1 hn
    rcases List.mem_cons.1 hk with hk | hk
    · have hk' : p = (k, l) := hk.symm
      subst hk'
      have key : ∀ (e' : Dict Nat (List α)) (d' : Dict Nat (List α)), k ∉ dkeys e' →
          dget (e'.foldl (fun d p => dset d (p.1 + 1) p.2) d') (k + 1) = dget d' (k + 1) := by
        intro e'
        induction e' with
        | nil => intros; rfl
        | cons q e' ih =>
          intro d' hq
          simp only [dkeys, List.map_cons, List.mem_cons, not_or] at hq
          rw [List.foldl_cons, ih _ hq.2, dget_dset, if_neg (by omega)]
      rw [key e _ hn'.1, dget_dset, if_pos rfl]
    · exact ih hn'.2 hk

theorem absorb_keep {sub : List α} {e : Dict Nat (List α)} (hn : (dkeys e).Nodup) {acc : List α × Dict Nat (List α)}
    (h : ∀ k l, (k, l) ∈ e → dget acc.2 (k + 1) = some l) :
    ∀ k l, (k, l) ∈ e → dget (absorb inList sub e acc).2 (k + 1) = some l := by
  induction sub generalizing acc with
  | nil => exact h
  | cons z sub ih =>
    unfold absorb
    rw [List.foldl_cons]
    split
    · exact ih h
    · exact ih (acc := (acc.1 ++ [z], e.foldl (fun d p => dset d (p.1 + 1) p.2) acc.2)) (fun k l hk => dget_shift hn hk)

theorem absorb_complete {sub : List α} {e : Dict Nat (List α)} (hn : (dkeys e).Nodup) {acc : List α × Dict Nat (List α)}
    (hz : ∃ z ∈ sub, z ∉ acc.1) : ∀ k l, (k, l) ∈ e → dget (absorb inList sub e acc).2 (k + 1) = some l := by
  induction sub generalizing acc with
  | nil => obtain ⟨z, hz, -⟩ := hz; cases hz
  | cons z sub ih =>
    unfold absorb
    rw [List.foldl_cons]
    by_cases hm : z ∈ acc.1
    · simp only [inList, hm, decide_true, if_true]
      refine ih ?_
      obtain ⟨w, hw, hwa⟩ := hz
      rcases List.mem_cons.1 hw with rfl | hw
      · exact absurd hm hwa
      · exact ⟨w, hw, hwa⟩
    · simp only [inList, hm, decide_false, Bool.false_eq_true, if_false]
      exact absorb_keep (acc := (acc.1 ++ [z], e.foldl (fun d p => dset d (p.1 + 1) p.2) acc.2)) hn
        (fun k l hk => dget_shift hn hk)

/-- Every member of the list is listed at some distance. -/
def Listed (acc : List α) (d : Dict Nat (List α)) : Prop := ∀ y ∈ acc, ∃ k l, (k, l) ∈ d ∧ y ∈ l

theorem listed_absorb {c : α} {sa : List α} {sd : Dict Nat (List α)} (hl : Listed sa sd) (hn : sa.Nodup)
    (hk : (dkeys sd).Nodup) (hp : ∀ k l, (k, l) ∈ sd → 1 ≤ k) :
    Listed (absorb inList sa sd ([c], [(1, [c])])).1 (absorb inList sa sd ([c], [(1, [c])])).2 := by
  intro y hy
  by_cases hyc : y = c
  · subst hyc
    have := absorb_one (sub := sa) (acc := ([y], [(1, [y])])) hp
    exact ⟨1, [y], mem_of_dget (by rw [this]; rfl), by simp⟩
  · have hys : y ∈ sa := by
      rcases ((absorb_mem hn).1 y).1 hy with h | h
      · exact absurd (List.mem_singleton.1 h) hyc
      · exact h
    obtain ⟨k, l, hkl, hyl⟩ := hl y hys
    exact ⟨k + 1, l, mem_of_dget (absorb_complete (acc := ([c], [(1, [c])])) hk ⟨y, hys, by simpa using hyc⟩ k l hkl), hyl⟩

theorem foldlM_id {σ β ε : Type} {f : σ → β → Except ε σ} {l : List β} {s : σ} (h : ∀ a ∈ l, f s a = .ok s) :
    l.foldlM f s = .ok s := by
  induction l with
  | nil => rfl
  | cons a l ih => rw [List.foldlM_cons, h a (by simp)]; exact ih fun b hb => h b (by simp [hb])

theorem ancTraverse_chain {U : List α} (hU : ∀ y ∈ U, ∀ z ∈ next y, z ∈ U)
    (hfun : ∀ y ∈ U, ∀ p ∈ next y, ∀ q ∈ next y, p = q) (fuel : Nat) {x : α} {V : List α} (hx : x ∈ U)
    (hV : x ∉ V) (hf : (U.filter (fun y => decide (y ∉ V))).length ≤ fuel)
    {anc : List α} {d : Dict Nat (List α)} {t : List α} (h : ancTraverse next fuel x V = .ok (anc, d, t)) : Listed anc d := by
  induction fuel generalizing x V anc d t with
  | zero => cases h
  | succ fuel ih =>
    have hlt := filter_notin_length hx hV
    unfold ancTraverse at h
    split at h
    · cases h; intro y hy; cases hy
    · next hl =>
      cases hnx : next x with
      | nil => simp [hnx] at hl
      | cons c cs =>
        have hcx : c ∈ next x := by simp [hnx]
        have hcs : ∀ b ∈ cs, b = c := fun b hb => hfun x hx b (by simp [hnx, hb]) c hcx
        rw [hnx, List.foldlM_cons] at h
        have hadd : addDirect inList c ([], [(1, [])]) = ([c], [(1, [c])]) := by simp [addDirect, dset, dget]
        simp only [hadd] at h
        by_cases hm : c ∈ V ++ [x]
        · simp only [if_pos hm] at h
          have hid := foldlM_id (f := fun (s : List α × Dict Nat (List α) × List α) parent =>
            if parent ∈ s.2.2 then Except.ok (ε := PyErr) ((addDirect inList parent (s.1, s.2.1)).1, (addDirect inList parent (s.1, s.2.1)).2, s.2.2)
            else do
              let sub ← ancTraverse next fuel parent s.2.2
              Except.ok ((absorb inList sub.1 sub.2.1 (addDirect inList parent (s.1, s.2.1))).1,
                (absorb inList sub.1 sub.2.1 (addDirect inList parent (s.1, s.2.1))).2, sub.2.2))
            (l := cs) (s := ([c], [(1, [c])], V ++ [x])) (by
              intro a ha
              rw [hcs a ha]
              simp [hm, addDirect])
          have h := h.symm.trans hid
          cases h
          intro y hy
          exact ⟨1, [c], by simp, hy⟩
        · simp only [if_neg hm] at h
          have hfc : (U.filter (fun y => decide (y ∉ V ++ [x]))).length ≤ fuel := by omega
          obtain ⟨sa, sd, sub, hr, ht⟩ := ancTraverse_ok hU fuel (hU x hx c hcx) hm hfc
          have hlist := ih (hU x hx c hcx) hm hfc hr
          rw [hr] at h
          obtain ⟨bm, -⟩ := absorb_mem (e := sd) (acc := ([c], [(1, [c])])) ht.nodup
          have hca : c ∈ (absorb inList sa sd ([c], [(1, [c])])).1 := (bm c).2 (.inl (by simp))
          have hid := foldlM_id (f := fun (s : List α × Dict Nat (List α) × List α) parent =>
            if parent ∈ s.2.2 then Except.ok (ε := PyErr) ((addDirect inList parent (s.1, s.2.1)).1, (addDirect inList parent (s.1, s.2.1)).2, s.2.2)
            else do
              let sub ← ancTraverse next fuel parent s.2.2
              Except.ok ((absorb inList sub.1 sub.2.1 (addDirect inList parent (s.1, s.2.1))).1,
                (absorb inList sub.1 sub.2.1 (addDirect inList parent (s.1, s.2.1))).2, sub.2.2))
            (l := cs) (s := ((absorb inList sa sd ([c], [(1, [c])])).1, (absorb inList sa sd ([c], [(1, [c])])).2, V ++ [x] ++ c :: sub)) (by
              intro a ha
              rw [hcs a ha]
              simp [addDirect, hca])
          have h := h.symm.trans hid
          cases h
          exact listed_absorb hlist ht.nodup ht.dict.nodup ht.dict.pos

theorem objTraverse_chain {U : List α} (hU : ∀ y ∈ U, ∀ z ∈ next y, z ∈ U)
    (hfun : ∀ y ∈ U, ∀ p ∈ next y, ∀ q ∈ next y, p = q) (fuel : Nat) {x : α} {V : List α} (hx : x ∈ U)
    (hV : x ∉ V) (hf : (U.filter (fun y => decide (y ∉ V))).length ≤ fuel)
    {anc : List α} {d : Dict Nat (List α)} {t : List α} (h : objTraverse next fuel x V none = .ok (anc, d, t)) :
    Listed anc d := by
  induction fuel generalizing x V anc d t with
  | zero => cases h
  | succ fuel ih =>
    have hlt := filter_notin_length hx hV
    unfold objTraverse at h
    simp only [Option.any_none, Bool.false_eq_true, if_false, Option.map_none] at h
    split at h
    · cases h; intro y hy; cases hy
    · next hl =>
      cases hnx : next x with
      | nil => simp [hnx] at hl
      | cons c cs =>
        have hcx : c ∈ next x := by simp [hnx]
        have hcs : ∀ b ∈ cs, b = c := fun b hb => hfun x hx b (by simp [hnx, hb]) c hcx
        rw [hnx, List.foldlM_cons] at h
        have hadd : addDirect (fun x l => decide (x ∈ l)) c ([], [(1, [])]) = ([c], [(1, [c])]) := by simp [addDirect, dset, dget]
        by_cases hm : c ∈ V ++ [x]
        · simp only [if_pos hm] at h
          have h := h.symm.trans (foldlM_id (by intro a ha; rw [hcs a ha]; simp only [if_pos hm]))
          cases h
          intro y hy; cases hy
        · simp only [if_neg hm] at h
          have hfc : (U.filter (fun y => decide (y ∉ V ++ [x]))).length ≤ fuel := by omega
          obtain ⟨sa, sd, hr, ht⟩ := objTraverse_ok hU fuel (hU x hx c hcx) hm hfc
          have hlist := ih (hU x hx c hcx) hm hfc hr
          rw [hr] at h
          simp only [hadd] at h
          have h := h.symm.trans (foldlM_id (s := ((absorb inList sa sd ([c], [(1, [c])])).1,
            (absorb inList sa sd ([c], [(1, [c])])).2, V ++ [x] ++ c :: sa)) (by intro a ha; rw [hcs a ha]; simp))
          cases h
          exact listed_absorb hlist ht.pre.nodup ht.dict.nodup ht.dict.pos

end Verif
