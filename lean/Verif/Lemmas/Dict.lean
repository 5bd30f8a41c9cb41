import Verif.Py
/-! Lemmas about `Dict`. -/
namespace Verif
variable {K V : Type} [DecidableEq K]

theorem mem_of_dget {d : Dict K V} {k : K} {v : V} (h : dget d k = some v) : (k, v) ∈ d := by
  induction d with
  | nil => simp [dget] at h
  | cons p d ih =>
    obtain ⟨k', v'⟩ := p
    simp only [dget] at h
    split at h
    · next e => cases h; subst e; simp
    · exact List.mem_cons_of_mem _ (ih h)

theorem dget_of_mem {d : Dict K V} {k : K} {v : V} (hn : (d.map Prod.fst).Nodup) (h : (k, v) ∈ d) :
    dget d k = some v := by
  induction d with
  | nil => simp at h
  | cons p d ih =>
    obtain ⟨k', v'⟩ := p
    simp only [List.map_cons, List.nodup_cons] at hn
    simp only [dget]
    rcases List.mem_cons.1 h with h | h
    · cases h; simp
    · split
      · next e =>
        subst e
        exact absurd (List.mem_map_of_mem (f := Prod.fst) h) hn.1
      · exact ih hn.2 h

theorem dget_iff {d : Dict K V} (hn : (d.map Prod.fst).Nodup) {k : K} {v : V} :
    dget d k = some v ↔ (k, v) ∈ d := ⟨mem_of_dget, dget_of_mem hn⟩

theorem dget_none {d : Dict K V} {k : K} : dget d k = none ↔ k ∉ d.map Prod.fst := by
  induction d with
  | nil => simp [dget]
  | cons p d ih =>
    obtain ⟨k', v'⟩ := p
    simp only [dget, List.map_cons, List.mem_cons, not_or]
    split
    · next e => subst e; simp
    · next e => rw [ih]; exact ⟨fun h => ⟨fun h' => e h'.symm, h⟩, fun h => h.2⟩

theorem dget_isSome {d : Dict K V} {k : K} : (dget d k).isSome ↔ k ∈ d.map Prod.fst := by
  constructor
  · intro h
    refine Decidable.byContradiction fun hn => ?_
    rw [← dget_none] at hn
    simp [hn] at h
  · intro h
    cases e : dget d k with
    | none => exact absurd h (dget_none.1 e)
    | some v => rfl

theorem dset_of_not_mem {d : Dict K V} {k : K} {v : V} (h : k ∉ d.map Prod.fst) :
    dset d k v = d ++ [(k, v)] := by
  induction d with
  | nil => rfl
  | cons p d ih =>
    obtain ⟨k', v'⟩ := p
    simp only [List.map_cons, List.mem_cons, not_or] at h
    simp only [dset]
    rw [if_neg (fun e => h.1 e.symm), ih h.2]
    rfl

theorem dset_same {d : Dict K V} {k : K} {v : V} (h : dget d k = some v) : dset d k v = d := by
  induction d with
  | nil => simp [dget] at h
  | cons p d ih =>
    obtain ⟨k', v'⟩ := p
    simp only [dget] at h
    simp only [dset]
    split at h
    · next e => cases h; simp [e]
    · next e => rw [if_neg e, ih h]

theorem keys_dset_of_mem {d : Dict K V} {k : K} {v : V} (h : k ∈ d.map Prod.fst) :
    (dset d k v).map Prod.fst = d.map Prod.fst := by
  induction d with
  | nil => simp at h
  | cons p d ih =>
    obtain ⟨k', v'⟩ := p
    simp only [dset]
    split
    · rfl
    · next e =>
      simp only [List.map_cons, List.mem_cons] at h ⊢
      rw [ih]
      rcases h with h | h
      · exact absurd h.symm e
      · exact h

theorem dget_dset {d : Dict K V} {k k' : K} {v : V} :
    dget (dset d k v) k' = if k = k' then some v else dget d k' := by
  induction d with
  | nil => simp [dset, dget]
  | cons p d ih =>
    obtain ⟨k'', v''⟩ := p
    simp only [dset]
    split
    · next e =>
      subst e
      simp only [dget]
      split <;> rfl
    · next e =>
      simp only [dget]
      split
      · next e' => subst e'; rw [if_neg (fun h => e h.symm)]
      · exact ih

theorem nodup_dset {d : Dict K V} {k : K} {v : V} (h : (dkeys d).Nodup) : (dkeys (dset d k v)).Nodup := by
  unfold dkeys at *
  by_cases hk : k ∈ d.map Prod.fst
  · rw [keys_dset_of_mem hk]; exact h
  · rw [dset_of_not_mem hk, List.map_append, List.nodup_append]
    refine ⟨h, by simp, ?_⟩
    rintro a ha b hb rfl
    simp only [List.map_cons, List.map_nil, List.mem_singleton] at hb
    exact hk (hb ▸ ha)

theorem mem_ddel {d : Dict K V} {k : K} {p : K × V} : p ∈ ddel d k ↔ p ∈ d ∧ p.1 ≠ k := by
  simp [ddel]

theorem ddel_of_not_mem {d : Dict K V} {k : K} (h : k ∉ d.map Prod.fst) : ddel d k = d := by
  simp only [ddel, List.filter_eq_self]
  intro p hp
  simp only [decide_eq_true_eq]
  intro e
  exact h (e ▸ List.mem_map_of_mem (f := Prod.fst) hp)

omit [DecidableEq K] in
theorem nodup_keys_filter {d : Dict K V} (p : K × V → Bool) (h : (d.map Prod.fst).Nodup) :
    ((d.filter p).map Prod.fst).Nodup :=
  h.sublist (List.filter_sublist.map Prod.fst)

omit [DecidableEq K] in
theorem nodup_keys_append {d : Dict K V} {k : K} {v : V} (h : (d.map Prod.fst).Nodup)
    (hk : k ∉ d.map Prod.fst) : ((d ++ [(k, v)]).map Prod.fst).Nodup := by
  simp only [List.map_append, List.map_cons, List.map_nil]
  rw [List.nodup_append]
  refine ⟨h, by simp, ?_⟩
  intro a ha b hb e
  simp only [List.mem_cons, List.not_mem_nil, or_false] at hb
  subst hb; subst e
  exact hk ha

/-- In a dictionary, a key has one value. -/
theorem val_unique {d : Dict K V} (hn : (d.map Prod.fst).Nodup) {k : K} {v w : V}
    (h : (k, v) ∈ d) (h' : (k, w) ∈ d) : v = w := by
  have a := dget_of_mem hn h
  rw [dget_of_mem hn h'] at a
  exact (Option.some.inj a).symm

end Verif
