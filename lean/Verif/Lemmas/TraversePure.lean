import Verif.Lemmas.Dfs
import Verif.Lemmas.Dict
import Verif.Model.ObjTraverse
/-!
# The two traversal algorithms on a plain `next` function
-/
namespace Verif

variable {α : Type} [DecidableEq α] {next : α → List α}

/-- List membership as Python's `in`. -/
abbrev inList (x : α) (l : List α) : Bool := decide (x ∈ l)

/-! ## Distance dictionaries -/

/-- `d` is a dictionary of non-zero distances from `x`, and lists members of `acc` only. -/
structure DictOk (next : α → List α) (x : α) (acc : List α) (d : Dict Nat (List α)) : Prop where
  nodup : (dkeys d).Nodup
  pos : ∀ k l, (k, l) ∈ d → 1 ≤ k
  walk : ∀ k l y, (k, l) ∈ d → y ∈ l → Walk (Step next) k x y
  sub : ∀ k l y, (k, l) ∈ d → y ∈ l → y ∈ acc

theorem mem_dset {K V : Type} [DecidableEq K] {d : Dict K V} {k : K} {v : V} {p : K × V} (h : p ∈ dset d k v) :
    p = (k, v) ∨ (p ∈ d ∧ p.1 ≠ k) ∨ p ∈ d := by
  induction d with
  | nil => simp [dset] at h; exact .inl h
  | cons q d ih =>
    obtain ⟨k', v'⟩ := q
    simp only [dset] at h
    split at h
    · next e =>
      rcases List.mem_cons.1 h with h | h
      · exact .inl (by rw [h, e])
      · exact .inr (.inr (by simp [h]))
    · rcases List.mem_cons.1 h with h | h
      · exact .inr (.inr (by simp [h]))
      · rcases ih h with h | h | h
        · exact .inl h
        · exact .inr (.inr (by simp [h.1]))
        · exact .inr (.inr (by simp [h]))

omit [DecidableEq α] in
theorem DictOk.mono {x : α} {acc acc' : List α} {d : Dict Nat (List α)} (h : DictOk next x acc d) (hs : ∀ y ∈ acc, y ∈ acc') :
    DictOk next x acc' d := ⟨h.nodup, h.pos, h.walk, fun k l y hk hy => hs _ (h.sub k l y hk hy)⟩

omit [DecidableEq α] in
theorem DictOk.set {x : α} {acc : List α} {d : Dict Nat (List α)} (h : DictOk next x acc d) {k : Nat} {l : List α}
    (hk : 1 ≤ k) (hw : ∀ y ∈ l, Walk (Step next) k x y) (hs : ∀ y ∈ l, y ∈ acc) : DictOk next x acc (dset d k l) := by
  have cases : ∀ {k' l'}, (k', l') ∈ dset d k l → (k' = k ∧ l' = l) ∨ (k', l') ∈ d := by
    intro k' l' hm
    rcases mem_dset hm with hm | hm | hm
    · exact .inl (by simpa using hm)
    · exact .inr hm.1
    · exact .inr hm
  refine ⟨nodup_dset h.nodup, ?_, ?_, ?_⟩
  · intro k' l' hm
    rcases cases hm with ⟨rfl, rfl⟩ | hm
    · exact hk
    · exact h.pos _ _ hm
  · intro k' l' y hm hy
    rcases cases hm with ⟨rfl, rfl⟩ | hm
    · exact hw y hy
    · exact h.walk _ _ _ hm hy
  · intro k' l' y hm hy
    rcases cases hm with ⟨rfl, rfl⟩ | hm
    · exact hs y hy
    · exact h.sub _ _ _ hm hy

omit [DecidableEq α] in
/-- Writing the shifted dictionary of a neighbour. -/
theorem DictOk.shift {x c : α} {acc sub : List α} {e : Dict Nat (List α)} (he : DictOk next c sub e) (hc : c ∈ next x)
    (hsub : ∀ y ∈ sub, y ∈ acc) {d : Dict Nat (List α)} (h : DictOk next x acc d) :
    DictOk next x acc (e.foldl (fun d p => dset d (p.1 + 1) p.2) d) := by
  have key : ∀ e' : Dict Nat (List α), (∀ p ∈ e', p ∈ e) → ∀ d, DictOk next x acc d →
      DictOk next x acc (e'.foldl (fun d p => dset d (p.1 + 1) p.2) d) := by
    intro e'
    induction e' with
    | nil => intro _ d h; exact h
    | cons p e' ih =>
      intro hp d h
      refine ih (fun q hq => hp q (by simp [hq])) _ (h.set (by omega) ?_ ?_)
      · intro y hy; exact .step hc (he.walk p.1 p.2 y (hp p (by simp)) hy)
      · intro y hy; exact hsub _ (he.sub p.1 p.2 y (hp p (by simp)) hy)
  exact key e (fun _ h => h) d h

omit [DecidableEq α] in
/-- Writing shifted entries leaves entry 1 alone. -/
theorem dget_shift_one {e d : Dict Nat (List α)} (he : ∀ k l, (k, l) ∈ e → 1 ≤ k) :
    dget (e.foldl (fun d p => dset d (p.1 + 1) p.2) d) 1 = dget d 1 := by
  induction e generalizing d with
  | nil => rfl
  | cons p e ih =>
    rw [List.foldl_cons, ih (fun k l h => he k l (by simp [h]))]
    have := he p.1 p.2 (by simp)
    rw [dget_dset, if_neg (by omega)]

/-! ## `absorb` -/

omit [DecidableEq α] in
theorem absorb_nil {mem : α → List α → Bool} {e : Dict Nat (List α)} {acc : List α × Dict Nat (List α)} :
    absorb mem [] e acc = acc := rfl

/-- The list part: the new ones are appended, without repetition. -/
theorem absorb_fst {sub : List α} {e : Dict Nat (List α)} {acc : List α × Dict Nat (List α)} (hn : sub.Nodup) :
    (absorb inList sub e acc).1 = acc.1 ++ sub.filter (fun y => decide (y ∉ acc.1)) := by
  induction sub generalizing acc with
  | nil => simp [absorb]
  | cons y sub ih =>
    have hn' := List.nodup_cons.1 hn
    unfold absorb
    rw [List.foldl_cons]
    by_cases hy : y ∈ acc.1
    · simp only [inList, hy, decide_true, if_true]
      have := ih (acc := acc) hn'.2
      unfold absorb at this
      rw [this]
      simp [hy]
    · simp only [inList, hy, decide_false, Bool.false_eq_true, if_false]
      have := ih (acc := (acc.1 ++ [y], e.foldl (fun d p => dset d (p.1 + 1) p.2) acc.2)) hn'.2
      unfold absorb at this
      simp only [inList] at this
      rw [this]
      simp only [List.append_assoc, List.singleton_append, List.mem_append, List.mem_singleton, hy, not_false_eq_true,
        decide_true, List.filter_cons_of_pos]
      congr 2
      refine List.filter_congr fun z hz => ?_
      have : z ≠ y := fun hzy => hn'.1 (hzy ▸ hz)
      simp [this]

theorem absorb_dict {x c : α} {sub : List α} {e : Dict Nat (List α)} {acc : List α × Dict Nat (List α)} {all : List α}
    (he : DictOk next c sub e) (hc : c ∈ next x) (hsub : ∀ y ∈ sub, y ∈ all) (h : DictOk next x all acc.2) :
    DictOk next x all (absorb inList sub e acc).2 := by
  have key : ∀ sub' : List α, ∀ acc, DictOk next x all acc.2 → DictOk next x all (absorb inList sub' e acc).2 := by
    intro sub'
    induction sub' with
    | nil => intro acc h; exact h
    | cons y sub' ih =>
      intro acc h
      unfold absorb
      rw [List.foldl_cons]
      split
      · exact ih _ h
      · exact ih _ (he.shift hc hsub h)
  exact key sub acc h

theorem absorb_one {sub : List α} {e : Dict Nat (List α)} {acc : List α × Dict Nat (List α)}
    (he : ∀ k l, (k, l) ∈ e → 1 ≤ k) : dget (absorb inList sub e acc).2 1 = dget acc.2 1 := by
  induction sub generalizing acc with
  | nil => rfl
  | cons y sub ih =>
    unfold absorb
    rw [List.foldl_cons]
    split
    · exact ih
    · refine (ih (acc := (acc.1 ++ [y], e.foldl (fun d p => dset d (p.1 + 1) p.2) acc.2))).trans ?_
      exact dget_shift_one he

/-! ## Descendants (and both object traversals) without a depth limit -/

theorem filter_notin_length {U V : List α} {x : α} (hx : x ∈ U) (hV : x ∉ V) :
    (U.filter (fun y => decide (y ∉ V ++ [x]))).length < (U.filter (fun y => decide (y ∉ V))).length := by
  have h1 : (U.filter (fun y => decide (y ∉ V ++ [x]))) = (U.filter (fun y => decide (y ∉ V))).filter (fun y => decide (y ≠ x)) := by
    rw [List.filter_filter]
    refine List.filter_congr fun y _ => ?_
    simp only [List.mem_append, List.mem_singleton, not_or]
    rw [← Bool.decide_and, decide_eq_decide]
    exact and_comm
  rw [h1]
  refine List.length_filter_lt_length_iff_exists.2 ⟨x, by simp [hx, hV], by simp⟩

theorem filter_notin_mono {U V W : List α} (h : ∀ y ∈ V, y ∈ W) :
    (U.filter (fun y => decide (y ∉ W))).length ≤ (U.filter (fun y => decide (y ∉ V))).length := by
  refine List.Sublist.length_le ?_
  have : U.filter (fun y => decide (y ∉ W)) = (U.filter (fun y => decide (y ∉ V))).filter (fun y => decide (y ∉ W)) := by
    rw [List.filter_filter]
    refine List.filter_congr fun y _ => ?_
    by_cases hy : y ∈ W
    · simp [hy]
    · have : y ∉ V := fun hv => hy (h y hv)
      simp [hy, this]
  rw [this]
  exact List.filter_sublist

/-- What one call does. -/
structure TravOk (next : α → List α) (V : List α) (x : α) (sub : List α) (d : Dict Nat (List α)) : Prop where
  pre : Pre next (V ++ [x]) (next x) sub
  dict : DictOk next x sub d
  one : ∀ y ∈ (dget d 1).getD [], y ∈ next x
  oneNodup : ((dget d 1).getD []).Nodup

theorem objTraverse_ok {U : List α} (hU : ∀ y ∈ U, ∀ z ∈ next y, z ∈ U) (fuel : Nat) {x : α} {V : List α} (hx : x ∈ U)
    (hV : x ∉ V) (hf : (U.filter (fun y => decide (y ∉ V))).length ≤ fuel) :
    ∃ sub d, objTraverse next fuel x V none = .ok (sub, d, V ++ x :: sub) ∧ TravOk next V x sub d := by
  induction fuel generalizing x V with
  | zero =>
    have : (U.filter (fun y => decide (y ∉ V))) = [] := List.length_eq_zero_iff.1 (Nat.le_zero.1 hf)
    have hm : x ∈ U.filter (fun y => decide (y ∉ V)) := List.mem_filter.2 ⟨hx, by simpa using hV⟩
    rw [this] at hm
    cases hm
  | succ fuel ih =>
    have hlt := filter_notin_length hx hV
    -- the loop
    have loop : ∀ todo acc d, (∀ c ∈ todo, c ∈ next x) → acc.Nodup → (∀ y ∈ acc, y ∉ V ++ [x]) → DictOk next x acc d →
        (∀ y ∈ (dget d 1).getD [], y ∈ next x ∧ y ∈ acc) → ((dget d 1).getD []).Nodup →
        ∃ out d', todo.foldlM (m := Except PyErr) (fun s child =>
          if child ∈ s.2.2 then .ok s
          else do
            let acc := addDirect (fun x l => decide (x ∈ l)) child (s.1, s.2.1)
            let sub ← objTraverse next fuel child s.2.2 none
            let acc := absorb (fun x l => decide (x ∈ l)) sub.1 sub.2.1 acc
            .ok (acc.1, acc.2, sub.2.2)) (acc, d, V ++ [x] ++ acc) = .ok (acc ++ out, d', V ++ [x] ++ (acc ++ out)) ∧
          Pre next (V ++ [x] ++ acc) todo out ∧ DictOk next x (acc ++ out) d' ∧
          (∀ y ∈ (dget d' 1).getD [], y ∈ next x) ∧ ((dget d' 1).getD []).Nodup := by
      intro todo
      induction todo with
      | nil =>
        intro acc d _ _ _ hd h1 h2
        exact ⟨[], d, by simp [pure, Except.pure], .nil _, by simpa using hd, fun y hy => (h1 y hy).1, h2⟩
      | cons c todo ihl =>
        intro acc d hc hn hdis hd h1 h2
        rw [List.foldlM_cons]
        by_cases hm : c ∈ V ++ [x] ++ acc
        · simp only [if_pos hm]
          obtain ⟨out, d', he, hp, hd', ho⟩ := ihl acc d (fun y hy => hc y (by simp [hy])) hn hdis hd h1 h2
          exact ⟨out, d', he, .skip hm hp, hd', ho⟩
        · simp only [if_neg hm]
          have hcx : c ∈ next x := hc c (by simp)
          have hfc : (U.filter (fun y => decide (y ∉ V ++ [x] ++ acc))).length ≤ fuel := by
            have := filter_notin_mono (U := U) (V := V ++ [x]) (W := V ++ [x] ++ acc) (fun y hy => List.mem_append_left _ hy)
            omega
          obtain ⟨sub, e, hr, ht⟩ := ih (hU x hx c hcx) hm hfc
          have hca : c ∉ acc := fun h => hm (by simp [h])
          have hsd := ht.pre.disjoint
          have hadd : addDirect (fun x l => decide (x ∈ l)) c (acc, d) =
              (acc ++ [c], dset d 1 ((dget d 1).getD [] ++ [c])) := by simp [addDirect, hca]
          have habs : (absorb inList sub e (acc ++ [c], dset d 1 ((dget d 1).getD [] ++ [c]))).1 = acc ++ c :: sub := by
            rw [absorb_fst ht.pre.nodup]
            have : sub.filter (fun y => decide (y ∉ acc ++ [c])) = sub := by
              rw [List.filter_eq_self]
              intro y hy
              have := hsd y hy
              simp only [List.append_assoc, List.mem_append, List.mem_cons, List.not_mem_nil] at this
              simp only [List.mem_append, List.mem_cons, List.not_mem_nil, decide_eq_true_eq]
              grind
            simp only [this]
            simp
          have hd1 : DictOk next x (acc ++ c :: sub) (dset d 1 ((dget d 1).getD [] ++ [c])) := by
            refine (hd.mono fun y hy => by simp [hy]).set (Nat.le_refl _) ?_ ?_
            · intro y hy
              rcases List.mem_append.1 hy with hy | hy
              · exact .step (h1 y hy).1 (.zero _)
              · rw [List.mem_singleton.1 hy]; exact .step hcx (.zero _)
            · intro y hy
              rcases List.mem_append.1 hy with hy | hy
              · simp [(h1 y hy).2]
              · simp [List.mem_singleton.1 hy]
          have hd2 := absorb_dict (sub := sub) (acc := (acc ++ [c], dset d 1 ((dget d 1).getD [] ++ [c]))) ht.dict hcx
            (fun y hy => by simp [hy]) hd1
          have h1' : dget (absorb inList sub e (acc ++ [c], dset d 1 ((dget d 1).getD [] ++ [c]))).2 1 =
              some ((dget d 1).getD [] ++ [c]) := by
            rw [absorb_one ht.dict.pos, dget_dset, if_pos rfl]
          obtain ⟨out, d', he, hp, hd', ho⟩ := ihl (acc ++ c :: sub)
            (absorb inList sub e (acc ++ [c], dset d 1 ((dget d 1).getD [] ++ [c]))).2
            (fun y hy => hc y (by simp [hy]))
            (by
              rw [List.nodup_append]
              refine ⟨hn, List.nodup_cons.2 ⟨fun h => hsd c h (by simp), ht.pre.nodup⟩, ?_⟩
              rintro a ha b hb rfl
              rcases List.mem_cons.1 hb with rfl | hb
              · exact hca ha
              · exact hsd a hb (by simp [ha]))
            (by
              intro y hy hv
              rcases List.mem_append.1 hy with hy | hy
              · exact hdis y hy hv
              · rcases List.mem_cons.1 hy with rfl | hy
                · exact hm (List.mem_append_left _ hv)
                · exact hsd y hy (List.mem_append_left _ (List.mem_append_left _ hv)))
            hd2
            (by
              rw [h1']
              intro y hy
              simp only [Option.getD_some] at hy
              rcases List.mem_append.1 hy with hy | hy
              · exact ⟨(h1 y hy).1, by simp [(h1 y hy).2]⟩
              · rw [List.mem_singleton.1 hy]; exact ⟨hcx, by simp⟩)
            (by
              rw [h1']
              simp only [Option.getD_some]
              rw [List.nodup_append]
              refine ⟨h2, by simp, ?_⟩
              rintro a ha b hb rfl
              rw [List.mem_singleton.1 hb] at ha
              exact hca (h1 c ha).2)
          refine ⟨c :: sub ++ out, d', ?_, ?_, ?_, ho⟩
          · simp only [hr, hadd]
            refine Eq.trans ?_ (he.trans (by simp))
            show List.foldlM _ _ todo = _
            congr 1
            rw [habs]
            simp
          · exact .visit hm ht.pre (by simpa using hp)
          · simpa using hd'
    -- the call
    unfold objTraverse
    simp only [Option.any_none, Bool.false_eq_true, if_false, Option.map_none]
    by_cases hl : (next x).length = 0
    · have hnil : next x = [] := List.length_eq_zero_iff.1 hl
      rw [if_pos hl]
      refine ⟨[], [], rfl, ?_, ?_, ?_, ?_⟩
      · rw [hnil]; exact .nil _
      · exact ⟨by simp [dkeys], by simp, by simp, by simp⟩
      · simp [dget]
      · simp [dget]
    · rw [if_neg hl]
      obtain ⟨out, d', he, hp, hd', ho1, ho2⟩ := loop (next x) [] [(1, [])] (fun _ h => h) (by simp) (by simp)
        ⟨by simp [dkeys], by simp +contextual, by simp +contextual, by simp +contextual⟩ (by simp [dget]) (by simp [dget])
      refine ⟨out, d', ?_, by simpa using hp, by simpa using hd', ho1, ho2⟩
      simpa using he

end Verif
