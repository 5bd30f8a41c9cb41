import Verif.Lemmas.TraversePure
/-!
# The ancestor algorithm of `BasicGraph` on a plain `next` function

It differs from the descendant algorithm in listing a parent before asking whether it was visited.
-/
namespace Verif

variable {α : Type} [DecidableEq α] {next : α → List α}

/-- `ancestorsRec` with lists of parents given by `next` and Python's `in` on plain values. -/
def ancTraverse (next : α → List α) : Nat → α → List α → Except PyErr (List α × Dict Nat (List α) × List α)
  | 0, _, _ => .error .recursionError
  | fuel + 1, x, trav =>
    if (next x).length = 0 then .ok ([], [], trav ++ [x])
    else (next x).foldlM (fun s parent =>
      let acc := addDirect inList parent (s.1, s.2.1)
      if parent ∈ s.2.2 then .ok (acc.1, acc.2, s.2.2)
      else do
        let sub ← ancTraverse next fuel parent s.2.2
        let acc := absorb inList sub.1 sub.2.1 acc
        .ok (acc.1, acc.2, sub.2.2)) ([], [(1, [])], trav ++ [x])

/-- What one call does: it visits `sub`, and lists the neighbours of everything visited. -/
structure AncOk (next : α → List α) (V : List α) (x : α) (sub anc : List α) (d : Dict Nat (List α)) : Prop where
  pre : Pre next (V ++ [x]) (next x) sub
  mem : ∀ a, a ∈ anc ↔ ∃ y ∈ x :: sub, a ∈ next y
  nodup : anc.Nodup
  dict : DictOk next x anc d
  one : ∀ y ∈ (dget d 1).getD [], y ∈ next x
  oneNodup : ((dget d 1).getD []).Nodup

theorem addDirect_fst {x : α} {acc : List α × Dict Nat (List α)} :
    (∀ y, y ∈ (addDirect inList x acc).1 ↔ y = x ∨ y ∈ acc.1) ∧ (acc.1.Nodup → (addDirect inList x acc).1.Nodup) := by
  unfold addDirect
  by_cases hx : x ∈ acc.1
  · simp only [inList, hx, decide_true, if_true]
    exact ⟨fun y => ⟨.inr, fun h => h.elim (fun e => e ▸ hx) id⟩, id⟩
  · simp only [inList, hx, decide_false, Bool.false_eq_true, if_false]
    refine ⟨fun y => by simp [or_comm], fun hn => ?_⟩
    rw [List.nodup_append]
    refine ⟨hn, by simp, ?_⟩
    rintro a ha b hb rfl
    exact hx (List.mem_singleton.1 hb ▸ ha)

theorem absorb_mem {sub : List α} {e : Dict Nat (List α)} {acc : List α × Dict Nat (List α)} (hn : sub.Nodup) :
    (∀ y, y ∈ (absorb inList sub e acc).1 ↔ y ∈ acc.1 ∨ y ∈ sub) ∧
    (acc.1.Nodup → (absorb inList sub e acc).1.Nodup) := by
  rw [absorb_fst hn]
  constructor
  · intro y
    simp only [List.mem_append, List.mem_filter, decide_eq_true_eq]
    grind
  · intro ha
    rw [List.nodup_append]
    refine ⟨ha, hn.filter _, ?_⟩
    rintro a ha' b hb rfl
    have := (List.mem_filter.1 hb).2
    simp only [decide_eq_true_eq] at this
    exact this ha'

theorem ancTraverse_ok {U : List α} (hU : ∀ y ∈ U, ∀ z ∈ next y, z ∈ U) (fuel : Nat) {x : α} {V : List α} (hx : x ∈ U)
    (hV : x ∉ V) (hf : (U.filter (fun y => decide (y ∉ V))).length ≤ fuel) :
    ∃ anc d sub, ancTraverse next fuel x V = .ok (anc, d, V ++ x :: sub) ∧ AncOk next V x sub anc d := by
  induction fuel generalizing x V with
  | zero =>
    have : (U.filter (fun y => decide (y ∉ V))) = [] := List.length_eq_zero_iff.1 (Nat.le_zero.1 hf)
    have hm : x ∈ U.filter (fun y => decide (y ∉ V)) := List.mem_filter.2 ⟨hx, by simpa using hV⟩
    rw [this] at hm
    cases hm
  | succ fuel ih =>
    have hlt := filter_notin_length hx hV
    have loop : ∀ todo done anc d, (∀ c ∈ todo, c ∈ next x) → anc.Nodup → DictOk next x anc d →
        (∀ y ∈ (dget d 1).getD [], y ∈ next x ∧ y ∈ anc) → ((dget d 1).getD []).Nodup →
        ∃ anc' d' out, todo.foldlM (m := Except PyErr) (fun s parent =>
          let acc := addDirect inList parent (s.1, s.2.1)
          if parent ∈ s.2.2 then .ok (acc.1, acc.2, s.2.2)
          else do
            let sub ← ancTraverse next fuel parent s.2.2
            let acc := absorb inList sub.1 sub.2.1 acc
            .ok (acc.1, acc.2, sub.2.2)) (anc, d, V ++ [x] ++ done) = .ok (anc', d', V ++ [x] ++ (done ++ out)) ∧
          Pre next (V ++ [x] ++ done) todo out ∧
          (∀ a, a ∈ anc' ↔ a ∈ anc ∨ a ∈ todo ∨ ∃ y ∈ out, a ∈ next y) ∧ anc'.Nodup ∧
          DictOk next x anc' d' ∧ (∀ y ∈ (dget d' 1).getD [], y ∈ next x) ∧
          ((dget d' 1).getD []).Nodup := by
      intro todo
      induction todo with
      | nil =>
        intro done anc d _ hn hd h1 h2
        exact ⟨anc, d, [], by simp [pure, Except.pure], .nil _, by simp, hn, hd, fun y hy => (h1 y hy).1, h2⟩
      | cons c todo ihl =>
        intro done anc d hc hn hd h1 h2
        rw [List.foldlM_cons]
        have hcx : c ∈ next x := hc c (by simp)
        -- after `addDirect`
        obtain ⟨am, an⟩ := addDirect_fst (x := c) (acc := (anc, d))
        generalize ha : addDirect inList c (anc, d) = acc at am an
        have hd1 : DictOk next x acc.1 acc.2 ∧ (∀ y ∈ (dget acc.2 1).getD [], y ∈ next x ∧ y ∈ acc.1) ∧
            ((dget acc.2 1).getD []).Nodup := by
          subst ha
          unfold addDirect
          by_cases hca : c ∈ anc
          · simp only [inList, hca, decide_true, if_true]
            exact ⟨hd, h1, h2⟩
          · simp only [inList, hca, decide_false, Bool.false_eq_true, if_false]
            refine ⟨(hd.mono fun y hy => by simp [hy]).set (Nat.le_refl _) ?_ ?_, ?_, ?_⟩
            · intro y hy
              rcases List.mem_append.1 hy with hy | hy
              · exact .step (h1 y hy).1 (.zero _)
              · rw [List.mem_singleton.1 hy]; exact .step hcx (.zero _)
            · intro y hy
              rcases List.mem_append.1 hy with hy | hy
              · simp [(h1 y hy).2]
              · simp [List.mem_singleton.1 hy]
            · rw [dget_dset, if_pos rfl]
              intro y hy
              simp only [Option.getD_some] at hy
              rcases List.mem_append.1 hy with hy | hy
              · exact ⟨(h1 y hy).1, by simp [(h1 y hy).2]⟩
              · rw [List.mem_singleton.1 hy]; exact ⟨hcx, by simp⟩
            · rw [dget_dset, if_pos rfl]
              simp only [Option.getD_some]
              rw [List.nodup_append]
              refine ⟨h2, by simp, ?_⟩
              rintro a ha b hb rfl
              rw [List.mem_singleton.1 hb] at ha
              exact hca (h1 c ha).2
        have hn1 := an hn
        by_cases hm : c ∈ V ++ [x] ++ done
        · simp only [if_pos hm]
          obtain ⟨anc', d', out, he, hp, hmem, hrest⟩ := ihl done acc.1 acc.2 (fun y hy => hc y (by simp [hy])) hn1 hd1.1
            hd1.2.1 hd1.2.2
          refine ⟨anc', d', out, he, .skip hm hp, ?_, hrest⟩
          intro a
          rw [hmem, am]
          simp only [List.mem_cons]
          grind
        · have hfc : (U.filter (fun y => decide (y ∉ V ++ [x] ++ done))).length ≤ fuel := by
            have := filter_notin_mono (U := U) (V := V ++ [x]) (W := V ++ [x] ++ done) (fun y hy => List.mem_append_left _ hy)
            omega
          obtain ⟨sanc, e, sub, hr, ht⟩ := ih (hU x hx c hcx) hm hfc
          obtain ⟨bm, bn⟩ := absorb_mem (e := e) (acc := acc) ht.nodup
          have hd2 := absorb_dict (acc := acc) (all := (absorb inList sanc e acc).1) ht.dict hcx
            (fun y hy => (bm y).2 (.inr hy)) (hd1.1.mono fun y hy => (bm y).2 (.inl hy))
          have h1' : dget (absorb inList sanc e acc).2 1 = dget acc.2 1 := absorb_one ht.dict.pos
          obtain ⟨anc', d', out, he, hp, hmem, hrest⟩ := ihl (done ++ c :: sub) (absorb inList sanc e acc).1
            (absorb inList sanc e acc).2 (fun y hy => hc y (by simp [hy])) (bn hn1) hd2
            (by rw [h1']; intro y hy; exact ⟨(hd1.2.1 y hy).1, (bm y).2 (.inl (hd1.2.1 y hy).2)⟩)
            (by rw [h1']; exact hd1.2.2)
          refine ⟨anc', d', c :: sub ++ out, ?_, ?_, ?_, hrest⟩
          · simp only [if_neg hm, hr]
            refine Eq.trans ?_ (he.trans (by simp))
            show List.foldlM _ _ todo = _
            congr 1
            simp
          · exact .visit hm ht.pre (by simpa using hp)
          · intro a
            rw [hmem, bm, am, ht.mem]
            simp only [List.mem_cons, List.cons_append, List.mem_append]
            grind
    unfold ancTraverse
    by_cases hl : (next x).length = 0
    · have hnil : next x = [] := List.length_eq_zero_iff.1 hl
      rw [if_pos hl]
      refine ⟨[], [], [], rfl, ?_, ?_, by simp, ?_, ?_, ?_⟩
      · rw [hnil]; exact .nil _
      · simp [hnil]
      · exact ⟨by simp [dkeys], by simp, by simp, by simp⟩
      · simp [dget]
      · simp [dget]
    · rw [if_neg hl]
      obtain ⟨anc, d', out, he, hp, hmem, hn, hd', ho1, ho2⟩ := loop (next x) [] [] [(1, [])] (fun _ h => h) (by simp)
        ⟨by simp [dkeys], by simp +contextual, by simp +contextual, by simp +contextual⟩ (by simp [dget]) (by simp [dget])
      refine ⟨anc, d', out, by simpa using he, by simpa using hp, ?_, hn, hd', ho1, ho2⟩
      intro a
      rw [hmem]
      simp

end Verif
