import Verif.Spec.Meet
import Verif.Lemmas.AncestorsPure
import Verif.Lemmas.Trace
/-!
# The lists of ancestors, and of objects within a depth limit, in their order
-/
namespace Verif

variable {α : Type} {next : α → List α}

theorem Meet.congr {V W todo met : List α} (h : Meet next V todo met) (e : ∀ y, y ∈ V ↔ y ∈ W) : Meet next W todo met := by
  induction h generalizing W with
  | nil => exact .nil _
  | again hx _ ih => exact .again ((e _).1 hx) (ih e)
  | enter hx _ _ ih1 ih2 =>
    exact .enter (fun h => hx ((e _).2 h)) (ih1 fun y => by simp [e y]) (ih2 fun y => by simp [e y])

section
variable [DecidableEq α]

theorem eraseDups_filter (p : α → Bool) : ∀ (n : Nat) (l : List α), l.length ≤ n → (l.filter p).eraseDups = l.eraseDups.filter p
  | _, [], _ => rfl
  | 0, _ :: _, h => by simp at h
  | n + 1, a :: l, h => by
    have hl : l.length ≤ n := by simpa using h
    rw [List.eraseDups_cons, List.filter_cons, List.filter_cons]
    have ih := eraseDups_filter p n
    by_cases hp : p a = true
    · rw [if_pos hp, if_pos hp, List.eraseDups_cons, ← ih _ (Nat.le_trans (List.length_filter_le _ _) hl), List.filter_filter,
        List.filter_filter]
      congr 3
      funext b
      exact Bool.and_comm _ _
    · rw [if_neg hp, if_neg hp, ← ih _ (Nat.le_trans (List.length_filter_le _ _) hl), List.filter_filter]
      congr 1
      refine List.filter_congr fun b _ => ?_
      by_cases hb : b = a
      · subst hb; simp [hp]
      · simp [hb]

theorem nodup_eraseDups : ∀ (n : Nat) (l : List α), l.length ≤ n → l.eraseDups.Nodup
  | _, [], _ => by simp
  | 0, _ :: _, h => by simp at h
  | n + 1, a :: l, h => by
    have hl : l.length ≤ n := by simpa using h
    rw [List.eraseDups_cons, List.nodup_cons]
    refine ⟨?_, nodup_eraseDups n _ (Nat.le_trans (List.length_filter_le _ _) hl)⟩
    rw [List.mem_eraseDups]
    simp

theorem eraseDups_snoc {M : List α} {c : α} :
    (M ++ [c]).eraseDups = if c ∈ M.eraseDups then M.eraseDups else M.eraseDups ++ [c] := by
  rw [List.eraseDups_append]
  by_cases h : c ∈ M
  · rw [if_pos (List.mem_eraseDups.2 h)]
    simp [List.removeAll, h]
  · rw [if_neg (fun h' => h (List.mem_eraseDups.1 h'))]
    simp [List.removeAll, h, List.eraseDups_cons]

theorem addDirect_firsts {M : List α} {c : α} {d : Dict Nat (List α)} :
    (addDirect inList c (M.eraseDups, d)).1 = (M ++ [c]).eraseDups := by
  rw [eraseDups_snoc]
  unfold addDirect
  by_cases h : c ∈ M.eraseDups <;> simp [inList, h]

theorem absorb_firsts {M S : List α} {e d : Dict Nat (List α)} :
    (absorb inList S.eraseDups e (M.eraseDups, d)).1 = (M ++ S).eraseDups := by
  rw [absorb_fst (nodup_eraseDups _ _ (Nat.le_refl _)), List.eraseDups_append, List.removeAll, eraseDups_filter _ _ _ (Nat.le_refl _)]
  congr 1
  refine List.filter_congr fun y _ => ?_
  simp [List.mem_eraseDups]

theorem ancTraverse_meet {fuel : Nat} {x : α} {V : List α} {q : List α × Dict Nat (List α) × List α}
    (h : ancTraverse next fuel x V = .ok q) :
    ∃ met, Meet next (V ++ [x]) (next x) met ∧ q.1 = met.eraseDups ∧ ∀ y, y ∈ q.2.2 ↔ y ∈ V ++ x :: met := by
  induction fuel generalizing x V q with
  | zero => cases h
  | succ fuel ih =>
    unfold ancTraverse at h
    by_cases hl : (next x).length = 0
    · have hnil : next x = [] := List.length_eq_zero_iff.1 hl
      rw [if_pos hl] at h
      cases h
      exact ⟨[], by rw [hnil]; exact .nil _, rfl, fun y => by simp⟩
    rw [if_neg hl] at h
    have loop : ∀ todo M W d q, (∀ y, y ∈ W ↔ y ∈ V ++ [x] ++ M) →
        todo.foldlM (m := Except PyErr) (fun s parent =>
          let acc := addDirect inList parent (s.1, s.2.1)
          if parent ∈ s.2.2 then .ok (acc.1, acc.2, s.2.2)
          else do
            let sub ← ancTraverse next fuel parent s.2.2
            let acc := absorb inList sub.1 sub.2.1 acc
            .ok (acc.1, acc.2, sub.2.2)) (M.eraseDups, d, W) = .ok q →
        ∃ met, Meet next (V ++ [x] ++ M) todo met ∧ q.1 = (M ++ met).eraseDups ∧ ∀ y, y ∈ q.2.2 ↔ y ∈ V ++ [x] ++ (M ++ met) := by
      intro todo
      induction todo with
      | nil =>
        intro M W d q hW hq
        cases hq
        exact ⟨[], .nil _, by simp, fun y => by simpa using hW y⟩
      | cons c todo ihl =>
        intro M W d q hW hq
        rw [List.foldlM_cons] at hq
        by_cases hm : c ∈ W
        · simp only [if_pos hm, addDirect_firsts] at hq
          obtain ⟨met, a, b, c'⟩ := ihl (M ++ [c]) W _ q (fun y => by
            rw [hW y]
            have := (hW c).1 hm
            simp only [List.mem_append, List.mem_singleton] at this ⊢
            grind) hq
          refine ⟨c :: met, .again ((hW c).1 hm) (a.congr fun y => ?_), by rw [b]; simp, fun y => by rw [c' y]; simp⟩
          have := (hW c).1 hm
          simp only [List.mem_append, List.mem_singleton] at this ⊢
          grind
        · simp only [if_neg hm] at hq
          cases hr : ancTraverse next fuel c W with
          | error e => rw [hr] at hq; cases hq
          | ok s =>
          rw [hr] at hq
          obtain ⟨S, a, b, e⟩ := ih hr
          obtain ⟨sl, sd, sv⟩ := s
          simp only at b e
          subst b
          have hadd : addDirect inList c (M.eraseDups, d) = ((M ++ [c]).eraseDups, (addDirect inList c (M.eraseDups, d)).2) :=
            Prod.ext addDirect_firsts rfl
          have hq' : List.foldlM (m := Except PyErr) (fun s parent =>
              let acc := addDirect inList parent (s.1, s.2.1)
              if parent ∈ s.2.2 then .ok (acc.1, acc.2, s.2.2)
              else do
                let sub ← ancTraverse next fuel parent s.2.2
                let acc := absorb inList sub.1 sub.2.1 acc
                .ok (acc.1, acc.2, sub.2.2)) ((absorb inList S.eraseDups sd (addDirect inList c (M.eraseDups, d))).1,
                  (absorb inList S.eraseDups sd (addDirect inList c (M.eraseDups, d))).2, sv) todo = .ok q := hq
          rw [show (absorb inList S.eraseDups sd (addDirect inList c (M.eraseDups, d))).1 = (M ++ [c] ++ S).eraseDups by
            rw [hadd, absorb_firsts]] at hq'
          obtain ⟨met, a', b', c'⟩ := ihl (M ++ [c] ++ S) sv _ q (fun y => by
            rw [e y]
            simp only [List.mem_append, List.mem_cons, hW y]
            grind) hq'
          refine ⟨c :: S ++ met, .enter (fun h => hm ((hW c).2 h)) (a.congr fun y => ?_) (a'.congr fun y => ?_), ?_, fun y => ?_⟩
          · simp [hW y, or_assoc]
          · simp
          · rw [b']; simp
          · rw [c' y]; simp
    obtain ⟨met, a, b, c⟩ := loop (next x) [] (V ++ [x]) _ q (by simp) h
    exact ⟨met, by simpa using a, by simpa using b, fun y => by rw [c y]; simp⟩

theorem objTraverse_limited {fuel : Nat} {x : α} {V : List α} {b : Nat} {q : List α × Dict Nat (List α) × List α}
    (h : objTraverse next fuel x V (some (b + 1 : Nat)) = .ok q) :
    ∃ met, Limited next b (V ++ [x]) (next x) met q.2.2 ∧ q.1 = met.eraseDups := by
  induction fuel generalizing x V b q with
  | zero => cases h
  | succ fuel ih =>
    unfold objTraverse at h
    have hb : ¬((b + 1 : Nat) : Int) ≤ 0 := by omega
    simp only [Option.any_some, hb, decide_false, Bool.false_eq_true, if_false, Option.map_some] at h
    by_cases hl : (next x).length = 0
    · have hnil : next x = [] := List.length_eq_zero_iff.1 hl
      rw [if_pos hl] at h
      cases h
      exact ⟨[], by rw [hnil]; exact .nil _ _, rfl⟩
    rw [if_neg hl] at h
    have loop : ∀ todo M W d q,
        todo.foldlM (m := Except PyErr) (fun s child =>
          if child ∈ s.2.2 then .ok s
          else do
            let acc := addDirect inList child (s.1, s.2.1)
            let sub ← objTraverse next fuel child s.2.2 (some (((b + 1 : Nat) : Int) - 1))
            let acc := absorb inList sub.1 sub.2.1 acc
            .ok (acc.1, acc.2, sub.2.2)) (M.eraseDups, d, W) = .ok q →
        ∃ met, Limited next b W todo met q.2.2 ∧ q.1 = (M ++ met).eraseDups := by
      intro todo
      induction todo with
      | nil =>
        intro M W d q hq
        cases hq
        exact ⟨[], .nil _ _, by simp⟩
      | cons c todo ihl =>
        intro M W d q hq
        rw [List.foldlM_cons] at hq
        by_cases hm : c ∈ W
        · simp only [if_pos hm] at hq
          obtain ⟨met, a, e⟩ := ihl M W d q hq
          exact ⟨met, .pass hm a, e⟩
        · simp only [if_neg hm] at hq
          cases hr : objTraverse next fuel c W (some (((b + 1 : Nat) : Int) - 1)) with
          | error e => rw [hr] at hq; cases hq
          | ok s =>
          rw [hr] at hq
          have hadd : addDirect inList c (M.eraseDups, d) = ((M ++ [c]).eraseDups, (addDirect inList c (M.eraseDups, d)).2) :=
            Prod.ext addDirect_firsts rfl
          obtain ⟨sl, sd, sv⟩ := s
          have hq' : List.foldlM (m := Except PyErr) (fun s child =>
              if child ∈ s.2.2 then .ok s
              else do
                let acc := addDirect inList child (s.1, s.2.1)
                let sub ← objTraverse next fuel child s.2.2 (some (((b + 1 : Nat) : Int) - 1))
                let acc := absorb inList sub.1 sub.2.1 acc
                .ok (acc.1, acc.2, sub.2.2)) ((absorb inList sl sd (addDirect inList c (M.eraseDups, d))).1,
                  (absorb inList sl sd (addDirect inList c (M.eraseDups, d))).2, sv) todo = .ok q := hq
          cases b with
          | zero =>
            have : (sl, sd, sv) = (([], [], W) : List α × Dict Nat (List α) × List α) := by
              cases fuel with
              | zero => cases hr
              | succ f =>
                unfold objTraverse at hr
                simp only [Option.any_some] at hr
                rw [if_pos (by decide)] at hr
                exact (Except.ok.inj hr).symm
            cases this
            rw [show (absorb inList [] [] (addDirect inList c (M.eraseDups, d))).1 = (M ++ [c]).eraseDups from addDirect_firsts] at hq'
            obtain ⟨met, a, e⟩ := ihl (M ++ [c]) W _ q hq'
            exact ⟨c :: met, .bottom hm a, by rw [e]; simp⟩
          | succ b =>
            have e1 : (((b + 1 + 1 : Nat) : Int) - 1) = ((b + 1 : Nat) : Int) := by omega
            obtain ⟨S, a, e⟩ := ih (b := b) (by rw [← e1]; exact hr)
            simp only at a e
            subst e
            rw [show (absorb inList S.eraseDups sd (addDirect inList c (M.eraseDups, d))).1 = (M ++ [c] ++ S).eraseDups by
              rw [hadd, absorb_firsts]] at hq'
            obtain ⟨met, a', e'⟩ := ihl (M ++ [c] ++ S) sv _ q hq'
            exact ⟨c :: S ++ met, .enter hm a a', by rw [e']; simp⟩
    obtain ⟨met, a, e⟩ := loop (next x) [] (V ++ [x]) _ q h
    exact ⟨met, a, by simpa using e⟩

/-- A limit as large as the number of objects not gone into yet is no limit. -/
theorem objTraverse_unlimited {U : List α} (hU : ∀ y ∈ U, ∀ z ∈ next y, z ∈ U) {fuel : Nat} {x : α} {V : List α} {b : Int} (hx : x ∈ U)
    (hV : x ∉ V) (hb : ((U.filter fun y => decide (y ∉ V)).length : Int) ≤ b) :
    objTraverse next fuel x V (some b) = objTraverse next fuel x V none := by
  induction fuel generalizing x V b with
  | zero => rfl
  | succ fuel ih =>
    have hlt := filter_notin_length hx hV
    have hb0 : ¬b ≤ 0 := by omega
    unfold objTraverse
    simp only [Option.any_some, Option.any_none, hb0, decide_false, Bool.false_eq_true, if_false, Option.map_some, Option.map_none]
    by_cases hl : (next x).length = 0
    · rw [if_pos hl, if_pos hl]
    rw [if_neg hl, if_neg hl]
    have loop : ∀ (todo a : List α) (d : Dict Nat (List α)) (W : List α), (∀ c ∈ todo, c ∈ U) → (∀ y ∈ V ++ [x], y ∈ W) →
        todo.foldlM (m := Except PyErr) (fun s child =>
          if child ∈ s.2.2 then .ok s
          else do
            let acc := addDirect (fun x l => decide (x ∈ l)) child (s.1, s.2.1)
            let sub ← objTraverse next fuel child s.2.2 (some (b - 1))
            let acc := absorb (fun x l => decide (x ∈ l)) sub.1 sub.2.1 acc
            .ok (acc.1, acc.2, sub.2.2)) (a, d, W) =
        todo.foldlM (m := Except PyErr) (fun s child =>
          if child ∈ s.2.2 then .ok s
          else do
            let acc := addDirect (fun x l => decide (x ∈ l)) child (s.1, s.2.1)
            let sub ← objTraverse next fuel child s.2.2 none
            let acc := absorb (fun x l => decide (x ∈ l)) sub.1 sub.2.1 acc
            .ok (acc.1, acc.2, sub.2.2)) (a, d, W) := by
      intro todo
      induction todo with
      | nil => intro a d W _ _; rfl
      | cons c todo ihl =>
        intro a d W hc hW
        have hc' : ∀ z ∈ todo, z ∈ U := fun z hz => hc z (by simp [hz])
        rw [List.foldlM_cons, List.foldlM_cons]
        by_cases hm : c ∈ W
        · simp only [if_pos hm]
          exact ihl a d W hc' hW
        · have hfc := filter_notin_mono (U := U) hW
          simp only [if_neg hm]
          rw [ih (b := b - 1) (hc c (by simp)) hm (by omega)]
          cases hr : objTraverse next fuel c W none with
          | error e => rfl
          | ok s =>
            obtain ⟨t, -, -, e, -⟩ := objTraverse_trace hr
            refine ihl _ _ s.2.2 hc' fun y hy => ?_
            rw [e]
            exact List.mem_append_left _ (hW y hy)
    exact loop (next x) [] [(1, [])] (V ++ [x]) (fun c hc => hU x hx c hc) (fun _ h => h)

end
end Verif
