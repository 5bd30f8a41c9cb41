import Verif.Lemmas.AncestorsPure
/-!
# Object traversal with `max_depth`
-/
namespace Verif

variable {α : Type} [DecidableEq α] {next : α → List α}

/-- Every step goes down exactly one level. -/
def Graded (next : α → List α) (level : α → Int) : Prop := ∀ a b, b ∈ next a → level b = level a + 1

/-- What a call on `x` with `r` levels left does; `t` are the objects entered so far. -/
structure LimOk (next : α → List α) (level : α → Int) (V : List α) (x : α) (r : Int) (l : List α)
    (d : Dict Nat (List α)) (t : List α) : Prop where
  supV : ∀ v ∈ V, v ∈ t
  self : 0 < r → x ∈ t
  sound : ∀ y ∈ l, ∃ k : Nat, 1 ≤ k ∧ (k : Int) ≤ r ∧ Walk (Step next) k x y
  disj : ∀ y ∈ l, y ∉ V ∧ y ≠ x
  nodup : l.Nodup
  dict : DictOk next x l d
  ent : ∀ e ∈ t, e ∈ V ∨ e = x ∨ e ∈ l
  kidsOf : ∀ e ∈ t, e ∉ V → ∀ c ∈ next e, c ∈ V ∨ c = x ∨ c ∈ l
  two : 2 ≤ r → ∀ c ∈ next x, c ∈ t
  graded : Graded next level → ∀ e ∈ t, e ∉ V → level e + 1 < level x + r → ∀ c ∈ next e, c ∈ t

theorem objTraverse_lim (level : α → Int) (fuel : Nat) {x : α} {V : List α} {r : Int} (hV : x ∉ V)
    (hf : r < (fuel : Int)) (hf0 : 0 < fuel) :
    ∃ l d t, objTraverse next fuel x V (some r) = .ok (l, d, t) ∧ LimOk next level V x r l d t := by
  induction fuel generalizing x V r with
  | zero => omega
  | succ fuel ih =>
    unfold objTraverse
    by_cases hr : r ≤ 0
    · simp only [Option.any_some, hr, decide_true, if_true]
      refine ⟨[], [], V, rfl, fun v h => h, fun h => by omega, by simp, by simp, by simp, ?_, fun e h => .inl h,
        fun e h h' => absurd h h', fun h => by omega, fun _ e h h' => absurd h h'⟩
      exact ⟨by simp [dkeys], by simp, by simp, by simp⟩
    · simp only [Option.any_some, hr, decide_false, Bool.false_eq_true, if_false, Option.map_some]
      have hfuel : 0 < fuel := by omega
      by_cases hl : (next x).length = 0
      · have hnil : next x = [] := List.length_eq_zero_iff.1 hl
        rw [if_pos hl]
        refine ⟨[], [], V ++ [x], rfl, fun v h => by simp [h], fun _ => by simp, by simp, by simp, by simp, ?_, ?_, ?_, ?_, ?_⟩
        · exact ⟨by simp [dkeys], by simp, by simp, by simp⟩
        · intro e he; simpa using he
        · intro e he hne c hc
          have : e = x := by
            rcases List.mem_append.1 he with h | h
            · exact absurd h hne
            · exact List.mem_singleton.1 h
          rw [this, hnil] at hc; cases hc
        · intro _ c hc; rw [hnil] at hc; cases hc
        · intro _ e he hne _ c hc
          have : e = x := by
            rcases List.mem_append.1 he with h | h
            · exact absurd h hne
            · exact List.mem_singleton.1 h
          rw [this, hnil] at hc; cases hc
      · rw [if_neg hl]
        have loop : ∀ (todo done acc : List α) (d : Dict Nat (List α)) (tr : List α), (∀ c ∈ todo, c ∈ next x) →
            (∀ v ∈ V, v ∈ tr) → x ∈ tr →
            (∀ y ∈ acc, ∃ k : Nat, 1 ≤ k ∧ (k : Int) ≤ r ∧ Walk (Step next) k x y) →
            (∀ y ∈ acc, y ∉ V ∧ y ≠ x) → acc.Nodup → DictOk next x acc d →
            (∀ y ∈ (dget d 1).getD [], y ∈ next x ∧ y ∈ acc) →
            (∀ e ∈ tr, e ∈ V ∨ e = x ∨ e ∈ acc) →
            (∀ e ∈ tr, e ∉ V → e ≠ x → ∀ c ∈ next e, c ∈ V ∨ c = x ∨ c ∈ acc) →
            (∀ c ∈ done, c ∈ V ∨ c = x ∨ c ∈ acc) →
            (2 ≤ r → ∀ c ∈ done, c ∈ tr) →
            (Graded next level → ∀ e ∈ tr, e ∉ V → e ≠ x → level e + 1 < level x + r → ∀ c ∈ next e, c ∈ tr) →
            ∃ l d' t, todo.foldlM (m := Except PyErr) (fun s child =>
              if child ∈ s.2.2 then .ok s
              else do
                let acc := addDirect (fun x l => decide (x ∈ l)) child (s.1, s.2.1)
                let sub ← objTraverse next fuel child s.2.2 (some (r - 1))
                let acc := absorb (fun x l => decide (x ∈ l)) sub.1 sub.2.1 acc
                .ok (acc.1, acc.2, sub.2.2)) (acc, d, tr) = .ok (l, d', t) ∧
              (∀ v ∈ V, v ∈ t) ∧ x ∈ t ∧
              (∀ y ∈ l, ∃ k : Nat, 1 ≤ k ∧ (k : Int) ≤ r ∧ Walk (Step next) k x y) ∧
              (∀ y ∈ l, y ∉ V ∧ y ≠ x) ∧ l.Nodup ∧ DictOk next x l d' ∧
              (∀ e ∈ t, e ∈ V ∨ e = x ∨ e ∈ l) ∧
              (∀ e ∈ t, e ∉ V → e ≠ x → ∀ c ∈ next e, c ∈ V ∨ c = x ∨ c ∈ l) ∧
              (∀ c ∈ done ++ todo, c ∈ V ∨ c = x ∨ c ∈ l) ∧
              (2 ≤ r → ∀ c ∈ done ++ todo, c ∈ t) ∧
              (Graded next level → ∀ e ∈ t, e ∉ V → e ≠ x → level e + 1 < level x + r → ∀ c ∈ next e, c ∈ t) := by
          intro todo
          induction todo with
          | nil =>
            intro done acc d tr _ i1 i2 i3 i4 i5 i6 i7 i8 i9 i10 i11 i12
            exact ⟨acc, d, tr, rfl, i1, i2, i3, i4, i5, i6, i8, i9, by simpa using i10, by simpa using i11, i12⟩
          | cons c todo ihl =>
            intro done acc d tr hc i1 i2 i3 i4 i5 i6 i7 i8 i9 i10 i11 i12
            have hcx : c ∈ next x := hc c (by simp)
            rw [List.foldlM_cons]
            by_cases hm : c ∈ tr
            · simp only [if_pos hm]
              obtain ⟨l, d', t, he, j1, j2, j3, j4, j5, j6, j8, j9, j10, j11, j12⟩ := ihl (done ++ [c]) acc d tr
                (fun y hy => hc y (by simp [hy])) i1 i2 i3 i4 i5 i6 i7 i8 i9
                (by
                  intro b hb
                  rcases List.mem_append.1 hb with hb | hb
                  · exact i10 b hb
                  · rw [List.mem_singleton.1 hb]; exact i8 c hm)
                (by
                  intro h2 b hb
                  rcases List.mem_append.1 hb with hb | hb
                  · exact i11 h2 b hb
                  · rw [List.mem_singleton.1 hb]; exact hm) i12
              exact ⟨l, d', t, he, j1, j2, j3, j4, j5, j6, j8, j9, by simpa using j10, by simpa using j11, j12⟩
            · simp only [if_neg hm]
              obtain ⟨sl, sd, st, hr', L⟩ := ih (x := c) (V := tr) (r := r - 1) hm (by omega) hfuel
              have hcV : c ∉ V := fun h => hm (i1 c h)
              have hcx' : c ≠ x := fun h => hm (h ▸ i2)
              obtain ⟨am, an⟩ := addDirect_fst (x := c) (acc := (acc, d))
              have hd1 : DictOk next x (addDirect inList c (acc, d)).1 (addDirect inList c (acc, d)).2 ∧
                  (∀ y ∈ (dget (addDirect inList c (acc, d)).2 1).getD [], y ∈ next x ∧ y ∈ (addDirect inList c (acc, d)).1) := by
                unfold addDirect
                by_cases hca : c ∈ acc
                · simp only [inList, hca, decide_true, if_true]
                  exact ⟨i6, i7⟩
                · simp only [inList, hca, decide_false, Bool.false_eq_true, if_false]
                  refine ⟨(i6.mono fun y hy => by simp [hy]).set (Nat.le_refl _) ?_ ?_, ?_⟩
                  · intro y hy
                    rcases List.mem_append.1 hy with hy | hy
                    · exact .step (i7 y hy).1 (.zero _)
                    · rw [List.mem_singleton.1 hy]; exact .step hcx (.zero _)
                  · intro y hy
                    rcases List.mem_append.1 hy with hy | hy
                    · simp [(i7 y hy).2]
                    · simp [List.mem_singleton.1 hy]
                  · rw [dget_dset, if_pos rfl]
                    intro y hy
                    simp only [Option.getD_some] at hy
                    rcases List.mem_append.1 hy with hy | hy
                    · exact ⟨(i7 y hy).1, by simp [(i7 y hy).2]⟩
                    · rw [List.mem_singleton.1 hy]; exact ⟨hcx, by simp⟩
              generalize ha : addDirect inList c (acc, d) = ac at am an hd1
              obtain ⟨bm, bn⟩ := absorb_mem (e := sd) (acc := ac) L.nodup
              have hd2 := absorb_dict (acc := ac) (all := (absorb inList sl sd ac).1) L.dict hcx
                (fun y hy => (bm y).2 (.inr hy)) (hd1.1.mono fun y hy => (bm y).2 (.inl hy))
              have h1' : dget (absorb inList sl sd ac).2 1 = dget ac.2 1 := absorb_one L.dict.pos
              generalize hb : absorb inList sl sd ac = bc at bm bn hd2 h1'
              have mem3 : ∀ y, y ∈ bc.1 ↔ y = c ∨ y ∈ acc ∨ y ∈ sl := by
                intro y; rw [bm, am]; grind
              obtain ⟨l, d', t, he, j1, j2, j3, j4, j5, j6, j8, j9, j10, j11, j12⟩ := ihl (done ++ [c]) bc.1 bc.2 st
                (fun y hy => hc y (by simp [hy]))
                (fun v hv => L.supV v (i1 v hv)) (L.supV x i2)
                (by
                  intro y hy
                  rcases (mem3 y).1 hy with rfl | hy | hy
                  · exact ⟨1, Nat.le_refl _, by omega, .step hcx (.zero _)⟩
                  · exact i3 y hy
                  · obtain ⟨k, k1, k2, w⟩ := L.sound y hy
                    exact ⟨k + 1, by omega, by omega, .step hcx w⟩)
                (by
                  intro y hy
                  rcases (mem3 y).1 hy with rfl | hy | hy
                  · exact ⟨hcV, hcx'⟩
                  · exact i4 y hy
                  · have := L.disj y hy
                    exact ⟨fun h => this.1 (i1 y h), fun h => this.1 (h ▸ i2)⟩)
                (bn (an i5)) hd2
                (by rw [h1']; intro y hy; exact ⟨(hd1.2 y hy).1, (bm y).2 (.inl (hd1.2 y hy).2)⟩)
                (by
                  intro e he
                  rcases L.ent e he with h | h | h
                  · rcases i8 e h with h | h | h
                    · exact .inl h
                    · exact .inr (.inl h)
                    · exact .inr (.inr ((mem3 e).2 (.inr (.inl h))))
                  · exact .inr (.inr ((mem3 e).2 (.inl h)))
                  · exact .inr (.inr ((mem3 e).2 (.inr (.inr h)))))
                (by
                  intro e he hV hx b hb
                  by_cases het : e ∈ tr
                  · rcases i9 e het hV hx b hb with h | h | h
                    · exact .inl h
                    · exact .inr (.inl h)
                    · exact .inr (.inr ((mem3 b).2 (.inr (.inl h))))
                  · rcases L.kidsOf e he het b hb with h | h | h
                    · rcases i8 b h with h | h | h
                      · exact .inl h
                      · exact .inr (.inl h)
                      · exact .inr (.inr ((mem3 b).2 (.inr (.inl h))))
                    · exact .inr (.inr ((mem3 b).2 (.inl h)))
                    · exact .inr (.inr ((mem3 b).2 (.inr (.inr h)))))
                (by
                  intro b hb
                  rcases List.mem_append.1 hb with hb | hb
                  · rcases i10 b hb with h | h | h
                    · exact .inl h
                    · exact .inr (.inl h)
                    · exact .inr (.inr ((mem3 b).2 (.inr (.inl h))))
                  · rw [List.mem_singleton.1 hb]; exact .inr (.inr ((mem3 c).2 (.inl rfl))))
                (by
                  intro h2 b hb
                  rcases List.mem_append.1 hb with hb | hb
                  · exact L.supV b (i11 h2 b hb)
                  · rw [List.mem_singleton.1 hb]; exact L.self (by omega))
                (by
                  intro hg e he hV hx hlev b hb
                  by_cases het : e ∈ tr
                  · exact L.supV b (i12 hg e het hV hx hlev b hb)
                  · refine L.graded hg e he het ?_ b hb
                    have := hg x c hcx
                    omega)
              refine ⟨l, d', t, ?_, j1, j2, j3, j4, j5, j6, j8, j9, by simpa using j10, by simpa using j11, j12⟩
              rw [← he]
              have ha' : addDirect (fun x l => decide (x ∈ l)) c (acc, d) = ac := ha
              have hb' : absorb (fun x l => decide (x ∈ l)) sl sd ac = bc := hb
              simp only [hr']
              show List.foldlM _ ((absorb (fun x l => decide (x ∈ l)) sl sd ac).1, (absorb (fun x l => decide (x ∈ l)) sl sd ac).2, st) todo = _
              rw [hb']
        obtain ⟨l, d', t, he, j1, j2, j3, j4, j5, j6, j8, j9, j10, j11, j12⟩ := loop (next x) [] [] [(1, [])] (V ++ [x])
          (fun _ h => h) (fun v h => by simp [h]) (by simp) (by simp) (by simp) (by simp)
          ⟨by simp [dkeys], by simp +contextual, by simp +contextual, by simp +contextual⟩ (by simp [dget])
          (fun e he => by simpa using he)
          (by
            intro e he hne hnx
            rcases List.mem_append.1 he with h | h
            · exact absurd h hne
            · exact absurd (List.mem_singleton.1 h) hnx)
          (by simp) (by simp)
          (by
            intro _ e he hne hnx
            rcases List.mem_append.1 he with h | h
            · exact absurd h hne
            · exact absurd (List.mem_singleton.1 h) hnx)
        refine ⟨l, d', t, he, j1, fun _ => j2, j3, j4, j5, j6, j8, ?_, ?_, ?_⟩
        · intro e he hV c hc
          by_cases hex : e = x
          · subst hex; exact j10 c (by simpa using hc)
          · exact j9 e he hV hex c hc
        · intro h2 c hc; exact j11 h2 c (by simpa using hc)
        · intro hg e he hV hlev c hc
          by_cases hex : e = x
          · subst hex; exact j11 (by omega) c (by simpa using hc)
          · exact j12 hg e he hV hex hlev c hc

end Verif
