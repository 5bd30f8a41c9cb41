import Verif.Spec.Indent
/-!
# Lemmas about the parser
-/
namespace Verif

/-- The stack holds, for every level, the nearest line above that is not deeper. -/
def StackOk (stack : List Nat) (above : List (Nat × Nat)) : Prop :=
  (stack.length = match above with | [] => 0 | a :: _ => a.2 + 1) ∧
  ∀ l, l < stack.length → ∃ j, stack[l]? = some j ∧ above.find? (fun a => decide (a.2 < l + 1)) = some (j, l)

theorem StackOk.nil : StackOk [] [] := ⟨rfl, fun l hl => absurd hl (by simp)⟩

theorem StackOk.fits {stack : List Nat} {above : List (Nat × Nat)} (h : StackOk stack above) (d : Nat) :
    Fits above d ↔ d ≤ stack.length := by
  rw [h.1]
  cases above with
  | nil => simp [Fits]
  | cons a as => simp [Fits]

theorem StackOk.push {stack : List Nat} {above : List (Nat × Nat)} (h : StackOk stack above) {d : Nat}
    (hd : d ≤ stack.length) (i : Nat) : StackOk (stack.take d ++ [i]) ((i, d) :: above) := by
  refine ⟨by simp; omega, fun l hl => ?_⟩
  have hl' : l ≤ d := by simp at hl; omega
  by_cases e : l = d
  · subst e
    refine ⟨i, ?_, by simp⟩
    rw [List.getElem?_append_right (by simp; omega)]
    simp [Nat.min_eq_left hd]
  · have hlt : l < d := by omega
    obtain ⟨j, hj, hf⟩ := h.2 l (by omega)
    refine ⟨j, ?_, ?_⟩
    · rw [List.getElem?_append_left (by simp; omega), List.getElem?_take_of_lt hlt, hj]
    · rw [List.find?_cons_of_neg (by simp; omega), hf]

theorem StackOk.parent {stack : List Nat} {above : List (Nat × Nat)} (h : StackOk stack above) {d : Nat}
    (hd : d ≤ stack.length) : parentAt stack d = .ok (nearest above d) := by
  unfold parentAt
  by_cases h0 : d = 0
  · subst h0
    have : above.find? (fun a => decide (a.2 < 0)) = none := List.find?_eq_none.2 (by simp)
    simp only [nearest, this, if_true, Option.map_none]
  · obtain ⟨j, hj, hf⟩ := h.2 (d - 1) (by omega)
    rw [if_neg h0, hj]
    have e : d - 1 + 1 = d := by omega
    rw [e] at hf
    simp [nearest, hf]

theorem StackOk.parent_push {stack : List Nat} {above : List (Nat × Nat)} (h : StackOk stack above) {d : Nat}
    (hd : d ≤ stack.length) (i : Nat) : parentAt (stack.take d ++ [i]) d = .ok (nearest above d) := by
  rw [← h.parent hd]
  unfold parentAt
  by_cases h0 : d = 0
  · simp [h0]
  · rw [if_neg h0, if_neg h0, List.getElem?_append_left (by simp; omega), List.getElem?_take_of_lt (by omega)]

/-! ## One line of an outline -/

theorem takeWhile_append_of_neg {α : Type} (p : α → Bool) (a : List α) (c : α) (b : List α)
    (ha : ∀ x ∈ a, p x = true) (hc : p c = false) : (a ++ c :: b).takeWhile p = a := by
  induction a with
  | nil => simp [hc]
  | cons x a ih => simp [ha x (by simp), ih (fun y hy => ha y (by simp [hy]))]

theorem dropWhile_append_of_neg {α : Type} (p : α → Bool) (a : List α) (c : α) (b : List α)
    (ha : ∀ x ∈ a, p x = true) (hc : p c = false) : (a ++ c :: b).dropWhile p = c :: b := by
  induction a with
  | nil => simp [hc]
  | cons x a ih => simp [ha x (by simp), ih (fun y hy => ha y (by simp [hy]))]

theorem takeWhile_all {α : Type} (p : α → Bool) (a : List α) (ha : ∀ x ∈ a, p x = true) : a.takeWhile p = a := by
  induction a with
  | nil => rfl
  | cons x a ih => simp [ha x (by simp), ih (fun y hy => ha y (by simp [hy]))]

theorem rstripNl_append (l : Line) (k : Nat) (h : l = [] ∨ ∃ a c, l = a ++ [c] ∧ c ≠ '\n') :
    rstripNl (l ++ List.replicate k '\n') = l := by
  unfold rstripNl
  rw [List.reverse_append, List.reverse_replicate, List.dropWhile_append_of_pos (by
    intro x hx; simp [List.eq_of_mem_replicate hx])]
  rcases h with rfl | ⟨a, c, rfl, hc⟩
  · simp
  · simp [hc]

theorem last_ne {l : Line} (hl : l ≠ []) (h : '\n' ∉ l) : ∃ a c, l = a ++ [c] ∧ c ≠ '\n' := by
  refine ⟨l.dropLast, l.getLast hl, (List.dropLast_concat_getLast hl).symm, fun e => h ?_⟩
  rw [← e]; exact List.getLast_mem hl

/-- Units are made of blanks and tabs. -/
def Blank (u : Line) : Prop := ∀ c ∈ u, c = ' ' ∨ c = '\t'

theorem Blank.space {u : Line} (h : Blank u) {c : Char} (hc : c ∈ u) : isSpace c = true := by
  rcases h c hc with rfl | rfl <;> decide

theorem mem_units {u : Line} {d : Nat} {c : Char} (h : c ∈ (List.replicate d u).flatten) : c ∈ u := by
  rw [List.mem_flatten] at h
  obtain ⟨l, hl, hc⟩ := h
  rw [List.eq_of_mem_replicate hl] at hc
  exact hc

theorem Blank.no_nl {u : Line} (h : Blank u) : '\n' ∉ u := by
  intro hc
  rcases h _ hc with e | e <;> exact absurd e (by decide)

theorem length_units (u : Line) (d : Nat) : ((List.replicate d u).flatten).length = d * u.length := by
  simp

theorem lstrip_units {u : Line} (hu : Blank u) (d : Nat) {c : Char} (cs : Line) (hc : isSpace c = false) :
    lstrip u ((List.replicate d u).flatten ++ c :: cs) = c :: cs := by
  unfold lstrip
  refine dropWhile_append_of_neg _ _ c cs (fun x hx => by simpa using mem_units hx) ?_
  simp only [decide_eq_false_iff_not]
  intro hm
  rw [hu.space hm] at hc
  exact absurd hc (by decide)

theorem replaceGo_skip (old new : Line) (n : Nat) (a l : Line) :
    replaceGo old new a.length n (a ++ l) = replaceGo old new 0 n l := by
  induction a with
  | nil => rfl
  | cons c a ih =>
    show replaceGo old new (a.length + 1) n (c :: (a ++ l)) = _
    rw [replaceGo]
    exact ih

theorem replaceN_hit (old new : Line) (ho : old ≠ []) (n : Nat) (l : Line) :
    replaceN old new (n + 1) (old ++ l) = new ++ replaceN old new n l := by
  cases old with
  | nil => exact absurd rfl ho
  | cons c a =>
    show replaceGo (c :: a) new 0 (n + 1) (c :: (a ++ l)) = _
    rw [replaceGo, if_pos (by simp [List.isPrefixOf_iff_prefix])]
    have e : (c :: a).length - 1 = a.length := by simp
    rw [e, replaceGo_skip]
    rfl

theorem replaceN_units (old new : Line) (ho : old ≠ []) (d n : Nat) (l : Line) :
    replaceN old new (d + n) ((List.replicate d old).flatten ++ l) =
      (List.replicate d new).flatten ++ replaceN old new n l := by
  induction d with
  | zero => simp
  | succ d ih =>
    have e : d + 1 + n = (d + n) + 1 := by omega
    rw [e, List.replicate_succ, List.flatten_cons, List.append_assoc, replaceN_hit old new ho, ih, List.replicate_succ,
      List.flatten_cons, List.append_assoc]

theorem replaceN_miss (old new : Line) (n : Nat) (l : Line) (h : ¬ old <:+: l) : replaceN old new n l = l := by
  unfold replaceN
  induction l generalizing n with
  | nil => cases n <;> rfl
  | cons c cs ih =>
    cases n with
    | zero => rfl
    | succ n =>
      rw [replaceGo, if_neg, ih]
      · exact fun hi => h (hi.trans (List.suffix_cons c cs).isInfix)
      · rw [List.isPrefixOf_iff_prefix]
        exact fun hp => h hp.isInfix

theorem replaceN_zero (old new : Line) (l : Line) : replaceN old new 0 l = l := by
  cases l <;> rfl

theorem replaceGo_self (u : Line) : ∀ (l : Line) (skip n : Nat),
    (skip = 0 → u ≠ [] → replaceGo u u 0 n l = l) ∧
    (u ≠ [] → ∀ a b, a.length = skip → l = a ++ b → replaceGo u u skip n l = replaceGo u u 0 n b) := by
  intro l skip n
  refine ⟨fun _ hu => ?_, fun _ a b ha hl => by subst ha hl; exact replaceGo_skip u u n a b⟩
  induction hk : l.length using Nat.strongRecOn generalizing l n with
  | ind k ih =>
    cases l with
    | nil => cases n <;> rfl
    | cons c cs =>
      cases n with
      | zero => rfl
      | succ n =>
        by_cases hp : u <+: c :: cs
        · obtain ⟨b, hb⟩ := hp
          rw [← hb]
          have e := replaceN_hit u u hu n b
          unfold replaceN at e
          rw [e, ih b.length (by rw [← hk, ← hb]; cases u with
            | nil => exact absurd rfl hu
            | cons => simp; omega) b n rfl]
        · rw [replaceGo, if_neg (by rwa [List.isPrefixOf_iff_prefix]), ih cs.length (by rw [← hk]; simp) cs (n + 1) rfl]

theorem replaceN_self (u : Line) (hu : u ≠ []) (n : Nat) (l : Line) : replaceN u u n l = l :=
  (replaceGo_self u l 0 n).1 rfl hu

/-- The first character of the text is never part of an occurrence. -/
theorem replaceN_head {u : Line} (hu : Blank u) (hne : u ≠ []) (n : Nat) {c : Char} (cs : Line)
    (hc : isSpace c = false) : ∃ cs', replaceN u four n (c :: cs) = c :: cs' := by
  cases n with
  | zero => exact ⟨cs, rfl⟩
  | succ n =>
    refine ⟨replaceGo u four 0 (n + 1) cs, ?_⟩
    unfold replaceN
    rw [replaceGo, if_neg]
    rw [List.isPrefixOf_iff_prefix]
    intro hp
    cases u with
    | nil => exact hne rfl
    | cons x u =>
      have := (List.cons_prefix_cons.1 hp).1
      subst this
      rw [hu.space (by simp)] at hc
      exact absurd hc (by decide)

theorem mem_replaceGo {old new : Line} : ∀ {l : Line} {skip n : Nat} {x : Char},
    x ∈ replaceGo old new skip n l → x ∈ new ∨ x ∈ l
  | [], _, _, x, h => by unfold replaceGo at h; exact absurd h (by simp)
  | c :: cs, skip + 1, n, x, h => by
    rw [replaceGo] at h
    rcases mem_replaceGo h with h | h <;> simp [h]
  | c :: cs, 0, 0, x, h => by
    rw [replaceGo] at h
    exact .inr h
  | c :: cs, 0, n + 1, x, h => by
    rw [replaceGo] at h
    split at h
    · rcases List.mem_append.1 h with h | h
      · exact .inl h
      · rcases mem_replaceGo h with h | h <;> simp [h]
    · rcases List.mem_cons.1 h with h | h
      · simp [h]
      · rcases mem_replaceGo h with h | h <;> simp [h]

theorem matchLine_fours (d : Nat) {c : Char} (cs : Line) (hc : isSpace c = false) (hn : '\n' ∉ c :: cs) :
    matchLine ((List.replicate d four).flatten ++ c :: cs) = some (d, c :: cs) := by
  have hc' : decide (c = ' ') = false := by
    simp only [decide_eq_false_iff_not]
    rintro rfl
    exact absurd hc (by decide)
  have hsp : ∀ x ∈ (List.replicate d four).flatten, decide (x = ' ') = true := by
    intro x hx
    have := mem_units hx
    simpa [four] using this
  unfold matchLine
  rw [dropWhile_append_of_neg _ _ c cs hsp hc', takeWhile_append_of_neg _ _ c cs hsp hc']
  have e : ((List.replicate d four).flatten).length = d * 4 := by rw [length_units]; rfl
  simp only [e, Nat.mul_mod_left, hc, true_and, if_true, Nat.mul_div_cancel d (by decide : 0 < 4)]
  have : (c :: cs).takeWhile (fun x => decide (x ≠ '\n')) = c :: cs := by
    refine takeWhile_all _ _ fun x hx => ?_
    simp only [decide_eq_true_eq]
    rintro rfl
    exact hn hx
  rw [this]

/-- What becomes of a text written with the unit `u` at depth `d`. -/
def altered (u : Line) (d : Nat) (t : Line) : Line := replaceN u four (d * u.length - d) t

theorem expand_units {u : Line} (hu : Blank u) (hne : u ≠ []) (d : Nat) {c : Char} (cs : Line) (hc : isSpace c = false) :
    expand (some u) ((List.replicate d u).flatten ++ c :: cs) =
      (List.replicate d four).flatten ++ altered u d (c :: cs) := by
  have hpos : 0 < u.length := List.length_pos_iff.2 hne
  have hle : d ≤ d * u.length := Nat.le_mul_of_pos_right d hpos
  have e : ((List.replicate d u).flatten ++ c :: cs).length - (c :: cs).length = d + (d * u.length - d) := by
    rw [List.length_append, length_units]; omega
  simp only [expand, lstrip_units hu d cs hc, e]
  exact replaceN_units u four hne d _ _

theorem write_text_strip {u : Line} (hu : Blank u) (eol d : Nat) {c : Char} {cs : Line} (hn : '\n' ∉ c :: cs) :
    rstripNl (Entry.write u eol (.text d (c :: cs))) = (List.replicate d u).flatten ++ c :: cs := by
  unfold Entry.write
  refine rstripNl_append _ _ (.inr (last_ne (by simp) ?_))
  intro h
  rcases List.mem_append.1 h with h | h
  · exact hu.no_nl (mem_units h)
  · exact hn h

theorem write_blank_strip (u : Line) (eol : Nat) : rstripNl (Entry.write u eol .blank) = [] := by
  unfold Entry.write
  simpa using rstripNl_append [] eol (.inl rfl)

theorem detect_some (u l : Line) : detect (some u) l = some u := rfl

theorem expand_nil (i : Option Line) : expand i [] = [] := by
  cases i with
  | none => rfl
  | some u => simp [expand, replaceN, replaceGo]

/-- Reading an outline whose unit is known. -/
theorem parseFrom_write {u : Line} (hu : Blank u) (hne : u ≠ []) (eol : Nat → Nat) :
    ∀ (es : List Entry) (i : Nat) (stack : List Nat) (above : List (Nat × Nat)) (lev : Option Nat),
      (∀ e ∈ es, e.Plain) → StackOk stack above → lev = above.head?.map Prod.snd →
      parseFrom { indent := some u, stack := stack, level := lev } i (es.mapIdx (fun j e => e.write u (eol (i + j)))) =
        readFrom (altered u) above i es := by
  intro es
  induction es with
  | nil => intros; rfl
  | cons e es ih =>
    intro i stack above lev hp hs hlev
    have hp' : ∀ e ∈ es, e.Plain := fun e he => hp e (by simp [he])
    have hmap : (e :: es).mapIdx (fun j e => e.write u (eol (i + j))) =
        e.write u (eol i) :: es.mapIdx (fun j e => e.write u (eol (i + 1 + j))) := by
      rw [List.mapIdx_cons]
      simp only [Nat.add_zero, List.cons.injEq, true_and]
      congr 1
      funext j e
      rw [Nat.add_assoc, Nat.add_comm 1 j]
    rw [hmap]
    cases e with
    | blank =>
      simp only [parseFrom, parseLine, write_blank_strip, expand_nil, List.length_nil, Nat.lt_irrefl, gt_iff_lt,
        if_false, readFrom]
      cases above with
      | nil =>
        simp only [List.head?_nil, Option.map_none] at hlev
        subst hlev
        rfl
      | cons a as =>
        simp only [List.head?_cons, Option.map_some] at hlev
        subst hlev
        have hle : a.2 ≤ stack.length := by rw [hs.1]; simp
        simp only [hs.parent hle, bind, Except.bind, detect_some]
        have := ih (i + 1) stack (a :: as) (some a.2) hp' hs rfl
        rw [this]
    | text d t =>
      obtain ⟨⟨c, cs, rfl, hc⟩, hn⟩ := hp (.text d t) (by simp)
      obtain ⟨cs', hcs'⟩ := replaceN_head hu hne (d * u.length - d) cs hc
      have hn' : '\n' ∉ c :: cs' := by
        rw [← hcs']
        intro h
        rcases mem_replaceGo h with h | h
        · exact absurd h (by decide)
        · exact hn h
      have hlen : 0 < ((List.replicate d four).flatten ++ c :: cs').length := by
        rw [List.length_append, List.length_cons]; omega
      simp only [parseFrom, parseLine, write_text_strip hu _ d hn, detect_some, expand_units hu hne d cs hc, altered, hcs',
        gt_iff_lt, hlen, if_true, matchLine_fours d cs' hc hn', readFrom]
      by_cases hf : Fits above d
      · have hle := (hs.fits d).1 hf
        simp only [if_neg (Nat.not_lt.2 hle), hs.parent_push hle i, bind, Except.bind, if_pos hf]
        have := ih (i + 1) _ ((i, d) :: above) (some d) hp' (hs.push hle i) rfl
        rw [this]
      · have hlt : stack.length < d := Nat.lt_of_not_le (fun h => hf ((hs.fits d).2 h))
        simp only [if_pos hlt, if_neg hf]

/-! ## Detecting the unit -/

theorem write_flat_none {u : Line} (eol : Nat) {c : Char} {cs : Line} (hu : Blank u) (hc : isSpace c = false)
    (hn : '\n' ∉ c :: cs) : detect none (rstripNl (Entry.write u eol (.text 0 (c :: cs)))) = none := by
  rw [write_text_strip hu eol 0 hn]
  simp only [List.replicate_zero, List.flatten_nil, List.nil_append, detect]
  split
  · next h => simp at h; rw [h.1] at hc; exact absurd hc (by decide)
  · next h => simp at h; rw [h.1] at hc; exact absurd hc (by decide)
  · rfl

theorem detect_first {u : Line} (hu : Blank u) (hne : u ≠ []) (eol : Nat) {c : Char} {cs : Line}
    (hc : isSpace c = false) (hn : '\n' ∉ c :: cs) :
    detect none (rstripNl (Entry.write u eol (.text 1 (c :: cs)))) = some u := by
  rw [write_text_strip hu eol 1 hn]
  have e : (List.replicate 1 u).flatten ++ c :: cs = u ++ c :: cs := by simp
  have ht : (u ++ c :: cs).takeWhile (fun c => decide (c = ' ' ∨ c = '\t')) = u := by
    refine takeWhile_append_of_neg _ u c cs (fun x hx => by simpa using hu x hx) ?_
    simp only [decide_eq_false_iff_not]
    rintro (rfl | rfl) <;> exact absurd hc (by decide)
  rw [e]
  cases u with
  | nil => exact absurd rfl hne
  | cons x u =>
    rcases hu x (by simp) with rfl | rfl
    · show some ((' ' :: u ++ c :: cs).takeWhile _) = _
      rw [ht]
    · show some (('\t' :: u ++ c :: cs).takeWhile _) = _
      rw [ht]

/-- As long as nothing is indented the unit does not matter; then it is found. -/
theorem parseFrom_detect {u : Line} (hu : Blank u) (hne : u ≠ []) (eol : Nat → Nat) (shown : Nat → Line → Line) :
    ∀ (es : List Entry) (i : Nat) (stack : List Nat) (above : List (Nat × Nat)) (lev : Option Nat),
      (∀ e ∈ es, e.Plain) → (∀ a ∈ above, a.2 = 0) → (readFrom shown above i es).2 = none →
      parseFrom { indent := none, stack := stack, level := lev } i (es.mapIdx (fun j e => e.write u (eol (i + j)))) =
      parseFrom { indent := some u, stack := stack, level := lev } i (es.mapIdx (fun j e => e.write u (eol (i + j)))) := by
  intro es
  induction es with
  | nil => intros; rfl
  | cons e es ih =>
    intro i stack above lev hp ha hr
    have hp' : ∀ e ∈ es, e.Plain := fun e he => hp e (by simp [he])
    have hmap : (e :: es).mapIdx (fun j e => e.write u (eol (i + j))) =
        e.write u (eol i) :: es.mapIdx (fun j e => e.write u (eol (i + 1 + j))) := by
      rw [List.mapIdx_cons]
      simp only [Nat.add_zero, List.cons.injEq, true_and]
      congr 1
      funext j e
      rw [Nat.add_assoc, Nat.add_comm 1 j]
    rw [hmap]
    cases e with
    | blank =>
      cases above with
      | nil => simp [readFrom] at hr
      | cons a as =>
        simp only [readFrom] at hr
        simp only [parseFrom, parseLine, write_blank_strip, expand_nil, List.length_nil, Nat.lt_irrefl, gt_iff_lt,
          if_false]
        cases lev with
        | none => rfl
        | some level =>
          cases hpar : parentAt stack level with
          | error e => simp only [hpar, bind, Except.bind]
          | ok p =>
            have hd : detect none [] = none := rfl
            simp only [hpar, bind, Except.bind, detect_some, hd]
            rw [ih (i + 1) stack (a :: as) (some level) hp' ha hr]
    | text d t =>
      obtain ⟨⟨c, cs, rfl, hc⟩, hn⟩ := hp (.text d t) (by simp)
      have hf : Fits above d := by
        refine Classical.byContradiction fun hf => ?_
        simp only [readFrom, if_neg hf] at hr
        exact absurd hr (by simp)
      simp only [readFrom, if_pos hf] at hr
      have hd : d = 0 ∨ d = 1 := by
        cases above with
        | nil => exact .inl hf
        | cons a as =>
          have : a.2 = 0 := ha a (by simp)
          have hf' : d ≤ a.2 + 1 := hf
          omega
      rcases hd with rfl | rfl
      · have h1 := write_flat_none (eol i) hu hc hn
        have h2 := write_text_strip hu (eol i) 0 hn
        have h3 := expand_units hu hne 0 cs hc
        have h4 : altered u 0 (c :: cs) = c :: cs := by
          unfold altered
          rw [Nat.zero_mul, Nat.zero_sub, replaceN_zero]
        simp only [List.replicate_zero, List.flatten_nil, List.nil_append, h4] at h2 h3
        rw [h2] at h1
        have h5 : expand none (c :: cs) = c :: cs := rfl
        simp only [parseFrom, parseLine, h2, h1, detect_some, h3, h5]
        cases hm : matchLine (c :: cs) with
        | none => rfl
        | some r =>
          obtain ⟨level, name⟩ := r
          have hml := matchLine_fours 0 cs hc hn
          simp only [List.replicate_zero, List.flatten_nil, List.nil_append] at hml
          rw [hml] at hm
          obtain ⟨rfl, rfl⟩ : 0 = level ∧ c :: cs = name := by simpa using hm
          have hpar : parentAt (List.take 0 stack ++ [i]) 0 = .ok none := rfl
          simp only [List.length_cons, gt_iff_lt, Nat.zero_lt_succ, if_true, Nat.not_lt_zero, if_false, hpar, bind,
            Except.bind]
          rw [ih (i + 1) _ ((i, 0) :: above) (some 0) hp' (by
            intro a hm
            rcases List.mem_cons.1 hm with rfl | hm
            · rfl
            · exact ha a hm) hr]
      · have h1 := detect_first hu hne (eol i) hc hn
        simp only [parseFrom, parseLine, h1, detect_some]
        rfl

theorem readFrom_congr {f g : Nat → Line → Line} : ∀ (es : List Entry) (above : List (Nat × Nat)) (i : Nat),
    (∀ d t, Entry.text d t ∈ es → f d t = g d t) → readFrom f above i es = readFrom g above i es
  | [], _, _, _ => rfl
  | .blank :: es, above, i, h => by
    cases above with
    | nil => rfl
    | cons a as =>
      simp only [readFrom]
      rw [readFrom_congr es (a :: as) (i + 1) (fun d t hm => h d t (by simp [hm]))]
  | .text d t :: es, above, i, h => by
    simp only [readFrom]
    rw [readFrom_congr es ((i, d) :: above) (i + 1) (fun d t hm => h d t (by simp [hm])), h d t (by simp)]

/-- The texts are kept when the unit is a single character, or four blanks, or occurs in none of them. -/
theorem altered_same {u : Line} {es : List Entry}
    (h : u.length = 1 ∨ u = [' ', ' ', ' ', ' '] ∨ ∀ e ∈ es, e.Free u) :
    readOutline (fun d t => replaceN u four (d * u.length - d) t) es = readOutline (fun _ t => t) es := by
  refine readFrom_congr es [] 0 fun d t hm => ?_
  rcases h with h | rfl | h
  · rw [h, Nat.mul_one, Nat.sub_self, replaceN_zero]
  · exact replaceN_self four (by decide) _ _
  · exact replaceN_miss u four _ _ (h _ hm)

/-! ## Parents -/

/-- What the items yielded from line `i` on are, given the non-empty lines above. -/
def Good : List (Nat × Nat) → Nat → List Item → Prop
  | _, _, [] => True
  | above, i, it :: its =>
    it.index = i ∧
    ((it.content ≠ [] ∧ Fits above it.level ∧ it.parent = nearest above it.level ∧ Good ((i, it.level) :: above) (i + 1) its) ∨
     (it.content = [] ∧ (∃ a, above.head? = some a ∧ it.level = a.2) ∧ it.parent = nearest above it.level ∧
        Good above (i + 1) its))

theorem matchLine_ne {l : Line} {level : Nat} {name : Line} (h : matchLine l = some (level, name)) : name ≠ [] := by
  unfold matchLine at h
  split at h
  · exact absurd h (by simp)
  · next c cs _ =>
    split at h
    · next hc =>
      have hn : decide (c ≠ '\n') = true := by
        simp only [decide_eq_true_eq]
        rintro rfl
        exact absurd hc.2 (by decide)
      simp only [Option.some.injEq, Prod.mk.injEq] at h
      have e : (c :: cs).takeWhile (fun x => decide (x ≠ '\n')) = c :: cs.takeWhile (fun x => decide (x ≠ '\n')) := by
        rw [List.takeWhile_cons, if_pos hn]
      rw [← h.2, e]
      exact List.cons_ne_nil _ _
    · exact absurd h (by simp)

theorem parseFrom_good : ∀ (lines : List Line) (s : PState) (above : List (Nat × Nat)) (i : Nat),
    StackOk s.stack above → s.level = above.head?.map Prod.snd → Good above i (parseFrom s i lines).1 := by
  intro lines
  induction lines with
  | nil => intros; trivial
  | cons line lines ih =>
    intro s above i hs hl
    cases hp : parseLine s i line with
    | error e => simp only [parseFrom, hp]; trivial
    | ok r =>
      obtain ⟨s', it⟩ := r
      simp only [parseFrom, hp]
      simp only [parseLine] at hp
      split at hp
      · cases hm : matchLine (expand (detect s.indent (rstripNl line)) (rstripNl line)) with
        | none => simp [hm] at hp
        | some r =>
          obtain ⟨level, name⟩ := r
          simp only [hm] at hp
          split at hp
          · exact absurd hp (by simp)
          · next hle =>
            have hle : level ≤ s.stack.length := Nat.le_of_not_lt hle
            simp only [hs.parent_push hle i, bind, Except.bind, Except.ok.injEq, Prod.mk.injEq] at hp
            obtain ⟨rfl, rfl⟩ := hp
            exact ⟨rfl, .inl ⟨matchLine_ne hm, (hs.fits level).2 hle, rfl, ih _ _ _ (hs.push hle i) rfl⟩⟩
      · cases above with
        | nil =>
          simp only [List.head?_nil, Option.map_none] at hl
          simp [hl] at hp
        | cons a as =>
          simp only [List.head?_cons, Option.map_some] at hl
          have hle : a.2 ≤ s.stack.length := by rw [hs.1]; simp
          simp only [hl, hs.parent hle, bind, Except.bind, Except.ok.injEq, Prod.mk.injEq] at hp
          obtain ⟨rfl, rfl⟩ := hp
          exact ⟨rfl, .inr ⟨rfl, ⟨a, rfl, rfl⟩, rfl, ih _ _ _ hs (by simp)⟩⟩

/-- Depths go up by one at a time. -/
def Steps : List (Nat × Nat) → Prop
  | [] => True
  | a :: as => Fits as a.2 ∧ Steps as

theorem Steps.find {above : List (Nat × Nat)} (h : Steps above) {d : Nat} (hf : Fits above (d + 1)) :
    ∃ j as bs, above = as ++ (j, d) :: bs ∧ ∀ a ∈ as, d + 1 ≤ a.2 := by
  induction above with
  | nil => exact absurd hf (by simp [Fits])
  | cons a above ih =>
    have hf' : d + 1 ≤ a.2 + 1 := hf
    by_cases e : a.2 = d
    · exact ⟨a.1, [], above, by simp [← e], by simp⟩
    · obtain ⟨j, as, bs, rfl, ha⟩ := ih h.2 (by
        have h1 : Fits above a.2 := h.1
        cases above with
        | nil => exact absurd h1 (by simp [Fits]; omega)
        | cons b bs => have h1 : a.2 ≤ b.2 + 1 := h1; show d + 1 ≤ b.2 + 1; omega)
      refine ⟨j, a :: as, bs, rfl, fun x hx => ?_⟩
      rcases List.mem_cons.1 hx with rfl | hx
      · omega
      · exact ha x hx

/-- `above` lists exactly the non-empty items before, latest first. -/
def Lists (above : List (Nat × Nat)) (pre : List Item) : Prop :=
  above.Pairwise (fun a b => b.1 < a.1) ∧
  ∀ j d, (j, d) ∈ above ↔ ∃ q, pre[j]? = some q ∧ q.content ≠ [] ∧ q.level = d

theorem Lists.lt {above : List (Nat × Nat)} {pre : List Item} (h : Lists above pre) {a : Nat × Nat} (ha : a ∈ above) :
    a.1 < pre.length := by
  obtain ⟨q, hq, _⟩ := (h.2 a.1 a.2).1 ha
  exact (List.getElem?_eq_some_iff.1 hq).1

theorem Lists.push {above : List (Nat × Nat)} {pre : List Item} (h : Lists above pre) {it : Item} (hc : it.content ≠ []) :
    Lists ((pre.length, it.level) :: above) (pre ++ [it]) := by
  refine ⟨List.pairwise_cons.2 ⟨fun a ha => h.lt ha, h.1⟩, fun j d => ?_⟩
  rw [List.mem_cons, h.2]
  constructor
  · rintro (e | ⟨q, hq, hr⟩)
    · obtain ⟨rfl, rfl⟩ : j = pre.length ∧ d = it.level := by simpa using e
      exact ⟨it, by simp, hc, rfl⟩
    · exact ⟨q, by rw [List.getElem?_append_left (List.getElem?_eq_some_iff.1 hq).1, hq], hr⟩
  · rintro ⟨q, hq, hr⟩
    by_cases hj : j < pre.length
    · rw [List.getElem?_append_left hj] at hq
      exact .inr ⟨q, hq, hr⟩
    · have : j = pre.length := by
        have := (List.getElem?_eq_some_iff.1 hq).1
        simp at this
        omega
      subst this
      simp at hq
      subst hq
      exact .inl (by rw [hr.2])

theorem Lists.skip {above : List (Nat × Nat)} {pre : List Item} (h : Lists above pre) {it : Item} (hc : it.content = []) :
    Lists above (pre ++ [it]) := by
  refine ⟨h.1, fun j d => ?_⟩
  rw [h.2]
  constructor
  · rintro ⟨q, hq, hr⟩
    exact ⟨q, by rw [List.getElem?_append_left (List.getElem?_eq_some_iff.1 hq).1, hq], hr⟩
  · rintro ⟨q, hq, hr⟩
    by_cases hj : j < pre.length
    · rw [List.getElem?_append_left hj] at hq
      exact ⟨q, hq, hr⟩
    · have : j = pre.length := by
        have := (List.getElem?_eq_some_iff.1 hq).1
        simp at this
        omega
      subst this
      simp at hq
      subst hq
      exact absurd hc hr.1

/-- The last line and its parent. -/
def LastIs (above : List (Nat × Nat)) (pre : List Item) : Prop :=
  ∀ q, pre.getLast? = some q → ∃ a, above.head? = some a ∧ q.level = a.2 ∧ q.parent = nearest above a.2

/-- What C40 says of item number `i`. -/
def ParentOk (all : List Item) (i : Nat) (it : Item) : Prop :=
  it.index = i ∧
  (i = 0 → it.level = 0) ∧
  (∀ q, 0 < i → all[i - 1]? = some q → it.level ≤ q.level + 1) ∧
  (it.level = 0 → it.parent = none) ∧
  (it.content ≠ [] → 0 < it.level → ∃ p q, it.parent = some p ∧ p < i ∧ all[p]? = some q ∧ q.content ≠ [] ∧
    q.level + 1 = it.level ∧ ∀ j r, p < j → j < i → all[j]? = some r → r.content ≠ [] → it.level ≤ r.level) ∧
  (it.content = [] → ∃ q, 0 < i ∧ all[i - 1]? = some q ∧ it.level = q.level ∧ it.parent = q.parent)

theorem nearest_zero (above : List (Nat × Nat)) : nearest above 0 = none := by
  have : above.find? (fun a => decide (a.2 < 0)) = none := List.find?_eq_none.2 (by simp)
  simp only [nearest, this, Option.map_none]

theorem good_parent : ∀ (its pre : List Item) (above : List (Nat × Nat)), Good above pre.length its → Steps above →
    Lists above pre → LastIs above pre → (pre = [] → above = []) →
    ∀ i it, pre.length ≤ i → (pre ++ its)[i]? = some it → ParentOk (pre ++ its) i it := by
  intro its
  induction its with
  | nil =>
    intro pre above _ _ _ _ _ i it hi h
    rw [List.append_nil, List.getElem?_eq_none hi] at h
    exact absurd h (by simp)
  | cons x its ih =>
    intro pre above hg hst hli hla hemp i it hi h
    have eapp : pre ++ x :: its = (pre ++ [x]) ++ its := by simp
    obtain ⟨hx, hg⟩ := hg
    by_cases hi' : i = pre.length
    · subst hi'
      have hgetx : (pre ++ x :: its)[pre.length]? = some x := by simp
      rw [hgetx] at h
      obtain rfl : x = it := by simpa using h
      have hprev : ∀ q, 0 < pre.length → (pre ++ x :: its)[pre.length - 1]? = some q → pre.getLast? = some q := by
        intro q h0 hq
        rw [List.getElem?_append_left (by omega)] at hq
        rw [List.getLast?_eq_getElem?, hq]
      have hlast : 0 < pre.length → ∃ q, (pre ++ x :: its)[pre.length - 1]? = some q := by
        intro h0
        exact ⟨pre[pre.length - 1], by rw [List.getElem?_append_left (by omega), List.getElem?_eq_getElem]⟩
      have hfit : Fits above x.level ∧ x.parent = nearest above x.level := by
        rcases hg with ⟨_, hf, hpar, _⟩ | ⟨_, ⟨a, ha, hl⟩, hpar, _⟩
        · exact ⟨hf, hpar⟩
        · refine ⟨?_, hpar⟩
          cases above with
          | nil => exact absurd ha (by simp)
          | cons b bs =>
            obtain rfl : b = a := by simpa using ha
            show x.level ≤ b.2 + 1
            omega
      refine ⟨hx, ?_, ?_, ?_, ?_, ?_⟩
      · intro h0
        have : above = [] := hemp (List.length_eq_zero_iff.1 h0)
        subst this
        exact hfit.1
      · intro q h0 hq
        obtain ⟨a, ha, hl, _⟩ := hla q (hprev q h0 hq)
        cases above with
        | nil => exact absurd ha (by simp)
        | cons b bs =>
          obtain rfl : b = a := by simpa using ha
          rw [hl]
          exact hfit.1
      · intro h0
        rw [hfit.2, h0, nearest_zero]
      · intro _ hpos
        obtain ⟨d, hd⟩ : ∃ d, x.level = d + 1 := ⟨x.level - 1, by omega⟩
        obtain ⟨j, as, bs, e, has⟩ := hst.find (hd ▸ hfit.1)
        obtain ⟨q, hq, hqc, hql⟩ := (hli.2 j d).1 (by rw [e]; simp)
        have hjlt := (List.getElem?_eq_some_iff.1 hq).1
        refine ⟨j, q, ?_, hjlt, by rw [List.getElem?_append_left hjlt, hq], hqc, by rw [hql, hd], ?_⟩
        · rw [hfit.2, hd]
          have : above.find? (fun a => decide (a.2 < d + 1)) = some (j, d) := by
            rw [e, List.find?_append, List.find?_eq_none.2 (by
              intro a ha
              have := has a ha
              simp; omega)]
            simp
          simp only [nearest, this, Option.map_some]
        · intro k r hjk hk hr hrc
          rw [List.getElem?_append_left hk] at hr
          have hm : (k, r.level) ∈ above := (hli.2 k r.level).2 ⟨r, hr, hrc, rfl⟩
          have hpw := hli.1
          rw [e] at hm hpw
          rcases List.mem_append.1 hm with hm | hm
          · rw [hd]; exact has _ hm
          · rcases List.mem_cons.1 hm with hm | hm
            · have : k = j := by simpa using (Prod.mk.inj hm).1
              omega
            · have := (List.pairwise_cons.1 (List.pairwise_append.1 hpw).2.1).1 _ hm
              simp at this
              omega
      · intro hc
        rcases hg with ⟨hc', _⟩ | ⟨_, ⟨a, ha, hl⟩, hpar, _⟩
        · exact absurd hc hc'
        · have h0 : 0 < pre.length := by
            rcases Nat.eq_zero_or_pos pre.length with h0 | h0
            · rw [hemp (List.length_eq_zero_iff.1 h0)] at ha
              exact absurd ha (by simp)
            · exact h0
          obtain ⟨q, hq⟩ := hlast h0
          obtain ⟨b, hb, hbl, hbp⟩ := hla q (hprev q h0 hq)
          obtain rfl : a = b := by rw [ha] at hb; simpa using hb
          exact ⟨q, h0, hq, by rw [hl, hbl], by rw [hpar, hbp, hl]⟩
    · rw [eapp] at h ⊢
      rcases hg with ⟨hc, hf, hpar, hg⟩ | ⟨hc, ⟨a, ha, hl⟩, hpar, hg⟩
      · refine ih (pre ++ [x]) ((pre.length, x.level) :: above) (by simpa using hg) ⟨hf, hst⟩ (hli.push hc) ?_
          (by simp) i it (by simp; omega) h
        intro q hq
        obtain rfl : x = q := by simpa using hq
        refine ⟨_, rfl, rfl, ?_⟩
        rw [hpar]
        show nearest above x.level = nearest ((pre.length, x.level) :: above) x.level
        unfold nearest
        rw [List.find?_cons_of_neg (by simp)]
      · refine ih (pre ++ [x]) above (by simpa using hg) hst (hli.skip hc) ?_ (by simp) i it (by simp; omega) h
        intro q hq
        obtain rfl : x = q := by simpa using hq
        exact ⟨a, ha, hl, by rw [hpar, hl]⟩

end Verif
