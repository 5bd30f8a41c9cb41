import Verif.Spec.Outline
import Verif.Lemmas.Dfs
/-!
# An outline whose lines are in the order of a text
-/
namespace Verif
namespace Outline

mutual
theorem depths_nodes (k : Nat) : ∀ t : Outline, (depths k t).map Prod.snd = (occ t).map Prod.fst
  | mk n s below => by rw [depths, occ, List.map_cons, List.map_cons, depthsAll_nodes (k + 1) below]
theorem depthsAll_nodes (k : Nat) : ∀ ts : List Outline, (depthsAll k ts).map Prod.snd = (occAll ts).map Prod.fst
  | [] => rfl
  | t :: ts => by rw [depthsAll, occAll, List.map_append, List.map_append, depths_nodes k t, depthsAll_nodes k ts]
end

mutual
theorem depths_ge (k : Nat) : ∀ t : Outline, ∀ p ∈ depths k t, k ≤ p.1
  | mk n s below => by
    intro p hp
    rw [depths] at hp
    rcases List.mem_cons.1 hp with rfl | hp
    · exact Nat.le_refl _
    · have := depthsAll_ge (k + 1) below p hp; omega
theorem depthsAll_ge (k : Nat) : ∀ ts : List Outline, ∀ p ∈ depthsAll k ts, k ≤ p.1
  | [] => by intro p hp; rw [depthsAll] at hp; cases hp
  | t :: ts => by
    intro p hp
    rw [depthsAll] at hp
    rcases List.mem_append.1 hp with hp | hp
    · exact depths_ge k t p hp
    · exact depthsAll_ge k ts p hp
end

theorem depths_head (k : Nat) (t : Outline) : ∃ l, depths k t = (k, t.top) :: l := by
  cases t; exact ⟨_, by rw [depths, top]⟩

theorem depthsAll_head {k : Nat} {ts : List Outline} {x : Nat × Nat} {l : List (Nat × Nat)} (e : depthsAll k ts = x :: l) :
    x.1 = k ∧ x.2 ∈ ts.map top := by
  cases ts with
  | nil => rw [depthsAll] at e; cases e
  | cons t ts =>
    obtain ⟨l', e'⟩ := depths_head k t
    rw [depthsAll, e'] at e
    cases e
    exact ⟨rfl, by simp⟩

mutual
/-- What comes right after a node and deeper is one of those directly below it. -/
theorem depths_next (k : Nat) : ∀ (t : Outline) (xs ys : List (Nat × Nat)) (a b n m : Nat),
    depths k t = xs ++ (a, n) :: (b, m) :: ys → a < b → ∃ s below, (n, s, below) ∈ occ t ∧ m ∈ below
  | mk x s below, xs, ys, a, b, n, m, e, hab => by
    rw [depths] at e
    rw [occ]
    cases xs with
    | nil =>
      obtain ⟨e1, e2⟩ := List.cons.inj e
      cases e1
      exact ⟨s, _, List.mem_cons_self, (depthsAll_head e2).2⟩
    | cons x' xs =>
      obtain ⟨s', b', h1, h2⟩ := depthsAll_next (k + 1) below xs ys a b n m (List.cons.inj e).2 hab
      exact ⟨s', b', List.mem_cons_of_mem _ h1, h2⟩
theorem depthsAll_next (k : Nat) : ∀ (ts : List Outline) (xs ys : List (Nat × Nat)) (a b n m : Nat),
    depthsAll k ts = xs ++ (a, n) :: (b, m) :: ys → a < b → ∃ s below, (n, s, below) ∈ occAll ts ∧ m ∈ below
  | [], xs, ys, a, b, n, m, e, _ => by rw [depthsAll] at e; simp at e
  | t :: ts, xs, ys, a, b, n, m, e, hab => by
    rw [depthsAll] at e
    rw [occAll]
    rcases List.append_eq_append_iff.1 e with ⟨zs, e1, e2⟩ | ⟨zs, e1, e2⟩
    · obtain ⟨s', b', h1, h2⟩ := depthsAll_next k ts zs ys a b n m e2 hab
      exact ⟨s', b', List.mem_append_right _ h1, h2⟩
    · cases zs with
      | nil =>
        obtain ⟨s', b', h1, h2⟩ := depthsAll_next k ts [] ys a b n m (by simpa using e2.symm) hab
        exact ⟨s', b', List.mem_append_right _ h1, h2⟩
      | cons z zs =>
        obtain ⟨e3, e4⟩ := List.cons.inj e2
        subst e3
        cases zs with
        | nil =>
          have h1 := (depthsAll_head (show depthsAll k ts = (b, m) :: ys by simpa using e4.symm)).1
          have h2 := depths_ge k t (a, n) (by rw [e1]; simp)
          simp only at h1 h2
          omega
        | cons z zs =>
          obtain ⟨e5, -⟩ := List.cons.inj e4
          subst e5
          obtain ⟨s', b', h1, h2⟩ := depths_next k t xs zs a b n m e1 hab
          exact ⟨s', b', List.mem_append_left _ h1, h2⟩
end

mutual
/-- What holds at the top and is handed down by one level holds everywhere. -/
theorem depths_all {P : Nat → Nat → Prop} : ∀ (k : Nat) (t : Outline), P k t.top →
    (∀ n s below, (n, s, below) ∈ occ t → ∀ k, P k n → ∀ c ∈ below, P (k + 1) c) → ∀ p ∈ depths k t, P p.1 p.2
  | k, mk n s below, h0, hs => by
    intro p hp
    rw [depths] at hp
    rw [top] at h0
    rcases List.mem_cons.1 hp with rfl | hp
    · exact h0
    · exact depthsAll_all (k + 1) below (hs n s _ (by rw [occ]; simp) k h0)
        (fun n' s' b' hm => hs n' s' b' (by rw [occ]; exact List.mem_cons_of_mem _ hm)) p hp
theorem depthsAll_all {P : Nat → Nat → Prop} : ∀ (k : Nat) (ts : List Outline), (∀ x ∈ ts.map top, P k x) →
    (∀ n s below, (n, s, below) ∈ occAll ts → ∀ k, P k n → ∀ c ∈ below, P (k + 1) c) → ∀ p ∈ depthsAll k ts, P p.1 p.2
  | k, [], _, _ => by intro p hp; rw [depthsAll] at hp; cases hp
  | k, t :: ts, h0, hs => by
    intro p hp
    rw [depthsAll] at hp
    rcases List.mem_append.1 hp with hp | hp
    · exact depths_all k t (h0 _ (by simp)) (fun n' s' b' hm => hs n' s' b' (by rw [occAll]; exact List.mem_append_left _ hm)) p hp
    · exact depthsAll_all k ts (fun x hx => h0 x (by simp only [List.map_cons, List.mem_cons]; exact .inr hx))
        (fun n' s' b' hm => hs n' s' b' (by rw [occAll]; exact List.mem_append_right _ hm)) p hp
end

/-- Every line of a text but the first-level ones hangs below the nearest line above that is less indented. -/
structure Hangs (N : Nat) (lev : Nat → Nat) (par : Nat → Option Nat) : Prop where
  first : ∀ i < N, lev i = 0 → par i = none
  parent : ∀ i < N, 0 < lev i → ∃ p, par i = some p ∧ p < i ∧ lev p + 1 = lev i ∧ ∀ j, p < j → j < i → lev i ≤ lev j
  start : 0 < N → lev 0 = 0
  step : ∀ i, i + 1 < N → lev (i + 1) ≤ lev i + 1

/-- Where the part below line `a` ends. -/
theorem exists_end (N : Nat) (lev : Nat → Nat) (a : Nat) (ha : a < N) :
    ∃ c, a + 1 ≤ c ∧ c ≤ N ∧ (∀ j, a < j → j < c → lev a < lev j) ∧ (c = N ∨ lev c ≤ lev a) := by
  suffices key : ∀ k c, a + 1 ≤ c → c + k = N → (∀ j, a < j → j < c → lev a < lev j) →
      ∃ c, a + 1 ≤ c ∧ c ≤ N ∧ (∀ j, a < j → j < c → lev a < lev j) ∧ (c = N ∨ lev c ≤ lev a) from
    key (N - (a + 1)) (a + 1) (Nat.le_refl _) (by omega) (by intro j h1 h2; omega)
  intro k
  induction k with
  | zero => intro c h1 h2 h3; exact ⟨c, h1, by omega, h3, .inl (by omega)⟩
  | succ k ih =>
    intro c h1 h2 h3
    by_cases hc : lev c ≤ lev a
    · exact ⟨c, h1, by omega, h3, .inr hc⟩
    · refine ih (c + 1) (by omega) (by omega) fun j a1 a2 => ?_
      by_cases e : j = c
      · subst e; omega
      · exact h3 j a1 (by omega)

theorem range_filter_sub {N a c : Nat} (h1 : a ≤ c) (h2 : c ≤ N) (p : Nat → Bool) (hp : ∀ i, i < N → p i = true → a ≤ i ∧ i < c) :
    (List.range N).filter p = (List.range' a (c - a)).filter p := by
  have e : List.range N = List.range' 0 a ++ List.range' a (c - a) ++ List.range' c (N - c) := by
    rw [List.range_eq_range']
    have := @List.range'_append_1 0 a (c - a)
    rw [Nat.zero_add] at this
    rw [this]
    have := @List.range'_append_1 0 (a + (c - a)) (N - c)
    rw [show 0 + (a + (c - a)) = c by omega] at this
    rw [this]
    congr 1
    omega
  have l : (List.range' 0 a).filter p = [] := by
    rw [List.filter_eq_nil_iff]
    intro i hi hpi
    rw [List.mem_range'_1] at hi
    have := hp i (by omega) hpi
    omega
  have u : (List.range' c (N - c)).filter p = [] := by
    rw [List.filter_eq_nil_iff]
    intro i hi hpi
    rw [List.mem_range'_1] at hi
    have := hp i (by omega) hpi
    omega
  rw [e, List.filter_append, List.filter_append, l, u, List.nil_append, List.append_nil]

variable {N : Nat} {lev : Nat → Nat} {par : Nat → Option Nat}

theorem Hangs.kids (H : Hangs N lev par) {a c : Nat} (ha : a < N) (h1 : a + 1 ≤ c) (h2 : c ≤ N) (h3 : ∀ j, a < j → j < c → lev a < lev j)
    (h4 : c = N ∨ lev c ≤ lev a) :
    (List.range N).filter (fun i => decide (par i = some a)) =
      (List.range' (a + 1) (c - (a + 1))).filter fun i => decide (lev i = lev a + 1) := by
  rw [range_filter_sub h1 h2]
  · refine List.filter_congr fun i hi => ?_
    rw [List.mem_range'_1] at hi
    rw [decide_eq_decide]
    have hl := h3 i (by omega) (by omega)
    obtain ⟨p, e, p1, p2, p3⟩ := H.parent i (by omega) (by omega)
    rw [e]
    constructor
    · intro q
      cases q
      exact p2.symm
    · intro q
      have : p = a := by
        rcases Nat.lt_trichotomy p a with c1 | c1 | c1
        · have := p3 a c1 (by omega); omega
        · exact c1
        · have := h3 p c1 (by omega); omega
      rw [this]
  · intro i hi hp
    have hp : par i = some a := by simpa using hp
    have : 0 < lev i := by
      rcases Nat.eq_zero_or_pos (lev i) with c1 | c1
      · rw [H.first i hi c1] at hp; cases hp
      · exact c1
    obtain ⟨p, e, p1, p2, p3⟩ := H.parent i hi this
    rw [hp] at e
    cases e
    refine ⟨by omega, ?_⟩
    refine Classical.byContradiction fun hc => ?_
    rcases h4 with rfl | h4
    · omega
    · by_cases q : i = c
      · subst q; omega
      · have := p3 c (by omega) (by omega); omega

/-- The part of an outline that shows the lines from `a` to before `b`. -/
theorem Hangs.block (H : Hangs N lev par) (ν : Nat → Nat) (len : Nat) :
    ∀ (a b d : Nat) (ts : List Outline), b - a ≤ len → a ≤ b → b ≤ N → (∀ j, a ≤ j → j < b → d ≤ lev j) → (a < b → lev a = d) →
      (b = N ∨ lev b < d) →
      ts.map top = ((List.range' a (b - a)).filter fun i => decide (lev i = d)).map ν →
      (∀ v s below, (v, s, below) ∈ occAll ts → ∀ i < N, v = ν i → below = ((List.range N).filter fun j => decide (par j = some i)).map ν) →
      depthsAll (d + 1) ts = (List.range' a (b - a)).map fun i => (lev i + 1, ν i) := by
  induction len with
  | zero =>
    intro a b d ts hl hab hb _ _ _ ht _
    have : b - a = 0 := by omega
    rw [this] at ht ⊢
    simp only [List.range'_zero, List.filter_nil, List.map_nil, List.map_eq_nil_iff] at ht ⊢
    rw [ht, depthsAll]
  | succ len ih =>
    intro a b d ts hl hab hb hd hh he ht hk
    by_cases hlt : a = b
    · subst hlt
      simp only [Nat.sub_self, List.range'_zero, List.filter_nil, List.map_nil, List.map_eq_nil_iff] at ht ⊢
      rw [ht, depthsAll]
    have hlt : a < b := by omega
    have ha := hh hlt
    obtain ⟨c, c1, c2, c3, c4⟩ := exists_end N lev a (by omega)
    have cb : c ≤ b := by
      refine Classical.byContradiction fun hc => ?_
      rcases he with rfl | he
      · omega
      · have := c3 b hlt (by omega); omega
    have split1 : List.range' a (b - a) = a :: (List.range' (a + 1) (c - (a + 1)) ++ List.range' c (b - c)) := by
      have e : b - a = (c - (a + 1) + (b - c)) + 1 := by omega
      rw [e, List.range'_succ]
      have := @List.range'_append_1 (a + 1) (c - (a + 1)) (b - c)
      rw [show a + 1 + (c - (a + 1)) = c by omega] at this
      rw [this]
    have drop : (List.range' (a + 1) (c - (a + 1))).filter (fun i => decide (lev i = d)) = [] := by
      rw [List.filter_eq_nil_iff]
      intro i hi hq
      rw [List.mem_range'_1] at hi
      have := c3 i (by omega) (by omega)
      simp at hq
      omega
    rw [split1, List.filter_cons_of_pos (by simpa using ha), List.filter_append, drop, List.nil_append, List.map_cons] at ht
    cases ts with
    | nil => cases ht
    | cons t ts =>
      obtain ⟨n, s, below⟩ := t
      rw [List.map_cons, top] at ht
      obtain ⟨e0, ht'⟩ := List.cons.inj ht
      subst e0
      rw [depthsAll, depths, split1, List.map_cons, List.map_append, ha]
      have kb := hk (ν a) s (below.map top) (by rw [occAll, occ]; simp) a (by omega) rfl
      rw [H.kids (by omega) c1 c2 c3 c4, ha] at kb
      rw [ih (a + 1) c (d + 1) below (by omega) c1 c2 ?_ ?_ ?_ kb ?_, ih c b d ts (by omega) cb hb ?_ ?_ he ht' ?_]
      · rfl
      · intro j j1 j2; exact hd j (by omega) j2
      · intro q
        have := hd c (by omega) q
        rcases c4 with c4 | c4 <;> omega
      · intro v s' below' hm
        exact hk v s' below' (by rw [occAll]; exact List.mem_append_right _ hm)
      · intro j j1 j2; have := c3 j (by omega) j2; omega
      · intro q
        have h1 := H.step a (by omega)
        have h2 := c3 (a + 1) (by omega) q
        omega
      · rcases c4 with c4 | c4
        · exact .inl c4
        · exact .inr (by omega)
      · intro v s' below' hm
        exact hk v s' below' (by rw [occAll, occ]; exact List.mem_append_left _ (List.mem_cons_of_mem _ hm))

/-- The lines of an outline that shows a whole text. -/
theorem Hangs.all (H : Hangs N lev par) (ν : Nat → Nat) {ts : List Outline}
    (ht : ts.map top = ((List.range N).filter fun j => decide (par j = none)).map ν)
    (hk : ∀ v s below, (v, s, below) ∈ occAll ts → ∀ i < N, v = ν i → below = ((List.range N).filter fun j => decide (par j = some i)).map ν) :
    depthsAll 1 ts = (List.range N).map fun i => (lev i + 1, ν i) := by
  have := H.block ν N 0 N 0 ts (by omega) (by omega) (Nat.le_refl _) (by intros; omega) H.start (.inl rfl) ?_ hk
  · rw [this, List.range_eq_range', Nat.sub_zero]
  · rw [ht, List.range_eq_range', Nat.sub_zero]
    congr 1
    refine List.filter_congr fun i hi => ?_
    rw [List.mem_range'_1] at hi
    rw [decide_eq_decide]
    constructor
    · intro e
      refine Classical.byContradiction fun hc => ?_
      obtain ⟨p, q, -⟩ := H.parent i (by omega) (by omega)
      rw [e] at q
      cases q
    · exact H.first i (by omega)

mutual
/-- An outline without marks in which no node occurs twice lists the nodes as a depth-first search enters them. -/
theorem pre_of_occ {next : Nat → List Nat} : ∀ (t : Outline) (V : List Nat), (∀ v s below, (v, s, below) ∈ occ t → below = next v) →
    (V ++ (occ t).map Prod.fst).Nodup → ∀ {xs rest : List Nat}, Pre next (V ++ (occ t).map Prod.fst) xs rest →
    Pre next V (top t :: xs) ((occ t).map Prod.fst ++ rest)
  | mk n s below, V, hk, nd, xs, rest, hr => by
    rw [occ, List.map_cons] at nd hr ⊢
    rw [top]
    have hb := hk n s (below.map top) (by rw [occ]; simp)
    refine .visit ?_ ?_ hr
    · intro hc
      exact (List.nodup_append.1 nd).2.2 n hc n (by simp) rfl
    · rw [← hb]
      exact pre_of_occAll below (V ++ [n]) (fun v s b hm => hk v s b (by rw [occ]; exact List.mem_cons_of_mem _ hm)) (by simpa using nd)
theorem pre_of_occAll {next : Nat → List Nat} : ∀ (ts : List Outline) (V : List Nat), (∀ v s below, (v, s, below) ∈ occAll ts → below = next v) →
    (V ++ (occAll ts).map Prod.fst).Nodup → Pre next V (ts.map top) ((occAll ts).map Prod.fst)
  | [], V, _, _ => .nil V
  | t :: ts, V, hk, nd => by
    rw [occAll, List.map_append] at nd ⊢
    rw [List.map_cons]
    rw [← List.append_assoc] at nd
    exact pre_of_occ t V (fun v s b hm => hk v s b (by rw [occAll]; exact List.mem_append_left _ hm))
      (nd.sublist (List.sublist_append_left _ _))
      (pre_of_occAll ts _ (fun v s b hm => hk v s b (by rw [occAll]; exact List.mem_append_right _ hm)) nd)
end

end Outline
end Verif
