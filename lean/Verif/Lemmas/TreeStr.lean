import Verif.Spec.Outline
import Verif.Props.Siblings
/-!
# The tree string
-/
namespace Verif
open Outline

theorem occAll_append (a b : List Outline) : occAll (a ++ b) = occAll a ++ occAll b := by
  induction a with
  | nil => simp [occAll]
  | cons t a ih => simp [occAll, ih]

/-- Total number of children of the nodes in `a`. -/
def weight (kids : Nat → List Nat) (U a : List Nat) : Nat := ((U.filter (fun m => decide (m ∈ a))).map (fun m => (kids m).length)).sum

/-- The unmarked occurrences of `m`. -/
def plain (m : Nat) (F : List Outline) : Nat := (occAll F).countP (fun o => decide (o.1 = m ∧ o.2.1 = false))

/-- Drawing the forest `F` took the list of expanded nodes from `a` to `a'`. -/
structure Grow (kids : Nat → List Nat) (U : List Nat) (F : List Outline) (a a' : List Nat) : Prop where
  sub : ∀ m ∈ a, m ∈ a'
  subU : ∀ m ∈ a', m ∈ U
  ok : ∀ o ∈ occAll F, o.1 ∈ U ∧ (o.2.1 = false → o.2.2 = kids o.1) ∧ (o.2.1 = true → o.2.2 = [] ∧ kids o.1 ≠ [])
  cnt : ∀ m ∈ U, kids m ≠ [] → plain m F + (if m ∈ a then 1 else 0) = if m ∈ a' then 1 else 0
  seen : ∀ o ∈ occAll F, kids o.1 ≠ [] → o.1 ∈ a'
  len : (occAll F).length + weight kids U a = F.length + weight kids U a'

variable {kids : Nat → List Nat} {U : List Nat}

theorem weight_congr {a b : List Nat} (h : ∀ m, m ∈ a ↔ m ∈ b) : weight kids U a = weight kids U b := by
  unfold weight
  congr 2
  exact List.filter_congr fun m _ => by simp [h m]

theorem weight_add {a : List Nat} {n : Nat} (hU : U.Nodup) (hn : n ∈ U) (ha : n ∉ a) :
    weight kids U (a ++ [n]) = weight kids U a + (kids n).length := by
  unfold weight
  induction U with
  | nil => cases hn
  | cons u U ih =>
    rw [List.nodup_cons] at hU
    by_cases hun : u = n
    · subst hun
      have e : U.filter (fun m => decide (m ∈ a ++ [u])) = U.filter (fun m => decide (m ∈ a)) := by
        refine List.filter_congr fun m hm => ?_
        have : m ≠ u := by rintro rfl; exact hU.1 hm
        simp [this]
      rw [List.filter_cons_of_pos (by simp), List.filter_cons_of_neg (by simpa using ha), e]
      simp only [List.map_cons, List.sum_cons]
      omega
    · have hn' : n ∈ U := by
        rcases List.mem_cons.1 hn with h | h
        · exact absurd h.symm hun
        · exact h
      have := ih hU.2 hn'
      by_cases hua : u ∈ a
      · rw [List.filter_cons_of_pos (by simp [hua]), List.filter_cons_of_pos (by simp [hua])]
        simp only [List.map_cons, List.sum_cons, this]
        omega
      · rw [List.filter_cons_of_neg (by simp [hua, hun]), List.filter_cons_of_neg (by simpa using hua)]
        exact this

namespace Grow

theorem congr {F : List Outline} {a b a' b' : List Nat} (G : Grow kids U F a b) (h : ∀ m, m ∈ a ↔ m ∈ a') (h' : ∀ m, m ∈ b ↔ m ∈ b') :
    Grow kids U F a' b' where
  sub m hm := (h' m).1 (G.sub m ((h m).2 hm))
  subU m hm := G.subU m ((h' m).2 hm)
  ok := G.ok
  cnt m hm hk := by have := G.cnt m hm hk; simpa only [h, h'] using this
  seen o ho hk := (h' _).1 (G.seen o ho hk)
  len := by rw [← weight_congr h, ← weight_congr h']; exact G.len

theorem refl {a : List Nat} (ha : ∀ m ∈ a, m ∈ U) : Grow kids U [] a a where
  sub _ h := h
  subU := ha
  ok := by simp [occAll]
  cnt := by simp [plain, occAll]
  seen := by simp [occAll]
  len := by simp [occAll]

theorem trans {F F' : List Outline} {a b c : List Nat} (G : Grow kids U F a b) (G' : Grow kids U F' b c) : Grow kids U (F ++ F') a c where
  sub m hm := G'.sub m (G.sub m hm)
  subU := G'.subU
  ok o ho := by
    rw [occAll_append] at ho
    rcases List.mem_append.1 ho with ho | ho
    · exact G.ok o ho
    · exact G'.ok o ho
  cnt m hm hk := by
    have h1 := G.cnt m hm hk
    have h2 := G'.cnt m hm hk
    unfold plain at h1 h2 ⊢
    rw [occAll_append, List.countP_append]
    omega
  seen o ho hk := by
    rw [occAll_append] at ho
    rcases List.mem_append.1 ho with ho | ho
    · exact G'.sub _ (G.seen o ho hk)
    · exact G'.seen o ho hk
  len := by
    have h1 := G.len
    have h2 := G'.len
    rw [occAll_append, List.length_append, List.length_append]
    omega

theorem star {n : Nat} {a : List Nat} (ha : ∀ m ∈ a, m ∈ U ∧ kids m ≠ []) (hn : n ∈ a) : Grow kids U [Outline.mk n true []] a a where
  sub _ h := h
  subU m hm := (ha m hm).1
  ok := by
    intro o ho
    simp only [occAll, occ, List.map_nil, List.append_nil, List.mem_singleton] at ho
    subst ho
    exact ⟨(ha n hn).1, by simp, fun _ => ⟨rfl, (ha n hn).2⟩⟩
  cnt := by simp [plain, occAll, occ]
  seen := by
    intro o ho _
    simp only [occAll, occ, List.map_nil, List.append_nil, List.mem_singleton] at ho
    subst ho; exact hn
  len := by simp [occAll, occ]

theorem leaf {n : Nat} {a : List Nat} (ha : ∀ m ∈ a, m ∈ U) (hn : n ∈ U) (hk : kids n = []) : Grow kids U [Outline.mk n false []] a a where
  sub _ h := h
  subU := ha
  ok := by
    intro o ho
    simp only [occAll, occ, List.map_nil, List.append_nil, List.mem_singleton] at ho
    subst ho
    exact ⟨hn, fun _ => hk.symm, by simp⟩
  cnt m hm hkm := by
    have : n ≠ m := by rintro rfl; exact hkm hk
    simp [plain, occAll, occ, this]
  seen := by
    intro o ho hko
    simp only [occAll, occ, List.map_nil, List.append_nil, List.mem_singleton] at ho
    subst ho; exact absurd hk hko
  len := by simp [occAll, occ]

theorem expand {n : Nat} {F : List Outline} {a a' : List Nat} (hU : U.Nodup) (hn : n ∈ U) (hna : n ∉ a)
    (hF : F.map top = kids n) (G : Grow kids U F (a ++ [n]) a') : Grow kids U [Outline.mk n false F] a a' where
  sub m hm := G.sub m (by simp [hm])
  subU := G.subU
  ok := by
    intro o ho
    simp only [occAll, occ, List.append_nil, List.mem_cons] at ho
    rcases ho with rfl | ho
    · exact ⟨hn, fun _ => hF, by simp⟩
    · exact G.ok o ho
  cnt m hm hkm := by
    have := G.cnt m hm hkm
    unfold plain at this ⊢
    simp only [occAll, occ, List.append_nil, List.countP_cons]
    by_cases hnm : n = m
    · subst hnm
      simp [hna] at this ⊢
      omega
    · have e : m ∈ a ++ [n] ↔ m ∈ a := by simp [Ne.symm hnm]
      simp only [e] at this
      simp only [hnm, false_and, decide_false, Bool.false_eq_true, if_false, Nat.add_zero]
      exact this
  seen := by
    intro o ho hk
    simp only [occAll, occ, List.append_nil, List.mem_cons] at ho
    rcases ho with rfl | ho
    · exact G.sub n (by simp)
    · exact G.seen o ho hk
  len := by
    have h1 := G.len
    have h2 := weight_add (kids := kids) hU hn hna
    have h3 : F.length = (kids n).length := by rw [← hF, List.length_map]
    simp only [occAll, occ, List.append_nil, List.length_cons, List.length_nil]
    omega

end Grow

theorem treeStrRec_ok {h : Heap} (r : Reachable h) {g : GRef} (hown : ∀ n ∈ graphNodes h g, (h.node n).graph = some g)
    (fuel : Nat) {n : NRef} {ind : String} {added : List NRef} (hn : n ∈ graphNodes h g)
    (ha : ∀ m ∈ added, m ∈ graphNodes h g ∧ Verif.kids h m ≠ [])
    (hf : ((graphNodes h g).filter (fun y => decide (y ∉ added))).length < fuel) :
    ∃ T a', treeStrRec h fuel n ind added = .ok (T.draw (nodeLabel h) ind, a') ∧ T.top = n ∧
      Grow (Verif.kids h) (graphNodes h g) [T] added a' ∧ ∀ m ∈ a', m ∈ graphNodes h g ∧ Verif.kids h m ≠ [] := by
  induction fuel generalizing n ind added with
  | zero => exact absurd hf (by simp)
  | succ fuel ih =>
    unfold treeStrRec
    rw [memNode_eq r hn (fun y hy => (ha y hy).1)]
    by_cases hna : n ∈ added
    · simp only [inList, hna, decide_true, if_true]
      exact ⟨Outline.mk n true [], added, by simp [draw, drawAll, String.append_assoc], rfl, Grow.star ha hna, ha⟩
    · simp only [inList, hna, decide_false, Bool.false_eq_true, if_false]
      have hch : nodeChildren h n = .ok (Verif.kids h n) := by
        simp only [nodeChildren, nodeGraph, hown n hn, bind, Except.bind]
        exact getChildren_eq r (getNode_self r hn)
      have hmeas := filter_notin_length hn hna
      rw [hch]
      have loop : ∀ (todo : List NRef) (str : String) (add : List NRef) (idx : Nat), (∀ c ∈ todo, c ∈ Verif.kids h n) →
          idx + todo.length = (Verif.kids h n).length → (∀ m ∈ added, m ∈ add) →
          (∀ m ∈ add, m ∈ graphNodes h g ∧ Verif.kids h m ≠ []) →
          ∃ F a' i, todo.foldlM (m := Except PyErr) (fun (s : String × List NRef × Nat) child => do
              let last := s.2.2 + 1 = (Verif.kids h n).length
              let sub ← treeStrRec h fuel child (ind ++ if last then "  " else "│ ") (s.2.1 ++ [n])
              .ok (s.1 ++ ind ++ (if last then "└" else "├") ++ " " ++ sub.1, sub.2, s.2.2 + 1)) (str, add, idx) =
              .ok (str ++ drawAll (nodeLabel h) ind F, a', i) ∧ F.map top = todo ∧
            Grow (Verif.kids h) (graphNodes h g) F (add ++ [n]) (a' ++ [n]) ∧ (todo ≠ [] → n ∈ a') ∧
            (todo = [] → a' = add) ∧ (∀ m ∈ add, m ∈ a') ∧ (∀ m ∈ a', m ∈ graphNodes h g ∧ Verif.kids h m ≠ []) := by
        intro todo
        induction todo with
        | nil =>
          intro str add idx _ _ _ hadd
          refine ⟨[], add, idx, by simp [drawAll, pure, Except.pure], rfl, Grow.refl ?_, by simp, by simp, fun _ h => h, hadd⟩
          intro m hm
          rcases List.mem_append.1 hm with hm | hm
          · exact (hadd m hm).1
          · rw [List.mem_singleton.1 hm]; exact hn
        | cons c todo ihl =>
          intro str add idx hc hidx hsub hadd
          have hck := hc c (by simp)
          have hkn : Verif.kids h n ≠ [] := List.ne_nil_of_mem hck
          have hadd' : ∀ m ∈ add ++ [n], m ∈ graphNodes h g ∧ Verif.kids h m ≠ [] := by
            intro m hm
            rcases List.mem_append.1 hm with hm | hm
            · exact hadd m hm
            · rw [List.mem_singleton.1 hm]; exact ⟨hn, hkn⟩
          have hfl : ((graphNodes h g).filter (fun y => decide (y ∉ add ++ [n]))).length < fuel := by
            have := filter_notin_mono (U := graphNodes h g) (V := added ++ [n]) (W := add ++ [n]) (by
              intro y hy
              rcases List.mem_append.1 hy with hy | hy
              · simp [hsub y hy]
              · rw [List.mem_singleton.1 hy]; simp)
            omega
          obtain ⟨T, a1, e1, t1, G1, k1⟩ := ih (n := c) (ind := ind ++ if idx + 1 = (Verif.kids h n).length then "  " else "│ ")
            (kids_closed r n hn c hck) hadd' hfl
          obtain ⟨F, a', i, e2, t2, G2, s2, z2, m2, k2⟩ := ihl (str ++ ind ++ (if idx + 1 = (Verif.kids h n).length then "└" else "├") ++ " " ++
              T.draw (nodeLabel h) (ind ++ if idx + 1 = (Verif.kids h n).length then "  " else "│ ")) a1 (idx + 1)
            (fun y hy => hc y (by simp [hy])) (by simp only [List.length_cons] at hidx; omega)
            (fun m hm => G1.sub m (by simp [hsub m hm])) k1
          have hn1 : n ∈ a1 := G1.sub n (by simp)
          refine ⟨T :: F, a', i, ?_, by simp [t1, t2], ?_, fun _ => m2 n hn1, by simp, fun m hm => m2 m (G1.sub m (by simp [hm])), k2⟩
          · rw [List.foldlM_cons]
            simp only [e1]
            refine Eq.trans e2 ?_
            congr 2
            cases todo with
            | nil =>
              have hl : idx + 1 = (Verif.kids h n).length := by simpa using hidx
              obtain rfl : F = [] := by simpa using t2
              have hs : "└" ++ " " = "└ " := rfl
              simp only [hl, if_true, drawAll, String.append_empty]
              simp only [String.append_assoc, ← hs]
            | cons c' todo =>
              have hl : idx + 1 ≠ (Verif.kids h n).length := by simp only [List.length_cons] at hidx; omega
              obtain ⟨T', F', rfl⟩ : ∃ T' F', F = T' :: F' := by
                cases F with
                | nil => simp at t2
                | cons T' F' => exact ⟨T', F', rfl⟩
              have hs : "├" ++ " " = "├ " := rfl
              simp only [hl, if_false, drawAll]
              simp only [String.append_assoc, ← hs]
          · refine G1.trans (G2.congr (fun m => ⟨fun hm => ?_, fun hm => by simp [hm]⟩) fun _ => Iff.rfl)
            rcases List.mem_append.1 hm with hm | hm
            · exact hm
            · rw [List.mem_singleton.1 hm]; exact hn1
      obtain ⟨F, a', i, e, tF, G, sF, zF, mF, kF⟩ := loop (Verif.kids h n) (nodeLabel h n ++ "\n") added 0 (fun _ h => h) (by simp)
        (fun _ h => h) ha
      refine ⟨Outline.mk n false F, a', ?_, rfl, ?_, kF⟩
      · show (List.foldlM (m := Except PyErr) _ _ _ >>= fun (r : String × List NRef × Nat) => _) = _
        rw [e]
        simp [draw, bind, Except.bind]
      · by_cases hk : Verif.kids h n = []
        · rw [hk] at tF
          obtain rfl : F = [] := by simpa using tF
          rw [zF hk]
          exact Grow.leaf (fun m hm => (ha m hm).1) hn hk
        · refine Grow.expand (graphNodes_nodup r g) hn hna tF (G.congr (fun _ => Iff.rfl) ?_)
          intro m
          have := sF hk
          constructor
          · intro hm
            rcases List.mem_append.1 hm with hm | hm
            · exact hm
            · rw [List.mem_singleton.1 hm]; exact this
          · intro hm; simp [hm]

theorem treeStrings_ok {h : Heap} (r : Reachable h) {g : GRef} (hown : ∀ n ∈ graphNodes h g, (h.node n).graph = some g)
    {lim : Nat} (hlim : (graphNodes h g).length < lim) {rs added : List NRef} (hrs : ∀ n ∈ rs, n ∈ graphNodes h g)
    (ha : ∀ m ∈ added, m ∈ graphNodes h g ∧ Verif.kids h m ≠ []) :
    ∃ F a', treeStrings lim h rs added = .ok (F.map (draw (nodeLabel h) "")) ∧ F.map top = rs ∧
      Grow (Verif.kids h) (graphNodes h g) F added a' := by
  induction rs generalizing added with
  | nil => exact ⟨[], added, rfl, rfl, Grow.refl fun m hm => (ha m hm).1⟩
  | cons n rs ih =>
    obtain ⟨T, a1, e1, t1, G1, k1⟩ := treeStrRec_ok r hown lim (n := n) (ind := "") (hrs n (by simp)) ha
      (Nat.lt_of_le_of_lt (List.length_filter_le _ _) hlim)
    obtain ⟨F, a', e2, t2, G2⟩ := ih (added := a1) (fun m hm => hrs m (by simp [hm])) k1
    refine ⟨T :: F, a', ?_, by simp [t1, t2], G1.trans G2⟩
    simp [treeStrings, e1, e2, bind, Except.bind]

mutual
theorem occ_top (T : Outline) : ∃ s ks, (T.top, s, ks) ∈ occ T := by
  cases T with
  | mk n s F => exact ⟨s, F.map top, by simp [occ, top]⟩
end

theorem occAll_top {F : List Outline} {m : Nat} (hm : m ∈ F.map top) : ∃ s ks, (m, s, ks) ∈ occAll F := by
  induction F with
  | nil => cases hm
  | cons T F ih =>
    simp only [List.map_cons, List.mem_cons] at hm
    rcases hm with rfl | hm
    · obtain ⟨s, ks, ho⟩ := occ_top T
      exact ⟨s, ks, by simp [occAll, ho]⟩
    · obtain ⟨s, ks, ho⟩ := ih hm
      exact ⟨s, ks, by simp [occAll, ho]⟩

mutual
theorem occ_below : ∀ (T : Outline), ∀ o ∈ occ T, ∀ k ∈ o.2.2, ∃ s ks, (k, s, ks) ∈ occ T
  | mk n s F, o, ho, k, hk => by
    simp only [occ, List.mem_cons] at ho
    rcases ho with rfl | ho
    · obtain ⟨s', ks, h'⟩ := occAll_top hk
      exact ⟨s', ks, by simp [occ, h']⟩
    · obtain ⟨s', ks, h'⟩ := occAll_below F o ho k hk
      exact ⟨s', ks, by simp [occ, h']⟩
theorem occAll_below : ∀ (F : List Outline), ∀ o ∈ occAll F, ∀ k ∈ o.2.2, ∃ s ks, (k, s, ks) ∈ occAll F
  | [], o, ho, _, _ => by simp [occAll] at ho
  | T :: F, o, ho, k, hk => by
    simp only [occAll, List.mem_append] at ho
    rcases ho with ho | ho
    · obtain ⟨s', ks, h'⟩ := occ_below T o ho k hk
      exact ⟨s', ks, by simp [occAll, h']⟩
    · obtain ⟨s', ks, h'⟩ := occAll_below F o ho k hk
      exact ⟨s', ks, by simp [occAll, h']⟩
end

end Verif
