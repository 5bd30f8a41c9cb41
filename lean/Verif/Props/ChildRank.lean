import Verif.Props.Siblings
/-!
# C52: the rank of a child
-/
namespace Verif

section Sorting
variable {h : Heap} (r : Reachable h)
include r

theorem insertNode_ok (x : NRef) {l : List NRef} (hl : l.Pairwise (fun a b => nodeLt h b a = .ok false)) :
    ∃ l', insertNode h x l = .ok l' ∧ l'.Perm (x :: l) ∧ l'.Pairwise (fun a b => nodeLt h b a = .ok false) := by
  obtain ⟨tot, -, trans, conn, asym⟩ := C09_total_order r
  induction l with
  | nil => exact ⟨[x], rfl, .refl _, by simp⟩
  | cons y l ih =>
    rw [List.pairwise_cons] at hl
    obtain ⟨b, hb, -⟩ := tot x y
    unfold insertNode
    cases b with
    | true =>
      refine ⟨x :: y :: l, by simp [hb, bind, Except.bind], .refl _, ?_⟩
      rw [List.pairwise_cons]
      refine ⟨fun z hz => ?_, List.pairwise_cons.2 hl⟩
      rcases List.mem_cons.1 hz with rfl | hz
      · exact (asym _ _ hb).2
      · obtain ⟨c, hc, -⟩ := tot z x
        cases c with
        | false => exact hc
        | true =>
          have := trans _ _ _ hc hb
          rw [hl.1 z hz] at this
          cases this
    | false =>
      obtain ⟨l', h1, h2, h3⟩ := ih hl.2
      refine ⟨y :: l', by simp [hb, h1, bind, Except.bind], (h2.cons y).trans (.swap _ _ _), ?_⟩
      rw [List.pairwise_cons]
      refine ⟨fun z hz => ?_, h3⟩
      rcases List.mem_cons.1 (h2.subset hz) with rfl | hz
      · exact hb
      · exact hl.1 z hz

theorem sortNodes_ok (l : List NRef) :
    ∃ l', sortNodes h l = .ok l' ∧ l'.Perm l ∧ l'.Pairwise (fun a b => nodeLt h b a = .ok false) := by
  unfold sortNodes
  have : ∀ (l acc : List NRef), acc.Pairwise (fun a b => nodeLt h b a = .ok false) →
      ∃ l', l.foldlM (fun acc x => insertNode h x acc) acc = .ok l' ∧ l'.Perm (l ++ acc) ∧
        l'.Pairwise (fun a b => nodeLt h b a = .ok false) := by
    intro l
    induction l with
    | nil => intro acc ha; exact ⟨acc, rfl, .refl _, ha⟩
    | cons x l ih =>
      intro acc ha
      obtain ⟨a1, e1, p1, s1⟩ := insertNode_ok r x ha
      obtain ⟨l', e2, p2, s2⟩ := ih a1 s1
      refine ⟨l', by rw [List.foldlM_cons, e1]; exact e2, ?_, s2⟩
      refine p2.trans ((List.Perm.append_left l p1).trans ?_)
      exact List.perm_middle
  obtain ⟨l', h1, h2, h3⟩ := this l [] List.Pairwise.nil
  exact ⟨l', h1, by simpa using h2, h3⟩

/-- The first position of `n` in a sorted list is the number of smaller elements. -/
theorem findIdx_sorted {g : GRef} {n : NRef} (hn : n ∈ graphNodes h g) {l : List NRef} (hl : ∀ y ∈ l, y ∈ graphNodes h g)
    (hs : l.Pairwise (fun a b => nodeLt h b a = .ok false)) (hm : n ∈ l) :
    l.findIdx (fun y => decide (y = n) || nodeEq h y n) = l.countP (fun y => decide (nodeLt h y n = .ok true)) := by
  obtain ⟨-, irr, -, conn, -⟩ := C09_total_order r
  induction l with
  | nil => cases hm
  | cons a l ih =>
    rw [List.pairwise_cons] at hs
    rw [List.findIdx_cons, List.countP_cons]
    by_cases han : a = n
    · subst han
      have : l.countP (fun y => decide (nodeLt h y a = .ok true)) = 0 := by
        rw [List.countP_eq_zero]
        intro y hy
        simp [hs.1 y hy]
      simp [this, irr]
    · have hm' : n ∈ l := by
        rcases List.mem_cons.1 hm with h | h
        · exact absurd h.symm han
        · exact h
      have hne : nodeEq h a n = false := by
        rw [Bool.eq_false_iff]
        exact fun hc => han ((C09_eq_identity r (hl a (by simp)) hn).1 hc)
      have hlt : nodeLt h a n = .ok true := by
        rcases conn a n with h' | h' | h'
        · exact h'
        · rw [hne] at h'; cases h'
        · rw [hs.1 n hm'] at h'; cases h'
      rw [ih (fun y hy => hl y (by simp [hy])) hs.2 hm']
      simp [han, hne, hlt]

end Sorting

/-- **C52.** For two nodes of a graph, if `n` is a child of `parent` then `n.get_child_rank(parent)` is the number of entries
of `parent.children` that are smaller than `n`, which is a valid position in that list; otherwise it raises `ValueError`. -/
theorem C52_rank {h : Heap} (r : Reachable h) {g : GRef} {n parent : NRef} (hn : n ∈ graphNodes h g)
    (hp : parent ∈ graphNodes h g) (hown : (h.node parent).graph = some g) :
    (Arrow h g parent n → ∃ cs, nodeChildren h parent = .ok cs ∧
      getChildRank h n parent = .ok (cs.countP (fun c => decide (nodeLt h c n = .ok true))) ∧
      cs.countP (fun c => decide (nodeLt h c n = .ok true)) < cs.length) ∧
    (¬ Arrow h g parent n → ∃ msg, getChildRank h n parent = .error (.valueError msg)) := by
  have hch : nodeChildren h parent = .ok (kids h parent) := by
    simp only [nodeChildren, nodeGraph, hown, bind, Except.bind]
    exact getChildren_eq r (getNode_self r hp)
  have hmem : memNode h n (kids h parent) = inList n (kids h parent) := memNode_eq r hn (kids_closed r parent hp)
  constructor
  · intro ha
    have hk : n ∈ kids h parent := (mem_kids r hp).2 ha
    obtain ⟨l, h1, h2, h3⟩ := sortNodes_ok r (kids h parent)
    refine ⟨kids h parent, hch, ?_, ?_⟩
    · simp only [getChildRank, hch, hmem, inList, hk, decide_true, if_true, h1, bind, Except.bind]
      rw [findIdx_sorted r hn (fun y hy => kids_closed r parent hp y (h2.subset hy)) h3 (h2.symm.subset hk), h2.countP_eq]
    · have hirr := (C09_total_order r).2.1 n
      refine Nat.lt_of_le_of_ne List.countP_le_length fun hc => ?_
      have := List.countP_eq_length.1 hc n hk
      simp [hirr] at this
  · intro ha
    have hk : n ∉ kids h parent := fun hc => ha ((mem_kids r hp).1 hc)
    exact ⟨_, by simp only [getChildRank, hch, hmem, inList, hk, decide_false, Bool.false_eq_true, if_false, bind, Except.bind]; rfl⟩

/-- **C52.** Different children of a parent have different ranks, in the order of `<`. -/
theorem C52_distinct {h : Heap} (r : Reachable h) {g : GRef} {n m parent : NRef} (hown : (h.node parent).graph = some g)
    (ha : Arrow h g parent n) (hb : Arrow h g parent m) {i j : Nat} (hi : getChildRank h n parent = .ok i)
    (hj : getChildRank h m parent = .ok j) : (n ≠ m → i ≠ j) ∧ (nodeLt h n m = .ok true ↔ i < j) := by
  obtain ⟨tot, irr, trans, conn, asym⟩ := C09_total_order r
  have hp := (arrow_mem r ha).1
  have hn := (arrow_mem r ha).2
  have hm := (arrow_mem r hb).2
  obtain ⟨cs, c1, c2, -⟩ := (C52_rank r hn hp hown).1 ha
  obtain ⟨cs', c1', c3, -⟩ := (C52_rank r hm hp hown).1 hb
  rw [c1] at c1'
  cases c1'
  rw [hi] at c2; cases c2
  rw [hj] at c3; cases c3
  have hch : nodeChildren h parent = .ok (kids h parent) := by
    simp only [nodeChildren, nodeGraph, hown, bind, Except.bind]
    exact getChildren_eq r (getNode_self r hp)
  rw [hch] at c1
  cases c1
  have key : ∀ {x y}, x ∈ kids h parent → nodeLt h x y = .ok true →
      (kids h parent).countP (fun c => decide (nodeLt h c x = .ok true)) <
        (kids h parent).countP (fun c => decide (nodeLt h c y = .ok true)) := by
    intro x y hx hxy
    obtain ⟨l1, l2, hl⟩ := List.append_of_mem hx
    have le : ∀ l : List NRef, l.countP (fun c => decide (nodeLt h c x = .ok true)) ≤
        l.countP (fun c => decide (nodeLt h c y = .ok true)) := by
      intro l
      refine List.countP_mono_left fun c _ hc => ?_
      simp only [decide_eq_true_eq] at hc ⊢
      exact trans _ _ _ hc hxy
    rw [hl]
    simp only [List.countP_append, List.countP_cons, irr, hxy]
    have := le l1
    have := le l2
    simp
    omega
  have hkn := (mem_kids r hp).2 ha
  have hkm := (mem_kids r hp).2 hb
  constructor
  · intro hne heq
    rcases conn n m with h' | h' | h'
    · exact absurd heq (Nat.ne_of_lt (key hkn h'))
    · exact hne ((C09_eq_identity r hn hm).1 h')
    · exact absurd heq.symm (Nat.ne_of_lt (key hkm h'))
  · refine ⟨key hkn, fun hlt => ?_⟩
    rcases conn n m with h' | h' | h'
    · exact h'
    · rw [(C09_eq_identity r hn hm).1 h'] at hlt; exact absurd hlt (Nat.lt_irrefl _)
    · exact absurd (Nat.lt_trans hlt (key hkm h')) (Nat.lt_irrefl _)

/-- In the shortcut graph the children of `a` are `c, b`; sorted they are `b, c`. -/
example : getChildRank (runOps shortcutOps Heap.init) 1 0 = .ok 0 ∧ getChildRank (runOps shortcutOps Heap.init) 2 0 = .ok 1 ∧
    nodeChildren (runOps shortcutOps Heap.init) 0 = .ok [2, 1] ∧
    ((runOps shortcutOps Heap.init).node 0).graph = some 0 := by decide +kernel

end Verif
