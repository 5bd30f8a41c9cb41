import Verif.Lemmas.TreeStr
import Verif.Props.Edges
/-!
# C28: the tree string
-/
namespace Verif
open Outline

/-- The number of edges is the total number of children. -/
theorem edges_length {h : Heap} (r : Reachable h) (g : GRef) :
    ∃ es, graphEdges h g = .ok es ∧ es.length = ((graphNodes h g).map (fun n => (kids h n).length)).sum := by
  obtain ⟨es, ch, pa, h1, h2, -, h4, -⟩ := C11_degrees r g
  refine ⟨es, h1, ?_⟩
  have : (graphNodes h g).mapM (fun n => numChildren h g (.node n)) = .ok ((graphNodes h g).map fun n => (kids h n).length) := by
    refine mapM_ok fun n hn => ?_
    simp only [numChildren, getChildren_eq r (getNode_self r hn)]
    rfl
  rw [this] at h2
  cases h2
  exact h4.symm

/-- **C28.** `get_tree_str` answers (with one stack frame more than nodes) with the drawing of a forest, one tree per root,
separated by newlines, such that:
* an unmarked occurrence of a node has exactly its children below it, in order;
* a marked occurrence has nothing below it, and only nodes that have children are marked;
* every node with children occurs unmarked exactly once;
* every node occurs;
* there is one occurrence (line) per root and one per edge. -/
theorem C28_tree {h : Heap} (r : Reachable h) {g : GRef} (hown : ∀ n ∈ graphNodes h g, (h.node n).graph = some g)
    {lim : Nat} (hlim : (graphNodes h g).length < lim) :
    ∃ rs es forest, roots lim h g = .ok rs ∧ graphEdges h g = .ok es ∧
      getTreeStr lim h g = .ok (String.intercalate "\n" (forest.map (draw (nodeLabel h) ""))) ∧
      forest.map top = rs ∧
      (∀ n below, (n, false, below) ∈ occAll forest → n ∈ graphNodes h g ∧ getChildren h g (.node n) = .ok below) ∧
      (∀ n below, (n, true, below) ∈ occAll forest → n ∈ graphNodes h g ∧ below = [] ∧ ∃ c cs, getChildren h g (.node n) = .ok (c :: cs)) ∧
      (∀ n ∈ graphNodes h g, getChildren h g (.node n) ≠ .ok [] →
        (occAll forest).countP (fun o => decide (o.1 = n ∧ o.2.1 = false)) = 1) ∧
      (∀ n ∈ graphNodes h g, ∃ s below, (n, s, below) ∈ occAll forest) ∧
      (occAll forest).length = rs.length + es.length := by
  obtain ⟨rs, hr, hsub, hcov, -⟩ := C25_roots r g (Nat.le_of_lt hlim)
  obtain ⟨es, he, hes⟩ := edges_length r g
  obtain ⟨F, a', hs, ht, G⟩ := treeStrings_ok r hown hlim (rs := rs) (added := []) (fun n hn => hsub.subset hn) (by simp)
  have gc : ∀ n ∈ graphNodes h g, getChildren h g (.node n) = .ok (kids h n) := fun n hn => getChildren_eq r (getNode_self r hn)
  -- everything reachable from an occurrence occurs
  have down : ∀ n m, Path h g n m → (∃ s b, (n, s, b) ∈ occAll F) → ∃ s b, (m, s, b) ∈ occAll F := by
    intro n m p hn
    have one : ∀ n m, Arrow h g n m → (∃ s b, (n, s, b) ∈ occAll F) → ∃ s b, (m, s, b) ∈ occAll F := by
      rintro n m ha ⟨s, b, ho⟩
      have hm := (mem_kids r (arrow_mem r ha).1).2 ha
      have hne : kids h n ≠ [] := List.ne_nil_of_mem hm
      have hna := G.seen _ ho hne
      have hc := G.cnt n (arrow_mem r ha).1 hne
      simp only [List.not_mem_nil, if_false, hna, if_true, Nat.add_zero] at hc
      have hpos : 0 < (occAll F).countP (fun o => decide (o.1 = n ∧ o.2.1 = false)) := by unfold plain at hc; rw [hc]; exact Nat.one_pos
      obtain ⟨⟨n', s', b'⟩, ho', hp⟩ := List.countP_pos_iff.1 hpos
      simp only [decide_eq_true_eq] at hp
      obtain ⟨rfl, rfl⟩ := hp
      have hb := (G.ok _ ho').2.1 rfl
      simp only at hb
      exact occAll_below F _ ho' m (by simp only [hb]; exact hm)
    induction p with
    | single a => exact one _ _ a hn
    | tail _ a ih => exact one _ _ a ih
  have all : ∀ n ∈ graphNodes h g, ∃ s b, (n, s, b) ∈ occAll F := by
    intro n hn
    rcases hcov n hn with hR | ⟨p, hp, path⟩
    · exact occAll_top (ht ▸ hR)
    · exact down p n path (occAll_top (ht ▸ hp))
  have full : ∀ n ∈ graphNodes h g, kids h n ≠ [] → n ∈ a' := by
    intro n hn hk
    obtain ⟨s, b, ho⟩ := all n hn
    exact G.seen _ ho hk
  refine ⟨rs, es, F, hr, he, ?_, ht, ?_, ?_, ?_, all, ?_⟩
  · simp [getTreeStr, hr, hs, bind, Except.bind]
  · intro n b ho
    obtain ⟨h1, h2, -⟩ := G.ok _ ho
    refine ⟨h1, ?_⟩
    rw [gc n h1]
    exact congrArg _ (h2 rfl).symm
  · intro n b ho
    obtain ⟨h1, -, h3⟩ := G.ok _ ho
    obtain ⟨hb, hk⟩ := h3 rfl
    refine ⟨h1, hb, ?_⟩
    rw [gc n h1]
    cases hkk : kids h n with
    | nil => exact absurd hkk hk
    | cons c cs => exact ⟨c, cs, rfl⟩
  · intro n hn hne
    rw [gc n hn] at hne
    have hk : kids h n ≠ [] := fun hc => hne (by rw [hc])
    have := G.cnt n hn hk
    simpa [full n hn hk, plain] using this
  · have := G.len
    have w0 : weight (kids h) (graphNodes h g) [] = 0 := by
      unfold weight
      rw [List.filter_eq_nil_iff.2 (by simp)]
      rfl
    have w1 : weight (kids h) (graphNodes h g) a' = ((graphNodes h g).map (fun n => (kids h n).length)).sum := by
      unfold weight
      have key : ∀ U : List NRef, (∀ n ∈ U, kids h n ≠ [] → n ∈ a') →
          ((U.filter (fun m => decide (m ∈ a'))).map (fun m => (kids h m).length)).sum = (U.map (fun m => (kids h m).length)).sum := by
        intro U hU
        induction U with
        | nil => rfl
        | cons u U ih =>
          have ih := ih fun n hn => hU n (by simp [hn])
          by_cases hu : u ∈ a'
          · rw [List.filter_cons_of_pos (by simpa using hu)]
            simp only [List.map_cons, List.sum_cons, ih]
          · have hk : kids h u = [] := Classical.byContradiction fun hc => hu (hU u (by simp) hc)
            rw [List.filter_cons_of_neg (by simpa using hu)]
            simp only [List.map_cons, List.sum_cons, ih, hk, List.length_nil, Nat.zero_add]
      exact key _ full
    have hl : F.length = rs.length := by rw [← ht, List.length_map]
    omega

/-- The demo graph: a cycle with a double edge, and a self-loop. -/
example : getTreeStr 5 demo 0 = .ok "a\n├ b\n│ └ c\n│   └ a*\n└ b*\n\nd\n└ d*\n" ∧
    (∀ n ∈ graphNodes demo 0, (demo.node n).graph = some 0) ∧ (graphNodes demo 0).length < 5 := by decide +kernel

end Verif
