import Verif.Lemmas.Sessions
import Verif.Props.ChildRank
import Verif.Props.Readd
/-!
# C110: nodes are listed in the order in which they compare
-/
namespace Verif
variable {C : Type}

theorem nodeLt_of_index {h : Heap} {n m : NRef} (hlt : (h.node n).index < (h.node m).index) :
    nodeLt h n m = .ok true ∧ nodeLt h m n = .ok false ∧ nodeLe h n m = .ok true ∧ nodeLe h m n = .ok false := by
  have h1 : (h.node n).index ≠ (h.node m).index := Nat.ne_of_lt hlt
  have h2 : ¬ (h.node m).index < (h.node n).index := Nat.lt_asymm hlt
  simp [nodeLt, nodeLe, pairLt, pairLe, h1, h1.symm, hlt, h2]

theorem nodeLt_self {h : Heap} (r : Reachable h) (n : NRef) : nodeLt h n n = .ok false ∧ nodeLe h n n = .ok true := by
  obtain ⟨s, hs⟩ := r.idStr n
  simp [nodeLt, nodeLe, pairLt, pairLe, hs]

theorem Ascending.compare {h : Heap} (r : Reachable h) {g : GRef} (I : Ascending h g) {i j : Nat} {n m : NRef}
    (hn : (graphNodes h g)[i]? = some n) (hm : (graphNodes h g)[j]? = some m) :
    nodeLt h n m = .ok (decide (i < j)) ∧ nodeLe h n m = .ok (decide (i ≤ j)) := by
  obtain ⟨hi, rfl⟩ := List.getElem?_eq_some_iff.1 hn
  obtain ⟨hj, rfl⟩ := List.getElem?_eq_some_iff.1 hm
  have P := List.pairwise_iff_getElem.1 I.1
  rcases Nat.lt_trichotomy i j with hij | rfl | hij
  · have := nodeLt_of_index (P i j hi hj hij)
    rw [this.1, this.2.2.1, decide_eq_true hij, decide_eq_true (Nat.le_of_lt hij)]
    exact ⟨rfl, rfl⟩
  · have := nodeLt_self r (graphNodes h g)[i]
    rw [this.1, this.2, decide_eq_false (Nat.lt_irrefl i), decide_eq_true (Nat.le_refl i)]
    exact ⟨rfl, rfl⟩
  · have := nodeLt_of_index (P j i hj hi hij)
    rw [this.2.1, this.2.2.2, decide_eq_false (Nat.lt_asymm hij), decide_eq_false (Nat.not_le_of_lt hij)]
    exact ⟨rfl, rfl⟩

theorem insertNode_least {h : Heap} {x : NRef} {l : List NRef} (hl : ∀ y ∈ l, (h.node x).index < (h.node y).index) :
    insertNode h x l = .ok (x :: l) := by
  cases l with
  | nil => rfl
  | cons y ys => simp [insertNode, (nodeLt_of_index (hl y (by simp))).1, bind, Except.bind]

theorem insertNode_listed {h : Heap} {ns : List NRef} (P : ns.Pairwise fun n m => (h.node n).index < (h.node m).index) {x : NRef}
    (hx : x ∈ ns) {p : NRef → Bool} (hp : p x = false) :
    insertNode h x (ns.filter p) = .ok (ns.filter fun y => p y || decide (y = x)) := by
  induction ns with
  | nil => cases hx
  | cons y ys ih =>
    rw [List.pairwise_cons] at P
    by_cases hxy : x = y
    · subst hxy
      rw [List.filter_cons_of_neg (by simp [hp]), List.filter_cons_of_pos (by simp),
        insertNode_least fun y hy => P.1 y (List.mem_of_mem_filter hy)]
      congr 2
      refine List.filter_congr fun y hy => ?_
      have : y ≠ x := fun hc => by
        subst hc
        exact Nat.lt_irrefl _ (P.1 y hy)
      simp [this]
    · have hx' : x ∈ ys := by
        rcases List.mem_cons.1 hx with h1 | h1
        · exact absurd h1 hxy
        · exact h1
      have := ih P.2 hx'
      cases hpy : p y with
      | true =>
        rw [List.filter_cons_of_pos (by simp [hpy]), List.filter_cons_of_pos (by simp [hpy]), insertNode,
          (nodeLt_of_index (P.1 x hx')).2.1]
        simp [this, bind, Except.bind]
      | false =>
        rw [List.filter_cons_of_neg (by simp [hpy]), List.filter_cons_of_neg (by simp [hpy, Ne.symm hxy]), this]

theorem sortNodes_listed {h : Heap} {ns : List NRef} (P : ns.Pairwise fun n m => (h.node n).index < (h.node m).index) {l : List NRef}
    (hl : l.Nodup) (sub : ∀ x ∈ l, x ∈ ns) : sortNodes h l = .ok (ns.filter fun x => decide (x ∈ l)) := by
  suffices key : ∀ (l : List NRef) (p : NRef → Bool), l.Nodup → (∀ x ∈ l, x ∈ ns) → (∀ x ∈ l, p x = false) →
      l.foldlM (fun acc x => insertNode h x acc) (ns.filter p) = .ok (ns.filter fun y => p y || decide (y ∈ l)) by
    have := key l (fun _ => false) hl sub (fun _ _ => rfl)
    simpa [sortNodes] using this
  intro l
  induction l with
  | nil => intro p _ _ _; simp [pure, Except.pure]
  | cons x l ih =>
    intro p hd hs hp
    rw [List.nodup_cons] at hd
    rw [List.foldlM_cons, insertNode_listed P (hs x (by simp)) (hp x (by simp))]
    have := ih (fun y => p y || decide (y = x)) hd.2 (fun y hy => hs y (by simp [hy])) fun y hy => by
      have : y ≠ x := fun hc => hd.1 (hc ▸ hy)
      simp [hp y (by simp [hy]), this]
    simp only [bind, Except.bind]
    rw [this]
    congr 2
    funext y
    simp [Bool.or_assoc]

section
variable [Palette C] [DecidableEq C]

/-- **C110**, for sessions in which no node object is given to `add_node`: of two nodes of a graph the one that `graph.nodes` lists
first is the smaller one, by all four comparisons, and no comparison raises.
Missing for the full property: nodes that were removed and added again (`C110_violated`). -/
theorem C110_order_partial {w : World C} (s : OwnedSession w) {g : GRef} {i j : Nat} {n m : NRef}
    (hn : (graphNodes w.heap g)[i]? = some n) (hm : (graphNodes w.heap g)[j]? = some m) :
    nodeLt w.heap n m = .ok (decide (i < j)) ∧ nodeLe w.heap n m = .ok (decide (i ≤ j)) ∧
    nodeGt w.heap n m = .ok (decide (j < i)) ∧ nodeGe w.heap n m = .ok (decide (j ≤ i)) := by
  have I := s.sound.sorted trivial g
  have h1 := I.compare s.sound.reach hn hm
  have h2 := I.compare s.sound.reach hm hn
  exact ⟨h1.1, h1.2, h2.1, h2.2⟩

/-- **C110**, for the same sessions: `sorted` of any nodes of a graph, in any order, lists them as `graph.nodes` does; `sorted(graph.nodes)`
is `graph.nodes`.
Missing for the full property: nodes that were removed and added again (`C110_violated`). -/
theorem C110_sorted_partial {w : World C} (s : OwnedSession w) (g : GRef) {l : List NRef} (hl : l.Nodup)
    (sub : ∀ n ∈ l, n ∈ graphNodes w.heap g) :
    sortNodes w.heap l = .ok ((graphNodes w.heap g).filter fun n => decide (n ∈ l)) ∧
    sortNodes w.heap (graphNodes w.heap g) = .ok (graphNodes w.heap g) := by
  have I := s.sound.sorted trivial g
  refine ⟨sortNodes_listed I.1 hl sub, ?_⟩
  have hd : (graphNodes w.heap g).Nodup := I.1.imp fun {n m} hlt hc => by
    subst hc
    exact Nat.lt_irrefl _ hlt
  rw [sortNodes_listed I.1 hd fun _ => id]
  congr 1
  rw [List.filter_eq_self]
  intro x hx
  simpa using hx

/-- **C110**, for the same sessions: the rank of a child among its siblings is the number of siblings that `graph.nodes` lists before
it.
Missing for the full property: nodes that were removed and added again (`C110_violated`). -/
theorem C110_rank_partial {w : World C} (s : OwnedSession w) {g : GRef} {n parent : NRef} (ha : Arrow w.heap g parent n) :
    ∃ cs, nodeChildren w.heap parent = .ok cs ∧
      getChildRank w.heap n parent = .ok (cs.countP fun c => decide (c ∈ (graphNodes w.heap g).takeWhile (fun m => decide (m ≠ n)))) := by
  have r := s.sound.reach
  have I := s.sound.sorted trivial g
  obtain ⟨hp, hn⟩ := arrow_mem r ha
  have hown := s.sound.known trivial g parent hp
  obtain ⟨cs, c1, c2, -⟩ := (C52_rank r hn hp hown).1 ha
  refine ⟨cs, c1, ?_⟩
  rw [c2]
  congr 1
  refine List.countP_congr fun c hc => ?_
  have hcn : c ∈ graphNodes w.heap g := by
    have : nodeChildren w.heap parent = .ok (kids w.heap parent) := by
      simp only [nodeChildren, nodeGraph, hown, bind, Except.bind]
      exact getChildren_eq r (getNode_self r hp)
    rw [this] at c1
    cases c1
    exact kids_closed r parent hp c hc
  simp only [decide_eq_true_eq]
  have P := I.1
  clear I
  generalize graphNodes w.heap g = ns at P hn hcn
  induction ns with
  | nil => cases hn
  | cons y ys ih =>
    rw [List.pairwise_cons] at P
    by_cases hy : y = n
    · subst hy
      simp only [ne_eq, not_true_eq_false, decide_false, Bool.false_eq_true, not_false_eq_true, List.takeWhile_cons_of_neg, List.not_mem_nil,
        iff_false]
      rcases List.mem_cons.1 hcn with rfl | hc'
      · rw [(nodeLt_self r c).1]
        simp
      · rw [(nodeLt_of_index (P.1 c hc')).2.1]
        simp
    · rw [List.takeWhile_cons_of_pos (by simp [hy]), List.mem_cons]
      have hn' : n ∈ ys := by
        rcases List.mem_cons.1 hn with h1 | h1
        · exact absurd h1.symm hy
        · exact h1
      by_cases hcy : c = y
      · subst hcy
        rw [(nodeLt_of_index (P.1 n hn')).1]
        simp
      · have hc' : c ∈ ys := by
          rcases List.mem_cons.1 hcn with h1 | h1
          · exact absurd h1 hcy
          · exact h1
        refine (ih P.2 hn' hc').trans ?_
        simp [hcy]

end

/-- **C110 is violated** by every node that is removed and added again, unless it was the last one: it is then listed last, but compares
as smaller than every node that was listed after it, and `sorted(graph.nodes)` is not `graph.nodes`. -/
theorem C110_violated [Palette C] [DecidableEq C] {w : World C} (s : OwnedSession w) {g : GRef} (hg : g < w.heap.nG) {i j : Nat} {n m : NRef}
    (hn : (graphNodes w.heap g)[i]? = some n) (hm : (graphNodes w.heap g)[j]? = some m) (hij : i < j) :
    ∃ h1 h2, removeNode g (.node n) w.heap = (.ok (), h1) ∧ addNodeObj g n h1 = (.ok (some n), h2) ∧ Reachable h2 ∧
      graphNodes h2 g = (graphNodes w.heap g).filter (fun m => decide (m ≠ n)) ++ [n] ∧ m ∈ graphNodes h2 g ∧ m ≠ n ∧
      nodeLt h2 n m = .ok true ∧ nodeLt h2 m n = .ok false ∧ sortNodes h2 (graphNodes h2 g) ≠ .ok (graphNodes h2 g) := by
  have r := s.sound.reach
  have I := s.sound.sorted trivial g
  have hn' := List.mem_of_getElem? hn
  have hm' := List.mem_of_getElem? hm
  have hlt : (w.heap.node n).index < (w.heap.node m).index := by
    obtain ⟨hi, rfl⟩ := List.getElem?_eq_some_iff.1 hn
    obtain ⟨hj, rfl⟩ := List.getElem?_eq_some_iff.1 hm
    exact List.pairwise_iff_getElem.1 I.1 i j hi hj hij
  have hne : m ≠ n := fun hc => by
    subst hc
    exact Nat.lt_irrefl _ hlt
  obtain ⟨h1, h2, e1, e2, r2, hnodes, -⟩ := C12_readd_partial r hg hn'
  have same : ∀ k ∈ graphNodes w.heap g, (h2.node k).index = (w.heap.node k).index := by
    obtain ⟨A, H⟩ := r.hist
    intro k hk
    obtain ⟨x, hx⟩ := (mem_graphNodes H.rep).1 hk
    have L1 := Grows.step (.removeNode g (.node n)) w.heap
    have L2 := Grows.step (.addNodeObj g n) h1
    simp only [Op.step, M.bind_apply, e1] at L1
    simp only [Op.step, M.bind_apply, e2] at L2
    have hk1 := (H.rep.nodeOk g x k hx).1
    exact (L2.node k (Nat.lt_of_lt_of_le hk1 L1.nN)).index.trans (L1.node k hk1).index
  have hlt2 : (h2.node n).index < (h2.node m).index := by rw [same n hn', same m hm']; exact hlt
  have hm2 : m ∈ (graphNodes w.heap g).filter (fun m => decide (m ≠ n)) := by
    rw [List.mem_filter]
    exact ⟨hm', by simpa using hne⟩
  refine ⟨h1, h2, e1, e2, r2, hnodes, ?_, hne, (nodeLt_of_index hlt2).1, (nodeLt_of_index hlt2).2.1, fun hs => ?_⟩
  · rw [hnodes]
    simp [hm', hne]
  · obtain ⟨l, h3, -, h4⟩ := sortNodes_ok r2 (graphNodes h2 g)
    rw [hs] at h3
    cases h3
    rw [hnodes, List.pairwise_append] at h4
    have := h4.2.2 m hm2 n (by simp)
    rw [(nodeLt_of_index hlt2).1] at this
    cases this

end Verif
