import Verif.Props.AddNode
import Verif.Lemmas.Later
/-!
# C09, C13, C16: comparing nodes and edges, membership
-/
namespace Verif
open M

/-- `add_node` accepts string names only, so every node object has one. -/
theorem Hist.nameStr {h : Heap} {A : Spec} (H : Hist h A) (n : NRef) : ∃ s, A.name n = .str s := by
  induction H generalizing n with
  | init => exact ⟨"", rfl⟩
  | @step h A op H ok ih =>
    have conn : ∀ g s t r e, (Spec.connect A g s t r e).name = A.name := by
      intro g s t r e
      unfold Spec.connect
      split <;> rfl
    have reg : ∀ g s m hm, ∃ s', (A.register g (.str s) m hm).name n = .str s' := by
      intro g s m hm
      unfold Spec.register
      split
      · exact ih n
      · by_cases hx : n = m
        · subst hx; exact ⟨s, by simp⟩
        · simpa [upd_ne _ _ hx] using ih n
    unfold Spec.step
    split
    · exact ih n
    · next out hout =>
      split
      · next g x a p m =>
        cases x with
        | int i => simp [Op.step, addNode] at hout
        | str s => exact reg g s m _
      · next _ g m =>
        obtain ⟨s, hs⟩ := ih m
        rw [hs]
        exact reg g s m _
      · split
        · exact ih n
        · exact ih n
      · rw [conn]; exact ih n
      · split
        · rw [conn]; exact ih n
        · exact ih n
      · split
        · rw [conn]; exact ih n
        · exact ih n
      · exact ih n
      · exact ih n
      · unfold Spec.copy
        simp only
        split
        · next p hp =>
          obtain ⟨s, hs⟩ := ih p.2
          rw [H.rep.name, (H.rep.nodeOk _ p.1 p.2 (List.mem_of_find?_eq_some hp)).2.1] at hs
          exact ⟨s, hs⟩
        · exact ih n
      · exact ih n

theorem Reachable.idStr {h : Heap} (r : Reachable h) (n : NRef) : ∃ s, (h.node n).id = .str s := by
  obtain ⟨A, H⟩ := r.hist
  rw [← H.rep.name n]
  exact H.nameStr n

/-- **C09.** If `add_node` creates `n` in graph `g` and, after any further calls (removals included), `add_node` creates
`m` in `g`, then at every later time `n` has a smaller index than `m` and `n < m`. -/
theorem C09_increasing {h h1 h3 : Heap} (r : Reachable h) {g : GRef} (hg : g < h.nG) {x y : String} {n m : NRef}
    {a b : NodeArgs} {p q : IfExists}
    (hx : Key.str x ∉ dkeys (h.graph g).nodes) (hn : addNode g (.str x) a p h = (.ok n, h1))
    (ops : List Op) (ok : AllOk ops h1)
    (hy : Key.str y ∉ dkeys ((runOps ops h1).graph g).nodes)
    (hm : addNode g (.str y) b q (runOps ops h1) = (.ok m, h3)) (ops' : List Op) :
    ((runOps ops' h3).node n).index < ((runOps ops' h3).node m).index ∧
    nodeLt (runOps ops' h3) n m = .ok true := by
  have valid : ∀ {h h' : Heap} {k : NRef} {z : String} {c : NodeArgs} {w : IfExists},
      Key.str z ∉ dkeys (h.graph g).nodes → addNode g (.str z) c w h = (.ok k, h') → c.style.Valid := by
    intro h h' k z c w hz hrun
    refine Classical.byContradiction fun hc => ?_
    have := (C08_rejected hz c w hc).1
    rw [hrun] at this
    cases this
  obtain ⟨h1', s1, e1, -, -, -, n1, -, -, -, c1⟩ := C08_new r hg hx a p (valid hx hn)
  rw [hn] at e1
  cases e1
  have L0 := Grows.addNode (U := fun _ => False) (V := fun _ => False) (W := fun _ => False) g (.str x) a p h
  rw [hn] at L0
  have r1 : Reachable h1 := by
    have := Reachable.step (.addNode g (.str x) a p) r hg
    simp only [Op.step, bind_apply, hn] at this
    exact this
  have r2 := r1.runOps ops ok
  have L1 := Later.runOps ops h1
  have hg1 : g < h1.nG := Nat.lt_of_lt_of_le hg L0.nG
  have hg2 : g < (runOps ops h1).nG := Nat.lt_of_lt_of_le hg1 L1.nG
  obtain ⟨h3', s3, e3, -, -, -, n3, o3, -, -, -⟩ := C08_new r2 hg2 hy b q (valid hy hm)
  rw [hm] at e3
  cases e3
  have hnlt : h.nN < h1.nN := by
    obtain ⟨A, H⟩ := r1.hist
    have hmem : h.nN ∈ graphNodes h1 g := by
      obtain ⟨_, _, e, _, hgn, _⟩ := C08_new r hg hx a p (valid hx hn)
      rw [hn] at e
      cases e
      rw [hgn]
      exact List.mem_append_right _ (List.mem_singleton_self _)
    obtain ⟨k, hk⟩ := (mem_graphNodes H.rep).1 hmem
    exact (H.rep.nodeOk g k _ hk).1
  have i1 : ((runOps ops h1).node h.nN).index = (h.graph g).counter := by
    rw [(L1.node _ hnlt).index, n1]
  have hlt2 : h.nN < (runOps ops h1).nN := Nat.lt_of_lt_of_le hnlt L1.nN
  have i3 : (h3.node h.nN).index = (h.graph g).counter := by rw [o3 _ (Nat.ne_of_lt hlt2), i1]
  have j3 : (h3.node (runOps ops h1).nN).index = ((runOps ops h1).graph g).counter := by rw [n3]
  have L3 := Grows.addNode (U := fun _ => False) (V := fun _ => False) (W := fun _ => False) g (.str y) b q (runOps ops h1)
  rw [hm] at L3
  have L4 := Later.runOps ops' h3
  have hm3 : (runOps ops h1).nN < h3.nN := by
    have r3 : Reachable h3 := by
      have := Reachable.step (.addNode g (.str y) b q) r2 hg2
      simp only [Op.step, bind_apply, hm] at this
      exact this
    obtain ⟨A, H⟩ := r3.hist
    have hmem : (runOps ops h1).nN ∈ graphNodes h3 g := by
      obtain ⟨_, _, e, _, hgn, _⟩ := C08_new r2 hg2 hy b q (valid hy hm)
      rw [hm] at e
      cases e
      rw [hgn]
      exact List.mem_append_right _ (List.mem_singleton_self _)
    obtain ⟨k, hk⟩ := (mem_graphNodes H.rep).1 hmem
    exact (H.rep.nodeOk g k _ hk).1
  have f1 := (L4.node _ (Nat.lt_trans hlt2 hm3)).index
  have f2 := (L4.node _ hm3).index
  have key : ((runOps ops' h3).node h.nN).index < ((runOps ops' h3).node (runOps ops h1).nN).index := by
    rw [f1, f2, i3, j3]
    have := (L1.graph g hg1).1
    rw [c1] at this
    exact this
  refine ⟨key, ?_⟩
  simp [nodeLt, pairLt, Nat.ne_of_lt key, key]

/-- Creating `e`, removing `a`, creating `a` again: the new `a` comes after `e`. -/
example :
    let h1 := (addNode 0 (.str "e") {} .warn demo).2
    let h2 := runOps [.removeNode 0 (.key (.str "a"))] h1
    let h3 := (addNode 0 (.str "a") {} .warn h2).2
    (addNode 0 (.str "a") {} .warn h2).1 = .ok 6 ∧ nodeLt h3 5 6 = .ok true ∧ nodeLt h3 6 5 = .ok false := by
  decide +kernel

/-- **C09.** On all node objects `<` never raises and is irreflexive, transitive and, together with `==`, total;
`>`, `<=` and `>=` agree with it. -/
theorem C09_total_order {h : Heap} (r : Reachable h) :
    (∀ a b, ∃ lt, nodeLt h a b = .ok lt ∧ nodeGt h b a = .ok lt ∧
      nodeLe h a b = .ok (lt || nodeEq h a b) ∧ nodeGe h b a = .ok (lt || nodeEq h a b)) ∧
    (∀ a, nodeLt h a a = .ok false) ∧
    (∀ a b c, nodeLt h a b = .ok true → nodeLt h b c = .ok true → nodeLt h a c = .ok true) ∧
    (∀ a b, nodeLt h a b = .ok true ∨ nodeEq h a b = true ∨ nodeLt h b a = .ok true) ∧
    (∀ a b, nodeLt h a b = .ok true → nodeEq h a b = false ∧ nodeLt h b a = .ok false) := by
  have lt_iff : ∀ a b x y, (h.node a).id = .str x → (h.node b).id = .str y →
      nodeLt h a b = .ok (decide ((h.node a).index < (h.node b).index ∨ ((h.node a).index = (h.node b).index ∧ x < y))) := by
    intro a b x y hx hy
    unfold nodeLt pairLt
    by_cases hi : (h.node a).index = (h.node b).index
    · simp only [hi, ne_eq, not_true_eq_false, ↓reduceIte, hx, hy, Key.str.injEq]
      by_cases hxy : x = y
      · simp [hxy, String.lt_irrefl]
      · simp [hxy, keyLt]
    · simp [hi]
  have eq_iff : ∀ a b x y, (h.node a).id = .str x → (h.node b).id = .str y →
      nodeEq h a b = decide ((h.node a).index = (h.node b).index ∧ x = y) := by
    intro a b x y hx hy
    simp [nodeEq, hx, hy]
  refine ⟨?_, ?_, ?_, ?_, ?_⟩
  · intro a b
    obtain ⟨x, hx⟩ := r.idStr a
    obtain ⟨y, hy⟩ := r.idStr b
    refine ⟨_, lt_iff a b x y hx hy, lt_iff a b x y hx hy, ?_⟩
    have : nodeLe h a b = .ok (decide ((h.node a).index < (h.node b).index ∨
        ((h.node a).index = (h.node b).index ∧ x < y)) || nodeEq h a b) := by
      rw [eq_iff a b x y hx hy]
      unfold nodeLe pairLe
      by_cases hi : (h.node a).index = (h.node b).index
      · simp only [hi, ne_eq, not_true_eq_false, ↓reduceIte, hx, hy, Key.str.injEq]
        by_cases hxy : x = y
        · simp [hxy]
        · simp [hxy, keyLt]
      · simp [hi]
    exact ⟨this, this⟩
  · intro a
    simp [nodeLt, pairLt]
  · intro a b c h1 h2
    obtain ⟨x, hx⟩ := r.idStr a
    obtain ⟨y, hy⟩ := r.idStr b
    obtain ⟨z, hz⟩ := r.idStr c
    rw [lt_iff _ _ _ _ hx hy] at h1
    rw [lt_iff _ _ _ _ hy hz] at h2
    rw [lt_iff _ _ _ _ hx hz]
    simp only [Except.ok.injEq, decide_eq_true_eq] at h1 h2 ⊢
    rcases h1 with h1 | ⟨h1, h1'⟩ <;> rcases h2 with h2 | ⟨h2, h2'⟩
    · exact .inl (Nat.lt_trans h1 h2)
    · exact .inl (h2 ▸ h1)
    · exact .inl (h1 ▸ h2)
    · exact .inr ⟨h1.trans h2, String.lt_trans h1' h2'⟩
  · intro a b
    obtain ⟨x, hx⟩ := r.idStr a
    obtain ⟨y, hy⟩ := r.idStr b
    rw [lt_iff _ _ _ _ hx hy, lt_iff _ _ _ _ hy hx, eq_iff _ _ _ _ hx hy]
    simp only [Except.ok.injEq, decide_eq_true_eq]
    rcases Nat.lt_trichotomy (h.node a).index (h.node b).index with hi | hi | hi
    · exact .inl (.inl hi)
    · by_cases hxy : x = y
      · exact .inr (.inl ⟨hi, hxy⟩)
      · by_cases hlt : x < y
        · exact .inl (.inr ⟨hi, hlt⟩)
        · refine .inr (.inr (.inr ⟨hi.symm, ?_⟩))
          refine Decidable.byContradiction fun hc => hxy ?_
          exact String.le_antisymm (String.not_lt.1 hc) (String.not_lt.1 hlt)
    · exact .inr (.inr (.inl hi))
  · intro a b h1
    obtain ⟨x, hx⟩ := r.idStr a
    obtain ⟨y, hy⟩ := r.idStr b
    rw [lt_iff _ _ _ _ hx hy] at h1
    rw [lt_iff _ _ _ _ hy hx, eq_iff _ _ _ _ hx hy]
    simp only [Except.ok.injEq, decide_eq_true_eq, decide_eq_false_iff_not] at h1 ⊢
    constructor
    · rintro ⟨e1, e2⟩
      rcases h1 with h1 | ⟨-, h1⟩
      · exact Nat.ne_of_lt h1 e1
      · subst e2; exact String.lt_irrefl _ h1
    · rintro (h2 | ⟨h2, h2'⟩)
      · rcases h1 with h1 | ⟨h1, -⟩
        · exact Nat.lt_asymm h1 h2
        · exact Nat.ne_of_lt h2 h1.symm
      · rcases h1 with h1 | ⟨-, h1⟩
        · exact Nat.ne_of_lt h1 h2.symm
        · exact String.lt_asymm h1 h2'

/-- **C09.** On the nodes of one graph `==` is object identity. -/
theorem C09_eq_identity {h : Heap} (r : Reachable h) {g : GRef} {n m : NRef} (hn : n ∈ graphNodes h g)
    (hm : m ∈ graphNodes h g) : nodeEq h n m = true ↔ n = m := by
  obtain ⟨A, H⟩ := r.hist
  obtain ⟨k, hk⟩ := (mem_graphNodes H.rep).1 hn
  obtain ⟨k', hk'⟩ := (mem_graphNodes H.rep).1 hm
  constructor
  · intro he
    simp only [nodeEq, decide_eq_true_eq] at he
    have := he.2
    rw [(H.rep.nodeOk g k n hk).2.1, (H.rep.nodeOk g k' m hk').2.1] at this
    subst this
    exact val_unique (H.rep.keysNodup g) hk hk'
  · rintro rfl; simp [nodeEq]

/-! ## C16 -/

/-- **C16**, nodes: `==` and `!=` are opposite, `==` is an equivalence, and equal nodes have equal hashes, whatever the
hash function on names. -/
theorem C16_nodes (h : Heap) (hash : Key → Int) :
    (∀ a b, nodeNe h a b = !nodeEq h a b) ∧ (∀ a, nodeEq h a a = true) ∧
    (∀ a b, nodeEq h a b = nodeEq h b a) ∧
    (∀ a b c, nodeEq h a b = true → nodeEq h b c = true → nodeEq h a c = true) ∧
    (∀ a b, nodeEq h a b = true → nodeHash hash h a = nodeHash hash h b) := by
  refine ⟨?_, ?_, ?_, ?_, ?_⟩
  · intro a b; simp only [nodeNe, nodeEq, ne_eq, Prod.mk.injEq]; rw [← decide_not]
  · intro a; simp [nodeEq]
  · intro a b; simp only [nodeEq, decide_eq_decide]; exact ⟨fun ⟨x, y⟩ => ⟨x.symm, y.symm⟩, fun ⟨x, y⟩ => ⟨x.symm, y.symm⟩⟩
  · intro a b c h1 h2
    simp only [nodeEq, decide_eq_true_eq] at *
    exact ⟨h1.1.trans h2.1, h1.2.trans h2.2⟩
  · intro a b h1
    simp only [nodeEq, decide_eq_true_eq] at h1
    simp [nodeHash, h1.2]

/-- **C16.** What is hashed tells any two edges apart, of one graph or of two: unless they are the same edge, there is a digest with
which their hashes differ. -/
theorem C16_hash {h : Heap} (r : Reachable h) {g g' : GRef} {e f : ERef} (he : LiveEdge h g e) (hf : LiveEdge h g' f) :
    e = f ↔ ∀ hash, edgeHash hash h e = edgeHash hash h f := by
  obtain ⟨A, H⟩ := r.hist
  have R := H.rep
  obtain ⟨i, hi⟩ := (liveEdge_iff R).1 he
  obtain ⟨j, hj⟩ := (liveEdge_iff R).1 hf
  refine ⟨by rintro rfl; intro _; rfl, fun hh => ?_⟩
  have hh := hh fun x => if x = (some g, i) then 1 else 0
  simp only [edgeHash, R.edgeId_eq hi, R.edgeId_eq hj, bind, Except.bind, pure, Except.pure, Except.ok.injEq, R.edge_graph hi,
    R.edge_graph hj, ↓reduceIte] at hh
  obtain ⟨h1, h2⟩ : g' = g ∧ j = i := by
    refine Classical.byContradiction fun hne => ?_
    rw [if_neg (by simpa using hne)] at hh
    cases hh
  subst h1 h2
  exact val_unique (R.idsNodup _) hi hj

/-- **C16**, edges of one graph: `==` never raises, is object identity (hence an equivalence) and is compatible with
`hash`, and `!=` is its opposite for edges with the same two ends. `!=` compares only the extra ids, so it is wrong for
other pairs: see `C16_edges_incoherent`. Missing for the full claim: `!=` for edges with different ends. -/
theorem C16_edges_partial {h : Heap} (r : Reachable h) {g : GRef} {e f : ERef} (he : LiveEdge h g e) (hf : LiveEdge h g f)
    (hash : Option GRef × EdgeId → Int) :
    edgeEq h e f = .ok (decide (e = f)) ∧
    (e = f → edgeHash hash h e = edgeHash hash h f) ∧ (∃ v, edgeHash hash h e = .ok v) ∧
    (edgeStart h e = edgeStart h f → edgeEnd h e = edgeEnd h f → edgeNe h e f = .ok (decide (e ≠ f))) := by
  obtain ⟨A, H⟩ := r.hist
  have R := H.rep
  obtain ⟨i, hi⟩ := (liveEdge_iff R).1 he
  obtain ⟨j, hj⟩ := (liveEdge_iff R).1 hf
  refine ⟨R.edgeEq_live (Rep.mem_handles.2 ⟨i, hi⟩) (Rep.mem_handles.2 ⟨j, hj⟩), ?_, ?_, ?_⟩
  · rintro rfl; rfl
  · exact ⟨_, by simp only [edgeHash, R.edgeId_eq hi]; rfl⟩
  · intro h1 h2
    obtain ⟨n, m, a1, a2, a3, -, -, a6, a7⟩ := R.live_edge hi
    obtain ⟨n', m', b1, b2, b3, -, -, b6, b7⟩ := R.live_edge hj
    simp only [edgeStart, edgeEnd, a1, a2, b1, b2, Except.ok.injEq] at h1 h2
    subst h1 h2
    simp only [edgeNe, R.edge_graph hi, R.edge_graph hj, ne_eq, not_true_eq_false, ↓reduceIte]
    congr 1
    rw [decide_eq_decide]
    refine not_congr ⟨?_, by rintro rfl; rfl⟩
    intro hr
    have : i = j := by
      have := a3; simp only [edgeId, a1, a2] at this
      have b := b3; simp only [edgeId, b1, b2, ← hr] at b
      rw [this] at b
      cases b; rfl
    subst this
    exact val_unique (R.idsNodup g) hi hj

example : LiveEdge demo 0 0 ∧ LiveEdge demo 0 3 ∧ edgeStart demo 0 = edgeStart demo 3 ∧ edgeEnd demo 0 = edgeEnd demo 3 :=
  ⟨⟨0, by decide, [0, 3], by decide, by decide⟩, ⟨0, by decide, [0, 3], by decide, by decide⟩, by decide, by decide⟩

/-- **C16 fails for edges**: in a reachable graph two different edges are neither `==` nor `!=`. -/
theorem C16_edges_incoherent : ∃ h g e f, Reachable h ∧ LiveEdge h g e ∧ LiveEdge h g f ∧
    edgeEq h e f = .ok false ∧ edgeNe h e f = .ok false :=
  ⟨demo, 0, 0, 1, demo_reachable, ⟨0, by decide, [0, 3], by decide, by decide⟩,
    ⟨1, by decide, [1], by decide, by decide⟩, by decide, by decide⟩

/-- **C16**, exactly what `!=` does: for two edges of one graph it compares the extra ids that were given to `connect` and
never raises, so the edges that are neither `==` nor `!=` are exactly the different edges with the same extra id (or both
without one), and no two edges are both. For edges of different graphs both comparisons raise `ValueError`. -/
theorem C16_edges_exact {h : Heap} (r : Reachable h) {g g' : GRef} {e f : ERef} (he : LiveEdge h g e) (hf : LiveEdge h g' f) :
    (g = g' → edgeNe h e f = .ok (decide ((h.edge e).raw ≠ (h.edge f).raw)) ∧
      ((edgeEq h e f = .ok false ∧ edgeNe h e f = .ok false) ↔ e ≠ f ∧ (h.edge e).raw = (h.edge f).raw) ∧
      ¬ (edgeEq h e f = .ok true ∧ edgeNe h e f = .ok true)) ∧
    (g ≠ g' → edgeEq h e f = .error (.valueError "different graphs") ∧
      edgeNe h e f = .error (.valueError "different graphs")) := by
  obtain ⟨A, H⟩ := r.hist
  have R := H.rep
  obtain ⟨i, hi⟩ := (liveEdge_iff R).1 he
  obtain ⟨j, hj⟩ := (liveEdge_iff R).1 hf
  have g1 := R.edge_graph hi
  have g2 := R.edge_graph hj
  constructor
  · rintro rfl
    have hne : edgeNe h e f = .ok (decide ((h.edge e).raw ≠ (h.edge f).raw)) := by simp [edgeNe, g1, g2]
    have heq : edgeEq h e f = .ok (decide (e = f)) := R.edgeEq_live (Rep.mem_handles.2 ⟨i, hi⟩) (Rep.mem_handles.2 ⟨j, hj⟩)
    refine ⟨hne, ?_, ?_⟩
    · rw [hne, heq]; simp
    · rw [hne, heq]
      simp only [Except.ok.injEq, decide_eq_true_eq]
      rintro ⟨rfl, h2⟩
      exact h2 rfl
  · intro hg
    simp [edgeEq, edgeNe, g1, g2, hg]

example : LiveEdge demo 0 0 ∧ LiveEdge demo 0 1 ∧ (demo.edge 0).raw = (demo.edge 1).raw :=
  ⟨⟨0, by decide, [0, 3], by decide, by decide⟩, ⟨1, by decide, [1], by decide, by decide⟩, by decide⟩

/-! ## C13 -/

/-- **C13** for names: `x in graph` is `True` exactly when a node of that name is among the nodes. For `Node` objects
the claim fails (`C13_node_raises`): missing is that half. -/
theorem C13_name_partial {h : Heap} (r : Reachable h) (g : GRef) (k : Key) :
    containsKey h g k = true ↔ ∃ n ∈ graphNodes h g, (h.node n).id = k := by
  obtain ⟨A, H⟩ := r.hist
  have R := H.rep
  simp only [containsKey, Option.isSome_iff_exists]
  constructor
  · rintro ⟨n, hn⟩
    have hm := mem_of_dget hn
    rw [R.nodes] at hm
    exact ⟨n, (mem_graphNodes R).2 ⟨k, hm⟩, (R.nodeOk g k n hm).2.1⟩
  · rintro ⟨n, hn, rfl⟩
    obtain ⟨k, hk⟩ := (mem_graphNodes R).1 hn
    rw [(R.nodeOk g k n hk).2.1, R.nodes]
    exact ⟨n, dget_of_mem (R.keysNodup g) hk⟩

/-- **C13 fails for nodes**: for every registered node and every hash function, `node in graph` raises `TypeError`;
it can only ever answer `False`. -/
theorem C13_node_raises {h : Heap} (r : Reachable h) (hash : Key → Int) {g : GRef} {n : NRef} :
    (n ∈ graphNodes h g → containsNode hash h g n = .error .typeError) ∧ containsNode hash h g n ≠ .ok true := by
  obtain ⟨A, H⟩ := r.hist
  have R := H.rep
  constructor
  · intro hn
    obtain ⟨k, hk⟩ := (mem_graphNodes R).1 hn
    unfold containsNode
    rw [if_pos]
    rw [List.any_eq_true]
    refine ⟨k, ?_, by simp [(R.nodeOk g k n hk).2.1]⟩
    unfold dkeys
    rw [R.nodes]
    exact List.mem_map.2 ⟨_, hk, rfl⟩
  · unfold containsNode; split <;> simp

end Verif
