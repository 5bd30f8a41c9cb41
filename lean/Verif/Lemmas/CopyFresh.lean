import Verif.Lemmas.Copy
/-!
# A copy touches no object that existed before

Unlike `run_graphCopy` this holds in every heap, reachable or not.
-/
namespace Verif
open M

/-- Nothing that exists in `h0` differs in `h`, and what the memo knows is new. -/
structure Fresh (h0 h : Heap) (m : Memo) : Prop where
  nG : h0.nG ≤ h.nG
  nN : h0.nN ≤ h.nN
  nE : h0.nE ≤ h.nE
  graph : ∀ g, g < h0.nG → h.graph g = h0.graph g
  node : ∀ n, n < h0.nN → h.node n = h0.node n
  edge : ∀ e, e < h0.nE → h.edge e = h0.edge e
  memoE : ∀ p ∈ m.edges, h0.nE ≤ p.2
  memoN : ∀ p ∈ m.nodes, h0.nN ≤ p.2 ∧ p.2 < h.nN
  newN : ∀ n, h0.nN ≤ n → n < h.nN → (∀ p ∈ (h.node n).outE, h0.nE ≤ p.2) ∧ (∀ p ∈ (h.node n).inE, h0.nE ≤ p.2)

theorem Fresh.start (h : Heap) : Fresh h h {} :=
  ⟨Nat.le_refl _, Nat.le_refl _, Nat.le_refl _, fun _ _ => rfl, fun _ _ => rfl, fun _ _ => rfl, by simp, by simp,
    fun _ h1 h2 => absurd h2 (Nat.not_lt.2 h1)⟩

theorem mem_of_dset {K V : Type} [DecidableEq K] {d : Dict K V} {k : K} {v : V} {p : K × V} (h : p ∈ dset d k v) :
    p.2 = v ∨ p ∈ d := by
  induction d with
  | nil => simp [dset] at h; exact .inl (by rw [h])
  | cons q d ih =>
    obtain ⟨a, b⟩ := q
    simp only [dset] at h
    split at h
    · rcases List.mem_cons.1 h with rfl | h
      · exact .inl rfl
      · exact .inr (by simp [h])
    · rcases List.mem_cons.1 h with rfl | h
      · exact .inr (by simp)
      · rcases ih h with h | h
        · exact .inl h
        · exact .inr (by simp [h])

theorem Fresh.copyEdge {h0 h : Heap} {m : Memo} (F : Fresh h0 h m) (e : ERef) :
    ∃ e' m' h', copyEdge m e h = (.ok (e', m'), h') ∧ Fresh h0 h' m' ∧ h0.nE ≤ e' ∧ h'.nN = h.nN := by
  unfold Verif.copyEdge
  cases hd : dget m.edges e with
  | some e' => exact ⟨e', m, h, rfl, F, F.memoE _ (mem_of_dget hd), rfl⟩
  | none =>
    obtain ⟨st, m1, k, hrun, hmn, hme, hst⟩ := run_copyStyle m (h.edge e).style h
    refine ⟨_, _, _, by simp only [bind_apply, look_apply, hrun, newEdge, pure_apply]; rfl, ?_, F.nE, ?_⟩
    rotate_left
    · rfl
    constructor
    · exact F.nG
    · exact F.nN
    · exact Nat.le_succ_of_le F.nE
    · exact F.graph
    · exact F.node
    · intro x hx
      simp only [upd_ne _ _ (Nat.ne_of_lt (Nat.lt_of_lt_of_le hx F.nE))]
      exact F.edge x hx
    · intro p hp
      rcases mem_of_dset hp with hp | hp
      · rw [hp]; exact F.nE
      · rw [hme] at hp; exact F.memoE p hp
    · intro p hp
      rw [show m1.nodes = m.nodes from hmn] at hp
      exact F.memoN p hp
    · exact F.newN

theorem Fresh.copyEdgeDict {h0 : Heap} : ∀ (d : Dict EdgeId ERef) {h : Heap} {m : Memo}, Fresh h0 h m →
    ∃ d' m' h', copyEdgeDict m d h = (.ok (d', m'), h') ∧ Fresh h0 h' m' ∧ (∀ p ∈ d', h0.nE ≤ p.2) ∧ h'.nN = h.nN := by
  intro d
  induction d with
  | nil => intro h m F; exact ⟨[], m, h, rfl, F, by simp, rfl⟩
  | cons p d ih =>
    intro h m F
    obtain ⟨e', m1, h1, r1, F1, b1, c1⟩ := F.copyEdge p.2
    obtain ⟨d', m2, h2, r2, F2, b2, c2⟩ := ih F1
    refine ⟨(p.1, e') :: d', m2, h2, ?_, F2, ?_, c2.trans c1⟩
    · obtain ⟨i, e⟩ := p
      simp only [Verif.copyEdgeDict, bind_apply, r1, r2, pure_apply]
    · intro q hq
      rcases List.mem_cons.1 hq with rfl | hq
      · exact b1
      · exact b2 q hq

theorem Fresh.copyNode {h0 h : Heap} {m : Memo} (F : Fresh h0 h m) (n : NRef) :
    ∃ n' m' h', copyNode m n h = (.ok (n', m'), h') ∧ Fresh h0 h' m' ∧ h0.nN ≤ n' ∧ n' < h'.nN ∧ h.nN ≤ h'.nN := by
  unfold Verif.copyNode
  cases hd : dget m.nodes n with
  | some n' => exact ⟨n', m, h, rfl, F, (F.memoN _ (mem_of_dget hd)).1, (F.memoN _ (mem_of_dget hd)).2, Nat.le_refl _⟩
  | none =>
    obtain ⟨d1, m1, h1, r1, F1, b1, c1⟩ := Fresh.copyEdgeDict (h.node n).outE F
    obtain ⟨d2, m2, h2, r2, F2, b2, c2⟩ := Fresh.copyEdgeDict (h.node n).inE F1
    refine ⟨_, _, _, by simp only [bind_apply, look_apply, r1, r2, newNode, pure_apply]; rfl, ?_, F2.nN, Nat.lt_succ_self _, ?_⟩
    rotate_left
    · exact Nat.le_succ_of_le (Nat.le_of_eq (by rw [c2, c1]))
    constructor
    · exact F2.nG
    · exact Nat.le_succ_of_le F2.nN
    · exact F2.nE
    · exact F2.graph
    · intro x hx
      simp only [upd_ne _ _ (Nat.ne_of_lt (Nat.lt_of_lt_of_le hx F2.nN))]
      exact F2.node x hx
    · exact F2.edge
    · exact F2.memoE
    · intro p hp
      rcases mem_of_dset hp with hp | hp
      · rw [hp]; exact ⟨F2.nN, Nat.lt_succ_self _⟩
      · exact ⟨(F2.memoN p hp).1, Nat.lt_succ_of_lt (F2.memoN p hp).2⟩
    · intro x hx hx'
      rcases Nat.lt_or_ge x h2.nN with hlt | hge
      · simp only [upd_ne _ _ (Nat.ne_of_lt hlt)]
        exact F2.newN x hx hlt
      · have : x = h2.nN := Nat.le_antisymm (Nat.le_of_lt_succ hx') hge
        subst this
        simp only [upd_same]
        exact ⟨b1, b2⟩

theorem Fresh.copyNodeDict {h0 : Heap} : ∀ (d : Dict Key NRef) {h : Heap} {m : Memo}, Fresh h0 h m →
    ∃ d' m' h', copyNodeDict m d h = (.ok (d', m'), h') ∧ Fresh h0 h' m' ∧ (∀ n ∈ dvals d', h0.nN ≤ n ∧ n < h'.nN) ∧
      h.nN ≤ h'.nN := by
  intro d
  induction d with
  | nil => intro h m F; exact ⟨[], m, h, rfl, F, by simp [dvals], Nat.le_refl _⟩
  | cons p d ih =>
    intro h m F
    obtain ⟨e', m1, h1, r1, F1, b1, c1, g1⟩ := F.copyNode p.2
    obtain ⟨d', m2, h2, r2, F2, b2, g2⟩ := ih F1
    refine ⟨(p.1, e') :: d', m2, h2, ?_, F2, ?_, Nat.le_trans g1 g2⟩
    · obtain ⟨i, e⟩ := p
      simp only [Verif.copyNodeDict, bind_apply, r1, r2, pure_apply]
    · intro q hq
      rcases List.mem_cons.1 hq with rfl | hq
      · exact ⟨b1, Nat.lt_of_lt_of_le c1 g2⟩
      · exact b2 q hq

/-- Changing a new graph object. -/
theorem Fresh.upGraph {h0 h : Heap} {m : Memo} (F : Fresh h0 h m) {g : GRef} (hg : h0.nG ≤ g) (o : GraphObj) :
    Fresh h0 { h with graph := upd h.graph g o } m :=
  { F with
    graph := fun x hx => (upd_ne _ _ (Nat.ne_of_lt (Nat.lt_of_lt_of_le hx hg))).trans (F.graph x hx) }

/-- Changing new node objects, except for their edges. -/
theorem Fresh.upNode {h0 h : Heap} {m : Memo} (F : Fresh h0 h m) {f : NRef → NodeObj}
    (hold : ∀ n, n < h0.nN → f n = h.node n) (ho : ∀ n, (f n).outE = (h.node n).outE) (hi : ∀ n, (f n).inE = (h.node n).inE) :
    Fresh h0 { h with node := f } m :=
  { F with
    node := fun n hn => (hold n hn).trans (F.node n hn)
    newN := fun n h1 h2 => by
      show (∀ p ∈ (f n).outE, _) ∧ (∀ p ∈ (f n).inE, _)
      rw [ho, hi]
      exact F.newN n h1 h2 }

/-- Changing new edge objects. -/
theorem Fresh.upEdge {h0 h : Heap} {m : Memo} (F : Fresh h0 h m) {f : ERef → EdgeObj}
    (hold : ∀ n, n < h0.nE → f n = h.edge n) : Fresh h0 { h with edge := f } m :=
  { F with edge := fun n hn => (hold n hn).trans (F.edge n hn) }

theorem Fresh.setStarts {h0 h : Heap} {m : Memo} (F : Fresh h0 h m) (n : NRef) (g : Option GRef) {es : List ERef}
    (hes : ∀ e ∈ es, h0.nE ≤ e) :
    ∃ h', setStarts n g es h = (.ok (), h') ∧ Fresh h0 h' m ∧ h'.nN = h.nN ∧ h'.node = h.node :=
  ⟨_, run_setStarts n g es h, F.upEdge (fun x hx => if_neg (fun hm => absurd (hes x hm) (Nat.not_le.2 hx))), rfl, rfl⟩

theorem Fresh.setEnds {h0 h : Heap} {m : Memo} (F : Fresh h0 h m) (n : NRef) (g : Option GRef) {es : List ERef}
    (hes : ∀ e ∈ es, h0.nE ≤ e) :
    ∃ h', setEnds n g es h = (.ok (), h') ∧ Fresh h0 h' m ∧ h'.nN = h.nN ∧ h'.node = h.node :=
  ⟨_, run_setEnds n g es h, F.upEdge (fun x hx => if_neg (fun hm => absurd (hes x hm) (Nat.not_le.2 hx))), rfl, rfl⟩

theorem Fresh.updNode {h0 h : Heap} {m : Memo} (F : Fresh h0 h m) {n : NRef} (hn : h0.nN ≤ n) (o : NodeObj)
    (ho : o.outE = (h.node n).outE) (hi : o.inE = (h.node n).inE) : Fresh h0 { h with node := upd h.node n o } m := by
  refine F.upNode (fun x hx => upd_ne _ _ (Nat.ne_of_lt (Nat.lt_of_lt_of_le hx hn))) ?_ ?_
  · intro x
    by_cases e : x = n
    · subst e; rw [upd_same, ho]
    · rw [upd_ne _ _ e]
  · intro x
    by_cases e : x = n
    · subst e; rw [upd_same, hi]
    · rw [upd_ne _ _ e]

theorem Fresh.updateEdges {h0 h : Heap} {m : Memo} (F : Fresh h0 h m) {n : NRef} (hn : h0.nN ≤ n) (hlt : n < h.nN) :
    ∃ h', updateEdges n h = (.ok (), h') ∧ Fresh h0 h' m ∧ h'.nN = h.nN := by
  obtain ⟨bo, bi⟩ := F.newN n hn hlt
  have bo' : ∀ e ∈ dvals (h.node n).outE, h0.nE ≤ e := by
    intro e he
    obtain ⟨p, hp, rfl⟩ := List.mem_map.1 he
    exact bo p hp
  have bi' : ∀ e ∈ dvals (h.node n).inE, h0.nE ≤ e := by
    intro e he
    obtain ⟨p, hp, rfl⟩ := List.mem_map.1 he
    exact bi p hp
  have h1 : ∃ h', onlyIf ((h.node n).outHaveStart = false) (Verif.setStarts n (h.node n).graph (dvals (h.node n).outE)) h =
      (.ok (), h') ∧ Fresh h0 h' m ∧ h'.nN = h.nN ∧ h'.node = h.node := by
    unfold onlyIf
    split
    · exact F.setStarts n _ bo'
    · exact ⟨h, rfl, F, rfl, rfl⟩
  obtain ⟨h1, r1, F1, n1, d1⟩ := h1
  let ha : Heap := { h1 with node := upd h1.node n { h1.node n with outHaveStart := true } }
  have Fa : Fresh h0 ha m := F1.updNode hn _ rfl rfl
  have h2 : ∃ h', onlyIf ((h.node n).inHaveEnd = false) (Verif.setEnds n (h.node n).graph (dvals (h.node n).inE)) ha =
      (.ok (), h') ∧ Fresh h0 h' m ∧ h'.nN = ha.nN ∧ h'.node = ha.node := by
    unfold onlyIf
    split
    · exact Fa.setEnds n _ bi'
    · exact ⟨ha, rfl, Fa, rfl, rfl⟩
  obtain ⟨h2, r2, F2, n2, d2⟩ := h2
  refine ⟨{ h2 with node := upd h2.node n { h2.node n with inHaveEnd := true } }, ?_, F2.updNode hn _ rfl rfl, n2.trans n1⟩
  simp only [Verif.updateEdges, bind_apply, look_apply, r1, modNode]
  rw [show onlyIf _ _ { h1 with node := upd h1.node n { h1.node n with outHaveStart := true } } = _ from r2]

theorem Fresh.updateNodesLoop {h0 : Heap} (g : GRef) : ∀ (ns : List NRef) {h : Heap} {m : Memo}, Fresh h0 h m →
    (∀ n ∈ ns, h0.nN ≤ n ∧ n < h.nN) → ∃ h', updateNodesLoop g ns h = (.ok (), h') ∧ Fresh h0 h' m := by
  intro ns
  induction ns with
  | nil => intro h m F _; exact ⟨h, rfl, F⟩
  | cons n ns ih =>
    intro h m F hns
    obtain ⟨hn, hlt⟩ := hns n (by simp)
    have Fa : Fresh h0 { h with node := upd h.node n { h.node n with graph := some g } } m := F.updNode hn _ rfl rfl
    obtain ⟨h1, r1, F1, n1⟩ := Fa.updateEdges hn hlt
    obtain ⟨h2, r2, F2⟩ := ih F1 (fun k hk => by rw [n1]; exact hns k (by simp [hk]))
    exact ⟨h2, by simp only [Verif.updateNodesLoop, bind_apply, modNode, r1, r2], F2⟩

/-- `copy` changes no object that existed before. -/
theorem graphCopy_fresh (g : GRef) (h : Heap) : ∃ m, Fresh h (graphCopy g h).2 m := by
  by_cases hst : ((dvals (h.graph g).nodes).any fun n => (h.node n).style.isSome) = true
  · refine ⟨{}, ?_⟩
    simp only [graphCopy, bind_apply, look_apply, hst, if_true, raise]
    exact .start h
  · obtain ⟨d, m, h1, r1, F1, b1, _⟩ := Fresh.copyNodeDict (h.graph g).nodes (.start h)
    let go : GraphObj := { nodes := d, strict := (h.graph g).strict, ordering := (h.graph g).ordering, nodesHaveGraph := false, counter := (h.graph g).counter, overwrite := none }
    have F2 : Fresh h { h1 with graph := upd h1.graph h1.nG go, nG := h1.nG + 1 } m :=
      { F1.upGraph F1.nG go with nG := Nat.le_succ_of_le F1.nG }
    have F3 := F2.upNode (f := fun x => if x ∈ dvals d then { h1.node x with graph := some h1.nG } else h1.node x)
      (fun x hx => if_neg fun hm => absurd (b1 x hm).1 (Nat.not_le.2 hx)) (fun x => by split <;> rfl) (fun x => by split <;> rfl)
    have F4 := F3.upGraph (g := h1.nG) F1.nG go
    obtain ⟨h5, r5, F5⟩ := Fresh.updateNodesLoop h1.nG (dvals d) F4 b1
    have F6 := F5.upGraph (g := h1.nG) F1.nG { h5.graph h1.nG with nodesHaveGraph := true }
    refine ⟨m, ?_⟩
    simp only [graphCopy, bind_apply, look_apply, hst, Bool.false_eq_true, if_false, r1, newGraph, run_setGraphs, modGraph,
      updateNodes, onlyIf, upd_same, pure_apply, if_true]
    rw [show Verif.updateNodesLoop h1.nG (dvals d) _ = _ from r5]
    exact F6

end Verif
