import Verif.Lemmas.Twin
import Verif.Props.Ledger
import Verif.Props.Roots
/-!
# C108: graphs that look alike answer alike
-/
namespace Verif
open M
open List (Forall₂)

theorem forall₂_keys {κ α β : Type} {l : List (κ × α)} {l' : List (κ × β)} (h : l.map Prod.fst = l'.map Prod.fst) :
    Forall₂ (fun p q => p.1 = q.1 ∧ p ∈ l ∧ q ∈ l') l l' := by
  suffices H : ∀ (m : List (κ × α)) (m' : List (κ × β)), (∀ p ∈ m, p ∈ l) → (∀ q ∈ m', q ∈ l') → m.map Prod.fst = m'.map Prod.fst →
      Forall₂ (fun p q => p.1 = q.1 ∧ p ∈ l ∧ q ∈ l') m m' from H l l' (fun _ h => h) (fun _ h => h) h
  intro m
  induction m with
  | nil =>
    intro m' _ _ hm
    cases m' with
    | nil => exact .nil
    | cons q m' => simp at hm
  | cons p m ih =>
    intro m' h1 h2 hm
    cases m' with
    | nil => simp at hm
    | cons q m' =>
      simp only [List.map_cons, List.cons.injEq] at hm
      exact .cons ⟨hm.1, h1 _ (by simp), h2 _ (by simp)⟩
        (ih m' (fun p hp => h1 p (by simp [hp])) (fun q hq => h2 q (by simp [hq])) hm.2)

theorem lookup_alike {κ α β γ : Type} [DecidableEq κ] {l : List (κ × α)} {l' : List (κ × β)} {f : α → γ} {f' : β → γ}
    (hn : (l.map Prod.fst).Nodup) (h : l.map (fun p => (p.1, f p.2)) = l'.map (fun q => (q.1, f' q.2))) {k : κ} {a : α} {b : β}
    (ha : (k, a) ∈ l) (hb : (k, b) ∈ l') : f a = f' b := by
  have h1 : (k, f a) ∈ l.map (fun p => (p.1, f p.2)) := List.mem_map.2 ⟨_, ha, rfl⟩
  have h2 : (k, f' b) ∈ l.map (fun p => (p.1, f p.2)) := by rw [h]; exact List.mem_map.2 ⟨_, hb, rfl⟩
  refine val_unique (d := l.map (fun p => (p.1, f p.2))) ?_ h1 h2
  rw [List.map_map]
  exact hn

/-- Nodes of the same name. -/
def SameName (A : Spec) (g : GRef) (A' : Spec) (g' : GRef) (n n' : NRef) : Prop :=
  ∃ k, (k, n) ∈ (A.graph g).nodes ∧ (k, n') ∈ (A'.graph g').nodes

/-- Edges of the same id. -/
def SameId (A : Spec) (g : GRef) (A' : Spec) (g' : GRef) (e e' : ERef) : Prop :=
  ∃ i, (i, e) ∈ (A.graph g).edges ∧ (i, e') ∈ (A'.graph g').edges

theorem nodeEq_iff {h : Heap} {A : Spec} (R : Rep h A) {g : GRef} {k j : Key} {n m : NRef} (hn : (k, n) ∈ (A.graph g).nodes)
    (hm : (j, m) ∈ (A.graph g).nodes) :
    (decide (n = m) || nodeEq h n m) = decide (k = j) ∧ nodeNe h n m = decide (k ≠ j) ∧ (n = m ↔ k = j) := by
  have h1 := (R.nodeOk g k n hn).2.1
  have h2 := (R.nodeOk g j m hm).2.1
  have h3 : n = m ↔ k = j := by
    constructor
    · rintro rfl; rw [← h1, h2]
    · rintro rfl; exact val_unique (R.keysNodup g) hn hm
  refine ⟨?_, ?_, h3⟩
  · by_cases hkj : k = j
    · simp [hkj, h3.2 hkj]
    · have : ¬ n = m := fun e => hkj (h3.1 e)
      simp [nodeEq, h1, h2, hkj, this]
  · by_cases hkj : k = j
    · have := h3.2 hkj
      subst this
      simp [nodeNe, hkj]
    · simp [nodeNe, h1, h2, hkj]

/-- The graphs of two ledgers that say the same are twins. -/
theorem twin {h h' : Heap} {A A' : Spec} {g g' : GRef} {L L' : Ledger} (B : Booked h A g L) (B' : Booked h' A' g' L')
    (s : L.SameText L') : Twin h g h' g' (SameName A g A' g') (SameId A g A' g') := by
  have R := B.rep
  have R' := B'.rep
  have keyed : ∀ {h : Heap} {A : Spec} {g : GRef} {L : Ledger} (_ : Booked h A g L),
      (A.graph g).nodes.map (fun p => (p.1, nodeText h p.2)) = L.nodes.map (fun v => (v.name, v.name, v.notes)) := by
    intro h A g L B
    rw [← B.nodes, List.map_map]
    apply List.map_congr_left
    rintro ⟨k, n⟩ hn
    simp only [Function.comp_apply, nodeEntry, nodeText, (B.rep.nodeOk g k n hn).2.1]
  have hnodes : (A.graph g).nodes.map (fun p => (p.1, nodeText h p.2)) = (A'.graph g').nodes.map (fun p => (p.1, nodeText h' p.2)) := by
    rw [keyed B, keyed B']
    have := congrArg (List.map fun v : Key × Notes => (v.1, v.1, v.2)) s.1
    simpa only [List.map_map, Function.comp_def] using this
  have hkeys : (A.graph g).nodes.map Prod.fst = (A'.graph g').nodes.map Prod.fst := by
    have := congrArg (List.map Prod.fst) hnodes
    simpa only [List.map_map, Function.comp_def] using this
  have hedges : (A.graph g).edges.map (fun p => (p.1, edgeNotes h p.2)) = (A'.graph g').edges.map (fun p => (p.1, edgeNotes h' p.2)) := by
    have h1 := congrArg (List.map fun v : EdgeL => (v.id, v.notes)) (B.edges.trans (s.2.trans B'.edges.symm))
    simpa only [List.map_map, Function.comp_def, entryAs] using h1
  have hids : (A.graph g).edges.map Prod.fst = (A'.graph g').edges.map Prod.fst := by
    have := congrArg (List.map Prod.fst) hedges
    simpa only [List.map_map, Function.comp_def] using this
  have sub : ∀ p : EdgeId → Bool, DictRel (SameId A g A' g') ((A.graph g).edges.filter fun x => p x.1) ((A'.graph g').edges.filter fun x => p x.1) := by
    intro p
    have h1 : ((A.graph g).edges.filter fun x => p x.1).map Prod.fst = ((A'.graph g').edges.filter fun x => p x.1).map Prod.fst := by
      have e1 := List.filter_map (f := Prod.fst) (p := p) (l := (A.graph g).edges)
      have e2 := List.filter_map (f := Prod.fst) (p := p) (l := (A'.graph g').edges)
      simp only [Function.comp_def] at e1 e2
      rw [← e1, ← e2, hids]
    refine (forall₂_keys h1).imp ?_
    rintro ⟨i, e⟩ ⟨j, f⟩ ⟨h2, h3, h4⟩
    simp only at h2
    subst h2
    exact ⟨rfl, i, (List.mem_filter.1 h3).1, (List.mem_filter.1 h4).1⟩
  have other : ∀ k n, (k, n) ∈ (A.graph g).nodes → ∃ n', (k, n') ∈ (A'.graph g').nodes := by
    intro k n hn
    have : k ∈ (A'.graph g').nodes.map Prod.fst := by rw [← hkeys]; exact List.mem_map.2 ⟨_, hn, rfl⟩
    obtain ⟨⟨k', n'⟩, h1, rfl⟩ := List.mem_map.1 this
    exact ⟨n', h1⟩
  refine ⟨?_, ?_, ?_, ?_, ?_, ?_, ?_, ?_, ?_, ?_, ?_, ?_, ?_⟩
  · intro k
    by_cases hk : ∃ n, (k, n) ∈ (A.graph g).nodes
    · obtain ⟨n, hn⟩ := hk
      obtain ⟨n', hn'⟩ := other k n hn
      rw [R.getNode_key.2 hn, R'.getNode_key.2 hn']
      exact ⟨k, hn, hn'⟩
    · have h1 : getNode h g (.key k) = .error .keyError := B.getNode_no (by rw [B.mem_names]; exact hk)
      have h2 : getNode h' g' (.key k) = .error .keyError := B'.getNode_no (by
        rw [B'.names]
        intro hm
        rw [SGraph.names, ← hkeys] at hm
        obtain ⟨⟨k', n⟩, h3, rfl⟩ := List.mem_map.1 hm
        exact hk ⟨n, h3⟩)
      rw [h1, h2]
      exact rfl
  · rintro n n' ⟨k, hn, hn'⟩
    exact ⟨R.getNode_ok.2 ⟨k, by rw [Rep.argName, R.name, (R.nodeOk g k n hn).2.1], hn⟩,
      R'.getNode_ok.2 ⟨k, by rw [Rep.argName, R'.name, (R'.nodeOk g' k n' hn').2.1], hn'⟩⟩
  · unfold graphNodes dvals
    rw [R.nodes, R'.nodes, List.forall₂_map_left_iff, List.forall₂_map_right_iff]
    refine (forall₂_keys hkeys).imp ?_
    rintro ⟨i, e⟩ ⟨j, f⟩ ⟨h2, h3, h4⟩
    simp only at h2
    subst h2
    exact ⟨i, h3, h4⟩
  · rintro n n' ⟨k, hn, hn'⟩
    rw [R.outE g k n hn, R'.outE g' k n' hn']
    exact sub fun i => decide (i.1 = k)
  · rintro n n' ⟨k, hn, hn'⟩
    rw [R.inE g k n hn, R'.inE g' k n' hn']
    exact sub fun i => decide (i.2.1 = k)
  · rintro e e' ⟨i, he, he'⟩
    obtain ⟨n, m, h1, h2, -, -, -, h6, h7⟩ := R.live_edge he
    obtain ⟨n', m', h1', h2', -, -, -, h6', h7'⟩ := R'.live_edge he'
    simp only [edgeStart, h1, h1']
    exact ⟨i.1, h6, h6'⟩
  · rintro e e' ⟨i, he, he'⟩
    obtain ⟨n, m, h1, h2, -, -, -, h6, h7⟩ := R.live_edge he
    obtain ⟨n', m', h1', h2', -, -, -, h6', h7'⟩ := R'.live_edge he'
    simp only [edgeEnd, h2, h2']
    exact ⟨i.2.1, h7, h7'⟩
  · rintro e e' ⟨i, he, he'⟩
    rw [R.edgeId_eq he, R'.edgeId_eq he']
  · rintro e e' ⟨i, he, he'⟩
    simp only [edgeEntry, R.edgeId_eq he, R'.edgeId_eq he', lookup_alike (R.idsNodup g) hedges he he']
  · rintro n n' ⟨k, hn, hn'⟩
    exact lookup_alike (R.keysNodup g) hnodes hn hn'
  · rintro n n' m m' ⟨k, hn, hn'⟩ ⟨j, hm, hm'⟩
    rw [(nodeEq_iff R hn hm).1, (nodeEq_iff R' hn' hm').1]
  · rintro n n' m m' ⟨k, hn, hn'⟩ ⟨j, hm, hm'⟩
    rw [(nodeEq_iff R hn hm).2.1, (nodeEq_iff R' hn' hm').2.1]
  · rintro e e' f f' ⟨i, he, he'⟩ ⟨j, hf, hf'⟩
    constructor
    · constructor
      · rintro rfl
        obtain ⟨-, rfl⟩ := R.handle_unique he hf
        exact val_unique (R'.idsNodup g') he' hf'
      · rintro rfl
        obtain ⟨-, rfl⟩ := R'.handle_unique he' hf'
        exact val_unique (R.idsNodup g) he hf
    · simp only [edgeEq, R.edge_graph he, R.edge_graph hf, R'.edge_graph he', R'.edge_graph hf', R.edgeId_eq he, R.edgeId_eq hf,
        R'.edgeId_eq he', R'.edgeId_eq hf', ne_eq, not_true_eq_false, if_false]

/-- Nodes of twins know their graphs alike if the ledgers say so. -/
theorem twin_homes {h h' : Heap} {A A' : Spec} {g g' : GRef} {L L' : Ledger} (B : Booked h A g L) (B' : Booked h' A' g' L')
    (s : L.nodes = L'.nodes) : Twin.Homes h g h' g' (SameName A g A' g') := by
  rintro n n' ⟨k, hn, hn'⟩
  have h1 := B.find_node hn
  have h2 := B'.find_node hn'
  rw [s, h2] at h1
  have h3 := congrArg NodeL.homeless (Option.some.inj h1)
  simp only [nodeEntry] at h3
  unfold nodeGraph
  rcases (B.rep.nodeOk g k n hn).2.2 with e | e <;> rcases (B'.rep.nodeOk g' k n' hn').2.2 with e' | e' <;> simp only [e, e'] at h3 ⊢
  · exact ⟨rfl, rfl⟩
  · simp at h3
  · simp at h3
  · exact rfl

theorem runMoves_reachable {h : Heap} (r : Reachable h) {g : GRef} (hg : g < h.nG) (ms : List Move) (ok : MovesOk g ms h) :
    Reachable (runMoves g ms h).2 ∧ g < (runMoves g ms h).2.nG := by
  induction ms generalizing h with
  | nil => exact ⟨r, hg⟩
  | cons m ms ih =>
    cases m with
    | deed d =>
      have hg' : g < (d.run g h).2.nG := by
        rcases d.call g h with ⟨op, -, e, -⟩ | e
        · rw [e]; exact Nat.lt_of_lt_of_le hg (Grows.step op h).nG
        · rw [e]; exact hg
      exact ih (d.reachable r hg) hg' ok
    | other op => exact ih (.step op r ok.1) (Nat.lt_of_lt_of_le hg (Grows.step op h).nG) ok.2.2

/-- The heap after copying. -/
theorem graphCopy_reachable {h h' : Heap} (r : Reachable h) {g g' : GRef} (hg : g < h.nG) {m : Memo}
    (hc : graphCopy g h = (.ok (g', m), h')) : Reachable h' ∧ g < h'.nG ∧ g' < h'.nG := by
  refine ⟨?_, ?_⟩
  · have := Reachable.step (.copy g) r hg
    simpa only [Op.step, bind_apply, hc, pure_apply] using this
  obtain ⟨A, H⟩ := r.hist
  have hst : ∀ n ∈ graphNodes h g, (h.node n).style = none := by
    intro n hn
    refine Classical.byContradiction fun hs => ?_
    rw [C33_violated hn hs] at hc
    cases hc
  obtain ⟨m', h'', hr, P⟩ := run_graphCopy H.rep hg hst
  rw [hr] at hc
  obtain ⟨h1, rfl⟩ := Prod.mk.inj hc
  obtain ⟨rfl, rfl⟩ := Prod.mk.inj (Except.ok.inj h1)
  rw [P.nG]
  exact ⟨Nat.lt_succ_of_lt hg, Nat.lt_succ_self _⟩

section
variable {h h' : Heap} (r : Reachable h) (r' : Reachable h') {g g' : GRef} (hg : g < h.nG) (hg' : g' < h'.nG) {L L' : Ledger}
  (K : Reads h g L) (K' : Reads h' g' L')
include r r' hg hg' K K'

theorem twins (s : L.SameText L') : ∃ T E, Twin h g h' g' T E ∧ (L.nodes = L'.nodes → Twin.Homes h g h' g' T) := by
  obtain ⟨A, B⟩ := K.booked r hg
  obtain ⟨A', B'⟩ := K'.booked r' hg'
  exact ⟨_, _, twin B B' s, fun e => twin_homes B B' e⟩

/-- **C108**: two graphs that look alike answer alike. -/
theorem C108_alike (s : L.SameText L') : AnswersAlike h g h' g' := by
  obtain ⟨T, E, W, -⟩ := twins r r' hg hg' K K' s
  have lst : ∀ a b, Forall₂ T a b → a.map (nodeText h) = b.map (nodeText h') := fun _ _ h => Forall₂.map_eq h fun _ _ h => W.text h
  have edg : ∀ a b, Forall₂ E a b → a.map (edgeEntry h) = b.map (edgeEntry h') := fun _ _ h => Forall₂.map_eq h fun _ _ h => W.entry h
  have dct : ∀ a b : Dict Nat (List NRef), DictRel (Forall₂ T) a b →
      a.map (fun p => (p.1, p.2.map (nodeText h))) = b.map (fun p => (p.1, p.2.map (nodeText h'))) :=
    fun _ _ h => Forall₂.map_eq h fun _ _ h => by rw [h.1, lst _ _ h.2]
  refine ⟨lst _ _ W.nodes, fun k => (W.find k).to_eq fun _ _ h => W.text h, fun k => ?_, W.graphEdges.to_eq edg,
    W.edgesDict.to_eq fun _ _ h => Forall₂.map_eq h fun _ _ h => by rw [h.1, W.entry h.2],
    fun k => (W.getOutwardEdges (.key k)).to_eq edg, fun k => (W.getInwardEdges (.key k)).to_eq edg,
    fun k => (W.getEdges (.key k)).to_eq edg, fun k => (W.getChildren (.key k)).to_eq lst, fun k => (W.getParents (.key k)).to_eq lst,
    fun k => (W.getSiblings (.key k)).to_eq lst, fun k => (W.getSpouses (.key k)).to_eq lst,
    fun lim k => (W.getAncestors (.key k)).to_eq lst, fun lim k => (W.getDescendants (.key k)).to_eq lst,
    fun lim k => (W.getAncestorsDict (.key k)).to_eq dct, fun lim k => (W.getDescendantsDict (.key k)).to_eq dct,
    fun lim k => W.isNodeInLoop (.key k), fun lim k j => W.areNodesInSameLoop (.key k) (.key j), fun lim => W.roots.to_eq lst⟩
  have h1 := W.find k
  unfold getNode at h1
  unfold containsKey
  cases h2 : dget (h.graph g).nodes k <;> cases h3 : dget (h'.graph g').nodes k <;> simp only [h2, h3] at h1
  · rfl
  · exact absurd h1 id
  · exact absurd h1 id
  · rfl

/-- **C108**: if moreover the nodes know their graphs alike, so do the answers that depend on it, down to the printed tree, character by
character. -/
theorem C108_alike_home (s : L.SameText L') (own : L.nodes = L'.nodes) : AnswersAlikeHome h g h' g' := by
  obtain ⟨T, E, W, O⟩ := twins r r' hg hg' K K' s
  have lst : ∀ a b, Forall₂ T a b → a.map (nodeText h) = b.map (nodeText h') := fun _ _ h => Forall₂.map_eq h fun _ _ h => W.text h
  exact ⟨(W.absoluteRoots (O own)).to_eq lst, (W.leaves (O own)).to_eq lst, fun lim => (W.loopNodes (O own)).to_eq lst,
    fun lim => W.getTreeStr (O own)⟩

/-- **C108**: two graphs that look alike and to which the same calls are made, whatever else the two programs do, answer alike ever
after. -/
theorem C108_after (s : L = L') (ms ms' : List Move) (ok : MovesOk g ms h) (ok' : MovesOk g' ms' h') (same : deedsOf ms = deedsOf ms') :
    AnswersAlike (runMoves g ms h).2 g (runMoves g' ms' h').2 g' ∧ AnswersAlikeHome (runMoves g ms h).2 g (runMoves g' ms' h').2 g' := by
  subst s
  have h1 := (C107_interleaved r hg K ms ok).2
  have h2 := (C107_interleaved r' hg' K' ms' ok').2
  rw [← same] at h2
  obtain ⟨r1, g1⟩ := runMoves_reachable r hg ms ok
  obtain ⟨r2, g2⟩ := runMoves_reachable r' hg' ms' ok'
  exact ⟨C108_alike r1 r2 g1 g2 h1 h2 ⟨rfl, rfl⟩, C108_alike_home r1 r2 g1 g2 h1 h2 ⟨rfl, rfl⟩ rfl⟩

end

theorem Ledger.copy_sameText (L : Ledger) : L.copy.SameText L := by
  simp [Ledger.SameText, Ledger.copy, Function.comp_def]

theorem readNodes_error {h : Heap} {q : Except PyErr (List NRef)} {e : PyErr} : readNodes h q = .error e ↔ q = .error e := by
  cases q <;> simp [readNodes, Except.map]

/-- **C108**: a copy answers like its original. If no node of the original has lost its graph, that holds of every answer, and
only then: otherwise `leaves` and `absolute_roots` raise for the original (C26) and not for the copy. -/
theorem C108_copy {h h' : Heap} (r : Reachable h) {g g' : GRef} (hg : g < h.nG) {m : Memo} (hc : graphCopy g h = (.ok (g', m), h')) :
    AnswersAlike h' g' h' g ∧ AnswersAlike h' g' h g ∧
      (AnswersAlikeHome h' g' h g ↔ ∀ n ∈ graphNodes h g, (h.node n).graph ≠ none) ∧
      (AnswersAlikeHome h' g' h' g ↔ ∀ n ∈ graphNodes h g, (h.node n).graph ≠ none) := by
  obtain ⟨L, K⟩ := C107_exists r hg
  obtain ⟨K1, K2⟩ := C107_copy r hg K hc
  obtain ⟨r', h1, h2⟩ := graphCopy_reachable r hg hc
  refine ⟨C108_alike r' r' h2 h1 K1 K2 L.copy_sameText, C108_alike r' r h2 hg K1 K L.copy_sameText, ?_⟩
  have own : (∀ n ∈ graphNodes h g, (h.node n).graph ≠ none) → L.copy.nodes = L.nodes := by
    intro hn
    simp only [Ledger.copy]
    rw [← K.nodes, List.map_map]
    apply List.map_congr_left
    intro n hm
    have : (h.node n).graph.isNone = false := by
      cases e : (h.node n).graph with
      | none => exact absurd e (hn n hm)
      | some g => rfl
    simp only [Function.comp_apply, nodeEntry, this]
  have new : ¬ leaves h' g' = .error .attributeError := by
    rw [(C26_raises r' g').2]
    rintro ⟨n, hn, e⟩
    have h3 : nodeEntry h' n ∈ L.copy.nodes := by rw [← K1.nodes]; exact List.mem_map.2 ⟨n, hn, rfl⟩
    simp only [Ledger.copy, List.mem_map] at h3
    obtain ⟨v, -, h4⟩ := h3
    have h5 := congrArg NodeL.homeless h4
    simp [nodeEntry, e] at h5
  have lost : leaves h' g = .error .attributeError ↔ leaves h g = .error .attributeError := by
    have a := (C108_alike_home r' r h1 hg K2 K ⟨rfl, rfl⟩ rfl).leaves
    rw [← readNodes_error (h := h'), a, readNodes_error]
  refine ⟨⟨fun a n hn e => new ?_, fun hn => C108_alike_home r' r h2 hg K1 K L.copy_sameText (own hn)⟩,
    ⟨fun a n hn e => new ?_, fun hn => C108_alike_home r' r' h2 h1 K1 K2 L.copy_sameText (own hn)⟩⟩
  · rw [← readNodes_error (h := h'), a.leaves, readNodes_error]
    exact (C26_raises r g).2.2 ⟨n, hn, e⟩
  · rw [← readNodes_error (h := h'), a.leaves, readNodes_error, lost]
    exact (C26_raises r g).2.2 ⟨n, hn, e⟩

/-- **C108**: and goes on doing so if the same calls, none of which gives a style, are made to both. -/
theorem C108_copy_after {h h' : Heap} (r : Reachable h) {g g' : GRef} (hg : g < h.nG) {m : Memo}
    (hc : graphCopy g h = (.ok (g', m), h')) (ms ms' : List Move) (ok : MovesOk g ms h') (ok' : MovesOk g' ms' h')
    (same : deedsOf ms = deedsOf ms') (pl : ∀ d ∈ deedsOf ms, d.Plain) :
    AnswersAlike (runMoves g' ms' h').2 g' (runMoves g ms h').2 g := by
  obtain ⟨-, L, K, K'⟩ := C107_copy_behaves r hg hc ms ms' ok ok' same pl
  obtain ⟨r', h1, h2⟩ := graphCopy_reachable r hg hc
  obtain ⟨r1, g1⟩ := runMoves_reachable r' h1 ms ok
  obtain ⟨r2, g2⟩ := runMoves_reachable r' h2 ms' ok'
  exact C108_alike r2 r1 g2 g1 K' K L.copy_sameText

end Verif
