import Verif.Props.FilterReach
/-!
# Filtering again

**C124.** How calls of `filter` compose. The given nodes are named.
-/
namespace Verif
open M

/-- The name is one of the given ones, or leads to one of them, or one of them leads to it. -/
def NearTo (h : Heap) (g : GRef) (ks : List Key) (k : Key) : Prop := ∃ l ∈ ks, k = l ∨ Leads h g k l ∨ Leads h g l k

theorem known_iff {h : Heap} (r : Reachable h) {g : GRef} {k : Key} :
    k ∈ namesOf h g ↔ ∃ x, getNode h g (.key k) = .ok x := by
  obtain ⟨A, H⟩ := r.hist
  constructor
  · intro hk
    obtain ⟨n, hn, rfl⟩ := List.mem_map.1 hk
    obtain ⟨k', hk'⟩ := (mem_graphNodes H.rep).1 hn
    refine ⟨n, H.rep.getNode_key.2 ?_⟩
    rw [(H.rep.nodeOk _ _ _ hk').2.1]
    exact hk'
  · rintro ⟨x, hx⟩
    exact List.mem_map.2 ⟨x, getNode_mem r hx, (H.rep.nodeOk _ _ _ (H.rep.getNode_key.1 hx)).2.1⟩

theorem found_name {h : Heap} (r : Reachable h) {g : GRef} {k : Key} {x : NRef} (hx : getNode h g (.key k) = .ok x) : (h.node x).id = k := by
  obtain ⟨A, H⟩ := r.hist
  exact (H.rep.nodeOk _ _ _ (H.rep.getNode_key.1 hx)).2.1

theorem namesOf_nodup {h : Heap} (r : Reachable h) {g : GRef} : (namesOf h g).Nodup :=
  (List.nodup_map_iff_inj_on (graphNodes_nodup r g)).2 fun _ hx _ hy e => node_eq_of_name r hx hy e

theorem sublist_eq_filter {α : Type} [DecidableEq α] {s l : List α} (hs : s.Sublist l) (nd : l.Nodup) : s = l.filter fun x => decide (x ∈ s) := by
  induction hs with
  | slnil => rfl
  | @cons s l a hs ih =>
    obtain ⟨h1, h2⟩ := List.nodup_cons.1 nd
    rw [List.filter_cons_of_neg (by simpa using fun hc => h1 (hs.subset hc))]
    exact ih h2
  | @cons_cons s l a hs ih =>
    obtain ⟨h1, h2⟩ := List.nodup_cons.1 nd
    rw [List.filter_cons_of_pos (by simp)]
    congr 1
    conv => lhs; rw [ih h2]
    refine List.filter_congr fun x hx => ?_
    have : x ≠ a := fun e => h1 (e ▸ hx)
    simp [this]

section
variable {h h' : Heap} (r : Reachable h) {g g' : GRef} (hg : g < h.nG)
  (hown : ∀ n ∈ graphNodes h g, (h.node n).graph = some g) {lim : Nat} (hlim : (graphNodes h g).length ≤ lim)
  {ks : List Key} {direction filterType : String} {m : Memo}
  (hrun : graphFilter lim g (ks.map .key) direction filterType h = (.ok (g', m), h'))
include r hg hown hlim hrun

/-- What `filter` returns can be filtered in its turn. -/
theorem filter_result : Reachable h' ∧ g' < h'.nG ∧ (∀ n ∈ graphNodes h' g', (h'.node n).graph = some g') ∧
    (∀ n ∈ graphNodes h' g', (h'.node n).style = none) ∧ (graphNodes h' g').length ≤ lim ∧ (∀ k ∈ ks, k ∈ namesOf h g) ∧
    (∀ s t, Joined h' g' s t ↔ Joined h g s t ∧ s ∈ namesOf h' g' ∧ t ∈ namesOf h' g') ∧
    namesOf h' g' = (namesOf h g).filter (fun k => decide (k ∈ namesOf h' g')) ∧
    ∀ k, k ∈ namesOf h' g' ↔ k ∈ namesOf h g ∧ (NearTo h g ks k ↔ filterType = "include") := by
  obtain ⟨r', hn, hj, hk⟩ := filter_returned r hg hown hlim hrun
  have hst : ∀ n ∈ graphNodes h g, (h.node n).style = none := by
    intro n hn
    refine Classical.byContradiction fun hs => ?_
    obtain ⟨err, he⟩ := C34_violated hn hs lim (ks.map .key) direction filterType
    rw [hrun] at he
    cases he
  have key : ∃ keep, g' < h'.nG ∧ InducedOf h h' g g' keep m.node m.edge := by
    by_cases hft : filterType = "include"
    · subst hft
      obtain ⟨g1, m1, h1, keep, e, -, r', -, -, -, hi⟩ := C34_include_partial r hg hown hst hlim hn direction
      rw [hrun] at e
      cases e
      exact ⟨keep, r', hi⟩
    · obtain ⟨g1, m1, h1, keep, e, -, r', -, -, -, hi⟩ := C34_exclude_partial r hg hown hst hlim hn direction hft
      rw [hrun] at e
      cases e
      exact ⟨keep, r', hi⟩
  obtain ⟨keep, lt, hi⟩ := key
  have from_ : ∀ n' ∈ graphNodes h' g', ∃ n ∈ graphNodes h g, keep n = true ∧ m.node n = n' := by
    intro n' hn'
    rw [hi.nodes] at hn'
    obtain ⟨n, hn, rfl⟩ := List.mem_map.1 hn'
    obtain ⟨h1, h2⟩ := List.mem_filter.1 hn
    exact ⟨n, h1, h2, rfl⟩
  refine ⟨r', lt, ?_, ?_, ?_, ?_, hj, ?_, ?_⟩
  · intro n' hn'
    obtain ⟨n, h1, h2, rfl⟩ := from_ n' hn'
    exact (hi.node n h1 h2).1
  · intro n' hn'
    obtain ⟨n, h1, h2, rfl⟩ := from_ n' hn'
    obtain ⟨-, -, -, -, -, -, -, -, e⟩ := hi.node n h1 h2
    rw [e, hst n h1]
  · rw [hi.nodes, List.length_map]
    exact (List.length_filter_le _ _).trans hlim
  · intro k hk
    exact (known_iff r).2 (hn _ (List.mem_map.2 ⟨k, hk, rfl⟩))
  · refine sublist_eq_filter ?_ (namesOf_nodup r)
    unfold namesOf
    rw [hi.nodes, List.map_map]
    have : ((graphNodes h g).filter keep).map ((fun n => (h'.node n).id) ∘ m.node) = ((graphNodes h g).filter keep).map fun n => (h.node n).id :=
      List.map_congr_left fun n hn => (hi.node n (List.mem_filter.1 hn).1 (List.mem_filter.1 hn).2).2.1
    rw [this]
    exact List.filter_sublist.map _
  · intro k
    rw [hk k]
    refine and_congr_right fun _ => iff_congr ?_ Iff.rfl
    constructor
    · rintro ⟨a, ha, x, hx, c⟩
      obtain ⟨l, hl, rfl⟩ := List.mem_map.1 ha
      rw [found_name r hx] at c
      exact ⟨l, hl, c⟩
    · rintro ⟨l, hl, c⟩
      obtain ⟨x, hx⟩ := hn (.key l) (List.mem_map.2 ⟨l, hl, rfl⟩)
      refine ⟨_, List.mem_map.2 ⟨l, hl, rfl⟩, x, hx, ?_⟩
      rwa [found_name r hx]

omit hrun in
/-- With names the graph has, `filter` returns unless a node has a style. -/
theorem filter_returns (hst : ∀ n ∈ graphNodes h g, (h.node n).style = none) (hks : ∀ k ∈ ks, k ∈ namesOf h g) (direction filterType : String) :
    ∃ g' m h', graphFilter lim g (ks.map .key) direction filterType h = (.ok (g', m), h') := by
  have hn : ∀ a ∈ ks.map NodeArg.key, ∃ x, getNode h g a = .ok x := by
    intro a ha
    obtain ⟨k, hk, rfl⟩ := List.mem_map.1 ha
    exact (known_iff r).1 (hks k hk)
  by_cases hft : filterType = "include"
  · subst hft
    obtain ⟨g1, m1, h1, keep, e, -⟩ := C34_include_partial r hg hown hst hlim hn direction
    exact ⟨_, _, _, e⟩
  · obtain ⟨g1, m1, h1, keep, e, -⟩ := C34_exclude_partial r hg hown hst hlim hn direction hft
    exact ⟨_, _, _, e⟩

/-- Names at a given name are kept with it. -/
theorem nearTo_kept (hft : filterType = "include") {ls : List Key} (hls : ∀ l ∈ ls, l ∈ ks) (k : Key) :
    NearTo h' g' ls k ↔ NearTo h g ls k := by
  obtain ⟨-, -, -, -, -, hks, hj, -, hk⟩ := filter_result r hg hown hlim hrun
  have kept : ∀ {s t}, Leads h' g' s t → s ∈ namesOf h' g' ∧ t ∈ namesOf h' g' := by
    intro s t p
    obtain ⟨z, j, -⟩ := Relation.TransGen.head'_iff.1 p
    obtain ⟨z', -, j'⟩ := Relation.TransGen.tail'_iff.1 p
    exact ⟨((hj _ _).1 j).2.1, ((hj _ _).1 j').2.2⟩
  have ends : ∀ {s t}, Leads h g s t → s ∈ namesOf h g ∧ t ∈ namesOf h g := by
    intro s t p
    obtain ⟨z, j, -⟩ := Relation.TransGen.head'_iff.1 p
    obtain ⟨z', -, j'⟩ := Relation.TransGen.tail'_iff.1 p
    exact ⟨(joined_names r j).1, (joined_names r j').2⟩
  refine exists_congr fun l => and_congr_right fun hl => or_congr Iff.rfl ?_
  have hl' : l ∈ namesOf h' g' := (hk l).2 ⟨hks l (hls l hl), iff_of_true ⟨l, hls l hl, .inl rfl⟩ hft⟩
  obtain ⟨x, hx⟩ := (known_iff r).1 (hks l (hls l hl))
  have tow : ∀ {s}, s ∈ namesOf h' g' → (Leads h' g' s l ↔ Leads h g s l) := fun hs =>
    C120_include r hg hown hlim hrun hft hs hl' ⟨_, List.mem_map.2 ⟨l, hls l hl, rfl⟩, x, hx, .inl (.inl (found_name r hx).symm)⟩
  have fro : ∀ {s}, s ∈ namesOf h' g' → (Leads h' g' l s ↔ Leads h g l s) := fun hs =>
    C120_include r hg hown hlim hrun hft hl' hs ⟨_, List.mem_map.2 ⟨l, hls l hl, rfl⟩, x, hx, .inr (.inl (found_name r hx).symm)⟩
  constructor
  · rintro (c | c)
    · exact .inl ((tow (kept c).1).1 c)
    · exact .inr ((fro (kept c).2).1 c)
  · rintro (c | c)
    · exact .inl ((tow ((hk k).2 ⟨(ends c).1, iff_of_true ⟨l, hls l hl, .inr (.inl c)⟩ hft⟩)).2 c)
    · exact .inr ((fro ((hk k).2 ⟨(ends c).2, iff_of_true ⟨l, hls l hl, .inr (.inr c)⟩ hft⟩)).2 c)

/-- **C124**: filtering again for the same nodes changes nothing: the call returns, and its result has the same names in the same order and
the same pairs of names joined by an edge. -/
theorem C124_again (hft : filterType = "include") (direction' : String) :
    ∃ g2 m2 h2, graphFilter lim g' (ks.map .key) direction' "include" h' = (.ok (g2, m2), h2) ∧ namesOf h2 g2 = namesOf h' g' ∧
      ∀ s t, Joined h2 g2 s t ↔ Joined h' g' s t := by
  obtain ⟨r', lt, own', st', lim', hks, -, -, hk⟩ := filter_result r hg hown hlim hrun
  have hks' : ∀ k ∈ ks, k ∈ namesOf h' g' := fun k hk' => (hk k).2 ⟨hks k hk', iff_of_true ⟨k, hk', .inl rfl⟩ hft⟩
  obtain ⟨g2, m2, h2, run2⟩ := filter_returns r' lt own' lim' st' hks' direction' "include"
  obtain ⟨r2, -, -, -, -, -, hj2, hn2, hk2⟩ := filter_result r' lt own' lim' run2
  have all : ∀ k ∈ namesOf h' g', k ∈ namesOf h2 g2 := fun k hk' =>
    (hk2 k).2 ⟨hk', iff_of_true ((nearTo_kept r hg hown hlim hrun hft (fun _ h => h) k).2 (((hk k).1 hk').2.2 hft)) rfl⟩
  refine ⟨g2, m2, h2, run2, ?_, fun s t => ?_⟩
  · rw [hn2]
    exact List.filter_eq_self.2 fun k hk' => by simpa using all k hk'
  · rw [hj2]
    exact ⟨fun c => c.1, fun c => ⟨c, all _ (joined_names r' c).1, all _ (joined_names r' c).2⟩⟩

/-- **C124**: what was excluded is gone, so excluding it again raises. -/
theorem C124_gone (hft : filterType ≠ "include") {ls : List Key} (hls : ∃ l ∈ ls, NearTo h g ks l) (direction' filterType' : String) :
    ∃ e, graphFilter lim g' (ls.map .key) direction' filterType' h' = (.error e, h') := by
  obtain ⟨r', lt, own', st', lim', hks, -, -, hk⟩ := filter_result r hg hown hlim hrun
  have first : ∀ (ls pre : List Key), (∀ k ∈ pre, k ∈ namesOf h' g') → (∃ l ∈ ls, l ∉ namesOf h' g') →
      ∃ e, graphFilter lim g' ((pre ++ ls).map .key) direction' filterType' h' = (.error e, h') := by
    intro ls
    induction ls with
    | nil => rintro pre - ⟨l, hl, -⟩; cases hl
    | cons l ls ih =>
      rintro pre hp ⟨x, hx, hn⟩
      by_cases hl : l ∈ namesOf h' g'
      · rw [show pre ++ l :: ls = (pre ++ [l]) ++ ls by simp]
        refine ih _ ?_ ⟨x, ?_, hn⟩
        · intro k hk
          rcases List.mem_append.1 hk with hk | hk
          · exact hp k hk
          · rw [List.mem_singleton.1 hk]; exact hl
        · rcases List.mem_cons.1 hx with rfl | hx
          · exact absurd hl hn
          · exact hx
      · cases hq : getNode h' g' (.key l) with
        | ok y => exact absurd ((known_iff r').2 ⟨y, hq⟩) hl
        | error e =>
          refine ⟨e, ?_⟩
          rw [List.map_append, List.map_cons]
          refine C34_unknown r' own' lim' _ ?_ hq _ _
          intro b hb
          obtain ⟨k, hk, rfl⟩ := List.mem_map.1 hb
          exact (known_iff r').1 (hp k hk)
  obtain ⟨l, hl, near⟩ := hls
  exact first ls [] (by simp) ⟨l, hl, fun c => absurd (((hk l).1 c).2.1 near) hft⟩

end

section
variable {h : Heap} (r : Reachable h) {g : GRef} (hg : g < h.nG)
  (hown : ∀ n ∈ graphNodes h g, (h.node n).graph = some g) {lim : Nat} (hlim : (graphNodes h g).length ≤ lim)
include r hg hown hlim

/-- **C124**: filtering for some nodes and filtering them out share the names among each other. -/
theorem C124_split {ks : List Key} {d1 d2 : String} {g1 g2 : GRef} {m1 m2 : Memo} {h1 h2 : Heap}
    (run1 : graphFilter lim g (ks.map .key) d1 "include" h = (.ok (g1, m1), h1))
    (run2 : graphFilter lim g (ks.map .key) d2 "exclude" h = (.ok (g2, m2), h2)) :
    namesOf h2 g2 = (namesOf h g).filter (fun k => decide (k ∉ namesOf h1 g1)) ∧ (namesOf h1 g1 ++ namesOf h2 g2).Perm (namesOf h g) := by
  obtain ⟨-, -, -, -, -, -, -, n1, k1⟩ := filter_result r hg hown hlim run1
  obtain ⟨-, -, -, -, -, -, -, n2, k2⟩ := filter_result r hg hown hlim run2
  have e : namesOf h2 g2 = (namesOf h g).filter (fun k => decide (k ∉ namesOf h1 g1)) := by
    rw [n2]
    refine List.filter_congr fun k hk => ?_
    rw [decide_eq_decide, k1, k2]
    simp [hk]
  refine ⟨e, ?_⟩
  rw [e]
  have := List.filter_append_perm (fun k => decide (k ∈ namesOf h1 g1)) (namesOf h g)
  rw [← n1] at this
  simpa using this

/-- **C124**: filtering for two lists of nodes keeps what filtering for one or the other keeps. -/
theorem C124_union {ks ls : List Key} {d1 d2 d3 : String} {g1 g2 g3 : GRef} {m1 m2 m3 : Memo} {h1 h2 h3 : Heap}
    (run1 : graphFilter lim g (ks.map .key) d1 "include" h = (.ok (g1, m1), h1))
    (run2 : graphFilter lim g (ls.map .key) d2 "include" h = (.ok (g2, m2), h2))
    (run3 : graphFilter lim g ((ks ++ ls).map .key) d3 "include" h = (.ok (g3, m3), h3)) :
    namesOf h3 g3 = (namesOf h g).filter (fun k => decide (k ∈ namesOf h1 g1 ∨ k ∈ namesOf h2 g2)) := by
  obtain ⟨-, -, -, -, -, -, -, n1, k1⟩ := filter_result r hg hown hlim run1
  obtain ⟨-, -, -, -, -, -, -, n2, k2⟩ := filter_result r hg hown hlim run2
  obtain ⟨-, -, -, -, -, -, -, n3, k3⟩ := filter_result r hg hown hlim run3
  rw [n3]
  refine List.filter_congr fun k hk => ?_
  rw [decide_eq_decide, k1, k2, k3]
  simp only [hk, NearTo, List.mem_append, true_and, iff_true]
  grind

/-- **C124**: excluding nodes in two calls is excluding them in one. -/
theorem C124_exclude {ks ls : List Key} {d1 d2 d3 f1 f2 f3 : String} (e1 : f1 ≠ "include") (e2 : f2 ≠ "include") (e3 : f3 ≠ "include")
    {g1 g2 g3 : GRef} {m1 m2 m3 : Memo} {h1 h2 h3 : Heap}
    (run1 : graphFilter lim g (ks.map .key) d1 f1 h = (.ok (g1, m1), h1))
    (run2 : graphFilter lim g1 (ls.map .key) d2 f2 h1 = (.ok (g2, m2), h2))
    (run3 : graphFilter lim g ((ks ++ ls).map .key) d3 f3 h = (.ok (g3, m3), h3)) :
    namesOf h2 g2 = namesOf h3 g3 ∧ ∀ s t, Joined h2 g2 s t ↔ Joined h3 g3 s t := by
  obtain ⟨r1, lt1, own1, -, lim1, -, j1, n1, k1⟩ := filter_result r hg hown hlim run1
  obtain ⟨-, -, -, -, -, ks2, j2, n2, k2⟩ := filter_result r1 lt1 own1 lim1 run2
  obtain ⟨-, -, -, -, -, -, j3, n3, k3⟩ := filter_result r hg hown hlim run3
  have near : ∀ k ∈ namesOf h1 g1, (NearTo h1 g1 ls k ↔ NearTo h g ls k) := by
    intro k hk
    refine exists_congr fun l => and_congr_right fun hl => ?_
    rw [C120_exclude r hg hown hlim run1 e1 hk (ks2 l hl), C120_exclude r hg hown hlim run1 e1 (ks2 l hl) hk]
  have mem : ∀ k, k ∈ namesOf h2 g2 ↔ k ∈ namesOf h3 g3 := by
    intro k
    rw [k2, k3]
    simp only [e1, e2, e3, iff_false] at *
    constructor
    · rintro ⟨c1, c2⟩
      rw [near k c1] at c2
      obtain ⟨c3, c4⟩ := (k1 k).1 c1
      refine ⟨c3, ?_⟩
      rintro ⟨l, hl, c⟩
      rcases List.mem_append.1 hl with hl | hl
      · exact c4 ⟨l, hl, c⟩
      · exact c2 ⟨l, hl, c⟩
    · rintro ⟨c1, c2⟩
      have c3 := (k1 k).2 ⟨c1, fun ⟨l, hl, c⟩ => c2 ⟨l, List.mem_append_left _ hl, c⟩⟩
      exact ⟨c3, by rw [near k c3]; exact fun ⟨l, hl, c⟩ => c2 ⟨l, List.mem_append_right _ hl, c⟩⟩
  constructor
  · rw [n2, n1, n3, List.filter_filter]
    refine List.filter_congr fun k hk => ?_
    have : k ∈ namesOf h2 g2 → k ∈ namesOf h1 g1 := fun c => ((k2 k).1 c).1
    have := mem k
    grind
  · intro s t
    rw [j2, j1, j3, mem, mem]
    constructor
    · rintro ⟨⟨a, -⟩, b⟩; exact ⟨a, b⟩
    · rintro ⟨a, b⟩; exact ⟨⟨a, ((k2 s).1 ((mem s).2 b.1)).1, ((k2 t).1 ((mem t).2 b.2)).1⟩, b⟩

/-- **C124**: filtering for one node and then for another keeps what is near to both. -/
theorem C124_both {k l : Key} {d1 d2 d3 : String} {g1 g2 g3 : GRef} {m1 m2 m3 : Memo} {h1 h2 h3 : Heap}
    (run1 : graphFilter lim g [.key k] d1 "include" h = (.ok (g1, m1), h1))
    (run2 : graphFilter lim g1 [.key l] d2 "include" h1 = (.ok (g2, m2), h2))
    (run3 : graphFilter lim g [.key l] d3 "include" h = (.ok (g3, m3), h3)) :
    namesOf h2 g2 = (namesOf h g).filter (fun x => decide (x ∈ namesOf h1 g1 ∧ x ∈ namesOf h3 g3)) ∧
      ∀ s t, Joined h2 g2 s t ↔ Joined h1 g1 s t ∧ Joined h3 g3 s t := by
  obtain ⟨r1, lt1, own1, -, lim1, -, j1, n1, k1⟩ := filter_result (ks := [k]) r hg hown hlim run1
  obtain ⟨-, -, -, -, -, ks2, j2, n2, k2⟩ := filter_result (ks := [l]) r1 lt1 own1 lim1 run2
  obtain ⟨-, -, -, -, -, -, j3, n3, k3⟩ := filter_result (ks := [l]) r hg hown hlim run3
  have near : ∀ x ∈ namesOf h1 g1, (NearTo h1 g1 [l] x ↔ NearTo h g [l] x) := by
    intro x hx
    refine exists_congr fun y => and_congr_right fun hy => ?_
    rw [C120_one r hg hown hlim run1 rfl rfl hx (ks2 y hy), C120_one r hg hown hlim run1 rfl rfl (ks2 y hy) hx]
  have mem : ∀ x, x ∈ namesOf h2 g2 ↔ x ∈ namesOf h1 g1 ∧ x ∈ namesOf h3 g3 := by
    intro x
    rw [k2, k3]
    constructor
    · rintro ⟨c1, c2⟩
      rw [near x c1] at c2
      exact ⟨c1, ((k1 x).1 c1).1, c2⟩
    · rintro ⟨c1, c2, c3⟩
      rw [← near x c1] at c3
      exact ⟨c1, c3⟩
  constructor
  · rw [n2, n1, List.filter_filter]
    refine List.filter_congr fun x _ => ?_
    rw [← n1]
    have := mem x
    grind
  · intro s t
    rw [j2, j3, mem, mem]
    constructor
    · rintro ⟨a, b, c⟩; exact ⟨a, ((j1 s t).1 a).1, b.2, c.2⟩
    · rintro ⟨a, b, c⟩
      obtain ⟨-, d1, d2⟩ := (j1 s t).1 a
      exact ⟨a, ⟨d1, c.1⟩, d2, c.2⟩

end

/-! ## Cases: `a → i`, `a → x → b`, `j → b` -/

/-- The names in what the calls return, one after another. -/
def filtered (h : Heap) (calls : List (List String × String)) : Except PyErr (List Key) :=
  ((do
    let g ← calls.foldlM (fun g c => do
      let r ← graphFilter 10 g (c.1.map fun s => .key (.str s)) "to_and_from" c.2
      return r.1) 0
    look fun h => namesOf h g : M _) h).1

/-- Once, and again. -/
example : filtered bypass [(["x"], "include")] = .ok [.str "a", .str "x", .str "b"] ∧
    filtered bypass [(["x"], "include"), (["x"], "include")] = .ok [.str "a", .str "x", .str "b"] := by decide +kernel

/-- Split, united, both, and excluded in turn. -/
example : filtered bypass [(["x"], "exclude")] = .ok [.str "i", .str "j"] ∧
    filtered bypass [(["i"], "include")] = .ok [.str "a", .str "i"] ∧
    filtered bypass [(["x", "i"], "include")] = .ok [.str "a", .str "i", .str "x", .str "b"] ∧
    filtered bypass [(["x"], "include"), (["b"], "include")] = .ok [.str "a", .str "x", .str "b"] ∧
    filtered bypass [(["j"], "exclude"), (["i"], "exclude")] = .ok [.str "x"] ∧
    filtered bypass [(["j", "i"], "exclude")] = .ok [.str "x"] ∧
    (filtered bypass [(["j"], "exclude"), (["b"], "exclude")]).isOk = false := by decide +kernel

/-- The calls that the theorems speak of return. -/
example : ∃ g1 m1 h1, graphFilter 10 0 [.key (.str "j")] "to" "exclude" bypass = (.ok (g1, m1), h1) ∧
    (∃ g2 m2 h2, graphFilter 10 g1 [.key (.str "i")] "to" "exclude" h1 = (.ok (g2, m2), h2) ∧
      ∃ g3 m3 h3, graphFilter 10 0 [.key (.str "j"), .key (.str "i")] "to" "exclude" bypass = (.ok (g3, m3), h3) ∧
        namesOf h2 g2 = namesOf h3 g3) ∧
    ∃ e, graphFilter 10 g1 [.key (.str "j")] "to" "exclude" h1 = (.error e, h1) := by
  have own : ∀ n ∈ graphNodes bypass 0, (bypass.node n).graph = some 0 := by decide +kernel
  have st : ∀ n ∈ graphNodes bypass 0, (bypass.node n).style = none := by decide +kernel
  have len : (graphNodes bypass 0).length ≤ 10 := by decide +kernel
  have lt : 0 < bypass.nG := by decide +kernel
  obtain ⟨g1, m1, h1, run1⟩ := filter_returns bypass_reachable lt own len (ks := [.str "j"]) st (by decide +kernel) "to" "exclude"
  obtain ⟨g3, m3, h3, run3⟩ := filter_returns bypass_reachable lt own len (ks := [.str "j", .str "i"]) st (by decide +kernel) "to" "exclude"
  obtain ⟨r1, lt1, own1, st1, len1, -, -, -, k1⟩ := filter_result bypass_reachable lt own len run1
  have far : ¬NearTo bypass 0 [.str "j"] (.str "i") := by
    rintro ⟨l, hl, c⟩
    rw [List.mem_singleton.1 hl] at c
    have ds := (names_of_traversals bypass_reachable (g := 0) (k := .str "i") (by decide +kernel)).2 (j := 10) (l := []) (by decide +kernel)
    have as := (names_of_traversals bypass_reachable (g := 0) (k := .str "i") (by decide +kernel)).1 (j := 10) (l := [0]) (by decide +kernel)
    rcases c with c | c | c
    · exact absurd c (by decide)
    · exact absurd ((ds.2 _).2 ⟨by decide, c⟩) (by simp)
    · exact absurd ((as.2 _).2 c) (by decide +kernel)
  have hi : .str "i" ∈ namesOf h1 g1 := (k1 _).2 ⟨by decide +kernel, iff_of_false far (by decide)⟩
  obtain ⟨g2, m2, h2, run2⟩ := filter_returns r1 lt1 own1 len1 (ks := [.str "i"]) st1 (by simpa using hi) "to" "exclude"
  exact ⟨g1, m1, h1, run1, ⟨g2, m2, h2, run2, g3, m3, h3, run3,
    (C124_exclude bypass_reachable lt own len (ls := [.str "i"]) (by decide) (by decide) (by decide) run1 run2 run3).1⟩,
    C124_gone bypass_reachable lt own len run1 (by decide) (ls := [.str "j"]) ⟨_, List.mem_singleton.2 rfl, _, List.mem_singleton.2 rfl, .inl rfl⟩ "to" "exclude"⟩

example : ∃ g1 m1 h1, graphFilter 10 0 [.key (.str "x")] "to" "include" bypass = (.ok (g1, m1), h1) ∧
    ∃ g2 m2 h2, graphFilter 10 g1 [.key (.str "x")] "from" "include" h1 = (.ok (g2, m2), h2) ∧ namesOf h2 g2 = namesOf h1 g1 := by
  have own : ∀ n ∈ graphNodes bypass 0, (bypass.node n).graph = some 0 := by decide +kernel
  have len : (graphNodes bypass 0).length ≤ 10 := by decide +kernel
  obtain ⟨g1, m1, h1, run1⟩ := filter_returns bypass_reachable (by decide +kernel) own len (ks := [.str "x"]) (by decide +kernel)
    (by decide +kernel) "to" "include"
  obtain ⟨g2, m2, h2, run2, e, -⟩ := C124_again bypass_reachable (by decide +kernel) own len run1 rfl "from"
  exact ⟨g1, m1, h1, run1, g2, m2, h2, run2, e⟩

end Verif
