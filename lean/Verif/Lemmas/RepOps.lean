import Verif.Lemmas.Rep
/-!
# How `Rep` moves under the four structural changes, and what it says about single objects
-/
namespace Verif

@[simp] theorem Spec.on_same (A : Spec) (g : GRef) (f : SGraph → SGraph) : (A.on g f).graph g = f (A.graph g) := by
  simp [Spec.on]

theorem Spec.on_ne (A : Spec) {g g' : GRef} (f : SGraph → SGraph) (h : g' ≠ g) : (A.on g f).graph g' = A.graph g' := by
  simp [Spec.on, h]

@[simp] theorem Spec.on_name (A : Spec) (g : GRef) (f : SGraph → SGraph) : (A.on g f).name = A.name := rfl

@[simp] theorem Spec.on_home (A : Spec) (g : GRef) (f : SGraph → SGraph) : (A.on g f).home = A.home := rfl

namespace Rep
variable {h : Heap} {A : Spec}

theorem getNode_key (R : Rep h A) {g : GRef} {k : Key} {n : NRef} :
    getNode h g (.key k) = .ok n ↔ (k, n) ∈ (A.graph g).nodes := by
  simp only [getNode, R.nodes g]
  rw [← dget_iff (R.keysNodup g)]
  cases dget (A.graph g).nodes k <;> simp

theorem getNode_live (R : Rep h A) {g : GRef} {k : Key} {n : NRef} (hm : (k, n) ∈ (A.graph g).nodes) :
    getNode h g (.node n) = .ok n := by
  have e := (R.nodeOk g k n hm).2.1
  simp only [getNode, R.nodes g, e, dget_of_mem (R.keysNodup g) hm]

/-- The name an argument of `get_node` refers to. -/
def argName (A : Spec) : NodeArg → Option Key
  | .key k => some k
  | .node n => some (A.name n)
  | .other => none

theorem getNode_ok (R : Rep h A) {g : GRef} {a : NodeArg} {n : NRef} :
    getNode h g a = .ok n ↔ ∃ k, argName A a = some k ∧ (k, n) ∈ (A.graph g).nodes := by
  cases a with
  | key k => simp [R.getNode_key, argName]
  | node m =>
    have : getNode h g (.node m) = getNode h g (.key (h.node m).id) := rfl
    simp [this, R.getNode_key, argName, R.name]
  | other => simp [getNode, argName]

theorem getNode_mem (R : Rep h A) {g : GRef} {a : NodeArg} {n : NRef} (hn : getNode h g a = .ok n) :
    ((h.node n).id, n) ∈ (A.graph g).nodes := by
  obtain ⟨k, _, hm⟩ := R.getNode_ok.1 hn
  rwa [(R.nodeOk g k n hm).2.1]

theorem edgeId_eq (R : Rep h A) {g : GRef} {i : EdgeId} {e : ERef} (hm : (i, e) ∈ (A.graph g).edges) :
    edgeId h e = .ok i := by
  obtain ⟨s, t, i⟩ := i
  obtain ⟨_, _, _, hr, n, m, hn, hm', h1, h2⟩ := R.edgeOk g s t i e hm
  simp [edgeId, h1, h2, hr, (R.nodeOk g s n hn).2.1, (R.nodeOk g t m hm').2.1]

theorem edge_graph (R : Rep h A) {g : GRef} {i : EdgeId} {e : ERef} (hm : (i, e) ∈ (A.graph g).edges) :
    (h.edge e).graph = some g := by
  obtain ⟨s, t, i⟩ := i
  exact (R.edgeOk g s t i e hm).2.2.1

theorem handle_unique (R : Rep h A) {g g' : GRef} {i j : EdgeId} {e : ERef}
    (h1 : (i, e) ∈ (A.graph g).edges) (h2 : (j, e) ∈ (A.graph g').edges) : g = g' ∧ i = j := by
  have a := R.edgeId_eq h1
  rw [R.edgeId_eq h2] at a
  have b := R.edge_graph h1
  rw [R.edge_graph h2] at b
  exact ⟨(Option.some.inj b).symm, (Except.ok.inj a).symm⟩

theorem node_unique (R : Rep h A) {g g' : GRef} {k k' : Key} {n : NRef}
    (h1 : (k, n) ∈ (A.graph g).nodes) (h2 : (k', n) ∈ (A.graph g').nodes) : g = g' ∧ k = k' := by
  refine ⟨R.nodeUniq _ _ _ _ _ h1 h2, ?_⟩
  rw [← (R.nodeOk g k n h1).2.1, (R.nodeOk g' k' n h2).2.1]

/-- Adding an edge between two registered nodes. -/
theorem addEdge (R : Rep h A) {g : GRef} {s t : Key} {n m : NRef} {i : RawId}
    (hn : (s, n) ∈ (A.graph g).nodes) (hm : (t, m) ∈ (A.graph g).nodes) (hi : i ≠ .cleared)
    (hnew : (s, t, i) ∉ (A.graph g).ids) {h' : Heap}
    (hgn : ∀ g, (h'.graph g).nodes = (h.graph g).nodes)
    (hid : ∀ x, (h'.node x).id = (h.node x).id)
    (hgr : ∀ x, (h'.node x).graph = (h.node x).graph)
    (ho : ∀ x, (h'.node x).outE = if x = n then (h.node x).outE ++ [((s, t, i), h.nE)] else (h.node x).outE)
    (hi' : ∀ x, (h'.node x).inE = if x = m then (h.node x).inE ++ [((s, t, i), h.nE)] else (h.node x).inE)
    (hold : ∀ e, e ≠ h.nE → (h'.edge e).graph = (h.edge e).graph ∧ (h'.edge e).raw = (h.edge e).raw ∧
      (h'.edge e).start = (h.edge e).start ∧ (h'.edge e).stop = (h.edge e).stop)
    (hnewE : (h'.edge h.nE).graph = some g ∧ (h'.edge h.nE).raw = i ∧
      (h'.edge h.nE).start = some n ∧ (h'.edge h.nE).stop = some m)
    (hN : h'.nN = h.nN) (hE : h'.nE = h.nE + 1) (hG : h'.nG = h.nG) :
    Rep h' (A.on g (fun G => G.addEdge (s, t, i) h.nE)) := by
  have hnodes : ∀ g', ((A.on g (fun G => G.addEdge (s, t, i) h.nE)).graph g').nodes = (A.graph g').nodes := by
    intro g'
    by_cases e : g' = g
    · subst e; simp [SGraph.addEdge, hnew]
    · rw [Spec.on_ne _ _ e]
  have hedges : ((A.on g (fun G => G.addEdge (s, t, i) h.nE)).graph g).edges =
      (A.graph g).edges ++ [((s, t, i), h.nE)] := by simp [SGraph.addEdge, hnew]
  have hedges' : ∀ g', g' ≠ g →
      ((A.on g (fun G => G.addEdge (s, t, i) h.nE)).graph g').edges = (A.graph g').edges := by
    intro g' e; rw [Spec.on_ne _ _ e]
  have hlt : ∀ g' j e, (j, e) ∈ (A.graph g').edges → e ≠ h.nE := by
    intro g' j e hj
    obtain ⟨a, b, c⟩ := j
    exact Nat.ne_of_lt (R.edgeOk g' a b c e hj).1
  constructor
  · intro x; rw [Spec.on_name, hid]; exact R.name x
  · intro x; rw [Spec.on_home, hgr]; exact R.home x
  · intro g'; rw [hnodes, hgn]; exact R.nodes g'
  · intro g'; rw [hnodes]; exact R.keysNodup g'
  · intro g' k x; rw [hnodes, hN, hid, hgr]; exact R.nodeOk g' k x
  · intro g1 g2 k k' x; rw [hnodes, hnodes]; exact R.nodeUniq g1 g2 k k' x
  · intro g'
    by_cases e : g' = g
    · subst e; rw [hedges]; exact nodup_keys_append (R.idsNodup _) hnew
    · rw [hedges' _ e]; exact R.idsNodup g'
  · intro g' s' t' i' e' hmem
    rw [hnodes]
    have old : ((s', t', i'), e') ∈ (A.graph g').edges →
        e' < h'.nE ∧ i' ≠ .cleared ∧ (h'.edge e').graph = some g' ∧ (h'.edge e').raw = i' ∧
        ∃ n m, (s', n) ∈ (A.graph g').nodes ∧ (t', m) ∈ (A.graph g').nodes ∧
          (h'.edge e').start = some n ∧ (h'.edge e').stop = some m := fun hmem => by
      have o := R.edgeOk g' s' t' i' e' hmem
      obtain ⟨a, b, c, d⟩ := hold e' (hlt _ _ _ hmem)
      rw [a, b, c, d, hE]
      exact ⟨Nat.lt_succ_of_lt o.1, o.2⟩
    by_cases e : g' = g
    · subst e
      rw [hedges, List.mem_append] at hmem
      rcases hmem with hmem | hmem
      · exact old hmem
      · simp only [List.mem_cons, List.not_mem_nil, or_false, Prod.mk.injEq] at hmem
        obtain ⟨⟨rfl, rfl, rfl⟩, rfl⟩ := hmem
        exact ⟨hE ▸ Nat.lt_succ_self _, hi, hnewE.1, hnewE.2.1, n, m, hn, hm, hnewE.2.2⟩
    · rw [hedges' _ e] at hmem; exact old hmem
  · intro g' k x hx
    rw [hnodes] at hx
    rw [ho]
    have o := R.outE g' k x hx
    by_cases e : g' = g
    · subst e
      have hk : x = n ↔ s = k := by
        constructor
        · rintro rfl; exact (R.node_unique hn hx).2
        · rintro rfl; exact val_unique (R.keysNodup _) hx hn
      simp only [SGraph.out, hedges, List.filter_append, o]
      by_cases hk' : s = k
      · rw [if_pos (hk.2 hk')]; simp [hk']
      · rw [if_neg (fun a => hk' (hk.1 a))]; simp [hk']
    · have : x ≠ n := by rintro rfl; exact e (R.node_unique hx hn).1
      rw [if_neg this, o]
      simp only [SGraph.out, hedges' _ e]
  · intro g' k x hx
    rw [hnodes] at hx
    rw [hi']
    have o := R.inE g' k x hx
    by_cases e : g' = g
    · subst e
      have hk : x = m ↔ t = k := by
        constructor
        · rintro rfl; exact (R.node_unique hm hx).2
        · rintro rfl; exact val_unique (R.keysNodup _) hx hm
      simp only [SGraph.inn, hedges, List.filter_append, o]
      by_cases hk' : t = k
      · rw [if_pos (hk.2 hk')]; simp [hk']
      · rw [if_neg (fun a => hk' (hk.1 a))]; simp [hk']
    · have : x ≠ m := by rintro rfl; exact e (R.node_unique hx hm).1
      rw [if_neg this, o]
      simp only [SGraph.inn, hedges' _ e]
  · intro x hx
    simp only [hnodes] at hx
    rw [ho, hi', if_neg, if_neg]
    · exact R.stale x hx
    · rintro rfl; exact hx g _ hm
    · rintro rfl; exact hx g _ hn
  · intro e x y
    by_cases he : e = h.nE
    · subst he
      rw [hnewE.2.1, hnewE.2.2.1, hnewE.2.2.2, hid, hid]
      intro hx hy _
      cases hx; cases hy
      refine ⟨g, ?_⟩
      rw [hedges, (R.nodeOk g s n hn).2.1, (R.nodeOk g t m hm).2.1]
      simp
    · obtain ⟨_, b, c, d⟩ := hold e he
      rw [b, c, d, hid, hid]
      intro hx hy hc
      obtain ⟨g', hg'⟩ := R.live e x y hx hy hc
      refine ⟨g', ?_⟩
      by_cases e' : g' = g
      · subst e'; rw [hedges]; exact List.mem_append_left _ hg'
      · rw [hedges' _ e']; exact hg'
  · intro g' hg'
    rw [hG] at hg'
    have : g' ≠ g := by
      rintro rfl
      rw [(R.graphs g' hg').1] at hn
      simp at hn
    rw [hnodes, hedges' _ this]
    exact R.graphs g' hg'

/-- Deleting a live edge. -/
theorem delEdge (R : Rep h A) {g : GRef} {s t : Key} {n m : NRef} {i : RawId} {e : ERef}
    (he : ((s, t, i), e) ∈ (A.graph g).edges)
    (hn : (h.edge e).start = some n) (hm : (h.edge e).stop = some m) {h' : Heap}
    (hgn : ∀ g, (h'.graph g).nodes = (h.graph g).nodes)
    (hid : ∀ x, (h'.node x).id = (h.node x).id)
    (hgr : ∀ x, (h'.node x).graph = (h.node x).graph)
    (ho : ∀ x, (h'.node x).outE = if x = n then ddel (h.node x).outE (s, t, i) else (h.node x).outE)
    (hi' : ∀ x, (h'.node x).inE = if x = m then ddel (h.node x).inE (s, t, i) else (h.node x).inE)
    (hold : ∀ e', e' ≠ e → (h'.edge e').graph = (h.edge e').graph ∧ (h'.edge e').raw = (h.edge e').raw ∧
      (h'.edge e').start = (h.edge e').start ∧ (h'.edge e').stop = (h.edge e').stop)
    (hdead : (h'.edge e).start = none ∨ (h'.edge e).raw = .cleared)
    (hN : h'.nN = h.nN) (hE : h'.nE = h.nE) (hG : h'.nG = h.nG) :
    Rep h' (A.on g (fun G => G.delEdge e)) := by
  have hnodes : ∀ g', ((A.on g (fun G => G.delEdge e)).graph g').nodes = (A.graph g').nodes := by
    intro g'
    by_cases e : g' = g
    · subst e; simp [SGraph.delEdge]
    · rw [Spec.on_ne _ _ e]
  have hedges : ((A.on g (fun G => G.delEdge e)).graph g).edges =
      (A.graph g).edges.filter (fun p => decide (p.2 ≠ e)) := by simp [SGraph.delEdge]
  -- the handle and the id single out the same edge
  have hsame : ∀ p ∈ (A.graph g).edges, p.2 ≠ e ↔ p.1 ≠ (s, t, i) := by
    rintro ⟨j, f⟩ hp
    refine not_congr ⟨?_, ?_⟩
    · rintro rfl; exact (R.handle_unique hp he).2
    · rintro rfl; exact val_unique (R.idsNodup g) hp he
  have hedges' : ∀ g', g' ≠ g → ((A.on g (fun G => G.delEdge e)).graph g').edges = (A.graph g').edges := by
    intro g' e; rw [Spec.on_ne _ _ e]
  have hmem : ∀ g' j f, (j, f) ∈ ((A.on g (fun G => G.delEdge e)).graph g').edges ↔
      (j, f) ∈ (A.graph g').edges ∧ f ≠ e := by
    intro g' j f
    by_cases e' : g' = g
    · subst e'; rw [hedges]; simp
    · rw [hedges' _ e']
      refine ⟨fun h' => ⟨h', ?_⟩, fun h' => h'.1⟩
      rintro rfl
      exact e' (R.handle_unique h' he).1
  obtain ⟨_, _, _, _, n', m', hn', hm', q1, q2⟩ := R.edgeOk g s t i e he
  rw [hn] at q1; rw [hm] at q2
  cases q1; cases q2
  have hfil : ∀ (q : EdgeId × ERef → Bool),
      ((A.graph g).edges.filter (fun p => decide (p.2 ≠ e))).filter q =
      ddel ((A.graph g).edges.filter q) (s, t, i) := by
    intro q
    simp only [ddel, List.filter_filter]
    apply List.filter_congr
    intro p hp
    have := hsame p hp
    by_cases hh : p.2 = e <;> simp_all [Bool.and_comm]
  constructor
  · intro x; rw [Spec.on_name, hid]; exact R.name x
  · intro x; rw [Spec.on_home, hgr]; exact R.home x
  · intro g'; rw [hnodes, hgn]; exact R.nodes g'
  · intro g'; rw [hnodes]; exact R.keysNodup g'
  · intro g' k x; rw [hnodes, hN, hid, hgr]; exact R.nodeOk g' k x
  · intro g1 g2 k k' x; rw [hnodes, hnodes]; exact R.nodeUniq g1 g2 k k' x
  · intro g'
    by_cases e : g' = g
    · subst e; rw [hedges]; exact nodup_keys_filter _ (R.idsNodup _)
    · rw [hedges' _ e]; exact R.idsNodup g'
  · intro g' s' t' i' e' hme
    rw [hmem] at hme
    obtain ⟨a, b, c, d⟩ := hold e' hme.2
    rw [a, b, c, d, hE, hnodes]
    exact R.edgeOk g' s' t' i' e' hme.1
  · intro g' k x hx
    rw [hnodes] at hx
    rw [ho]
    have o := R.outE g' k x hx
    by_cases e' : g' = g
    · subst e'
      simp only [SGraph.out] at o ⊢
      rw [hedges, hfil, o]
      split
      · rfl
      · next hxn =>
        rw [ddel_of_not_mem]
        intro hc
        obtain ⟨p, hp, e2⟩ := List.mem_map.1 hc
        simp only [List.mem_filter, decide_eq_true_eq] at hp
        rw [e2] at hp
        obtain ⟨hp, rfl⟩ := hp
        exact hxn (val_unique (R.keysNodup _) hx hn')
    · have : x ≠ n := by rintro rfl; exact e' (R.node_unique hx hn').1
      rw [if_neg this, o]
      simp only [SGraph.out, hedges' _ e']
  · intro g' k x hx
    rw [hnodes] at hx
    rw [hi']
    have o := R.inE g' k x hx
    by_cases e' : g' = g
    · subst e'
      simp only [SGraph.inn] at o ⊢
      rw [hedges, hfil, o]
      split
      · rfl
      · next hxn =>
        rw [ddel_of_not_mem]
        intro hc
        obtain ⟨p, hp, e2⟩ := List.mem_map.1 hc
        simp only [List.mem_filter, decide_eq_true_eq] at hp
        rw [e2] at hp
        obtain ⟨hp, rfl⟩ := hp
        exact hxn (val_unique (R.keysNodup _) hx hm')
    · have : x ≠ m := by rintro rfl; exact e' (R.node_unique hx hm').1
      rw [if_neg this, o]
      simp only [SGraph.inn, hedges' _ e']
  · intro x hx
    simp only [hnodes] at hx
    rw [ho, hi', if_neg, if_neg]
    · exact R.stale x hx
    · rintro rfl; exact hx g _ hm'
    · rintro rfl; exact hx g _ hn'
  · intro e' x y
    by_cases he' : e' = e
    · subst he'
      intro a b c
      rcases hdead with hd | hd
      · rw [hd] at a; cases a
      · exact absurd hd c
    · obtain ⟨_, b, c, d⟩ := hold e' he'
      rw [b, c, d, hid, hid]
      intro hx hy hc
      obtain ⟨g', hg'⟩ := R.live e' x y hx hy hc
      exact ⟨g', (hmem _ _ _).2 ⟨hg', he'⟩⟩
  · intro g' hg'
    rw [hG] at hg'
    have : g' ≠ g := by
      rintro rfl
      rw [(R.graphs g' hg').1] at hn'
      simp at hn'
    rw [hnodes, hedges' _ this]
    exact R.graphs g' hg'

end Rep
end Verif
