import Verif.Lemmas.RepOps
/-!
# `Rep` under the addition and the removal of nodes and graphs
-/
namespace Verif
namespace Rep
variable {h : Heap} {A : Spec}

/-- Both ends of a live edge are registered. -/
theorem ends_live (R : Rep h A) {e : ERef} {x y : NRef} (hx : (h.edge e).start = some x)
    (hy : (h.edge e).stop = some y) (hc : (h.edge e).raw ≠ .cleared) :
    ∃ g, ((h.node x).id, x) ∈ (A.graph g).nodes ∧ ((h.node y).id, y) ∈ (A.graph g).nodes := by
  obtain ⟨g, hg⟩ := R.live e x y hx hy hc
  obtain ⟨_, _, _, _, n, m, hn, hm, q1, q2⟩ := R.edgeOk g _ _ _ _ hg
  rw [hx] at q1; rw [hy] at q2
  cases q1; cases q2
  exact ⟨g, hn, hm⟩

/-- Registering a node that is in no graph (a new one, or one that was removed before). -/
theorem addNode (R : Rep h A) {g : GRef} {k : Key} {n : NRef} {hm : Option GRef} (hg : g < h.nG)
    (hfree : ∀ g k, (k, n) ∉ (A.graph g).nodes) (hk : k ∉ (A.graph g).names) {h' : Heap}
    (hgn : ∀ g', (h'.graph g').nodes = if g' = g then (h.graph g).nodes ++ [(k, n)] else (h.graph g').nodes)
    (hidn : (h'.node n).id = k) (hid : ∀ x, x ≠ n → (h'.node x).id = (h.node x).id)
    (hgrn : (h'.node n).graph = hm) (hhm : hm = some g ∨ hm = none)
    (hgr : ∀ x, x ≠ n → (h'.node x).graph = (h.node x).graph)
    (hon : (h'.node n).outE = [] ∧ (h'.node n).inE = [])
    (ho : ∀ x, x ≠ n → (h'.node x).outE = (h.node x).outE ∧ (h'.node x).inE = (h.node x).inE)
    (hold : ∀ e, (h'.edge e).graph = (h.edge e).graph ∧ (h'.edge e).raw = (h.edge e).raw ∧
      (h'.edge e).start = (h.edge e).start ∧ (h'.edge e).stop = (h.edge e).stop)
    (hN : h.nN ≤ h'.nN ∧ n < h'.nN) (hE : h'.nE = h.nE) (hG : h'.nG = h.nG) :
    Rep h' (A.register g k n hm) := by
  have hreg : A.register g k n hm =
      ⟨upd A.graph g ((A.graph g).addNode k n), upd A.name n k, upd A.home n hm⟩ := by simp [Spec.register, hk]
  rw [hreg]
  generalize hB : (⟨upd A.graph g ((A.graph g).addNode k n), upd A.name n k, upd A.home n hm⟩ : Spec) = B
  have hname : B.name = upd A.name n k := by rw [← hB]
  have hhome : B.home = upd A.home n hm := by rw [← hB]
  have hnodes : (B.graph g).nodes = (A.graph g).nodes ++ [(k, n)] := by
    rw [← hB]; simp [SGraph.addNode, hk]
  have hnodes' : ∀ g', g' ≠ g → (B.graph g').nodes = (A.graph g').nodes := by
    intro g' e; rw [← hB]; show ((A.on g (fun G => G.addNode k n)).graph g').nodes = _; rw [Spec.on_ne _ _ e]
  have hedges : ∀ g', (B.graph g').edges = (A.graph g').edges := by
    intro g'
    rw [← hB]; show ((A.on g (fun G => G.addNode k n)).graph g').edges = _
    by_cases e : g' = g
    · subst e; simp [SGraph.addNode, hk]
    · rw [Spec.on_ne _ _ e]
  have hmem : ∀ g' k' x, (k', x) ∈ (B.graph g').nodes ↔
      (k', x) ∈ (A.graph g').nodes ∨ (g' = g ∧ k' = k ∧ x = n) := by
    intro g' k' x
    by_cases e : g' = g
    · subst e; rw [hnodes]; simp
    · rw [hnodes' _ e]; simp [e]
  have hne : ∀ g' k' x, (k', x) ∈ (A.graph g').nodes → x ≠ n := by
    rintro g' k' x hx rfl; exact hfree _ _ hx
  have hkn : ∀ x, (k, x) ∉ (A.graph g).nodes := fun x hx => hk (List.mem_map.2 ⟨_, hx, rfl⟩)
  -- no edge of `g` mentions the new name
  have hnoout : (A.graph g).out k = [] := by
    refine List.filter_eq_nil_iff.2 ?_
    rintro ⟨⟨s, t, i⟩, e⟩ hp
    obtain ⟨_, _, _, _, a, b, ha, _⟩ := R.edgeOk g s t i e hp
    simp only [decide_eq_true_eq]
    rintro rfl; exact hkn _ ha
  have hnoin : (A.graph g).inn k = [] := by
    refine List.filter_eq_nil_iff.2 ?_
    rintro ⟨⟨s, t, i⟩, e⟩ hp
    obtain ⟨_, _, _, _, a, b, _, hb, _⟩ := R.edgeOk g s t i e hp
    simp only [decide_eq_true_eq]
    rintro rfl; exact hkn _ hb
  constructor
  · intro x; rw [hname]
    by_cases e : x = n
    · subst e; simp [hidn]
    · rw [upd_ne _ _ e, hid x e]; exact R.name x
  · intro x; rw [hhome]
    by_cases e : x = n
    · subst e; simp [hgrn]
    · rw [upd_ne _ _ e, hgr x e]; exact R.home x
  · intro g'; rw [hgn]
    by_cases e : g' = g
    · subst e; rw [if_pos rfl, hnodes, R.nodes]
    · rw [if_neg e, hnodes' _ e]; exact R.nodes g'
  · intro g'
    by_cases e : g' = g
    · subst e; rw [hnodes]; exact nodup_keys_append (R.keysNodup _) hk
    · rw [hnodes' _ e]; exact R.keysNodup g'
  · intro g' k' x hx
    rcases (hmem _ _ _).1 hx with hx | ⟨rfl, rfl, rfl⟩
    · have e := hne _ _ _ hx
      obtain ⟨a, b, c⟩ := R.nodeOk g' k' x hx
      rw [hid x e, hgr x e]
      exact ⟨Nat.lt_of_lt_of_le a hN.1, b, c⟩
    · exact ⟨hN.2, hidn, by rw [hgrn]; exact hhm⟩
  · intro g1 g2 k1 k2 x h1 h2
    rcases (hmem _ _ _).1 h1 with h1 | ⟨rfl, rfl, rfl⟩ <;> rcases (hmem _ _ _).1 h2 with h2 | ⟨rfl, rfl, h2⟩
    · exact R.nodeUniq _ _ _ _ _ h1 h2
    · subst h2; exact absurd h1 (hfree _ _)
    · exact absurd h2 (hfree _ _)
    · rfl
  · intro g'; rw [hedges]; exact R.idsNodup g'
  · intro g' s t i e he
    rw [hedges] at he
    obtain ⟨a, b, c, d⟩ := hold e
    rw [a, b, c, d, hE]
    obtain ⟨p, q, r, w, x, y, hx, hy, z⟩ := R.edgeOk g' s t i e he
    exact ⟨p, q, r, w, x, y, (hmem _ _ _).2 (.inl hx), (hmem _ _ _).2 (.inl hy), z⟩
  · intro g' k' x hx
    have hout : (B.graph g').out k' = (A.graph g').out k' := by simp only [SGraph.out, hedges]
    rw [hout]
    rcases (hmem _ _ _).1 hx with hx | ⟨rfl, rfl, rfl⟩
    · rw [(ho x (hne _ _ _ hx)).1]; exact R.outE g' k' x hx
    · rw [hon.1, hnoout]
  · intro g' k' x hx
    have hout : (B.graph g').inn k' = (A.graph g').inn k' := by simp only [SGraph.inn, hedges]
    rw [hout]
    rcases (hmem _ _ _).1 hx with hx | ⟨rfl, rfl, rfl⟩
    · rw [(ho x (hne _ _ _ hx)).2]; exact R.inE g' k' x hx
    · rw [hon.2, hnoin]
  · intro x hx
    have e : x ≠ n := by rintro rfl; exact hx g k ((hmem _ _ _).2 (.inr ⟨rfl, rfl, rfl⟩))
    rw [(ho x e).1, (ho x e).2]
    exact R.stale x (fun g' k' hh => hx g' k' ((hmem _ _ _).2 (.inl hh)))
  · intro e x y
    obtain ⟨_, b, c, d⟩ := hold e
    rw [b, c, d]
    intro hx hy hc
    obtain ⟨g0, l1, l2⟩ := R.ends_live hx hy hc
    rw [hid x (hne _ _ _ l1), hid y (hne _ _ _ l2)]
    obtain ⟨g', hg'⟩ := R.live e x y hx hy hc
    exact ⟨g', by rw [hedges]; exact hg'⟩
  · intro g' hg'
    rw [hG] at hg'
    have : g' ≠ g := by rintro rfl; exact absurd hg (Nat.not_lt.2 hg')
    rw [hnodes' _ this, hedges]
    exact R.graphs g' hg'

/-- Unregistering a node without edges. -/
theorem delNode (R : Rep h A) {g : GRef} {k : Key} {n : NRef} (hm : (k, n) ∈ (A.graph g).nodes)
    (hout : (A.graph g).out k = []) (hin : (A.graph g).inn k = []) {h' : Heap}
    (hgn : ∀ g', (h'.graph g').nodes = if g' = g then ddel (h.graph g).nodes k else (h.graph g').nodes)
    (hid : ∀ x, (h'.node x).id = (h.node x).id)
    (hgr : ∀ x, (h'.node x).graph = if x = n then none else (h.node x).graph)
    (ho : ∀ x, (h'.node x).outE = (h.node x).outE ∧ (h'.node x).inE = (h.node x).inE)
    (hold : ∀ e, (h'.edge e).graph = (h.edge e).graph ∧ (h'.edge e).raw = (h.edge e).raw ∧
      (h'.edge e).start = (h.edge e).start ∧ (h'.edge e).stop = (h.edge e).stop)
    (hN : h'.nN = h.nN) (hE : h'.nE = h.nE) (hG : h'.nG = h.nG) :
    Rep h' (A.unregister g k) := by
  have hhome : ∀ x, (A.unregister g k).home x = if x = n then none else A.home x := by
    intro x
    have : (k, x) ∈ (A.graph g).nodes ↔ x = n :=
      ⟨fun hx => val_unique (R.keysNodup g) hx hm, fun e => e ▸ hm⟩
    simp [Spec.unregister, this]
  have hun : (A.unregister g k).graph = (A.on g (fun G => G.delNode k)).graph := rfl
  generalize hB : A.unregister g k = B at hhome hun
  have hname : B.name = A.name := by rw [← hB]; rfl
  have hnodes : (B.graph g).nodes = ddel (A.graph g).nodes k := by
    rw [hun]; simp [SGraph.delNode, ddel]
  have hnodes' : ∀ g', g' ≠ g → (B.graph g').nodes = (A.graph g').nodes := by
    intro g' e; rw [hun, Spec.on_ne _ _ e]
  have hno : ∀ s t i e, ((s, t, i), e) ∈ (A.graph g).edges → s ≠ k ∧ t ≠ k := by
    intro s t i e he
    constructor
    · intro e'
      have : ((s, t, i), e) ∈ (A.graph g).out k := List.mem_filter.2 ⟨he, by simpa using e'⟩
      simp [hout] at this
    · intro e'
      have : ((s, t, i), e) ∈ (A.graph g).inn k := List.mem_filter.2 ⟨he, by simpa using e'⟩
      simp [hin] at this
  have hedges : ∀ g', (B.graph g').edges = (A.graph g').edges := by
    intro g'
    rw [hun]
    by_cases e : g' = g
    · subst e
      simp only [Spec.on_same, SGraph.delNode]
      refine List.filter_eq_self.2 ?_
      rintro ⟨⟨s, t, i⟩, e⟩ he
      simpa using hno s t i e he
    · rw [Spec.on_ne _ _ e]
  have hmem : ∀ g' k' x, (k', x) ∈ (B.graph g').nodes ↔ (k', x) ∈ (A.graph g').nodes ∧ x ≠ n := by
    intro g' k' x
    by_cases e : g' = g
    · subst e; rw [hnodes, mem_ddel]
      constructor
      · rintro ⟨a, b⟩
        refine ⟨a, ?_⟩
        rintro rfl
        exact b (R.node_unique a hm).2
      · rintro ⟨a, b⟩
        refine ⟨a, ?_⟩
        rintro rfl
        exact b (val_unique (R.keysNodup _) a hm)
    · rw [hnodes' _ e]
      refine ⟨fun a => ⟨a, ?_⟩, fun a => a.1⟩
      rintro rfl
      exact e (R.node_unique a hm).1
  constructor
  · intro x; rw [hname, hid]; exact R.name x
  · intro x; rw [hhome, hgr, R.home]
  · intro g'; rw [hgn]
    by_cases e : g' = g
    · subst e; rw [if_pos rfl, hnodes, R.nodes]
    · rw [if_neg e, hnodes' _ e]; exact R.nodes g'
  · intro g'
    by_cases e : g' = g
    · subst e; rw [hnodes]; exact nodup_keys_filter _ (R.keysNodup _)
    · rw [hnodes' _ e]; exact R.keysNodup g'
  · intro g' k' x hx
    obtain ⟨a, b, c⟩ := R.nodeOk g' k' x ((hmem _ _ _).1 hx).1
    rw [hid, hN]
    refine ⟨a, b, ?_⟩
    rw [hgr, if_neg ((hmem _ _ _).1 hx).2]; exact c
  · intro g1 g2 k1 k2 x h1 h2
    exact R.nodeUniq _ _ _ _ _ ((hmem _ _ _).1 h1).1 ((hmem _ _ _).1 h2).1
  · intro g'; rw [hedges]; exact R.idsNodup g'
  · intro g' s t i e he
    rw [hedges] at he
    obtain ⟨a, b, c, d⟩ := hold e
    rw [a, b, c, d, hE]
    obtain ⟨p, q, r, w, x, y, hx, hy, z⟩ := R.edgeOk g' s t i e he
    refine ⟨p, q, r, w, x, y, (hmem _ _ _).2 ⟨hx, ?_⟩, (hmem _ _ _).2 ⟨hy, ?_⟩, z⟩
    · rintro rfl
      obtain ⟨rfl, rfl⟩ := R.node_unique hx hm
      exact (hno _ _ _ _ he).1 rfl
    · rintro rfl
      obtain ⟨rfl, rfl⟩ := R.node_unique hy hm
      exact (hno _ _ _ _ he).2 rfl
  · intro g' k' x hx
    have : (B.graph g').out k' = (A.graph g').out k' := by simp only [SGraph.out, hedges]
    rw [this, (ho x).1]; exact R.outE g' k' x ((hmem _ _ _).1 hx).1
  · intro g' k' x hx
    have : (B.graph g').inn k' = (A.graph g').inn k' := by simp only [SGraph.inn, hedges]
    rw [this, (ho x).2]; exact R.inE g' k' x ((hmem _ _ _).1 hx).1
  · intro x hx
    rw [(ho x).1, (ho x).2]
    by_cases e : x = n
    · subst e; rw [R.outE g k x hm, R.inE g k x hm]; exact ⟨hout, hin⟩
    · exact R.stale x (fun g' k' hh => hx g' k' ((hmem _ _ _).2 ⟨hh, e⟩))
  · intro e x y
    obtain ⟨_, b, c, d⟩ := hold e
    rw [b, c, d, hid, hid]
    intro hx hy hc
    obtain ⟨g', hg'⟩ := R.live e x y hx hy hc
    exact ⟨g', by rw [hedges]; exact hg'⟩
  · intro g' hg'
    rw [hG] at hg'
    have : g' ≠ g := by
      rintro rfl
      rw [(R.graphs g' hg').1] at hm
      simp at hm
    rw [hnodes' _ this, hedges]
    exact R.graphs g' hg'

/-- A new, empty graph. -/
theorem newGraph (R : Rep h A) {h' : Heap} (hG : h'.nG = h.nG + 1)
    (hgn : ∀ g', (h'.graph g').nodes = if g' = h.nG then [] else (h.graph g').nodes)
    (hn : h'.node = h.node) (he : h'.edge = h.edge) (hN : h'.nN = h.nN) (hE : h'.nE = h.nE) : Rep h' A := by
  constructor
  · rw [hn]; exact R.name
  · rw [hn]; exact R.home
  · intro g; rw [hgn]
    split
    · next e => subst e; rw [(R.graphs _ (Nat.le_refl _)).1]
    · exact R.nodes g
  · exact R.keysNodup
  · rw [hn, hN]; exact R.nodeOk
  · exact R.nodeUniq
  · exact R.idsNodup
  · rw [he, hE]; exact R.edgeOk
  · rw [hn]; exact R.outE
  · rw [hn]; exact R.inE
  · rw [hn]; exact R.stale
  · rw [he, hn]; exact R.live
  · intro g hg; rw [hG] at hg; exact R.graphs g (Nat.le_of_succ_le hg)

end Rep
end Verif
