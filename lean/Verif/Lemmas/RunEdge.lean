import Verif.Lemmas.EdgeQuery
/-!
# Running the edge-removing calls
-/
namespace Verif
open M

/-- The node store after edge `i` left `s`'s outward and `t`'s inward dictionary. -/
def cutNodes (h : Heap) (s t : NRef) (i : EdgeId) : NRef → NodeObj := fun x =>
  { h.node x with
    outE := if x = s then ddel (h.node x).outE i else (h.node x).outE
    inE := if x = t then ddel (h.node x).inE i else (h.node x).inE }

/-- What `remove_self` makes of a live edge. -/
def removeSelfHeap (h : Heap) (s t : NRef) (i : EdgeId) (e : ERef) : Heap :=
  { h with node := cutNodes h s t i,
           edge := upd h.edge e { h.edge e with start := none, stop := none, graph := none } }

/-- What `disconnect` makes of a live edge. -/
def disconnectHeap (h : Heap) (s t : NRef) (i : EdgeId) (e : ERef) : Heap :=
  { h with node := cutNodes h s t i, edge := upd h.edge e { h.edge e with raw := .cleared, graph := none } }

theorem upd_cut (h : Heap) (s t : NRef) (i : EdgeId) :
    upd (upd h.node s { h.node s with outE := ddel (h.node s).outE i }) t
      { upd h.node s { h.node s with outE := ddel (h.node s).outE i } t with
        inE := ddel (upd h.node s { h.node s with outE := ddel (h.node s).outE i } t).inE i } = cutNodes h s t i := by
  funext x
  unfold cutNodes
  by_cases h1 : x = t
  · subst h1
    rw [upd_same]
    by_cases h2 : x = s
    · subst h2; simp
    · simp [h2]
  · rw [upd_ne _ _ h1]
    by_cases h2 : x = s
    · subst h2; simp [h1]
    · rw [upd_ne _ _ h2]; simp [h1, h2]

theorem run_removeSelf {h : Heap} {e : ERef} {s t : NRef} {i : EdgeId}
    (hs : (h.edge e).start = some s) (ht : (h.edge e).stop = some t) (hi : edgeId h e = .ok i)
    (ho : (dget (h.node s).outE i).isSome) (hin : (dget (h.node t).inE i).isSome) :
    edgeRemoveSelf e h = (.ok (), removeSelfHeap h s t i e) := by
  obtain ⟨v, ho⟩ := Option.isSome_iff_exists.1 ho
  obtain ⟨w, hin⟩ := Option.isSome_iff_exists.1 hin
  have hi' : edgeId { h with node := upd h.node s { h.node s with outE := ddel (h.node s).outE i } } e = .ok i := by
    simp only [edgeId, hs, ht] at hi ⊢
    rw [← hi]
    have : ∀ x, (upd h.node s { h.node s with outE := ddel (h.node s).outE i } x).id = (h.node x).id := by
      intro x; by_cases hx : x = s
      · subst hx; simp
      · rw [upd_ne _ _ hx]
    simp only [this]
  have hin' : dget (upd h.node s { h.node s with outE := ddel (h.node s).outE i } t).inE i = some w := by
    by_cases hx : t = s
    · subst hx; simpa using hin
    · rw [upd_ne _ _ hx]; exact hin
  simp only [edgeRemoveSelf, bind_apply, look_apply, hs, ht, reduceCtorEq, or_self, ↓reduceIte, ask_apply,
    edgeStart, hi, removeOutwardEdge, ho, modNode, edgeEnd, hi', removeInwardEdge, hin', modEdge]
  rw [upd_cut]
  rfl

theorem run_disconnect {h : Heap} {e : ERef} {s t : NRef} {i : EdgeId}
    (hs : (h.edge e).start = some s) (ht : (h.edge e).stop = some t) (hi : edgeId h e = .ok i)
    (ho : (dget (h.node s).outE i).isSome) (hin : (dget (h.node t).inE i).isSome) :
    disconnect e h = (.ok (), disconnectHeap h s t i e) := by
  obtain ⟨v, ho⟩ := Option.isSome_iff_exists.1 ho
  obtain ⟨w, hin⟩ := Option.isSome_iff_exists.1 hin
  have hi' : edgeId { h with node := upd h.node s { h.node s with outE := ddel (h.node s).outE i } } e = .ok i := by
    simp only [edgeId, hs, ht] at hi ⊢
    rw [← hi]
    have : ∀ x, (upd h.node s { h.node s with outE := ddel (h.node s).outE i } x).id = (h.node x).id := by
      intro x; by_cases hx : x = s
      · subst hx; simp
      · rw [upd_ne _ _ hx]
    simp only [this]
  have hin' : dget (upd h.node s { h.node s with outE := ddel (h.node s).outE i } t).inE i = some w := by
    by_cases hx : t = s
    · subst hx; simpa using hin
    · rw [upd_ne _ _ hx]; exact hin
  simp only [disconnect, bind_apply, look_apply, hs, ht, ask_apply,
    edgeStart, hi, removeOutwardEdge, ho, modNode, edgeEnd, hi', removeInwardEdge, hin', modEdge]
  rw [upd_cut]
  simp [disconnectHeap, hs, ht]

namespace Rep
variable {h : Heap} {A : Spec}

theorem cut_out (s t : NRef) (i : EdgeId) (x : NRef) : (cutNodes h s t i x).outE =
    if x = s then ddel (h.node x).outE i else (h.node x).outE := rfl

/-- The facts about one live edge that the removal calls use. -/
theorem live_edge (R : Rep h A) {g : GRef} {i : EdgeId} {e : ERef} (he : (i, e) ∈ (A.graph g).edges) :
    ∃ n m, (h.edge e).start = some n ∧ (h.edge e).stop = some m ∧ edgeId h e = .ok i ∧
      dget (h.node n).outE i = some e ∧ dget (h.node m).inE i = some e ∧
      (i.1, n) ∈ (A.graph g).nodes ∧ (i.2.1, m) ∈ (A.graph g).nodes := by
  obtain ⟨s, t, r⟩ := i
  obtain ⟨_, _, _, _, n, m, hn, hm, h1, h2⟩ := R.edgeOk g s t r e he
  refine ⟨n, m, h1, h2, R.edgeId_eq he, ?_, ?_, hn, hm⟩
  · rw [R.outE g s n hn]
    refine dget_of_mem (nodup_keys_filter _ (R.idsNodup g)) (List.mem_filter.2 ⟨he, by simp⟩)
  · rw [R.inE g t m hm]
    refine dget_of_mem (nodup_keys_filter _ (R.idsNodup g)) (List.mem_filter.2 ⟨he, by simp⟩)

/-- `remove_self` on a live edge. -/
theorem removeSelf_live (R : Rep h A) {g : GRef} {i : EdgeId} {e : ERef} (he : (i, e) ∈ (A.graph g).edges) :
    ∃ n m, (h.edge e).start = some n ∧ (h.edge e).stop = some m ∧
      edgeRemoveSelf e h = (.ok (), removeSelfHeap h n m i e) ∧
      Rep (removeSelfHeap h n m i e) (A.on g (fun G => G.delEdge e)) := by
  obtain ⟨n, m, h1, h2, h3, h4, h5, -, -⟩ := R.live_edge he
  refine ⟨n, m, h1, h2, run_removeSelf h1 h2 h3 (by simp [h4]) (by simp [h5]), ?_⟩
  obtain ⟨s, t, r⟩ := i
  refine R.delEdge he h1 h2 (by intro _; rfl) (by intro _; rfl) (by intro _; rfl) (by intro _; rfl)
    (by intro _; rfl) ?_ (.inl ?_) rfl rfl rfl
  · intro e' hne; simp [removeSelfHeap, upd_ne _ _ hne]
  · simp [removeSelfHeap]

/-- `disconnect` on a live edge. -/
theorem disconnect_live (R : Rep h A) {g : GRef} {i : EdgeId} {e : ERef} (he : (i, e) ∈ (A.graph g).edges) :
    ∃ n m, (h.edge e).start = some n ∧ (h.edge e).stop = some m ∧
      Verif.disconnect e h = (.ok (), disconnectHeap h n m i e) ∧
      Rep (disconnectHeap h n m i e) (A.on g (fun G => G.delEdge e)) := by
  obtain ⟨n, m, h1, h2, h3, h4, h5, -, -⟩ := R.live_edge he
  refine ⟨n, m, h1, h2, run_disconnect h1 h2 h3 (by simp [h4]) (by simp [h5]), ?_⟩
  obtain ⟨s, t, r⟩ := i
  refine R.delEdge he h1 h2 (by intro _; rfl) (by intro _; rfl) (by intro _; rfl) (by intro _; rfl)
    (by intro _; rfl) ?_ (.inr ?_) rfl rfl rfl
  · intro e' hne; simp [disconnectHeap, upd_ne _ _ hne]
  · simp [disconnectHeap]

/-- No dictionary holds a cleared id. -/
theorem out_not_cleared (R : Rep h A) (n : NRef) (s t : Key) : dget (h.node n).outE (s, t, .cleared) = none := by
  rw [dget_none]
  intro hc
  by_cases hx : ∃ g k, (k, n) ∈ (A.graph g).nodes
  · obtain ⟨g, k, hk⟩ := hx
    rw [R.outE g k n hk] at hc
    obtain ⟨⟨j, e⟩, hp, hj⟩ := List.mem_map.1 hc
    have hp := (List.mem_filter.1 hp).1
    simp only at hj
    subst hj
    exact (R.edgeOk g _ _ _ e hp).2.1 rfl
  · rw [(R.stale n (fun g k hk => hx ⟨g, k, hk⟩)).1] at hc
    simp at hc

/-- A dead edge: `remove_self` raises and changes nothing. -/
theorem removeSelf_dead (R : Rep h A) {e : ERef} (he : ∀ g, e ∉ (A.graph g).handles) :
    ∃ err, edgeRemoveSelf e h = (.error err, h) := by
  by_cases hc : (h.edge e).start = none ∨ (h.edge e).stop = none
  · exact ⟨.valueError "Either start or end Node is missing!", by simp [edgeRemoveSelf, hc]⟩
  · simp only [not_or] at hc
    obtain ⟨n, hn⟩ := Option.ne_none_iff_exists'.1 hc.1
    obtain ⟨m, hm⟩ := Option.ne_none_iff_exists'.1 hc.2
    have hr : (h.edge e).raw = .cleared := by
      refine Decidable.byContradiction fun hr => ?_
      obtain ⟨g, hg⟩ := R.live e n m hn hm hr
      exact he g (mem_handles.2 ⟨_, hg⟩)
    refine ⟨.keyError, ?_⟩
    simp [edgeRemoveSelf, hn, hm, edgeStart, edgeId, hr, removeOutwardEdge, R.out_not_cleared]

/-- A dead edge: `disconnect` raises and changes nothing. -/
theorem disconnect_dead (R : Rep h A) {e : ERef} (he : ∀ g, e ∉ (A.graph g).handles) :
    ∃ err, Verif.disconnect e h = (.error err, h) := by
  cases hn : (h.edge e).start with
  | none => exact ⟨.valueError "Edge does not have a start!", by simp [Verif.disconnect, edgeStart, hn]⟩
  | some n =>
    cases hm : (h.edge e).stop with
    | none => exact ⟨.valueError "This Edge does not have an end!", by simp [Verif.disconnect, edgeStart, edgeId, hn, hm]⟩
    | some m =>
      have hr : (h.edge e).raw = .cleared := by
        refine Decidable.byContradiction fun hr => ?_
        obtain ⟨g, hg⟩ := R.live e n m hn hm hr
        exact he g (mem_handles.2 ⟨_, hg⟩)
      refine ⟨.keyError, ?_⟩
      simp [Verif.disconnect, hn, hm, edgeStart, edgeId, hr, removeOutwardEdge, R.out_not_cleared]

/-- Delete all edges with the given handles. -/
theorem on_on (A : Spec) (g : GRef) (f f' : SGraph → SGraph) : (A.on g f).on g f' = A.on g (fun G => f' (f G)) := by
  simp only [Spec.on, upd_same]
  congr 1
  funext x
  by_cases hx : x = g
  · subst hx; simp
  · rw [upd_ne _ _ hx, upd_ne _ _ hx, upd_ne _ _ hx]

/-- What a run of edge removals leaves alone. -/
structure Kept (h h' : Heap) (es : List ERef) : Prop where
  graph : h'.graph = h.graph
  nN : h'.nN = h.nN
  nE : h'.nE = h.nE
  nG : h'.nG = h.nG
  node : ∀ x, ∃ o i, h'.node x = { h.node x with outE := o, inE := i }
  edge : ∀ e, e ∉ es → h'.edge e = h.edge e
  gone : ∀ e, e ∈ es → h'.edge e = { h.edge e with start := none, stop := none, graph := none }

/-- `for edge in es: edge.remove_self()` on live edges. -/
theorem removeAll_live (es : List ERef) {h : Heap} {A : Spec} (R : Rep h A) {g : GRef} (hnd : es.Nodup)
    (hes : ∀ e ∈ es, e ∈ (A.graph g).handles) :
    ∃ h', removeAll es h = (.ok (), h') ∧ Kept h h' es ∧
      Rep h' (A.on g (fun G => { G with edges := G.edges.filter (fun p => decide (p.2 ∉ es)) })) := by
  induction es generalizing h A with
  | nil =>
    refine ⟨h, rfl, ⟨rfl, rfl, rfl, rfl, fun x => ⟨_, _, rfl⟩, fun _ _ => rfl, by simp⟩, ?_⟩
    have : A.on g (fun G => { G with edges := G.edges.filter (fun p => decide (p.2 ∉ ([] : List ERef))) }) = A := by
      simp only [Spec.on]
      congr 1
      funext x
      by_cases hx : x = g
      · subst hx; simp only [upd_same, List.not_mem_nil, not_false_eq_true, decide_true]
        rw [List.filter_eq_self.2 (by simp)]
      · rw [upd_ne _ _ hx]
    rw [this]; exact R
  | cons e es ih =>
    rw [List.nodup_cons] at hnd
    obtain ⟨i, hi⟩ := mem_handles.1 (hes e (by simp))
    obtain ⟨n, m, h1, h2, h3, R'⟩ := R.removeSelf_live hi
    obtain ⟨h', r, K, R''⟩ := ih R' hnd.2 (by
      intro f hf
      obtain ⟨j, hj⟩ := mem_handles.1 (hes f (by simp [hf]))
      refine mem_handles.2 ⟨j, ?_⟩
      simp only [Spec.on_same, SGraph.delEdge, List.mem_filter, decide_eq_true_eq]
      exact ⟨hj, by rintro rfl; exact hnd.1 hf⟩)
    refine ⟨h', ?_, ?_, ?_⟩
    · simp only [removeAll, bind_apply, h3, r]
    · constructor
      · rw [K.graph]; rfl
      · rw [K.nN]; rfl
      · rw [K.nE]; rfl
      · rw [K.nG]; rfl
      · intro x
        obtain ⟨o, i', hx⟩ := K.node x
        exact ⟨o, i', by rw [hx]; simp [removeSelfHeap, cutNodes]⟩
      · intro f hf
        simp only [List.mem_cons, not_or] at hf
        rw [K.edge f hf.2]; simp [removeSelfHeap, upd_ne _ _ hf.1]
      · intro f hf
        by_cases hfe : f = e
        · subst hfe
          rw [K.edge _ hnd.1]; simp [removeSelfHeap]
        · rcases List.mem_cons.1 hf with hf | hf
          · exact absurd hf hfe
          · rw [K.gone f hf]; simp [removeSelfHeap, upd_ne _ _ hfe]
    · rw [on_on] at R''
      have : (fun G : SGraph => { G with edges := G.edges.filter (fun p => decide (p.2 ∉ e :: es)) }) =
          (fun G => { (G.delEdge e) with edges := (G.delEdge e).edges.filter (fun p => decide (p.2 ∉ es)) }) := by
        funext G
        simp only [SGraph.delEdge, List.filter_filter]
        congr 1
        apply List.filter_congr
        intro p _
        by_cases hp : p.2 = e <;> simp [hp]
      rw [this]; exact R''

end Rep
end Verif
