import Verif.Model.StyleMaps
import Verif.Props.Stylize
/-!
# C95: `node_styles` and `edge_styles`
-/
namespace Verif

/-- Collecting styles, one for each key. -/
theorem collect_styles {K V : Type} [DecidableEq K] (f : V → Option SRef) (l : List (K × V)) (hn : (l.map Prod.fst).Nodup)
    (d : Dict K (Option SRef)) (hd : ∀ p ∈ l, p.1 ∉ d.map Prod.fst) :
    l.foldl (fun d p => if (f p.2).isSome then dset d p.1 (f p.2) else d) d =
      d ++ l.filterMap fun p => (f p.2).map fun s => (p.1, some s) := by
  induction l generalizing d with
  | nil => simp
  | cons p l ih =>
    simp only [List.map_cons, List.nodup_cons] at hn
    simp only [List.foldl_cons, List.filterMap_cons]
    cases hf : f p.2 with
    | none =>
      simp only [Option.isSome_none, Bool.false_eq_true, if_false, Option.map_none]
      exact ih hn.2 d (fun q hq => hd q (by simp [hq]))
    | some s =>
      simp only [Option.isSome_some, if_true, Option.map_some]
      rw [dset_of_not_mem (hd p (by simp)), ih hn.2]
      · simp
      · intro q hq
        simp only [List.map_append, List.map_cons, List.map_nil, List.mem_append, List.mem_singleton, not_or]
        exact ⟨hd q (by simp [hq]), fun hc => hn.1 (List.mem_map.2 ⟨q, hq, hc⟩)⟩

theorem styles_keys {K V : Type} (f : V → Option SRef) (l : List (K × V)) (hn : (l.map Prod.fst).Nodup) :
    ((l.filterMap fun p => (f p.2).map fun s => (p.1, some s)).map Prod.fst).Nodup := by
  induction l with
  | nil => simp
  | cons p l ih =>
    simp only [List.map_cons, List.nodup_cons] at hn
    simp only [List.filterMap_cons]
    cases hf : f p.2 with
    | none => simpa using ih hn.2
    | some s =>
      simp only [Option.map_some, List.map_cons, List.nodup_cons]
      refine ⟨fun hc => hn.1 ?_, ih hn.2⟩
      obtain ⟨q, hq, e⟩ := List.mem_map.1 hc
      obtain ⟨q', h1, h2⟩ := List.mem_filterMap.1 hq
      refine List.mem_map.2 ⟨q', h1, ?_⟩
      cases h3 : f q'.2 with
      | none => rw [h3] at h2; cases h2
      | some t => rw [h3] at h2; cases h2; exact e

/-- **C95.** `has_style()` says whether there is a style. -/
theorem C95_has (h : Heap) : (∀ n, nodeHasStyle h n = true ↔ (h.node n).style ≠ none) ∧ ∀ e, edgeHasStyle h e = true ↔ (h.edge e).style ≠ none :=
  ⟨fun n => by unfold nodeHasStyle; cases (h.node n).style <;> simp, fun e => by unfold edgeHasStyle; cases (h.edge e).style <;> simp⟩

/-- **C95.** `node_styles` has one entry for each node with a style: its name, and its style. -/
theorem C95_nodes {h : Heap} (r : Reachable h) (g : GRef) :
    (dkeys (nodeStyles h g)).Nodup ∧
    (∀ k s, dget (nodeStyles h g) k = some (some s) ↔ ∃ n, getNode h g (.key k) = .ok n ∧ (h.node n).style = some s) ∧
    ∀ k, dget (nodeStyles h g) k ≠ some none := by
  obtain ⟨A, H⟩ := r.hist
  have R := H.rep
  have hn : ((h.graph g).nodes.map Prod.fst).Nodup := by rw [R.nodes]; exact R.keysNodup g
  have e : nodeStyles h g = (h.graph g).nodes.filterMap fun p => ((h.node p.2).style).map fun s => (p.1, some s) := by
    have := collect_styles (fun n => (h.node n).style) (h.graph g).nodes hn [] (by simp)
    rw [List.nil_append] at this
    exact this
  have hk := styles_keys (fun n => (h.node n).style) (h.graph g).nodes hn
  rw [e]
  refine ⟨hk, fun k s => ?_, fun k hc => ?_⟩
  rotate_left
  · obtain ⟨q, -, h2⟩ := List.mem_filterMap.1 ((dget_iff hk).1 hc)
    cases h3 : (h.node q.2).style <;> simp [h3] at h2
  rw [dget_iff hk, List.mem_filterMap]
  constructor
  · rintro ⟨⟨k', n⟩, h1, h2⟩
    cases h3 : (h.node n).style with
    | none => simp [h3] at h2
    | some t =>
      simp only [h3, Option.map_some, Option.some.injEq, Prod.mk.injEq] at h2
      obtain ⟨rfl, rfl⟩ := h2
      exact ⟨n, by simp [getNode, dget_of_mem hn h1], h3⟩
  · rintro ⟨n, h1, h2⟩
    cases hg : dget (h.graph g).nodes k with
    | none => simp [getNode, hg] at h1
    | some m =>
      simp only [getNode, hg, Except.ok.injEq] at h1
      subst h1
      exact ⟨(k, m), mem_of_dget hg, by simp [h2]⟩

namespace Rep
variable {h : Heap} {A : Spec}

theorem edgeStyles_inner (R : Rep h A) {g : GRef} (es : List (EdgeId × ERef)) (hes : ∀ p ∈ es, p ∈ (A.graph g).edges)
    (d : Dict EdgeId (Option SRef)) :
    (es.map Prod.snd).foldlM (fun d e =>
      if edgeHasStyle h e then do
        let i ← edgeId h e
        return dset d i (h.edge e).style
      else .ok d) d =
    (.ok (es.foldl (fun d p => if ((h.edge p.2).style).isSome then dset d p.1 (h.edge p.2).style else d) d)
      : Except PyErr _) := by
  induction es generalizing d with
  | nil => simp; rfl
  | cons p es ih =>
    obtain ⟨i, e⟩ := p
    have hie := hes (i, e) (by simp)
    simp only [List.map_cons, List.foldlM_cons, List.foldl_cons]
    have step : (if edgeHasStyle h e then do
          let i ← edgeId h e
          return dset d i (h.edge e).style
        else .ok d) =
        (.ok (if ((h.edge e).style).isSome then dset d i (h.edge e).style else d) : Except PyErr _) := by
      unfold edgeHasStyle
      rw [R.edgeId_eq hie]
      cases (h.edge e).style <;> rfl
    show ((if edgeHasStyle h e then _ else _) >>= fun d' => _) = _
    rw [step]
    exact ih (fun p hp => hes p (by simp [hp])) _

/-- The edges in the order of their starts. -/
theorem edgeStyles_fold (R : Rep h A) {g : GRef} (ns : List (Key × NRef)) (hns : ∀ p ∈ ns, p ∈ (A.graph g).nodes) (d : Dict EdgeId (Option SRef)) :
    (ns.map Prod.snd).foldlM (fun d n => do
        let es ← Verif.outwardEdges h n
        es.foldlM (fun d e =>
          if edgeHasStyle h e then do
            let i ← edgeId h e
            return dset d i (h.edge e).style
          else .ok d) d) d =
    (.ok ((ns.flatMap fun p => (A.graph g).out p.1).foldl
      (fun d p => if ((h.edge p.2).style).isSome then dset d p.1 (h.edge p.2).style else d) d)
      : Except PyErr _) := by
  induction ns generalizing d with
  | nil => rfl
  | cons q ns ih =>
    obtain ⟨k, n⟩ := q
    have hkn := hns (k, n) (by simp)
    simp only [List.map_cons, List.foldlM_cons, R.outwardEdges hkn, List.flatMap_cons, List.foldl_append]
    show (List.foldlM _ d _ >>= fun s' => _) = _
    rw [R.edgeStyles_inner ((A.graph g).out k) (fun p hp => (List.mem_filter.1 hp).1) d]
    exact ih (fun p hp => hns p (by simp [hp])) _
end Rep

/-- **C95.** `edge_styles` has one entry for each edge with a style: its id, and its style. It never raises. -/
theorem C95_edges {h : Heap} (r : Reachable h) (g : GRef) :
    ∃ d, edgeStyles h g = .ok d ∧ (dkeys d).Nodup ∧
      (∀ i s, dget d i = some (some s) ↔ ∃ e, LiveEdge h g e ∧ edgeId h e = .ok i ∧ (h.edge e).style = some s) ∧
      ∀ i, dget d i ≠ some none := by
  obtain ⟨A, H⟩ := r.hist
  have R := H.rep
  have hrun := R.edgeStyles_fold (g := g) (A.graph g).nodes (fun _ hp => hp) []
  have hmem : ∀ p, p ∈ ((A.graph g).nodes.flatMap fun p => (A.graph g).out p.1) ↔ p ∈ (A.graph g).edges := by
    intro p
    simp only [List.mem_flatMap, SGraph.out, List.mem_filter, decide_eq_true_eq]
    constructor
    · rintro ⟨_, _, h, _⟩; exact h
    · intro hp
      obtain ⟨i, e⟩ := p
      obtain ⟨n, m, -, -, -, -, -, a6, -⟩ := R.live_edge hp
      exact ⟨_, a6, hp, rfl⟩
  have hnd : (((A.graph g).nodes.flatMap fun p => (A.graph g).out p.1).map Prod.fst).Nodup := by
    have key : ∀ ns : List (Key × NRef), (ns.map Prod.fst).Nodup → ((ns.flatMap fun p => (A.graph g).out p.1).map Prod.fst).Nodup := by
      intro ns
      induction ns with
      | nil => simp
      | cons q ns ih =>
        intro hq
        simp only [List.map_cons, List.nodup_cons] at hq
        simp only [List.flatMap_cons, List.map_append, List.nodup_append]
        refine ⟨nodup_keys_filter _ (R.idsNodup g), ih hq.2, ?_⟩
        rintro a ha b hb rfl
        obtain ⟨x, hx, rfl⟩ := List.mem_map.1 ha
        obtain ⟨y, hy, e⟩ := List.mem_map.1 hb
        obtain ⟨z, hz, hyz⟩ := List.mem_flatMap.1 hy
        have h1 : x.1.1 = q.1 := by simpa using (List.mem_filter.1 hx).2
        have h2 : y.1.1 = z.1 := by simpa using (List.mem_filter.1 hyz).2
        exact hq.1 (List.mem_map.2 ⟨z, hz, by rw [← h2, e, h1]⟩)
    exact key _ (R.keysNodup g)
  have e := collect_styles (fun x => (h.edge x).style) _ hnd [] (by simp)
  rw [List.nil_append] at e
  have hk := styles_keys (fun x => (h.edge x).style) _ hnd
  refine ⟨_, ?_, hk, fun i s => ?_, fun i hc => ?_⟩
  rotate_left 2
  · obtain ⟨q, -, h2⟩ := List.mem_filterMap.1 ((dget_iff hk).1 hc)
    cases h3 : (h.edge q.2).style <;> simp [h3] at h2
  · unfold edgeStyles graphNodes dvals
    rw [R.nodes]
    exact hrun.trans (congrArg Except.ok e)
  · rw [dget_iff hk, List.mem_filterMap]
    constructor
    · rintro ⟨⟨i', x⟩, h1, h2⟩
      have h1 := (hmem _).1 h1
      cases h3 : (h.edge x).style with
      | none => simp [h3] at h2
      | some t =>
        simp only [h3, Option.map_some, Option.some.injEq, Prod.mk.injEq] at h2
        obtain ⟨rfl, rfl⟩ := h2
        exact ⟨x, (liveEdge_iff R).2 ⟨_, h1⟩, R.edgeId_eq h1, h3⟩
    · rintro ⟨x, h1, h2, h3⟩
      obtain ⟨j, hj⟩ := (liveEdge_iff R).1 h1
      have := R.edgeId_eq hj
      rw [h2] at this
      cases this
      exact ⟨(i, x), (hmem _).2 hj, by simp [h3]⟩

section
variable {C : Type} [Palette C] [DecidableEq C]

/-- **C95**: after the default stylist has run on a graph without stranded nodes, `node_styles` has an entry for every name, and
`edge_styles` one for every edge. -/
theorem C95_painted {w : World C} (F : Fine w) (r : Reachable w.heap) {g : GRef} {d : Display C} (hd : w.display g = some d)
    (hown : ∀ n ∈ graphNodes w.heap g, (w.heap.node n).graph = some g) {lim : Nat} (hlim : (graphNodes w.heap g).length ≤ lim)
    (hs : d.scheme ≠ []) (hstr : ∀ n ∈ graphNodes w.heap g, ¬ Stranded w g n)
    (hval : ∀ e, LiveEdge w.heap g e → edgeLook w e = none → (w.heap.edge e).value.factor ≠ none)
    {w' : World C} (hok : stylizeWithPensieve lim g w = (.ok (), w')) :
    (∀ k n, getNode w.heap g (.key k) = .ok n → k ∈ dkeys (nodeStyles w'.heap g)) ∧
    ∃ D, edgeStyles w'.heap g = .ok D ∧ ∀ e i, LiveEdge w.heap g e → edgeId w.heap e = .ok i → i ∈ dkeys D := by
  obtain ⟨w1, q1, q2, q3, -, -, B⟩ := C48_all_styled_partial F r hd hown hlim hs hstr hval
  rw [hok] at q1
  cases q1
  have r' := B.reach r
  have S := B.shape
  refine ⟨fun k n hn => ?_, ?_⟩
  · have hmem : n ∈ graphNodes w.heap g := by
      cases hg : dget (w.heap.graph g).nodes k with
      | none => simp [getNode, hg] at hn
      | some m =>
        simp only [getNode, hg, Except.ok.injEq] at hn
        subst hn
        exact List.mem_map.2 ⟨_, mem_of_dget hg, rfl⟩
    have h1 := q2 n hmem
    cases hst : (w'.heap.node n).style with
    | none => exact absurd (nodeLook_none.2 hst) h1
    | some s =>
      have := ((C95_nodes r' g).2.1 k s).2 ⟨n, by rw [← S.getNode]; exact hn, hst⟩
      exact dget_isSome.1 (by rw [this]; rfl)
  · obtain ⟨D, d1, -, d2, -⟩ := C95_edges r' g
    refine ⟨D, d1, fun e i he hi => ?_⟩
    have h1 := q3 e he
    cases hst : (w'.heap.edge e).style with
    | none => exact absurd (edgeLook_none.2 hst) h1
    | some s =>
      have := (d2 i s).2 ⟨e, by rw [← S.liveEdge]; exact he, by rw [← S.edgeId]; exact hi, hst⟩
      exact dget_isSome.1 (by rw [this]; rfl)
end

/-- `diamond` with styles for `a` and for the edge `a → c`. -/
def partlyDressed : Heap := runOps [.nodeStyle 0 (.dict true), .edgeStyle 1 (.dict true)] diamond

example : Reachable partlyDressed := Reachable.runOps diamond_reachable _ (by simp only [AllOk, Op.Ok]; decide +kernel)

example : nodeStyles partlyDressed 0 = [(.str "a", some 0)] ∧ edgeStyles partlyDressed 0 = .ok [((.str "a", .str "c", .none), some 1)] := by decide +kernel

end Verif
