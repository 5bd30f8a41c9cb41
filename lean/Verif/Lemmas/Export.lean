import Verif.Spec.Dictionary
import Verif.Lemmas.DictDraws
import Verif.Props.Edges
/-!
# `__graph__` and `+`
-/
namespace Verif
variable {C : Type}

theorem outward_live {h : Heap} (r : Reachable h) {g : GRef} {n : NRef} (hn : n ∈ graphNodes h g) :
    ∃ os, outwardEdges h n = .ok os ∧ ∀ e ∈ os, ∃ a b, edgeStart h e = .ok a ∧ edgeEnd h e = .ok b := by
  obtain ⟨A, H⟩ := r.hist
  have R := H.rep
  obtain ⟨k, hk⟩ := (mem_graphNodes R).1 hn
  refine ⟨_, R.outwardEdges hk, fun e he => ?_⟩
  obtain ⟨i, hi, -⟩ := Rep.mem_out_handles.1 he
  obtain ⟨a, b, h1, h2, -⟩ := R.live_edge hi
  exact ⟨a, b, by simp [edgeStart, h1], by simp [edgeEnd, h2]⟩

theorem exportEdge_fails {h : Heap} {e : ERef} {a b : NRef} (h1 : edgeStart h e = .ok a) (h2 : edgeEnd h e = .ok b) :
    exportEdge (C := C) h e = .error .attributeError := by
  simp [exportEdge, h1, h2, bind, Except.bind]

theorem exportNodes_edgeless {h : Heap} {ns : List NRef} (hn : ∀ n ∈ ns, outwardEdges h n = .ok []) :
    exportNodes (C := C) h ns = .ok (ns.map (exportNode h), []) := by
  induction ns with
  | nil => rfl
  | cons n ns ih =>
    simp [exportNodes, hn n (by simp), ih fun m hm => hn m (by simp [hm]), mapE, bind, Except.bind]

theorem exportNodes_edge {h : Heap} {ns : List NRef}
    (hl : ∀ n ∈ ns, ∃ os, outwardEdges h n = .ok os ∧ ∀ e ∈ os, ∃ a b, edgeStart h e = .ok a ∧ edgeEnd h e = .ok b)
    (hn : ∃ n ∈ ns, outwardEdges h n ≠ .ok []) : exportNodes (C := C) h ns = .error .attributeError := by
  induction ns with
  | nil => simp at hn
  | cons n ns ih =>
    obtain ⟨os, h1, h2⟩ := hl n (by simp)
    cases os with
    | nil =>
      have : ∃ n ∈ ns, outwardEdges h n ≠ .ok [] := by
        obtain ⟨m, hm, h3⟩ := hn
        rcases List.mem_cons.1 hm with rfl | hm
        · exact absurd h1 h3
        · exact ⟨m, hm, h3⟩
      simp [exportNodes, h1, ih (fun m hm => hl m (by simp [hm])) this, mapE, bind, Except.bind]
    | cons e os =>
      obtain ⟨a, b, h3, h4⟩ := h2 e (by simp)
      simp [exportNodes, h1, mapE_error (l := os) (exportEdge_fails (C := C) h3 h4), bind, Except.bind]

theorem edgeless_iff {h : Heap} (r : Reachable h) (g : GRef) :
    graphEdges h g = .ok [] ↔ ∀ n ∈ graphNodes h g, outwardEdges h n = .ok [] := by
  obtain ⟨es, h1, -, h3, -⟩ := C11_edges r g
  constructor
  · intro h4 n hn
    rw [h1] at h4
    cases h4
    obtain ⟨os, h5, -⟩ := outward_live r hn
    cases os with
    | nil => exact h5
    | cons e os => exact absurd ((h3 e).2 ⟨n, hn, _, h5, by simp⟩) (by simp)
  · intro h4
    cases es with
    | nil => exact h1
    | cons e es =>
      obtain ⟨n, hn, os, h5, h6⟩ := (h3 e).1 (by simp)
      rw [h4 n hn] at h5
      cases h5
      simp at h6

theorem exportGraph_edges {w : World C} (r : Reachable w.heap) {g : GRef} (he : graphEdges w.heap g ≠ .ok []) :
    exportGraph w g = .error .attributeError := by
  have : ∃ n ∈ graphNodes w.heap g, outwardEdges w.heap n ≠ .ok [] := by
    refine Classical.byContradiction fun hc => he ((edgeless_iff r g).2 fun n hn => ?_)
    exact Classical.byContradiction fun h2 => hc ⟨n, hn, h2⟩
  simp [exportGraph, exportNodes_edge (C := C) (fun n hn => outward_live r hn) this, bind, Except.bind]

theorem exportGraph_edgeless {w : World C} (r : Reachable w.heap) {g : GRef} {d : Display C} (he : graphEdges w.heap g = .ok [])
    (hd : w.display g = some d) :
    exportGraph w g = .ok (exportWith (w.heap.graph g) d ((graphNodes w.heap g).map (exportNode w.heap)) []) := by
  simp [exportGraph, exportNodes_edgeless (C := C) ((edgeless_iff r g).1 he), hd, bind, Except.bind]

/-- `__graph__` of a graph, whatever it looks like, gives a dictionary or raises `AttributeError`. -/
theorem exportGraph_cases {w : World C} (r : Reachable w.heap) (g : GRef) :
    (∃ x, exportGraph w g = .ok x) ∨ exportGraph w g = .error .attributeError := by
  by_cases he : graphEdges w.heap g = .ok []
  · cases hd : w.display g with
    | some d => exact .inl ⟨_, exportGraph_edgeless r he hd⟩
    | none => exact .inr (by simp [exportGraph, exportNodes_edgeless (C := C) ((edgeless_iff r g).1 he), hd, bind, Except.bind])
  · exact .inr (exportGraph_edges r he)

theorem names_nodup {h : Heap} (r : Reachable h) (g : GRef) : ((graphNodes h g).map fun n => (h.node n).id).Nodup := by
  obtain ⟨h1, -, h3, -⟩ := C01_registered r g
  have : (graphNodes h g).map (fun n => (h.node n).id) = dkeys (h.graph g).nodes := by
    simp only [graphNodes, dvals, dkeys, List.map_map]
    exact List.map_congr_left fun p hp => h3 p.1 p.2 hp
  rw [this]; exact h1

/-! ## Merging -/

theorem mapE_all {α β : Type} {f : α → Except PyErr β} {l : List α} (h : ∀ x ∈ l, ∃ y, f x = .ok y) :
    ∃ ys, mapE f l = .ok ys ∧ List.Forall₂ (fun x y => f x = .ok y) l ys := by
  induction l with
  | nil => exact ⟨[], rfl, .nil⟩
  | cons x l ih =>
    obtain ⟨y, hy⟩ := h x (by simp)
    obtain ⟨ys, h1, h2⟩ := ih fun z hz => h z (by simp [hz])
    exact ⟨y :: ys, by simp [mapE, hy, h1, bind, Except.bind], .cons hy h2⟩

theorem mergeEntry_name {f : Val → Val → Except PyErr Val} {d1 d2 : List (Key × NodeSpec C)} {k : Key} {q : Key × NodeSpec C}
    (h : mergeEntry f d1 d2 k = .ok q) : q.1 = k := by
  unfold mergeEntry at h
  split at h
  · simp only [bind, Except.bind] at h
    split at h <;> cases h
    rfl
  · cases h; rfl
  · cases h; rfl
  · cases h

theorem forall₂_names {f : Val → Val → Except PyErr Val} {d1 d2 : List (Key × NodeSpec C)} {ks : List Key}
    {qs : List (Key × NodeSpec C)} (h : List.Forall₂ (fun k q => mergeEntry f d1 d2 k = .ok q) ks qs) :
    qs.map Prod.fst = ks ∧ ∀ q ∈ qs, mergeEntry f d1 d2 q.1 = .ok q := by
  induction h with
  | nil => simp
  | cons h1 _ ih =>
    have := mergeEntry_name h1
    refine ⟨by simp [this, ih.1], fun q hq => ?_⟩
    rcases List.mem_cons.1 hq with rfl | hq
    · rw [this]; exact h1
    · exact ih.2 q hq

theorem mergeEdges_nodup {f : Val → Val → Except PyErr Val} {l : List (Key × Key × EdgeSpec C)} {done : Dict EdgeId (EdgeSpec C)}
    (hn : (edgeIds l).Nodup) (hd : ∀ i ∈ edgeIds l, i ∉ dkeys done) :
    mergeEdges f l done = .ok (done ++ l.map fun q => ((q.1, q.2.1, q.2.2.raw), q.2.2)) := by
  induction l generalizing done with
  | nil => simp [mergeEdges]
  | cons q l ih =>
    obtain ⟨s, t, a⟩ := q
    obtain ⟨n1, n2⟩ := List.nodup_cons.1 hn
    have h1 : (s, t, a.raw) ∉ done.map Prod.fst := hd _ (by simp [edgeIds])
    have h2 : dget done (s, t, a.raw) = none := dget_none.2 h1
    simp only [mergeEdges, h2]
    rw [dset_of_not_mem h1, ih n2]
    · simp
    · intro i hi
      have := hd i (by simp only [edgeIds, List.map_cons, List.mem_cons]; exact .inr hi)
      have hne : i ≠ (s, t, a.raw) := by rintro rfl; exact n1 hi
      simp only [dkeys, List.map_append, List.mem_append] at this ⊢
      simp [this, hne]

theorem combine_cons {f : Val → Val → Except PyErr Val} (a b : EdgeSpec C) (l : List (EdgeSpec C)) :
    combine f a (b :: l) = (mergeEdge f a b).bind fun x => combine f x l := by
  simp only [combine, mergeEdge, bind, Except.bind]
  cases f a.value b.value with
  | error e => rfl
  | ok v =>
    simp only [EdgeStyleArg.orElse, Val.orElse]
    cases a.style with
    | dict l => cases l <;> rfl
    | _ => rfl

theorem combine_snoc {f : Val → Val → Except PyErr Val} (a b : EdgeSpec C) (l : List (EdgeSpec C)) :
    combine f a (l ++ [b]) = (combine f a l).bind fun x => mergeEdge f x b := by
  induction l generalizing a with
  | nil =>
    rw [List.nil_append, combine_cons]
    simp only [combine, Except.bind]
    cases mergeEdge f a b <;> rfl
  | cons c l ih =>
    rw [List.cons_append, combine_cons, combine_cons]
    cases mergeEdge f a c with
    | error e => rfl
    | ok x => simp only [Except.bind]; exact ih x

theorem mergeEdge_raw {f : Val → Val → Except PyErr Val} {a b x : EdgeSpec C} (h : mergeEdge f a b = .ok x) : x.raw = a.raw := by
  simp only [mergeEdge, bind, Except.bind] at h
  cases hf : f a.value b.value with
  | error e => rw [hf] at h; cases h
  | ok v => rw [hf] at h; cases h; rfl

/-- `done` is what has become of the entries `pre`. -/
structure Merged (f : Val → Val → Except PyErr Val) (pre : List (Key × Key × EdgeSpec C)) (done : Dict EdgeId (EdgeSpec C)) : Prop where
  keys : (dkeys done).Nodup
  none : ∀ i, entriesFor pre i = [] → dget done i = none
  some : ∀ i a rest, entriesFor pre i = a :: rest → ∃ b, combine f a rest = .ok b ∧ dget done i = some b ∧ b.raw = i.2.2

theorem entriesFor_snoc (pre : List (Key × Key × EdgeSpec C)) (s t : Key) (a : EdgeSpec C) (i : EdgeId) :
    entriesFor (pre ++ [(s, t, a)]) i = entriesFor pre i ++ if (s, t, a.raw) = i then [a] else [] := by
  unfold entriesFor
  rw [List.filter_append, List.map_append]
  by_cases h : (s, t, a.raw) = i <;> simp [h]

theorem mergeEdges_merged {f : Val → Val → Except PyErr Val} {l pre : List (Key × Key × EdgeSpec C)} {done : Dict EdgeId (EdgeSpec C)}
    (m : Merged f pre done) (H : ∀ i a rest, entriesFor (pre ++ l) i = a :: rest → ∃ b, combine f a rest = .ok b) :
    ∃ r, mergeEdges f l done = .ok r ∧ Merged f (pre ++ l) r := by
  induction l generalizing pre done with
  | nil => exact ⟨done, rfl, by rw [List.append_nil]; exact m⟩
  | cons q l ih =>
    obtain ⟨s, t, a⟩ := q
    have step : ∀ b, (∀ x rest, entriesFor (pre ++ [(s, t, a)]) (s, t, a.raw) = x :: rest → combine f x rest = .ok b) → b.raw = a.raw →
        Merged f (pre ++ [(s, t, a)]) (dset done (s, t, a.raw) b) := by
      intro b hb hr
      refine ⟨nodup_dset m.keys, fun i hi => ?_, fun i x rest hi => ?_⟩
      · rw [dget_dset]
        rw [entriesFor_snoc] at hi
        obtain ⟨h1, h2⟩ := List.append_eq_nil_iff.1 hi
        rw [if_neg (by rintro rfl; simp at h2)]
        exact m.none i h1
      · rw [dget_dset]
        by_cases h : i = (s, t, a.raw)
        · subst h
          exact ⟨b, hb x rest hi, by simp, hr⟩
        · rw [if_neg (fun e => h e.symm)]
          rw [entriesFor_snoc, if_neg (fun e => h e.symm), List.append_nil] at hi
          exact m.some i x rest hi
    have fin : ∀ {done'}, Merged f (pre ++ [(s, t, a)]) done' → ∃ r, mergeEdges f l done' = .ok r ∧ Merged f (pre ++ (s, t, a) :: l) r := by
      intro done' m'
      have := ih m' (by rw [List.append_assoc]; exact H)
      rw [List.append_assoc] at this
      exact this
    simp only [mergeEdges]
    cases he : entriesFor pre (s, t, a.raw) with
    | nil =>
      rw [m.none _ he]
      refine fin (step a ?_ rfl)
      intro x rest hx
      rw [entriesFor_snoc, he] at hx
      simp at hx
      obtain ⟨rfl, rfl⟩ := hx
      rfl
    | cons x rest =>
      obtain ⟨b, h1, h2, h3⟩ := m.some _ x rest he
      rw [h2]
      have key : ∃ c, mergeEdge f b a = .ok c := by
        have e : entriesFor (pre ++ (s, t, a) :: l) (s, t, a.raw) = x :: (rest ++ [a]) ++ entriesFor l (s, t, a.raw) := by
          have : pre ++ (s, t, a) :: l = (pre ++ [(s, t, a)]) ++ l := by simp
          rw [this]
          unfold entriesFor
          rw [List.filter_append, List.map_append]
          have := entriesFor_snoc pre s t a (s, t, a.raw)
          unfold entriesFor at this he
          rw [this, he]
          simp
        rw [List.cons_append] at e
        obtain ⟨z, hz⟩ := H _ _ _ e
        cases hc : mergeEdge f b a with
        | ok c => exact ⟨c, rfl⟩
        | error er =>
          exfalso
          have bad : ∀ (l : List (EdgeSpec C)) (y : EdgeSpec C) (r : List (EdgeSpec C)), combine f y r = .error er → combine f y (r ++ l) = .error er := by
            intro l
            induction l with
            | nil => intro y r h; simpa using h
            | cons c l ih =>
              intro y r h
              have : r ++ c :: l = (r ++ [c]) ++ l := by simp
              rw [this]
              exact ih y _ (by rw [combine_snoc, h]; rfl)
          have h4 : combine f x (rest ++ [a]) = .error er := by rw [combine_snoc, h1]; exact hc
          rw [bad _ x _ h4] at hz
          cases hz
      obtain ⟨c, hc⟩ := key
      simp only [hc, bind, Except.bind]
      refine fin (step c ?_ (by rw [mergeEdge_raw hc]; exact h3))
      intro y r hy
      rw [entriesFor_snoc, he, if_pos rfl] at hy
      simp only [List.cons_append, List.cons.injEq] at hy
      obtain ⟨rfl, rfl⟩ := hy
      rw [combine_snoc, h1]
      exact hc

theorem combine_style [Palette C] {f : Val → Val → Except PyErr Val} {l : List (EdgeSpec C)} {a b : EdgeSpec C} (h : combine f a l = .ok b) :
    b.style = a.style ∨ ∃ x ∈ l, b.style = x.style := by
  induction l generalizing a with
  | nil => cases h; exact .inl rfl
  | cons c l ih =>
    simp only [combine] at h
    split at h
    · cases h
    · rcases ih h with h1 | ⟨x, hx, h1⟩
      · simp only at h1
        split at h1
        · exact .inr ⟨c, by simp, h1⟩
        · exact .inr ⟨c, by simp, h1⟩
        · exact .inl h1
      · exact .inr ⟨x, by simp [hx], h1⟩

/-! ## The sum -/

section
variable [Palette C]

theorem NodeStyleArg.orElse_valid {x y : NodeStyleArg C} (hx : x.plain.Valid) (hy : y.plain.Valid) : (x.orElse y).plain.Valid := by
  unfold NodeStyleArg.orElse
  split <;> assumption

/-- The names of the nodes of a graph. -/
def namesOf (h : Heap) (g : GRef) : List Key := (graphNodes h g).map fun n => (h.node n).id

omit [Palette C] in
theorem exported_names (h : Heap) (g : GRef) :
    ((graphNodes h g).map (exportNode (C := C) h)).map Prod.fst = namesOf h g := by
  simp [namesOf, exportNode, Function.comp_def]

/-- `__graph__` of a graph makes nodes that can be appended. -/
theorem tidy_export {h : Heap} (r : Reachable h) (g : GRef) : TidyNodes ((graphNodes h g).map (exportNode (C := C) h)) where
  nodup := by rw [exported_names]; exact names_nodup r g
  names := by
    intro q hq
    obtain ⟨n, -, rfl⟩ := List.mem_map.1 hq
    exact r.idStr n
  styles := by
    intro q hq
    obtain ⟨n, -, rfl⟩ := List.mem_map.1 hq
    simp only [exportNode, NodeSpec.args]
    split <;> trivial

/-- The entries of the sum are as tidy as those of the operands. -/
theorem tidy_merge {f : Val → Val → Except PyErr Val} {d1 d2 qs : List (Key × NodeSpec C)} (T1 : TidyNodes d1) (T2 : TidyNodes d2)
    (hn : (qs.map Prod.fst).Nodup) (hq : ∀ q ∈ qs, mergeEntry f d1 d2 q.1 = .ok q) : TidyNodes qs where
  nodup := hn
  names := by
    intro ⟨k, a⟩ h
    have := hq (k, a) h
    unfold mergeEntry at this
    split at this
    · next h1 _ => have h3 := ((dget_iff T1.nodup).1 h1); simpa using T1.names _ h3
    · next h1 _ => have h3 := ((dget_iff T1.nodup).1 h1); simpa using T1.names _ h3
    · next h1 => have h3 := ((dget_iff T2.nodup).1 h1); simpa using T2.names _ h3
    · cases this
  styles := by
    intro ⟨k, a⟩ h
    have := hq (k, a) h
    unfold mergeEntry at this
    split at this
    · next h1 h2 =>
      have v1 := T1.styles (_, _) ((dget_iff T1.nodup).1 h1)
      have v2 := T2.styles (_, _) ((dget_iff T2.nodup).1 h2)
      simp only [mergeNode, bind, Except.bind] at this
      split at this <;> cases this
      next a _ => 
      rename_i hm
      split at hm <;> cases hm
      exact NodeStyleArg.orElse_valid v1 v2
    · next h1 _ => rw [← Except.ok.inj this]; exact T1.styles (_, _) ((dget_iff T1.nodup).1 h1)
    · next h1 => rw [← Except.ok.inj this]; exact T2.styles (_, _) ((dget_iff T2.nodup).1 h1)
    · cases this

omit [Palette C] in
theorem foldl_setNode_edgeStyles (l : Dict Key (List (NodeItem C))) (d : Display C) : (l.foldl Display.setNode d).edgeStyles = d.edgeStyles := by
  induction l generalizing d with
  | nil => rfl
  | cons p l ih => rw [List.foldl_cons, ih]; rfl

/-- What `add` does when it works. -/
theorem addGraphs_merge {w : World C} (r : Reachable w.heap) {g : GRef} {d : Display C} (he : graphEdges w.heap g = .ok [])
    (hd : w.display g = some d) (hs : d.edgeStyles = []) {other : Operand C} {x : Export C} (hx : other.export w = .ok x)
    (hxs : x.edgeStyles = []) (T : TidyNodes x.nodes) {es : List (Key × Key × EdgeSpec C)}
    (T' : TidyEdges (namesOf w.heap g ++ x.nodes.map Prod.fst) es)
    {order : List Key → List Key} (ho : ∀ l, (order l).Perm l) {f : Val → Val → Except PyErr Val}
    (hm : mergeEdges f x.edges [] = .ok (es.map fun q => ((q.1, q.2.1, q.2.2.raw), q.2.2)))
    (hf : ∀ q ∈ x.nodes, q.1 ∈ namesOf w.heap g → ∃ v, f q.2.value q.2.value = .ok v) (base : GraphArgs C) :
    ∃ w', ∃ qs : List (Key × NodeSpec C), addGraphs base order f g other w = (.ok w.heap.nG, w') ∧ Reachable w'.heap ∧
      Draws w'.heap w.heap.nG { strict := (w.heap.graph g).strict, ordering := (w.heap.graph g).ordering,
                                nodes := qs.map NodeSpec.seen, edges := es.map EdgeSpec.seen } ∧
      (qs.map Prod.fst).Nodup ∧ (∀ k, k ∈ qs.map Prod.fst ↔ k ∈ namesOf w.heap g ∨ k ∈ x.nodes.map Prod.fst) ∧
      (∀ q ∈ qs, mergeEntry f ((graphNodes w.heap g).map (exportNode w.heap)) x.nodes q.1 = .ok q) ∧
      (∀ g', g' < w.heap.nG → g' ≠ g → w'.display g' = w.display g') ∧
      (g < w.heap.nG → w'.display g = some { d with nodeStyles := dupdate d.nodeStyles x.nodeStyles }) ∧
      (∀ g', g' < w.heap.nG → Untouched w.heap w'.heap g') ∧
      w.heap.nG < w'.heap.nG ∧ ∃ d', w'.display w.heap.nG = some d' ∧ d'.edgeStyles = [] := by
  have T1 := tidy_export (C := C) r g
  have hks : dkeys ((graphNodes w.heap g).map (exportNode (C := C) w.heap)) = namesOf w.heap g := exported_names _ _
  have hmem : ∀ k, k ∈ namesOf w.heap g ++ (dkeys x.nodes).filter (fun k => decide (k ∉ namesOf w.heap g)) ↔
      k ∈ namesOf w.heap g ∨ k ∈ x.nodes.map Prod.fst := by
    intro k
    simp only [List.mem_append, List.mem_filter, dkeys, decide_eq_true_eq]
    by_cases hk : k ∈ namesOf w.heap g <;> simp [hk]
  obtain ⟨qs, m1, m2⟩ := mapE_all (f := mergeEntry f ((graphNodes w.heap g).map (exportNode w.heap)) x.nodes)
    (l := order (namesOf w.heap g ++ (dkeys x.nodes).filter (fun k => decide (k ∉ namesOf w.heap g)))) (by
      intro k hk
      rw [(ho _).mem_iff, hmem] at hk
      unfold mergeEntry
      split
      · next h1 h2 =>
        have h3 := (dget_iff T.nodup).1 h2
        have h4 : k ∈ namesOf w.heap g := by rw [← hks]; exact dget_isSome.1 (by rw [h1]; rfl)
        obtain ⟨v, hv⟩ := hf _ h3 h4
        simp [mergeNode, hv, bind, Except.bind]
      · exact ⟨_, rfl⟩
      · exact ⟨_, rfl⟩
      · next h1 h2 =>
        have a1 := dget_none.1 h1
        have a2 := dget_none.1 h2
        rw [exported_names] at a1
        exact absurd hk (by simp [a1, a2]))
  obtain ⟨m3, m4⟩ := forall₂_names m2
  have hnd : (qs.map Prod.fst).Nodup := by
    rw [m3, (ho _).nodup_iff]
    refine List.nodup_append.2 ⟨names_nodup r g, T.nodup.filter _, ?_⟩
    rintro a ha b hb rfl
    simp [ha] at hb
  have hall : ∀ k, k ∈ qs.map Prod.fst ↔ k ∈ namesOf w.heap g ∨ k ∈ x.nodes.map Prod.fst := by
    intro k; rw [m3, (ho _).mem_iff, hmem]
  obtain ⟨w', e1, e2, e3, e4, e5, e6⟩ := graphOfDict_draws (C := C)
    (w := (modDisplay g (fun d => { d with edgeStyles := dupdate d.edgeStyles x.edgeStyles })
      (modDisplay g (fun d => { d with nodeStyles := dupdate d.nodeStyles x.nodeStyles }) w).2).2) r base
    (D := { strict := some (w.heap.graph g).strict, ordering := some (w.heap.graph g).ordering, nodeStyles := dupdate d.nodeStyles x.nodeStyles,
            edgeStyles := (dupdate d.edgeStyles x.edgeStyles).map fun _ => .other,
            nodes := some (.dict qs), edges := some ((es.map fun q => ((q.1, q.2.1, q.2.2.raw), q.2.2)).map fun p => .three p.1.1 p.1.2.1 p.2) })
    (nodes := qs) (edges := es) rfl (by simp [Function.comp_def]) (by simp) (by simp [hs, hxs, dupdate]) rfl
    (tidy_merge T1 T hnd m4) ⟨T'.nodup, fun q hq => by
      have := T'.ends q hq
      simpa only [hall, List.mem_append] using this, T'.styles⟩
  refine ⟨w', qs, ?_, e2, e3, hnd, hall, m4, ?_, ?_, e5, e6, ?_⟩
  · have m5 : mergeNodes order f ((graphNodes w.heap g).map (exportNode (C := C) w.heap)) x.nodes = .ok qs := by
      unfold mergeNodes; rw [hks]; exact m1
    simp only [addGraphs, W.bind_apply, W.ask, exportGraph_edgeless r he hd, hx, modDisplay, exportWith, m5, List.nil_append, hm]
    exact e1
  · intro g' h1 h2
    rw [e4]
    refine (upd_ne _ _ (Nat.ne_of_lt h1)).trans ?_
    simp [modDisplay, h2]
  · intro h1
    rw [e4]
    refine (upd_ne _ _ (Nat.ne_of_lt h1)).trans ?_
    simp [modDisplay, hd, hs, hxs, dupdate]
  · rw [e4]
    refine ⟨_, upd_same _ _ _, ?_⟩
    simp [Display.after, Display.appended, Display.stage3, Display.stage2, Display.stage1, startDisplay, hs, hxs, dupdate,
      foldl_setNode_edgeStyles, Display.labelled, Display.told]

theorem addGraphs_run {w : World C} (r : Reachable w.heap) {g : GRef} {d : Display C} (he : graphEdges w.heap g = .ok [])
    (hd : w.display g = some d) (hs : d.edgeStyles = []) {other : Operand C} {x : Export C} (hx : other.export w = .ok x)
    (hxs : x.edgeStyles = []) (T : TidyNodes x.nodes) (T' : TidyEdges (namesOf w.heap g ++ x.nodes.map Prod.fst) x.edges)
    {order : List Key → List Key} (ho : ∀ l, (order l).Perm l) {f : Val → Val → Except PyErr Val}
    (hf : ∀ q ∈ x.nodes, q.1 ∈ namesOf w.heap g → ∃ v, f q.2.value q.2.value = .ok v) (base : GraphArgs C) :
    ∃ w', ∃ qs : List (Key × NodeSpec C), addGraphs base order f g other w = (.ok w.heap.nG, w') ∧ Reachable w'.heap ∧
      Draws w'.heap w.heap.nG { strict := (w.heap.graph g).strict, ordering := (w.heap.graph g).ordering,
                                nodes := qs.map NodeSpec.seen, edges := x.edges.map EdgeSpec.seen } ∧
      (qs.map Prod.fst).Nodup ∧ (∀ k, k ∈ qs.map Prod.fst ↔ k ∈ namesOf w.heap g ∨ k ∈ x.nodes.map Prod.fst) ∧
      (∀ q ∈ qs, mergeEntry f ((graphNodes w.heap g).map (exportNode w.heap)) x.nodes q.1 = .ok q) ∧
      (∀ g', g' < w.heap.nG → g' ≠ g → w'.display g' = w.display g') ∧
      (g < w.heap.nG → w'.display g = some { d with nodeStyles := dupdate d.nodeStyles x.nodeStyles }) ∧
      (∀ g', g' < w.heap.nG → Untouched w.heap w'.heap g') ∧
      w.heap.nG < w'.heap.nG ∧ ∃ d', w'.display w.heap.nG = some d' ∧ d'.edgeStyles = [] :=
  addGraphs_merge r he hd hs hx hxs T T' ho
    (by rw [mergeEdges_nodup (done := []) T'.nodup (by simp [dkeys]), List.nil_append]) hf base

end
end Verif
