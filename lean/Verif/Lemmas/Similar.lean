import Verif.Model.Similar
import Verif.Spec.Alike
import Verif.Lemmas.Copy
import Mathlib.Data.List.Perm.Subperm
/-!
# What `is_similar_to` computes
-/
namespace Verif

theorem paramsEq_iff {a b : Dict String Val} : paramsEq a b = true ↔ SameParams a b := by
  simp only [paramsEq, List.all_eq_true, decide_eq_true_eq]
  constructor
  · intro h k
    by_cases ha : k ∈ a.map Prod.fst
    · obtain ⟨p, hp, rfl⟩ := List.mem_map.1 ha
      exact h p (by simp [hp])
    · by_cases hb : k ∈ b.map Prod.fst
      · obtain ⟨p, hp, rfl⟩ := List.mem_map.1 hb
        exact h p (by simp [hp])
      · rw [dget_none.2 ha, dget_none.2 hb]
  · intro h p _; exact h p.1

theorem nodup_same {α : Type} [DecidableEq α] {l l' : List α} (hl : l.Nodup) (hs : ∀ x ∈ l, x ∈ l') (hlen : l.length = l'.length) :
    ∀ x, x ∈ l ↔ x ∈ l' := by
  have p := (List.Nodup.subperm hl hs).perm_of_length_le (Nat.le_of_eq hlen.symm)
  exact fun x => p.mem_iff

theorem nodup_length {α : Type} [DecidableEq α] {l l' : List α} (hl : l.Nodup) (hl' : l'.Nodup) (hs : ∀ x, x ∈ l ↔ x ∈ l') :
    l.length = l'.length :=
  Nat.le_antisymm (List.Nodup.subperm hl (fun x hx => (hs x).1 hx)).length_le
    (List.Nodup.subperm hl' (fun x hx => (hs x).2 hx)).length_le

/-- Two edges carry the same data. -/
def EdgeMatch (h : Heap) (e f : ERef) : Prop :=
  (h.edge e).value = (h.edge f).value ∧ (h.edge e).style = (h.edge f).style ∧ SameParams (h.edge e).params (h.edge f).params

/-- Two nodes carry the same data. -/
def NodeMatch (h : Heap) (n m : NRef) : Prop :=
  (h.node n).value = (h.node m).value ∧ (h.node n).style = (h.node m).style ∧ SameParams (h.node n).params (h.node m).params

variable {h : Heap} {A : Spec}

theorem edgeSimilar_eq (R : Rep h A) {g g' : GRef} {i j : EdgeId} {e f : ERef} (he : (i, e) ∈ (A.graph g).edges)
    (hf : (j, f) ∈ (A.graph g').edges) : ∃ b, edgeSimilar h e f = .ok b ∧ (b = true ↔ i = j ∧ EdgeMatch h e f) := by
  obtain ⟨s, t, r⟩ := i
  obtain ⟨s', t', r'⟩ := j
  obtain ⟨_, _, _, q1, n, m, q2, q3, q4, q5⟩ := R.edgeOk g s t r e he
  obtain ⟨_, _, _, p1, n', m', p2, p3, p4, p5⟩ := R.edgeOk g' s' t' r' f hf
  simp only [edgeSimilar, edgeObjSimilar, R.edgeId_eq he, R.edgeId_eq hf, endsSimilar, q4, q5, p4, p5, q1, p1,
    (R.nodeOk g s n q2).2.1, (R.nodeOk g t m q3).2.1, (R.nodeOk g' s' n' p2).2.1, (R.nodeOk g' t' m' p3).2.1,
    bind, Except.bind, pure, Except.pure]
  split
  · next hb =>
    simp only [Bool.and_eq_true, decide_eq_true_eq, paramsEq_iff] at hb
    obtain ⟨⟨⟨e1, e2⟩, e3⟩, e4⟩ := hb
    cases e1
    exact ⟨_, rfl, by simp [EdgeMatch, e2, e3, e4]⟩
  · next hb =>
    refine ⟨false, rfl, ?_⟩
    simp only [Bool.and_eq_true, decide_eq_true_eq, paramsEq_iff] at hb
    simp only [Bool.false_eq_true, false_iff]
    rintro ⟨e1, e2, e3, e4⟩
    exact hb ⟨⟨⟨e1, e2⟩, e3⟩, e4⟩

theorem edgesSimilar_eq (R : Rep h A) {g g' : GRef} {o : Dict EdgeId ERef} (ho : ∀ p ∈ o, p ∈ (A.graph g').edges)
    (hn : (o.map Prod.fst).Nodup) : ∀ d : Dict EdgeId ERef, (∀ p ∈ d, p ∈ (A.graph g).edges) →
    (edgesSimilar h o d = .ok true ↔ ∀ p ∈ d, ∃ f, (p.1, f) ∈ o ∧ EdgeMatch h p.2 f) ∧
    (∀ x, edgesSimilar h o d = .error x → x = .keyError ∧ ∃ p ∈ d, p.1 ∉ o.map Prod.fst) := by
  intro d
  induction d with
  | nil => intro _; simp [edgesSimilar]
  | cons p d ih =>
    intro hd
    obtain ⟨i, e⟩ := p
    obtain ⟨ih1, ih2⟩ := ih (fun q hq => hd q (by simp [hq]))
    cases hg : dget o i with
    | none =>
      have hno := dget_none.1 hg
      simp only [edgesSimilar, hg]
      refine ⟨⟨fun hc => by simp at hc, fun hc => ?_⟩, ?_⟩
      · obtain ⟨f, hf, _⟩ := hc (i, e) (by simp)
        exact absurd (List.mem_map.2 ⟨_, hf, rfl⟩) hno
      · intro x hx; cases hx; exact ⟨rfl, (i, e), by simp, hno⟩
    | some f =>
      have hf := mem_of_dget hg
      obtain ⟨b, hb, hbi⟩ := edgeSimilar_eq R (hd (i, e) (by simp)) (ho _ hf)
      simp only [edgesSimilar, hg, hb, bind, Except.bind]
      cases b with
      | true =>
        have hm := (hbi.1 rfl).2
        simp only [if_true]
        refine ⟨?_, fun x hx => ?_⟩
        · rw [ih1]
          constructor
          · intro hq p hp
            rcases List.mem_cons.1 hp with rfl | hp
            · exact ⟨f, hf, hm⟩
            · exact hq p hp
          · intro hq p hp; exact hq p (by simp [hp])
        · obtain ⟨a, p, hp, hq⟩ := ih2 x hx
          exact ⟨a, p, by simp [hp], hq⟩
      | false =>
        simp only [Bool.false_eq_true, if_false, pure, Except.pure]
        refine ⟨⟨fun hc => by simp at hc, fun hc => ?_⟩, fun x hx => by simp at hx⟩
        obtain ⟨f', hf', hm⟩ := hc (i, e) (by simp)
        have := val_unique hn hf hf'
        subst this
        exact absurd (hbi.2 ⟨rfl, hm⟩) (by simp)

theorem nodeSimilar_eq (R : Rep h A) {g g' : GRef} {k : Key} {n m : NRef} (hn : (k, n) ∈ (A.graph g).nodes)
    (hm : (k, m) ∈ (A.graph g').nodes) :
    (nodeSimilar h n m = .ok true ↔ NodeMatch h n m ∧
      (∀ i, i ∈ (A.graph g).ids ∧ i.1 = k ↔ i ∈ (A.graph g').ids ∧ i.1 = k) ∧
      (∀ i, i ∈ (A.graph g).ids ∧ i.2.1 = k ↔ i ∈ (A.graph g').ids ∧ i.2.1 = k) ∧
      (∀ i e f, (i, e) ∈ (A.graph g).edges → (i, f) ∈ (A.graph g').edges → i.1 = k ∨ i.2.1 = k → EdgeMatch h e f)) ∧
    (∀ x, nodeSimilar h n m = .error x → x = .keyError ∧ ∃ i ∈ (A.graph g).ids, i ∉ (A.graph g').ids) := by
  have o1 := R.outE g k n hn
  have o2 := R.outE g' k m hm
  have i1 := R.inE g k n hn
  have i2 := R.inE g' k m hm
  have mo : ∀ (G : SGraph) i, i ∈ (G.out k).map Prod.fst ↔ i ∈ G.ids ∧ i.1 = k := by
    intro G i
    simp only [SGraph.out, SGraph.ids, List.mem_map, List.mem_filter, decide_eq_true_eq]
    constructor
    · rintro ⟨p, ⟨hp, e⟩, rfl⟩; exact ⟨⟨p, hp, rfl⟩, e⟩
    · rintro ⟨⟨p, hp, rfl⟩, e⟩; exact ⟨p, ⟨hp, e⟩, rfl⟩
  have mi : ∀ (G : SGraph) i, i ∈ (G.inn k).map Prod.fst ↔ i ∈ G.ids ∧ i.2.1 = k := by
    intro G i
    simp only [SGraph.inn, SGraph.ids, List.mem_map, List.mem_filter, decide_eq_true_eq]
    constructor
    · rintro ⟨p, ⟨hp, e⟩, rfl⟩; exact ⟨⟨p, hp, rfl⟩, e⟩
    · rintro ⟨⟨p, hp, rfl⟩, e⟩; exact ⟨p, ⟨hp, e⟩, rfl⟩
  have no : ∀ x, (((A.graph x).out k).map Prod.fst).Nodup := fun x => nodup_keys_filter _ (R.idsNodup x)
  have ni : ∀ x, (((A.graph x).inn k).map Prod.fst).Nodup := fun x => nodup_keys_filter _ (R.idsNodup x)
  obtain ⟨E1, E2⟩ := edgesSimilar_eq R (g := g) (o := (A.graph g').out k) (fun p hp => (List.mem_filter.1 hp).1) (no g')
    ((A.graph g).out k) (fun p hp => (List.mem_filter.1 hp).1)
  obtain ⟨F1, F2⟩ := edgesSimilar_eq R (g := g) (o := (A.graph g').inn k) (fun p hp => (List.mem_filter.1 hp).1) (ni g')
    ((A.graph g).inn k) (fun p hp => (List.mem_filter.1 hp).1)
  have hk : (h.node n).id = (h.node m).id := by rw [(R.nodeOk g k n hn).2.1, (R.nodeOk g' k m hm).2.1]
  have hobj : nodeObjSimilar h n m = true ↔ NodeMatch h n m := by
    simp only [nodeObjSimilar, hk, decide_true, Bool.true_and, Bool.and_eq_true, decide_eq_true_eq, paramsEq_iff, NodeMatch,
      and_assoc]
  unfold nodeSimilar
  simp only [o1, o2, i1, i2]
  by_cases c1 : nodeObjSimilar h n m = false
  · simp only [c1, if_true]
    refine ⟨⟨fun hc => by simp at hc, fun hc => ?_⟩, fun x hx => by simp at hx⟩
    rw [← hobj, c1] at hc
    exact absurd hc.1 (by simp)
  · have hN : NodeMatch h n m := hobj.1 (by simpa using c1)
    rw [if_neg c1]
    by_cases c2 : ((A.graph g).out k).length ≠ ((A.graph g').out k).length
    · rw [if_pos c2]
      refine ⟨⟨fun hc => by simp at hc, fun hc => ?_⟩, fun x hx => by simp at hx⟩
      refine absurd ?_ c2
      have := nodup_length (no g) (no g') (fun i => by rw [mo, mo]; exact hc.2.1 i)
      simpa using this
    · rw [if_neg c2]
      have c2 := Classical.not_not.1 c2
      by_cases c3 : ((A.graph g).inn k).length ≠ ((A.graph g').inn k).length
      · rw [if_pos c3]
        refine ⟨⟨fun hc => by simp at hc, fun hc => ?_⟩, fun x hx => by simp at hx⟩
        refine absurd ?_ c3
        have := nodup_length (ni g) (ni g') (fun i => by rw [mi, mi]; exact hc.2.2.1 i)
        simpa using this
      · rw [if_neg c3]
        have c3 := Classical.not_not.1 c3
        have hsub : ∀ {l l' : List (EdgeId × ERef)} {i : EdgeId}, (∃ p ∈ l, p.1 = i ∧ ∃ f, (p.1, f) ∈ l') → i ∈ l'.map Prod.fst := by
          rintro l l' i ⟨p, _, rfl, f, hf⟩; exact List.mem_map.2 ⟨_, hf, rfl⟩
        have key : (edgesSimilar h ((A.graph g').out k) ((A.graph g).out k) = .ok true ∧
            edgesSimilar h ((A.graph g').inn k) ((A.graph g).inn k) = .ok true) ↔
            ((∀ i, i ∈ (A.graph g).ids ∧ i.1 = k ↔ i ∈ (A.graph g').ids ∧ i.1 = k) ∧
             (∀ i, i ∈ (A.graph g).ids ∧ i.2.1 = k ↔ i ∈ (A.graph g').ids ∧ i.2.1 = k) ∧
             (∀ i e f, (i, e) ∈ (A.graph g).edges → (i, f) ∈ (A.graph g').edges → i.1 = k ∨ i.2.1 = k → EdgeMatch h e f)) := by
          rw [E1, F1]
          constructor
          · rintro ⟨ho, hi⟩
            refine ⟨?_, ?_, ?_⟩
            · intro i
              rw [← mo, ← mo]
              refine nodup_same (no g) (fun j hj => ?_) (by simpa using c2) i
              obtain ⟨p, hp, rfl⟩ := List.mem_map.1 hj
              obtain ⟨f, hf, _⟩ := ho p hp
              exact List.mem_map.2 ⟨_, hf, rfl⟩
            · intro i
              rw [← mi, ← mi]
              refine nodup_same (ni g) (fun j hj => ?_) (by simpa using c3) i
              obtain ⟨p, hp, rfl⟩ := List.mem_map.1 hj
              obtain ⟨f, hf, _⟩ := hi p hp
              exact List.mem_map.2 ⟨_, hf, rfl⟩
            · intro i e f he hf hor
              rcases hor with hor | hor
              · obtain ⟨f', hf', hmm⟩ := ho (i, e) (List.mem_filter.2 ⟨he, by simp [hor]⟩)
                have := val_unique (R.idsNodup g') hf (List.mem_filter.1 hf').1
                subst this; exact hmm
              · obtain ⟨f', hf', hmm⟩ := hi (i, e) (List.mem_filter.2 ⟨he, by simp [hor]⟩)
                have := val_unique (R.idsNodup g') hf (List.mem_filter.1 hf').1
                subst this; exact hmm
          · rintro ⟨ho, hi, hm⟩
            constructor
            · intro p hp
              have : p.1 ∈ ((A.graph g').out k).map Prod.fst := by
                rw [mo]
                exact (ho p.1).1 ((mo _ _).1 (List.mem_map_of_mem hp))
              obtain ⟨q, hq, e⟩ := List.mem_map.1 this
              obtain ⟨hp1, hp2⟩ := List.mem_filter.1 hp
              have hq' : (p.1, q.2) ∈ (A.graph g').out k := by rw [← e]; exact hq
              exact ⟨q.2, hq', hm p.1 p.2 q.2 hp1 (List.mem_filter.1 hq').1 (.inl (by simpa using hp2))⟩
            · intro p hp
              have : p.1 ∈ ((A.graph g').inn k).map Prod.fst := by
                rw [mi]
                exact (hi p.1).1 ((mi _ _).1 (List.mem_map_of_mem hp))
              obtain ⟨q, hq, e⟩ := List.mem_map.1 this
              obtain ⟨hp1, hp2⟩ := List.mem_filter.1 hp
              have hq' : (p.1, q.2) ∈ (A.graph g').inn k := by rw [← e]; exact hq
              exact ⟨q.2, hq', hm p.1 p.2 q.2 hp1 (List.mem_filter.1 hq').1 (.inr (by simpa using hp2))⟩
        refine ⟨?_, ?_⟩
        · rw [and_iff_right hN, ← key]
          cases hr : edgesSimilar h ((A.graph g').out k) ((A.graph g).out k) with
          | error x => simp [bind, Except.bind]
          | ok b => cases b <;> simp [bind, Except.bind, pure, Except.pure]
        · intro x hx
          cases hr : edgesSimilar h ((A.graph g').out k) ((A.graph g).out k) with
          | error y =>
            rw [hr] at hx
            simp only [bind, Except.bind] at hx
            cases hx
            obtain ⟨a, p, hp, hq⟩ := E2 _ hr
            obtain ⟨hp1, hp2⟩ := List.mem_filter.1 hp
            exact ⟨a, p.1, List.mem_map_of_mem hp1, fun hc => hq ((mo _ _).2 ⟨hc, by simpa using hp2⟩)⟩
          | ok b =>
            rw [hr] at hx
            cases b with
            | false => simp [bind, Except.bind, pure, Except.pure] at hx
            | true =>
              simp only [bind, Except.bind, if_true] at hx
              obtain ⟨a, p, hp, hq⟩ := F2 _ hx
              obtain ⟨hp1, hp2⟩ := List.mem_filter.1 hp
              exact ⟨a, p.1, List.mem_map_of_mem hp1, fun hc => hq ((mi _ _).2 ⟨hc, by simpa using hp2⟩)⟩

theorem nodesSimilar_eq (R : Rep h A) (g g' : GRef) : ∀ d : Dict Key NRef, (∀ p ∈ d, p ∈ (A.graph g).nodes) →
    (nodesSimilar h (A.graph g').nodes d = .ok true ↔
      ∀ p ∈ d, ∃ m, (p.1, m) ∈ (A.graph g').nodes ∧ nodeSimilar h p.2 m = .ok true) ∧
    (∀ x, nodesSimilar h (A.graph g').nodes d = .error x → x = .keyError ∧
      ((∃ k ∈ (A.graph g).names, k ∉ (A.graph g').names) ∨ ∃ i ∈ (A.graph g).ids, i ∉ (A.graph g').ids)) := by
  intro d
  induction d with
  | nil => intro _; simp [nodesSimilar]
  | cons p d ih =>
    intro hd
    obtain ⟨k, n⟩ := p
    obtain ⟨ih1, ih2⟩ := ih (fun q hq => hd q (by simp [hq]))
    have hn := hd (k, n) (by simp)
    cases hg : dget (A.graph g').nodes k with
    | none =>
      have hno := dget_none.1 hg
      simp only [nodesSimilar, hg]
      refine ⟨⟨fun hc => by simp at hc, fun hc => ?_⟩, ?_⟩
      · obtain ⟨f, hf, _⟩ := hc (k, n) (by simp)
        exact absurd (List.mem_map.2 ⟨_, hf, rfl⟩) hno
      · intro x hx; cases hx
        exact ⟨rfl, .inl ⟨k, List.mem_map.2 ⟨_, hn, rfl⟩, hno⟩⟩
    | some m =>
      have hm := mem_of_dget hg
      obtain ⟨-, he⟩ := nodeSimilar_eq R hn hm
      simp only [nodesSimilar, hg]
      cases hs : nodeSimilar h n m with
      | error y =>
        simp only [bind, Except.bind]
        refine ⟨⟨fun hc => by simp at hc, fun hc => ?_⟩, ?_⟩
        · obtain ⟨m', hm', he'⟩ := hc (k, n) (by simp)
          have := val_unique (R.keysNodup g') hm hm'
          subst this
          rw [hs] at he'; cases he'
        · intro x hx; cases hx
          exact ⟨(he _ hs).1, .inr (he _ hs).2⟩
      | ok b =>
        cases b with
        | false =>
          simp only [bind, Except.bind, pure, Except.pure, Bool.false_eq_true, if_false]
          refine ⟨⟨fun hc => by simp at hc, fun hc => ?_⟩, fun x hx => by simp at hx⟩
          obtain ⟨m', hm', he'⟩ := hc (k, n) (by simp)
          have := val_unique (R.keysNodup g') hm hm'
          subst this
          rw [hs] at he'; cases he'
        | true =>
          simp only [bind, Except.bind, if_true]
          refine ⟨?_, ih2⟩
          rw [ih1]
          constructor
          · intro hq p hp
            rcases List.mem_cons.1 hp with rfl | hp
            · exact ⟨m, hm, hs⟩
            · exact hq p hp
          · intro hq p hp; exact hq p (by simp [hp])

theorem graphSimilar_true (R : Rep h A) (g g' : GRef) : graphSimilar h g g' = .ok true ↔ Alike h A g g' := by
  obtain ⟨N1, -⟩ := nodesSimilar_eq R g g' (A.graph g).nodes (fun _ hp => hp)
  unfold graphSimilar
  rw [R.nodes, R.nodes]
  constructor
  · intro hs
    split at hs
    · simp at hs
    · next hlen =>
      have hlen := Classical.not_not.1 hlen
      cases hr : nodesSimilar h (A.graph g').nodes (A.graph g).nodes with
      | error x => rw [hr] at hs; simp [bind, Except.bind] at hs
      | ok b =>
        rw [hr] at hs
        cases b with
        | false => simp [bind, Except.bind, pure, Except.pure] at hs
        | true =>
          simp only [bind, Except.bind, if_true] at hs
          split at hs
          · simp [pure, Except.pure] at hs
          · next hst =>
            split at hs
            · simp [pure, Except.pure] at hs
            · next hor =>
              have hall := N1.1 hr
              have hnames : ∀ k, k ∈ (A.graph g).names ↔ k ∈ (A.graph g').names := by
                refine nodup_same (R.keysNodup g) (fun k hk => ?_) (by simpa [SGraph.names] using hlen)
                obtain ⟨p, hp, rfl⟩ := List.mem_map.1 hk
                obtain ⟨m, hm, _⟩ := hall p hp
                exact List.mem_map.2 ⟨_, hm, rfl⟩
              have hnode : ∀ k n n', (k, n) ∈ (A.graph g).nodes → (k, n') ∈ (A.graph g').nodes → nodeSimilar h n n' = .ok true := by
                intro k n n' hn hn'
                obtain ⟨m, hm, he⟩ := hall (k, n) hn
                have := val_unique (R.keysNodup g') hm hn'
                subst this
                exact he
              have hex : ∀ {k}, k ∈ (A.graph g).names → ∃ n n', (k, n) ∈ (A.graph g).nodes ∧ (k, n') ∈ (A.graph g').nodes := by
                intro k hk
                obtain ⟨⟨a, n⟩, hn, e⟩ := List.mem_map.1 hk
                obtain ⟨⟨b, n'⟩, hn', e'⟩ := List.mem_map.1 ((hnames k).1 hk)
                cases e; cases e'
                exact ⟨n, n', hn, hn'⟩
              have hstart : ∀ x i, i ∈ (A.graph x).ids → i.1 ∈ (A.graph x).names := by
                intro x i hi
                obtain ⟨⟨j, e⟩, he, rfl⟩ := List.mem_map.1 hi
                obtain ⟨n, hn, _⟩ := R.edge_out he
                exact List.mem_map.2 ⟨_, hn, rfl⟩
              refine ⟨hnames, ?_, ?_, ?_, Classical.not_not.1 hst, Classical.not_not.1 hor⟩
              · intro i
                constructor
                · intro hi
                  obtain ⟨n, n', hn, hn'⟩ := hex (hstart g i hi)
                  exact (((nodeSimilar_eq R hn hn').1.1 (hnode _ _ _ hn hn')).2.1 i |>.1 ⟨hi, rfl⟩).1
                · intro hi
                  obtain ⟨n, n', hn, hn'⟩ := hex ((hnames _).2 (hstart g' i hi))
                  exact (((nodeSimilar_eq R hn hn').1.1 (hnode _ _ _ hn hn')).2.1 i |>.2 ⟨hi, rfl⟩).1
              · intro k n n' hn hn'
                exact ((nodeSimilar_eq R hn hn').1.1 (hnode _ _ _ hn hn')).1
              · intro i e e' he he'
                obtain ⟨n, n', hn, hn'⟩ := hex (hstart g i (List.mem_map.2 ⟨_, he, rfl⟩))
                exact ((nodeSimilar_eq R hn hn').1.1 (hnode _ _ _ hn hn')).2.2.2 i e e' he he' (.inl rfl)
  · intro a
    have hlen : (A.graph g).nodes.length = (A.graph g').nodes.length := by
      have := nodup_length (R.keysNodup g) (R.keysNodup g') a.names
      simpa using this
    have hr : nodesSimilar h (A.graph g').nodes (A.graph g).nodes = .ok true := by
      rw [N1]
      intro p hp
      obtain ⟨⟨b, n'⟩, hn', e'⟩ := List.mem_map.1 ((a.names p.1).1 (List.mem_map.2 ⟨_, hp, rfl⟩))
      simp only at e'
      subst e'
      refine ⟨n', hn', (nodeSimilar_eq R (k := p.1) hp hn').1.2 ⟨a.nodes _ _ _ hp hn', ?_, ?_, ?_⟩⟩
      · intro i; rw [a.ids i]
      · intro i; rw [a.ids i]
      · intro i e f he hf _; exact a.edges i e f he hf
    simp [hlen, hr, a.strict, a.ordering, bind, Except.bind, pure, Except.pure]

theorem graphSimilar_error (R : Rep h A) {g g' : GRef} {x : PyErr} (hx : graphSimilar h g g' = .error x) : x = .keyError ∧
      ((∃ k ∈ (A.graph g).names, k ∉ (A.graph g').names) ∨ ∃ i ∈ (A.graph g).ids, i ∉ (A.graph g').ids) := by
  obtain ⟨-, N2⟩ := nodesSimilar_eq R g g' (A.graph g).nodes (fun _ hp => hp)
  unfold graphSimilar at hx
  rw [R.nodes, R.nodes] at hx
  split at hx
  · simp at hx
  · cases hr : nodesSimilar h (A.graph g').nodes (A.graph g).nodes with
    | error y =>
      rw [hr] at hx
      simp only [bind, Except.bind] at hx
      cases hx
      exact N2 _ hr
    | ok b =>
      rw [hr] at hx
      simp only [bind, Except.bind, pure, Except.pure] at hx
      split at hx
      · split at hx
        · simp at hx
        · split at hx <;> simp at hx
      · simp at hx

end Verif
