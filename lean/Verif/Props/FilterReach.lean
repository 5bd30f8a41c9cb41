import Verif.Props.Filter
import Verif.Props.Shape
import Verif.Props.Leftover
/-!
# What `filter` leaves of reachability

**C120.** Which of the nodes that `filter` keeps can be reached from which in the result.
-/
namespace Verif
open M

/-- One or more edges lead from the node named `s` to the node named `t`. -/
def Leads (h : Heap) (g : GRef) : Key → Key → Prop := Relation.TransGen (Joined h g)

/-! ## Paths through what is kept -/

section
variable {α : Type} {R : α → α → Prop} {K : α → Prop}

/-- A path survives if all between its ends, and the ends, are kept. -/
theorem path_survives {a b : α} (p : Relation.TransGen R a b)
    (hk : ∀ y, (y = a ∨ Relation.TransGen R a y) → (y = b ∨ Relation.TransGen R y b) → K y) :
    Relation.TransGen (fun x y => R x y ∧ K x ∧ K y) a b := by
  induction p using Relation.TransGen.head_induction_on with
  | single hab => exact .single ⟨hab, hk _ (.inl rfl) (.inr (.single hab)), hk _ (.inr (.single hab)) (.inl rfl)⟩
  | head hac hcb ih =>
    refine .head ⟨hac, hk _ (.inl rfl) (.inr (.head hac hcb)), hk _ (.inr (.single hac)) (.inr hcb)⟩ (ih fun y h1 h2 => hk y ?_ h2)
    rcases h1 with rfl | h1
    · exact .inr (.single hac)
    · exact .inr (.head hac h1)

theorem path_forget {a b : α} (p : Relation.TransGen (fun x y => R x y ∧ K x ∧ K y) a b) : Relation.TransGen R a b :=
  Relation.TransGen.lift id (fun _ _ h => h.1) _ _ p

end

theorem joined_names {h : Heap} (r : Reachable h) {g : GRef} {s t : Key} (j : Joined h g s t) : s ∈ namesOf h g ∧ t ∈ namesOf h g := by
  obtain ⟨n, m, a, rfl, rfl⟩ := joined_iff.1 j
  obtain ⟨h1, h2⟩ := arrow_mem r a
  exact ⟨List.mem_map.2 ⟨n, h1, rfl⟩, List.mem_map.2 ⟨m, h2, rfl⟩⟩

theorem leads_iff {h : Heap} (r : Reachable h) {g : GRef} {n m : NRef} (hn : n ∈ graphNodes h g) (hm : m ∈ graphNodes h g) :
    Leads h g (h.node n).id (h.node m).id ↔ Path h g n m := by
  constructor
  · intro p
    generalize ek : (h.node m).id = k at p
    unfold Leads at p
    induction p generalizing m with
    | single j =>
      obtain ⟨x, y, a, ex, ey⟩ := joined_iff.1 j
      obtain ⟨hx, hy⟩ := arrow_mem r a
      rw [node_eq_of_name r hn hx ex.symm, node_eq_of_name r hm hy (ek.trans ey.symm)]
      exact .single a
    | tail _ j ih =>
      obtain ⟨x, y, a, ex, ey⟩ := joined_iff.1 j
      obtain ⟨hx, hy⟩ := arrow_mem r a
      rw [node_eq_of_name r hm hy (ek.trans ey.symm)]
      exact (ih hx ex).tail a
  · intro p
    exact Relation.TransGen.lift (fun n => (h.node n).id) (fun x y a => joined_iff.2 ⟨x, y, a, rfl, rfl⟩) _ _ p

/-- In an induced subgraph there are the edges between names that are there. -/
theorem InducedOf.joined {h h' : Heap} (r : Reachable h) {g g' : GRef} {keep : NRef → Bool} {φ : NRef → NRef} {ψ : ERef → ERef}
    (I : InducedOf h h' g g' keep φ ψ) {s t : Key} :
    Joined h' g' s t ↔ Joined h g s t ∧ s ∈ namesOf h' g' ∧ t ∈ namesOf h' g' := by
  have names : ∀ k, k ∈ namesOf h' g' ↔ ∃ n ∈ graphNodes h g, keep n = true ∧ (h.node n).id = k := by
    intro k
    simp only [namesOf, I.nodes, List.mem_map, List.mem_filter, List.map_map]
    constructor
    · rintro ⟨n, ⟨h1, h2⟩, rfl⟩
      exact ⟨n, h1, h2, (I.node n h1 h2).2.1.symm⟩
    · rintro ⟨n, h1, h2, rfl⟩
      exact ⟨n, ⟨h1, h2⟩, (I.node n h1 h2).2.1⟩
  constructor
  · rintro ⟨x', hx', os', ho', e', he', n', m', h1, h2, rfl, rfl⟩
    rw [I.nodes] at hx'
    obtain ⟨x, hx, rfl⟩ := List.mem_map.1 hx'
    obtain ⟨hx, kx⟩ := List.mem_filter.1 hx
    obtain ⟨os, is, o1, -, o2, -⟩ := I.edges x hx kx
    rw [o2] at ho'
    cases ho'
    obtain ⟨e, he, rfl⟩ := List.mem_map.1 he'
    obtain ⟨he, ke⟩ := List.mem_filter.1 he
    obtain ⟨os1, q1, -, q2⟩ := C01_outward r hx
    rw [o1] at q1
    cases q1
    obtain ⟨m, i, -, p1, p2, p3, -⟩ := q2 e he
    rw [p2] at ke
    have km : keep m = true := ke
    have live : LiveEdge h g e := ⟨x, hx, os, o1, he⟩
    obtain ⟨e1, e2, -⟩ := I.edge e x m live p1 p2 kx km
    rw [h1] at e1
    rw [h2] at e2
    cases e1
    cases e2
    have i1 := (I.node x hx kx).2.1
    have i2 := (I.node m p3 km).2.1
    rw [i1, i2]
    exact ⟨⟨x, hx, os, o1, e, he, x, m, p1, p2, rfl, rfl⟩, (names _).2 ⟨x, hx, kx, rfl⟩, (names _).2 ⟨m, p3, km, rfl⟩⟩
  · rintro ⟨j, hs, ht⟩
    obtain ⟨n, m, ⟨e, live, p1, p2⟩, rfl, rfl⟩ := joined_iff.1 j
    obtain ⟨hn, hm⟩ := arrow_mem r ⟨e, live, p1, p2⟩
    obtain ⟨n0, a1, a2, a3⟩ := (names _).1 hs
    obtain ⟨m0, b1, b2, b3⟩ := (names _).1 ht
    rw [node_eq_of_name r a1 hn a3] at a2
    rw [node_eq_of_name r b1 hm b3] at b2
    obtain ⟨x, hx, os, o1, he⟩ := live
    obtain ⟨os1, q1, -, q2⟩ := C01_outward r hx
    rw [o1] at q1
    cases q1
    obtain ⟨m1, i, -, p3, -⟩ := q2 e he
    rw [p1] at p3
    cases p3
    obtain ⟨os', is, o2, -, o3, -⟩ := I.edges n hn a2
    rw [o1] at o2
    cases o2
    obtain ⟨e1, e2, -⟩ := I.edge e n m ⟨n, hx, os, o1, he⟩ p1 p2 a2 b2
    refine ⟨φ n, ?_, _, o3, ψ e, ?_, φ n, φ m, e1, e2, (I.node n hn a2).2.1, (I.node m hm b2).2.1⟩
    · rw [I.nodes]; exact List.mem_map.2 ⟨n, List.mem_filter.2 ⟨hn, a2⟩, rfl⟩
    · refine List.mem_map.2 ⟨e, List.mem_filter.2 ⟨he, ?_⟩, rfl⟩
      rw [p2]; exact b2

section
variable {h h' : Heap} (r : Reachable h) {g g' : GRef} (hg : g < h.nG)
  (hown : ∀ n ∈ graphNodes h g, (h.node n).graph = some g) {lim : Nat} (hlim : (graphNodes h g).length ≤ lim)
  {nodes : List NodeArg} {direction filterType : String} {m : Memo} (hrun : graphFilter lim g nodes direction filterType h = (.ok (g', m), h'))
include r hg hown hlim hrun

/-- What `filter` returns, when it returns. -/
theorem filter_returned : Reachable h' ∧ (∀ a ∈ nodes, ∃ x, getNode h g a = .ok x) ∧
    (∀ s t, Joined h' g' s t ↔ Joined h g s t ∧ s ∈ namesOf h' g' ∧ t ∈ namesOf h' g') ∧
    ∀ k, k ∈ namesOf h' g' ↔ k ∈ namesOf h g ∧
      ((∃ a ∈ nodes, ∃ x, getNode h g a = .ok x ∧ (k = (h.node x).id ∨ Leads h g k (h.node x).id ∨ Leads h g (h.node x).id k)) ↔
        filterType = "include") := by
  have hst : ∀ n ∈ graphNodes h g, (h.node n).style = none := by
    intro n hn
    refine Classical.byContradiction fun hs => ?_
    obtain ⟨err, he⟩ := C34_violated hn hs lim nodes direction filterType
    rw [hrun] at he
    cases he
  have hnodes : ∀ a ∈ nodes, ∃ x, getNode h g a = .ok x := by
    have : ∀ l pre, nodes = pre ++ l → (∀ a ∈ pre, ∃ x, getNode h g a = .ok x) → ∀ a ∈ nodes, ∃ x, getNode h g a = .ok x := by
      intro l
      induction l with
      | nil => intro pre e hp; rw [e, List.append_nil]; exact hp
      | cons a l ih =>
        intro pre e hp
        cases ha : getNode h g a with
        | error err =>
          have := C34_unknown r hown hlim l hp ha direction filterType
          rw [← e, hrun] at this
          cases this
        | ok x =>
          refine ih (pre ++ [a]) (by simp [e]) fun b hb => ?_
          rcases List.mem_append.1 hb with hb | hb
          · exact hp b hb
          · rw [List.mem_singleton.1 hb]; exact ⟨x, ha⟩
    exact this nodes [] rfl (by simp)
  have key : ∃ keep, Reachable h' ∧ (∀ n ∈ graphNodes h g, keep n = true ↔ (Related h g nodes n ↔ filterType = "include")) ∧
      InducedOf h h' g g' keep m.node m.edge := by
    by_cases hft : filterType = "include"
    · subst hft
      obtain ⟨g1, m1, h1, keep, e, r', -, -, -, hk, hi⟩ := C34_include_partial r hg hown hst hlim hnodes direction
      rw [hrun] at e
      cases e
      exact ⟨keep, r', by simpa using hk, hi⟩
    · obtain ⟨g1, m1, h1, keep, e, r', -, -, -, hk, hi⟩ := C34_exclude_partial r hg hown hst hlim hnodes direction hft
      rw [hrun] at e
      cases e
      exact ⟨keep, r', by simpa [hft] using hk, hi⟩
  obtain ⟨keep, r', hk, hi⟩ := key
  refine ⟨r', hnodes, fun s t => hi.joined r, fun k => ?_⟩
  have rel : ∀ n ∈ graphNodes h g, Related h g nodes n ↔ ∃ a ∈ nodes, ∃ x, getNode h g a = .ok x ∧
      ((h.node n).id = (h.node x).id ∨ Leads h g (h.node n).id (h.node x).id ∨ Leads h g (h.node x).id (h.node n).id) := by
    intro n hn
    constructor
    · rintro ⟨a, ha, x, hx, c⟩
      have hx' := getNode_mem r hx
      refine ⟨a, ha, x, hx, ?_⟩
      rw [leads_iff r hn hx', leads_iff r hx' hn]
      exact c.imp (fun e => by rw [e]) id
    · rintro ⟨a, ha, x, hx, c⟩
      have hx' := getNode_mem r hx
      refine ⟨a, ha, x, hx, ?_⟩
      rw [leads_iff r hn hx', leads_iff r hx' hn] at c
      exact c.imp (fun e => node_eq_of_name r hn hx' e) id
  simp only [namesOf, hi.nodes, List.map_map, List.mem_map, List.mem_filter]
  constructor
  · rintro ⟨n, ⟨h1, h2⟩, rfl⟩
    have e : ((fun n => (h'.node n).id) ∘ m.node) n = (h.node n).id := (hi.node n h1 h2).2.1
    rw [e]
    exact ⟨⟨n, h1, rfl⟩, by rw [← rel n h1]; exact (hk n h1).1 h2⟩
  · rintro ⟨⟨n, h1, rfl⟩, h2⟩
    rw [← rel n h1] at h2
    exact ⟨n, ⟨h1, (hk n h1).2 h2⟩, (hi.node n h1 ((hk n h1).2 h2)).2.1⟩

/-- **C120**: leaving out nodes and their relatives changes nothing of which of the others leads to which. -/
theorem C120_exclude (hft : filterType ≠ "include") {s t : Key} (hs : s ∈ namesOf h' g') (ht : t ∈ namesOf h' g') :
    Leads h' g' s t ↔ Leads h g s t := by
  obtain ⟨-, -, hj, hk⟩ := filter_returned r hg hown hlim hrun
  simp only [hft, iff_false] at hk
  have e : Joined h' g' = fun s t => Joined h g s t ∧ s ∈ namesOf h' g' ∧ t ∈ namesOf h' g' := by
    funext s t; exact propext (hj s t)
  unfold Leads
  rw [e]
  refine ⟨path_forget, fun p => path_survives p fun y h1 h2 => ?_⟩
  rcases h1 with rfl | h1
  · exact hs
  rcases h2 with rfl | h2
  · exact ht
  refine (hk y).2 ⟨?_, ?_⟩
  · obtain ⟨z, j, -⟩ := Relation.TransGen.head'_iff.1 h2
    exact (joined_names r j).1
  · rintro ⟨a, ha, x, hx, rfl | c | c⟩
    · exact ((hk s).1 hs).2 ⟨a, ha, x, hx, .inr (.inl h1)⟩
    · exact ((hk s).1 hs).2 ⟨a, ha, x, hx, .inr (.inl (h1.trans c))⟩
    · exact ((hk t).1 ht).2 ⟨a, ha, x, hx, .inr (.inr (c.trans h2))⟩

/-- **C120**, exactly, for any number of nodes and both filter types: in the returned graph `s` leads to `t` if and only if in
the original a path leads from `s` to `t` along names that all belong to what is kept, that is to the given nodes and their
relatives with `'include'`, to everything else otherwise. -/
theorem C120_exact {s t : Key} : Leads h' g' s t ↔
    Relation.TransGen (fun x y => Joined h g x y ∧ ∀ k, k = x ∨ k = y →
      ((∃ a ∈ nodes, ∃ n, getNode h g a = .ok n ∧ (k = (h.node n).id ∨ Leads h g k (h.node n).id ∨ Leads h g (h.node n).id k)) ↔
        filterType = "include")) s t := by
  obtain ⟨-, -, hj, hk⟩ := filter_returned r hg hown hlim hrun
  unfold Leads
  have e : Joined h' g' = fun x y => Joined h g x y ∧ ∀ k, k = x ∨ k = y →
      ((∃ a ∈ nodes, ∃ n, getNode h g a = .ok n ∧ (k = (h.node n).id ∨ Leads h g k (h.node n).id ∨ Leads h g (h.node n).id k)) ↔
        filterType = "include") := by
    funext x y
    refine propext ⟨fun j => ?_, fun ⟨j, c⟩ => ?_⟩
    · obtain ⟨j, hx, hy⟩ := (hj x y).1 j
      refine ⟨j, ?_⟩
      rintro k (rfl | rfl)
      · exact ((hk k).1 hx).2
      · exact ((hk k).1 hy).2
    · exact (hj x y).2 ⟨j, (hk x).2 ⟨(joined_names r j).1, c x (.inl rfl)⟩, (hk y).2 ⟨(joined_names r j).2, c y (.inr rfl)⟩⟩
  rw [e]
  rfl

/-- **C120**: keeping nodes and their relatives keeps all paths to the given nodes and their ancestors, and all paths from the given nodes
and their descendants. -/
theorem C120_include (hft : filterType = "include") {s t : Key} (hs : s ∈ namesOf h' g') (ht : t ∈ namesOf h' g')
    (hst : ∃ a ∈ nodes, ∃ x, getNode h g a = .ok x ∧ ((t = (h.node x).id ∨ Leads h g t (h.node x).id) ∨
      s = (h.node x).id ∨ Leads h g (h.node x).id s)) :
    Leads h' g' s t ↔ Leads h g s t := by
  obtain ⟨-, -, hj, hk⟩ := filter_returned r hg hown hlim hrun
  simp only [hft, iff_true] at hk
  have e : Joined h' g' = fun s t => Joined h g s t ∧ s ∈ namesOf h' g' ∧ t ∈ namesOf h' g' := by
    funext s t; exact propext (hj s t)
  unfold Leads
  rw [e]
  refine ⟨path_forget, fun p => path_survives p fun y h1 h2 => ?_⟩
  rcases h1 with rfl | h1
  · exact hs
  rcases h2 with rfl | h2
  · exact ht
  obtain ⟨a, ha, x, hx, c⟩ := hst
  refine (hk y).2 ⟨?_, a, ha, x, hx, ?_⟩
  · obtain ⟨z, j, -⟩ := Relation.TransGen.head'_iff.1 h2
    exact (joined_names r j).1
  · rcases c with (rfl | c) | rfl | c
    · exact .inr (.inl h2)
    · exact .inr (.inl (h2.trans c))
    · exact .inr (.inr h1)
    · exact .inr (.inr (c.trans h1))

/-- **C120**: so what is kept around a single node leads where it did, ... -/
theorem C120_one (hft : filterType = "include") {a : NodeArg} (hone : nodes = [a]) {s t : Key} (hs : s ∈ namesOf h' g')
    (ht : t ∈ namesOf h' g') : Leads h' g' s t ↔ Leads h g s t := by
  obtain ⟨-, hn, hj, hk⟩ := filter_returned r hg hown hlim hrun
  simp only [hft, iff_true] at hk
  subst hone
  obtain ⟨x, hx⟩ := hn a (by simp)
  have all : ∀ k, k ∈ namesOf h' g' → k = (h.node x).id ∨ Leads h g k (h.node x).id ∨ Leads h g (h.node x).id k := by
    intro k hk'
    obtain ⟨-, b, hb, y, hy, c⟩ := (hk k).1 hk'
    rw [List.mem_singleton.1 hb, hx] at hy
    cases hy
    exact c
  have use := fun c => C120_include r hg hown hlim hrun hft hs ht ⟨a, by simp, x, hx, c⟩
  rcases all t ht with c | c | c
  · exact use (.inl (.inl c))
  · exact use (.inl (.inr c))
  rcases all s hs with d | d | d
  · exact use (.inr (.inl d))
  · have hx' : (h.node x).id ∈ namesOf h' g' :=
      (hk _).2 ⟨List.mem_map.2 ⟨x, getNode_mem r hx, rfl⟩, a, by simp, x, hx, .inl rfl⟩
    have u1 := (C120_include r hg hown hlim hrun hft hs hx' ⟨a, by simp, x, hx, .inl (.inl rfl)⟩).2 d
    have u2 := (C120_include r hg hown hlim hrun hft hx' ht ⟨a, by simp, x, hx, .inr (.inl rfl)⟩).2 c
    exact ⟨fun _ => d.trans c, fun _ => u1.trans u2⟩
  · exact use (.inr (.inr d))

/-- **C120**: and loops are kept as a whole. -/
theorem C120_loops {s : Key} (hs : s ∈ namesOf h' g') : Leads h' g' s s ↔ Leads h g s s := by
  by_cases hft : filterType = "include"
  · obtain ⟨-, -, -, hk⟩ := filter_returned r hg hown hlim hrun
    obtain ⟨-, c⟩ := (hk s).1 hs
    obtain ⟨a, ha, x, hx, c⟩ := c.2 hft
    refine C120_include r hg hown hlim hrun hft hs hs ⟨a, ha, x, hx, ?_⟩
    rcases c with c | c | c
    · exact .inl (.inl c)
    · exact .inl (.inr c)
    · exact .inr (.inr c)
  · exact C120_exclude r hg hown hlim hrun hft hs hs

omit hg hown hlim hrun in
/-- The names that the traversals return. -/
theorem names_of_traversals {k : Key} (hk : k ∈ namesOf h g) :
    (∀ {j l}, getAncestors j h g (.key k) = .ok l → (l.map fun n => (h.node n).id).Nodup ∧
      ∀ y, y ∈ l.map (fun n => (h.node n).id) ↔ Leads h g y k) ∧
    ∀ {j l}, getDescendants j h g (.key k) = .ok l → (l.map fun n => (h.node n).id).Nodup ∧
      ∀ y, y ∈ l.map (fun n => (h.node n).id) ↔ y ≠ k ∧ Leads h g k y := by
  obtain ⟨x, hx, hgx⟩ : ∃ x ∈ graphNodes h g, getNode h g (.key k) = .ok x := by
    obtain ⟨A, H⟩ := r.hist
    obtain ⟨n, hn, rfl⟩ := List.mem_map.1 hk
    obtain ⟨k', hk'⟩ := (mem_graphNodes H.rep).1 hn
    refine ⟨n, hn, H.rep.getNode_key.2 ?_⟩
    rw [(H.rep.nodeOk _ _ _ hk').2.1]
    exact hk'
  obtain rfl : (h.node x).id = k := by
    obtain ⟨A, H⟩ := r.hist
    exact (H.rep.nodeOk _ _ _ (H.rep.getNode_key.1 hgx)).2.1
  have ends : ∀ {s t}, Leads h g s t → s ∈ namesOf h g ∧ t ∈ namesOf h g := by
    intro s t p
    obtain ⟨z, j, -⟩ := Relation.TransGen.head'_iff.1 p
    obtain ⟨z', -, j'⟩ := Relation.TransGen.tail'_iff.1 p
    exact ⟨(joined_names r j).1, (joined_names r j').2⟩
  constructor
  · intro j l hl
    obtain ⟨h1, h2⟩ := C18_ancestors r hgx hl
    have mem : ∀ y ∈ l, y ∈ graphNodes h g := by
      intro y hy
      obtain ⟨z, a, -⟩ := Relation.TransGen.head'_iff.1 ((h2 y).1 hy)
      exact (arrow_mem r a).1
    refine ⟨(List.nodup_map_iff_inj_on h1).2 fun y hy z hz e => node_eq_of_name r (mem y hy) (mem z hz) e, fun y => ?_⟩
    constructor
    · intro hy
      obtain ⟨n, hn, rfl⟩ := List.mem_map.1 hy
      exact (leads_iff r (mem n hn) hx).2 ((h2 n).1 hn)
    · intro p
      obtain ⟨n, hn, rfl⟩ := List.mem_map.1 (ends p).1
      exact List.mem_map.2 ⟨n, (h2 n).2 ((leads_iff r hn hx).1 p), rfl⟩
  · intro j l hl
    obtain ⟨h1, h2, -⟩ := C19_descendants r hgx hl
    have mem : ∀ y ∈ l, y ∈ graphNodes h g := by
      intro y hy
      obtain ⟨z, -, a⟩ := Relation.TransGen.tail'_iff.1 ((h2 y).1 hy).2
      exact (arrow_mem r a).2
    refine ⟨(List.nodup_map_iff_inj_on h1).2 fun y hy z hz e => node_eq_of_name r (mem y hy) (mem z hz) e, fun y => ?_⟩
    constructor
    · intro hy
      obtain ⟨n, hn, rfl⟩ := List.mem_map.1 hy
      obtain ⟨c1, c2⟩ := (h2 n).1 hn
      exact ⟨fun e => c1 (node_eq_of_name r (mem n hn) hx e), (leads_iff r hx (mem n hn)).2 c2⟩
    · rintro ⟨hne, p⟩
      obtain ⟨n, hn, rfl⟩ := List.mem_map.1 (ends p).2
      exact List.mem_map.2 ⟨n, (h2 n).2 ⟨fun e => hne (by rw [e]), (leads_iff r hx hn).1 p⟩, rfl⟩

/-- **C120**, as the traversals show it: of the ancestors and descendants of a node that is kept, the result has those that are kept. -/
theorem C120_queries (hft : filterType ≠ "include" ∨ ∃ a, nodes = [a]) {k : Key} (hk : k ∈ namesOf h' g') {j j' : Nat} :
    (∀ l l', getAncestors j h g (.key k) = .ok l → getAncestors j' h' g' (.key k) = .ok l' →
      ((l.map fun n => (h.node n).id).filter fun y => decide (y ∈ namesOf h' g')).Perm (l'.map fun n => (h'.node n).id)) ∧
    ∀ l l', getDescendants j h g (.key k) = .ok l → getDescendants j' h' g' (.key k) = .ok l' →
      ((l.map fun n => (h.node n).id).filter fun y => decide (y ∈ namesOf h' g')).Perm (l'.map fun n => (h'.node n).id) := by
  obtain ⟨r', -, hj, hkn⟩ := filter_returned r hg hown hlim hrun
  have same : ∀ {s t}, s ∈ namesOf h' g' → t ∈ namesOf h' g' → (Leads h' g' s t ↔ Leads h g s t) := by
    intro s t hs ht
    by_cases hf : filterType = "include"
    · obtain ⟨a, ha⟩ := hft.resolve_left fun e => e hf
      exact C120_one r hg hown hlim hrun hf ha hs ht
    · exact C120_exclude r hg hown hlim hrun hf hs ht
  have ends : ∀ {s t}, Leads h' g' s t → s ∈ namesOf h' g' ∧ t ∈ namesOf h' g' := by
    intro s t p
    obtain ⟨z, j, -⟩ := Relation.TransGen.head'_iff.1 p
    obtain ⟨z', -, j'⟩ := Relation.TransGen.tail'_iff.1 p
    exact ⟨((hj _ _).1 j).2.1, ((hj _ _).1 j').2.2⟩
  have hk0 := ((hkn k).1 hk).1
  constructor
  · intro l l' h1 h2
    obtain ⟨a1, a2⟩ := (names_of_traversals r hk0).1 h1
    obtain ⟨b1, b2⟩ := (names_of_traversals r' hk).1 h2
    refine (List.perm_ext_iff_of_nodup (a1.filter _) b1).2 fun y => ?_
    rw [List.mem_filter, a2, b2, decide_eq_true_iff]
    exact ⟨fun ⟨c1, c2⟩ => (same c2 hk).2 c1, fun c => ⟨(same (ends c).1 hk).1 c, (ends c).1⟩⟩
  · intro l l' h1 h2
    obtain ⟨a1, a2⟩ := (names_of_traversals r hk0).2 h1
    obtain ⟨b1, b2⟩ := (names_of_traversals r' hk).2 h2
    refine (List.perm_ext_iff_of_nodup (a1.filter _) b1).2 fun y => ?_
    rw [List.mem_filter, a2, b2, decide_eq_true_iff]
    exact ⟨fun ⟨⟨c0, c1⟩, c2⟩ => ⟨c0, (same hk c2).2 c1⟩, fun ⟨c0, c⟩ => ⟨⟨c0, (same hk (ends c).2).1 c⟩, (ends c).2⟩⟩

end

/-! ## Cases -/

/-- `a → i`, `a → x → b`, `j → b`. -/
def bypass : Heap := runOps [.newGraph false true false, .add 0 "a", .add 0 "i", .add 0 "x", .add 0 "b", .add 0 "j",
  .link 0 "a" "i", .link 0 "a" "x", .link 0 "x" "b", .link 0 "j" "b"] Heap.init

theorem bypass_reachable : Reachable bypass := by
  refine Reachable.runOps .init _ ⟨trivial, ?_⟩
  simp only [AllOk, Op.Ok, Op.add, Op.link]
  decide

/-- **C120**: what is kept around two nodes may lose a path from an ancestor of one to a descendant of the other. -/
theorem C120_lost : ∃ g' m h', graphFilter 10 0 [.key (.str "i"), .key (.str "j")] "to_and_from" "include" bypass = (.ok (g', m), h') ∧
    .str "a" ∈ namesOf h' g' ∧ .str "b" ∈ namesOf h' g' ∧ Leads bypass 0 (.str "a") (.str "b") ∧ ¬ Leads h' g' (.str "a") (.str "b") := by
  cases hq : graphFilter 10 0 [.key (.str "i"), .key (.str "j")] "to_and_from" "include" bypass with
  | mk o h' =>
  have w : ((do
      let r ← graphFilter 10 0 [.key (.str "i"), .key (.str "j")] "to_and_from" "include"
      let ns ← look (fun h => namesOf h r.1)
      let ds ← ask (fun h => do return (← getDescendants 10 h r.1 (.key (.str "a"))).map fun n => (h.node n).id)
      return (ns, ds) : M _) bypass).1 = .ok ([.str "a", .str "i", .str "b", .str "j"], [.str "i"]) := by decide +kernel
  simp only [M.bind_apply, hq] at w
  cases o with
  | error e => cases w
  | ok p =>
    obtain ⟨g', m⟩ := p
    simp only [M.look_apply, M.ask_apply] at w
    cases hd : getDescendants 10 h' g' (.key (.str "a")) with
    | error e => simp [hd, bind, Except.bind] at w
    | ok l =>
      simp only [hd, bind, Except.bind, pure, Except.pure] at w
      have w : (namesOf h' g', l.map fun n => (h'.node n).id) = (_, _) := Except.ok.inj w
      obtain ⟨w1, w2⟩ := Prod.mk.inj w
      have r' := (filter_returned bypass_reachable (by decide +kernel) (by decide +kernel) (by decide +kernel) hq).1
      refine ⟨g', m, h', rfl, by rw [w1]; decide, by rw [w1]; decide, ?_, ?_⟩
      · exact ((leads_iff bypass_reachable (n := 0) (m := 3) (by decide +kernel) (by decide +kernel)).2
          (((C19_descendants bypass_reachable (a := .node 0) (x := 0) (lim := 10) (l := [1, 2, 3]) (by decide +kernel) (by decide +kernel)).2.1 3).1
            (by decide)).2)
      · intro p
        have := ((names_of_traversals r' (by rw [w1]; decide)).2 hd).2 (.str "b")
        rw [w2] at this
        exact absurd (this.2 ⟨by decide, p⟩) (by decide)

/-- Around one node, and without another's relatives, the hypotheses of the theorems are met. -/
example : (∃ p h', graphFilter 10 0 [.key (.str "x")] "to_and_from" "include" bypass = (.ok p, h') ∧
      Leads h' p.1 (.str "a") (.str "b")) ∧
    ∃ p h', graphFilter 10 0 [.key (.str "j")] "to_and_from" "exclude" bypass = (.ok p, h') ∧ Leads h' p.1 (.str "a") (.str "x") := by
  have path : Leads bypass 0 (.str "a") (.str "b") ∧ Leads bypass 0 (.str "a") (.str "x") :=
    ⟨(leads_iff bypass_reachable (n := 0) (m := 3) (by decide +kernel) (by decide +kernel)).2
      (((C19_descendants bypass_reachable (a := .node 0) (x := 0) (lim := 10) (l := [1, 2, 3]) (by decide +kernel) (by decide +kernel)).2.1 3).1
        (by decide)).2,
      (leads_iff bypass_reachable (n := 0) (m := 2) (by decide +kernel) (by decide +kernel)).2
      (((C19_descendants bypass_reachable (a := .node 0) (x := 0) (lim := 10) (l := [1, 2, 3]) (by decide +kernel) (by decide +kernel)).2.1 2).1
        (by decide)).2⟩
  constructor
  · cases hq : graphFilter 10 0 [.key (.str "x")] "to_and_from" "include" bypass with
    | mk o h' =>
    have w : ((do
        let r ← graphFilter 10 0 [.key (.str "x")] "to_and_from" "include"
        look (fun h => namesOf h r.1) : M _) bypass).1 = .ok [.str "a", .str "x", .str "b"] := by decide +kernel
    simp only [M.bind_apply, hq] at w
    cases o with
    | error e => cases w
    | ok p =>
      simp only [M.look_apply, Except.ok.injEq] at w
      exact ⟨p, h', rfl, (C120_one bypass_reachable (by decide +kernel) (by decide +kernel) (by decide +kernel) hq rfl rfl
        (by rw [w]; decide) (by rw [w]; decide)).2 path.1⟩
  · cases hq : graphFilter 10 0 [.key (.str "j")] "to_and_from" "exclude" bypass with
    | mk o h' =>
    have w : ((do
        let r ← graphFilter 10 0 [.key (.str "j")] "to_and_from" "exclude"
        look (fun h => namesOf h r.1) : M _) bypass).1 = .ok [.str "a", .str "i", .str "x"] := by decide +kernel
    simp only [M.bind_apply, hq] at w
    cases o with
    | error e => cases w
    | ok p =>
      simp only [M.look_apply, Except.ok.injEq] at w
      exact ⟨p, h', rfl, (C120_exclude bypass_reachable (by decide +kernel) (by decide +kernel) (by decide +kernel) hq (by decide)
        (by rw [w]; decide) (by rw [w]; decide)).2 path.2⟩

end Verif
