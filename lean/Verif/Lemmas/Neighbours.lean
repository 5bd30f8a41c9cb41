import Verif.Props.Remove
/-!
# Children and parents as pure functions of the heap
-/
namespace Verif
open M

/-- There is an edge of graph `g` from `n` to `m`. -/
def Arrow (h : Heap) (g : GRef) (n m : NRef) : Prop :=
  ∃ e, LiveEdge h g e ∧ edgeStart h e = .ok n ∧ edgeEnd h e = .ok m

/-- The end nodes of the outward edges. -/
def kids (h : Heap) (n : NRef) : List NRef := (h.node n).outE.map (fun p => ((h.edge p.2).stop).getD 0)

/-- The start nodes of the inward edges. -/
def pars (h : Heap) (n : NRef) : List NRef := (h.node n).inE.map (fun p => ((h.edge p.2).start).getD 0)

theorem mapM_ok {α β : Type} {f : α → Except PyErr β} {f' : α → β} {l : List α} (hf : ∀ x ∈ l, f x = .ok (f' x)) :
    l.mapM f = .ok (l.map f') := by
  induction l with
  | nil => rfl
  | cons a l ih =>
    simp only [List.mapM_cons, hf a (by simp), ih (fun x hx => hf x (by simp [hx])), List.map_cons]
    rfl

namespace Rep
variable {h : Heap} {A : Spec}

theorem getOutward (R : Rep h A) {g : GRef} {a : NodeArg} {k : Key} {n : NRef} (ha : getNode h g a = .ok n)
    (hn : (k, n) ∈ (A.graph g).nodes) : getOutwardEdges h g a = .ok (dvals (h.node n).outE) := by
  unfold getOutwardEdges dvals
  rw [ha, R.outE g k n hn]
  exact R.outwardEdges hn

theorem getInward (R : Rep h A) {g : GRef} {a : NodeArg} {k : Key} {n : NRef} (ha : getNode h g a = .ok n)
    (hn : (k, n) ∈ (A.graph g).nodes) : getInwardEdges h g a = .ok (dvals (h.node n).inE) := by
  unfold getInwardEdges dvals
  rw [ha, R.inE g k n hn]
  exact R.inwardEdges hn

theorem getChildren (R : Rep h A) {g : GRef} {a : NodeArg} {n : NRef} (ha : getNode h g a = .ok n) :
    Verif.getChildren h g a = .ok (kids h n) := by
  obtain ⟨k, -, hn⟩ := R.getNode_ok.1 ha
  unfold Verif.getChildren
  rw [R.getOutward ha hn]
  refine (mapM_ok (f' := fun e => ((h.edge e).stop).getD 0) ?_).trans ?_
  · intro e he
    unfold dvals at he
    rw [R.outE g k n hn] at he
    obtain ⟨i, hi, -⟩ := mem_out_handles.1 he
    obtain ⟨n', m, -, h2, -⟩ := R.live_edge hi
    simp [edgeEnd, h2]
  · simp [kids, dvals]

theorem getParents (R : Rep h A) {g : GRef} {a : NodeArg} {n : NRef} (ha : getNode h g a = .ok n) :
    Verif.getParents h g a = .ok (pars h n) := by
  obtain ⟨k, -, hn⟩ := R.getNode_ok.1 ha
  unfold Verif.getParents
  rw [R.getInward ha hn]
  refine (mapM_ok (f' := fun e => ((h.edge e).start).getD 0) ?_).trans ?_
  · intro e he
    unfold dvals at he
    rw [R.inE g k n hn] at he
    obtain ⟨i, hi, -⟩ := mem_inn_handles.1 he
    obtain ⟨n', m, h1, -⟩ := R.live_edge hi
    simp [edgeStart, h1]
  · simp [pars, dvals]

theorem mem_kids (R : Rep h A) {g : GRef} {k : Key} {n m : NRef} (hn : (k, n) ∈ (A.graph g).nodes) :
    m ∈ kids h n ↔ Arrow h g n m := by
  unfold kids
  rw [R.outE g k n hn]
  constructor
  · intro hm
    obtain ⟨⟨i, e⟩, hie, rfl⟩ := List.mem_map.1 hm
    have he := (List.mem_filter.1 hie).1
    have hik : i.1 = k := by simpa using (List.mem_filter.1 hie).2
    obtain ⟨n', m', h1, h2, -, -, -, h6, -⟩ := R.live_edge he
    rw [hik] at h6
    obtain rfl := val_unique (R.keysNodup g) hn h6
    exact ⟨e, (liveEdge_iff R).2 ⟨i, he⟩, by simp [edgeStart, h1], by simp [edgeEnd, h2]⟩
  · rintro ⟨e, he, h1, h2⟩
    obtain ⟨i, hi⟩ := (liveEdge_iff R).1 he
    refine List.mem_map.2 ⟨(i, e), List.mem_filter.2 ⟨hi, ?_⟩, ?_⟩
    · simpa using (edge_ends R hn hi).1.1 h1
    · obtain ⟨n', m', -, b2, -⟩ := R.live_edge hi
      simp only [edgeEnd, b2, Except.ok.injEq] at h2
      simp [b2, h2]

theorem mem_pars (R : Rep h A) {g : GRef} {k : Key} {n m : NRef} (hn : (k, n) ∈ (A.graph g).nodes) :
    m ∈ pars h n ↔ Arrow h g m n := by
  unfold pars
  rw [R.inE g k n hn]
  constructor
  · intro hm
    obtain ⟨⟨i, e⟩, hie, rfl⟩ := List.mem_map.1 hm
    have he := (List.mem_filter.1 hie).1
    have hik : i.2.1 = k := by simpa using (List.mem_filter.1 hie).2
    obtain ⟨n', m', h1, h2, -, -, -, -, h7⟩ := R.live_edge he
    rw [hik] at h7
    obtain rfl := val_unique (R.keysNodup g) hn h7
    exact ⟨e, (liveEdge_iff R).2 ⟨i, he⟩, by simp [edgeStart, h1], by simp [edgeEnd, h2]⟩
  · rintro ⟨e, he, h1, h2⟩
    obtain ⟨i, hi⟩ := (liveEdge_iff R).1 he
    refine List.mem_map.2 ⟨(i, e), List.mem_filter.2 ⟨hi, ?_⟩, ?_⟩
    · simpa using (edge_ends R hn hi).2.1 h2
    · obtain ⟨n', m', b1, -⟩ := R.live_edge hi
      simp only [edgeStart, b1, Except.ok.injEq] at h1
      simp [b1, h1]

/-- An arrow connects registered nodes. -/
theorem arrow_nodes (R : Rep h A) {g : GRef} {n m : NRef} (ha : Arrow h g n m) :
    (∃ k, (k, n) ∈ (A.graph g).nodes) ∧ ∃ k, (k, m) ∈ (A.graph g).nodes := by
  obtain ⟨e, he, h1, h2⟩ := ha
  obtain ⟨i, hi⟩ := (liveEdge_iff R).1 he
  obtain ⟨n', m', b1, b2, -, -, -, b6, b7⟩ := R.live_edge hi
  simp only [edgeStart, b1, edgeEnd, b2, Except.ok.injEq] at h1 h2
  subst h1 h2
  exact ⟨⟨_, b6⟩, ⟨_, b7⟩⟩

theorem kids_length (R : Rep h A) {g : GRef} {k : Key} {n : NRef} (hn : (k, n) ∈ (A.graph g).nodes) :
    (kids h n).length = ((A.graph g).edges.filter (fun p => decide (p.1.1 = k))).length := by
  simp [kids, R.outE g k n hn, SGraph.out]

theorem pars_length (R : Rep h A) {g : GRef} {k : Key} {n : NRef} (hn : (k, n) ∈ (A.graph g).nodes) :
    (pars h n).length = ((A.graph g).edges.filter (fun p => decide (p.1.2.1 = k))).length := by
  simp [pars, R.inE g k n hn, SGraph.inn]

end Rep

theorem arrow_mem {h : Heap} (r : Reachable h) {g : GRef} {n m : NRef} (ha : Arrow h g n m) :
    n ∈ graphNodes h g ∧ m ∈ graphNodes h g := by
  obtain ⟨A, H⟩ := r.hist
  obtain ⟨h1, h2⟩ := H.rep.arrow_nodes ha
  exact ⟨(mem_graphNodes H.rep).2 h1, (mem_graphNodes H.rep).2 h2⟩

/-- A registered node is found under itself. -/
theorem getNode_self {h : Heap} (r : Reachable h) {g : GRef} {n : NRef} (hn : n ∈ graphNodes h g) :
    getNode h g (.node n) = .ok n := by
  obtain ⟨A, H⟩ := r.hist
  obtain ⟨k, hk⟩ := (mem_graphNodes H.rep).1 hn
  exact H.rep.getNode_live hk

theorem getNode_mem {h : Heap} (r : Reachable h) {g : GRef} {a : NodeArg} {n : NRef} (hn : getNode h g a = .ok n) :
    n ∈ graphNodes h g := by
  obtain ⟨A, H⟩ := r.hist
  exact (mem_graphNodes H.rep).2 ⟨_, H.rep.getNode_mem hn⟩

theorem getChildren_eq {h : Heap} (r : Reachable h) {g : GRef} {a : NodeArg} {n : NRef} (ha : getNode h g a = .ok n) :
    getChildren h g a = .ok (kids h n) := by
  obtain ⟨A, H⟩ := r.hist
  exact H.rep.getChildren ha

theorem getParents_eq {h : Heap} (r : Reachable h) {g : GRef} {a : NodeArg} {n : NRef} (ha : getNode h g a = .ok n) :
    getParents h g a = .ok (pars h n) := by
  obtain ⟨A, H⟩ := r.hist
  exact H.rep.getParents ha

theorem mem_kids {h : Heap} (r : Reachable h) {g : GRef} {n m : NRef} (hn : n ∈ graphNodes h g) :
    m ∈ kids h n ↔ Arrow h g n m := by
  obtain ⟨A, H⟩ := r.hist
  obtain ⟨k, hk⟩ := (mem_graphNodes H.rep).1 hn
  exact H.rep.mem_kids hk

theorem mem_pars {h : Heap} (r : Reachable h) {g : GRef} {n m : NRef} (hn : n ∈ graphNodes h g) :
    m ∈ pars h n ↔ Arrow h g m n := by
  obtain ⟨A, H⟩ := r.hist
  obtain ⟨k, hk⟩ := (mem_graphNodes H.rep).1 hn
  exact H.rep.mem_pars hk

end Verif
