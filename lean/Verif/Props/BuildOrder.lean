import Verif.Spec.Adding
import Verif.Props.Shape
import Verif.Props.Monotone
/-!
# C105: the order of the calls that build a graph
-/
namespace Verif
open M

theorem connect_out {h : Heap} {g : GRef} {s t : Key} {a : EdgeArgs} {p : IfExists} {out : Out}
    (ho : ((Op.connect g (.key s) (.key t) a p).step h).1 = .ok out) : ∃ e, out = .edge e := by
  simp only [Op.step, bind_apply] at ho
  cases hc : connect g (.key s) (.key t) a p h with
  | mk r h' =>
    cases r with
    | error err => simp [hc] at ho
    | ok e => simp only [hc, pure_apply, Except.ok.injEq] at ho; exact ⟨e, ho.symm⟩

theorem addNode_out {h : Heap} {g : GRef} {k : Key} {a : NodeArgs} {p : IfExists} {out : Out}
    (ho : ((Op.addNode g k a p).step h).1 = .ok out) : ∃ n, out = .node n := by
  simp only [Op.step, bind_apply] at ho
  cases hc : addNode g k a p h with
  | mk r h' =>
    cases r with
    | error err => simp [hc] at ho
    | ok e => simp only [hc, pure_apply, Except.ok.injEq] at ho; exact ⟨e, ho.symm⟩

/-- One building call that returns. -/
theorem build_step {h : Heap} {A : Spec} (g : GRef) {b : Build} {out : Out} (ho : ((b.op g).step h).1 = .ok out) :
    (∀ k, k ∈ ((A.step (b.op g) ((b.op g).step h).1).graph g).names ↔
      k ∈ (A.graph g).names ∨ ∃ a p, b = .node k a p) ∧
    (∀ s t i, (s, t, i) ∈ ((A.step (b.op g) ((b.op g).step h).1).graph g).ids ↔
      (s, t, i) ∈ (A.graph g).ids ∨ ∃ a p, b = .edge s t a p ∧ a.raw = i) := by
  cases b with
  | node k a p =>
    obtain ⟨n, rfl⟩ := addNode_out ho
    rw [ho]
    simp only [Build.op, Spec.step, Spec.register]
    by_cases hk : k ∈ (A.graph g).names
    · simp only [hk, if_true, Build.node.injEq, reduceCtorEq, false_and, exists_false, or_false, implies_true, and_true]
      intro k'
      exact ⟨.inl, fun h => h.elim id fun ⟨_, _, e, _⟩ => e ▸ hk⟩
    · simp only [hk, if_false, upd_same, SGraph.addNode]
      simp only [SGraph.names, SGraph.ids, List.map_append, List.mem_append, Build.node.injEq,
        reduceCtorEq, false_and, exists_false, or_false, implies_true, and_true, List.map_cons, List.map_nil, List.mem_singleton]
      intro k'
      refine or_congr_right ⟨fun e => ⟨a, p, e.symm, rfl, rfl⟩, fun ⟨_, _, e, _⟩ => e.symm⟩
  | edge s t a p =>
    obtain ⟨e, rfl⟩ := connect_out ho
    rw [ho]
    simp only [Build.op, Spec.step, Spec.connect, Spec.connectId, Spec.argName, Spec.on, upd_same, SGraph.addEdge]
    by_cases hi : (s, t, a.raw) ∈ (A.graph g).ids
    · simp only [hi, if_true, Build.edge.injEq, reduceCtorEq, exists_false, or_false, implies_true, true_and]
      intro s' t' i
      exact ⟨.inl, fun h => h.elim id fun ⟨_, _, ⟨e1, e2, e3, _⟩, e4⟩ => by subst e1 e2 e3 e4; exact hi⟩
    · simp only [hi, if_false]
      simp only [SGraph.names, SGraph.ids, List.map_append, List.mem_append, Build.edge.injEq,
        reduceCtorEq, exists_false, or_false, implies_true, true_and, List.map_cons, List.map_nil, List.mem_singleton]
      intro s' t' i
      refine or_congr_right ⟨fun e => ?_, fun ⟨_, _, ⟨e1, e2, e3, _⟩, e4⟩ => ?_⟩
      · simp only [Prod.mk.injEq] at e
        obtain ⟨rfl, rfl, rfl⟩ := e
        exact ⟨a, p, ⟨rfl, rfl, rfl, rfl⟩, rfl⟩
      · subst e1 e2 e3 e4; rfl

/-- A session of building calls that all return, from the abstract graph. -/
theorem build_run {h : Heap} {A : Spec} (H : Hist h A) {g : GRef} (hg : g < h.nG) (bs : List Build)
    (hr : AllReturn (bs.map (Build.op g)) h) :
    ∃ A', Hist (runOps (bs.map (Build.op g)) h) A' ∧
      (∀ k, k ∈ (A'.graph g).names ↔ k ∈ (A.graph g).names ∨ ∃ a p, .node k a p ∈ bs) ∧
      ∀ s t i, (s, t, i) ∈ (A'.graph g).ids ↔ (s, t, i) ∈ (A.graph g).ids ∨ ∃ a p, .edge s t a p ∈ bs ∧ a.raw = i := by
  induction bs generalizing h A with
  | nil => exact ⟨A, H, by simp, by simp⟩
  | cons b bs ih =>
    obtain ⟨⟨out, ho⟩, hr⟩ := hr
    have ok : (b.op g).Ok h := by cases b <;> exact hg
    obtain ⟨b1, b2⟩ := build_step (A := A) g ho
    obtain ⟨A', H', n, e⟩ := ih (.step (b.op g) H ok) (Nat.lt_of_lt_of_le hg (Grows.step (b.op g) h).nG) hr
    refine ⟨A', H', fun k => ?_, fun s t i => ?_⟩
    · rw [n, b1, or_assoc]
      refine or_congr_right ⟨?_, ?_⟩
      · rintro (⟨a, p, rfl⟩ | ⟨a, p, hm⟩)
        · exact ⟨a, p, List.mem_cons_self⟩
        · exact ⟨a, p, List.mem_cons_of_mem _ hm⟩
      · rintro ⟨a, p, hm⟩
        rcases List.mem_cons.1 hm with e | hm
        · exact .inl ⟨a, p, e.symm⟩
        · exact .inr ⟨a, p, hm⟩
    · rw [e, b2, or_assoc]
      refine or_congr_right ⟨?_, ?_⟩
      · rintro (⟨a, p, rfl, hi⟩ | ⟨a, p, hm, hi⟩)
        · exact ⟨a, p, List.mem_cons_self, hi⟩
        · exact ⟨a, p, List.mem_cons_of_mem _ hm, hi⟩
      · rintro ⟨a, p, hm, hi⟩
        rcases List.mem_cons.1 hm with e | hm
        · exact .inl ⟨a, p, e.symm, hi⟩
        · exact .inr ⟨a, p, hm, hi⟩

theorem build_ok {h : Heap} {g : GRef} (hg : g < h.nG) (bs : List Build) : AllOk (bs.map (Build.op g)) h := by
  induction bs generalizing h with
  | nil => trivial
  | cons b bs ih =>
    exact ⟨by cases b <;> exact hg, ih (Nat.lt_of_lt_of_le hg (Grows.step (b.op g) h).nG)⟩

theorem Rep.mem_names_iff {h : Heap} {A : Spec} (R : Rep h A) (g : GRef) (k : Key) :
    k ∈ (A.graph g).names ↔ ∃ n ∈ graphNodes h g, (h.node n).id = k := by
  constructor
  · intro hk
    obtain ⟨⟨k, n⟩, hn, rfl⟩ := List.mem_map.1 hk
    exact ⟨n, (mem_graphNodes R).2 ⟨k, hn⟩, (R.nodeOk _ _ _ hn).2.1⟩
  · rintro ⟨n, hn, rfl⟩
    obtain ⟨k, hk⟩ := (mem_graphNodes R).1 hn
    rw [(R.nodeOk _ _ _ hk).2.1]
    exact List.mem_map.2 ⟨_, hk, rfl⟩

theorem Rep.mem_ids_iff {h : Heap} {A : Spec} (R : Rep h A) (g : GRef) (i : EdgeId) :
    i ∈ (A.graph g).ids ↔ ∃ e, LiveEdge h g e ∧ edgeId h e = .ok i := by
  constructor
  · intro hi
    obtain ⟨e, he⟩ := Rep.mem_ids.1 hi
    exact ⟨e, (liveEdge_iff R).2 ⟨i, he⟩, R.edgeId_eq he⟩
  · rintro ⟨e, he, hi⟩
    obtain ⟨j, hj⟩ := (liveEdge_iff R).1 he
    rw [R.edgeId_eq hj] at hi
    obtain rfl := Except.ok.inj hi
    exact Rep.mem_ids.2 ⟨e, hj⟩

/-- **C105**: after a session of `add_node` and `connect` calls that all return, the graph has exactly the names it had and those
given to `add_node`, and exactly the edge ids it had and those given to `connect`. -/
theorem C105_result {h : Heap} (r : Reachable h) {g : GRef} (hg : g < h.nG) (bs : List Build)
    (hr : AllReturn (bs.map (Build.op g)) h) :
    (∀ k, (∃ n ∈ graphNodes (runOps (bs.map (Build.op g)) h) g, ((runOps (bs.map (Build.op g)) h).node n).id = k) ↔
      (∃ n ∈ graphNodes h g, (h.node n).id = k) ∨ ∃ a p, .node k a p ∈ bs) ∧
    ∀ s t i, (∃ e, LiveEdge (runOps (bs.map (Build.op g)) h) g e ∧ edgeId (runOps (bs.map (Build.op g)) h) e = .ok (s, t, i)) ↔
      (∃ e, LiveEdge h g e ∧ edgeId h e = .ok (s, t, i)) ∨ ∃ a p, .edge s t a p ∈ bs ∧ a.raw = i := by
  obtain ⟨A, H⟩ := r.hist
  obtain ⟨A', H', hn, he⟩ := build_run H hg bs hr
  refine ⟨fun k => ?_, fun s t i => ?_⟩
  · rw [← H.rep.mem_names_iff, ← H'.rep.mem_names_iff, hn]
  · rw [← H.rep.mem_ids_iff, ← H'.rep.mem_ids_iff, he]

/-- **C105**: two sessions of the same `add_node` and `connect` calls in different orders, repeated calls or not, give graphs of one
shape with the same edge ids, provided every call returns in both. -/
theorem C105_order {h : Heap} (r : Reachable h) {g : GRef} (hg : g < h.nG) {bs bs' : List Build} (same : ∀ b, b ∈ bs ↔ b ∈ bs')
    (hr : AllReturn (bs.map (Build.op g)) h) (hr' : AllReturn (bs'.map (Build.op g)) h) :
    OneShape (runOps (bs.map (Build.op g)) h) g (runOps (bs'.map (Build.op g)) h) g ∧
    (graphNodes (runOps (bs.map (Build.op g)) h) g).length = (graphNodes (runOps (bs'.map (Build.op g)) h) g).length ∧
    ∀ i, (∃ e, LiveEdge (runOps (bs.map (Build.op g)) h) g e ∧ edgeId (runOps (bs.map (Build.op g)) h) e = .ok i) ↔
      ∃ e, LiveEdge (runOps (bs'.map (Build.op g)) h) g e ∧ edgeId (runOps (bs'.map (Build.op g)) h) e = .ok i := by
  obtain ⟨A, H⟩ := r.hist
  obtain ⟨B, HB, n1, e1⟩ := build_run H hg bs hr
  obtain ⟨D, HD, n2, e2⟩ := build_run H hg bs' hr'
  have hn : ∀ k, k ∈ (B.graph g).names ↔ k ∈ (D.graph g).names := fun k => by rw [n1, n2]; simp only [same]
  have he : ∀ i, i ∈ (B.graph g).ids ↔ i ∈ (D.graph g).ids := fun ⟨s, t, i⟩ => by rw [e1, e2]; simp only [same]
  refine ⟨sameShape_of HB.rep HD.rep hn fun s t => exists_congr fun i => he _, ?_, fun i => ?_⟩
  · have := ((List.perm_ext_iff_of_nodup (HB.rep.keysNodup g) (HD.rep.keysNodup g)).2 hn).length_eq
    simpa only [graphNodes, dvals, HB.rep.nodes, HD.rep.nodes, List.length_map] using this
  · rw [← HB.rep.mem_ids_iff, ← HD.rep.mem_ids_iff, he]

end Verif
