import Verif.Lemmas.Drawn
import Verif.Lemmas.TraverseTop
/-!
# Reading arrows, paths and degrees off a draft
-/
namespace Verif
open M

theorem seenEdge_ok {h : Heap} {e : ERef} {v : EdgeD} (hv : seenEdge h e = .ok v) : edgeId h e = .ok v.id := by
  unfold seenEdge at hv
  cases hi : edgeId h e with
  | error x => simp [hi, bind, Except.bind] at hv
  | ok i => simp [hi, bind, Except.bind] at hv; simp [← hv]

/-- The id of an edge of a graph names its ends. -/
theorem edgeId_names {h : Heap} (r : Reachable h) {g : GRef} {e : ERef} (he : LiveEdge h g e) {i : EdgeId} (hi : edgeId h e = .ok i)
    {n m : NRef} (hn : edgeStart h e = .ok n) (hm : edgeEnd h e = .ok m) : i.1 = (h.node n).id ∧ i.2.1 = (h.node m).id := by
  obtain ⟨A, H⟩ := r.hist
  have R := H.rep
  obtain ⟨j, hj⟩ := (liveEdge_iff R).1 he
  rw [R.edgeId_eq hj] at hi
  obtain rfl : j = i := by simpa using hi
  obtain ⟨n', m', h1, h2, -, -, -, h6, h7⟩ := R.live_edge hj
  simp only [edgeStart, h1, Except.ok.injEq, edgeEnd, h2] at hn hm
  subst hn; subst hm
  exact ⟨(R.nodeOk g _ _ h6).2.1.symm, (R.nodeOk g _ _ h7).2.1.symm⟩

/-- Nodes of one graph with the same name are the same. -/
theorem node_eq_of_name {h : Heap} (r : Reachable h) {g : GRef} {n m : NRef} (hn : n ∈ graphNodes h g) (hm : m ∈ graphNodes h g)
    (e : (h.node n).id = (h.node m).id) : n = m := by
  obtain ⟨A, H⟩ := r.hist
  obtain ⟨k, hk⟩ := (mem_graphNodes H.rep).1 hn
  obtain ⟨k', hk'⟩ := (mem_graphNodes H.rep).1 hm
  rw [(H.rep.nodeOk g _ _ hk).2.1, (H.rep.nodeOk g _ _ hk').2.1] at e
  subst e
  exact val_unique (H.rep.keysNodup g) hk hk'

namespace Draws
variable {h : Heap} {g : GRef} {d : Draft}

theorem node_of_name (D : Draws h g d) {k : Key} (hk : k ∈ d.names) : ∃ n ∈ graphNodes h g, (h.node n).id = k := by
  unfold Draft.names at hk
  rw [← D.nodes, List.map_map, List.mem_map] at hk
  obtain ⟨n, hn, e⟩ := hk
  exact ⟨n, hn, e⟩

theorem name_mem (D : Draws h g d) {n : NRef} (hn : n ∈ graphNodes h g) : (h.node n).id ∈ d.names := by
  unfold Draft.names
  rw [← D.nodes, List.map_map]
  exact List.mem_map.2 ⟨n, hn, rfl⟩

theorem node_mem (D : Draws h g d) {n : NRef} (hn : n ∈ graphNodes h g) : seenNode h n ∈ d.nodes := by
  rw [← D.nodes]
  exact List.mem_map.2 ⟨n, hn, rfl⟩

theorem own (D : Draws h g d) : ∀ n ∈ graphNodes h g, (h.node n).graph = some g := by
  obtain ⟨es, -, -, hs, -⟩ := D.edges
  exact fun n hn => (hs n hn).1

/-- An arrow between two nodes is an edge of the draft between their names. -/
theorem arrow (D : Draws h g d) (r : Reachable h) {n m : NRef} :
    Arrow h g n m ↔ n ∈ graphNodes h g ∧ m ∈ graphNodes h g ∧ ∃ v ∈ d.edges, v.id.1 = (h.node n).id ∧ v.id.2.1 = (h.node m).id := by
  obtain ⟨es, -, hse, hs, hes⟩ := D.edges
  constructor
  · intro ha
    obtain ⟨hn, hm⟩ := arrow_mem r ha
    obtain ⟨e, he, h1, h2⟩ := ha
    refine ⟨hn, hm, ?_⟩
    have hmem : e ∈ es := by
      obtain ⟨n', hn', os, ho, hos⟩ := he
      rw [(hs n' hn').2.1] at ho
      simp only [Except.ok.injEq] at ho
      rw [← ho] at hos
      exact (List.mem_filter.1 hos).1
    have : seenEdge h e ∈ d.edges.map Except.ok := by rw [← hse]; exact List.mem_map.2 ⟨e, hmem, rfl⟩
    obtain ⟨v, hv, ev⟩ := List.mem_map.1 this
    obtain ⟨i1, i2⟩ := edgeId_names r he (seenEdge_ok ev.symm) h1 h2
    exact ⟨v, hv, i1, i2⟩
  · rintro ⟨hn, hm, v, hv, e1, e2⟩
    have : Except.ok v ∈ es.map (seenEdge h) := by rw [hse]; exact List.mem_map.2 ⟨v, hv, rfl⟩
    obtain ⟨e, he, ev⟩ := List.mem_map.1 this
    obtain ⟨-, ⟨n', hn', h1⟩, m', hm', h2⟩ := hes e he
    have hl : LiveEdge h g e := ⟨n', hn', _, (hs n' hn').2.1, List.mem_filter.2 ⟨he, by simp [h1]⟩⟩
    obtain ⟨i1, i2⟩ := edgeId_names r hl (seenEdge_ok ev) h1 h2
    rw [e1] at i1
    rw [e2] at i2
    obtain rfl := node_eq_of_name r hn hn' i1
    obtain rfl := node_eq_of_name r hm hm' i2
    exact ⟨e, hl, h1, h2⟩

/-- If the names can be numbered such that every edge goes up, there is no loop. -/
theorem acyclic (D : Draws h g d) (r : Reachable h) (rank : Key → Int) (hr : ∀ v ∈ d.edges, rank v.id.1 < rank v.id.2.1)
    (n : NRef) : ¬ Path h g n n := by
  have key : ∀ m, Path h g n m → rank (h.node n).id < rank (h.node m).id := by
    intro m p
    induction p with
    | single a =>
      obtain ⟨-, -, v, hv, e1, e2⟩ := (D.arrow r).1 a
      rw [← e1, ← e2]
      exact hr v hv
    | tail _ a ih =>
      obtain ⟨-, -, v, hv, e1, e2⟩ := (D.arrow r).1 a
      have := hr v hv
      rw [e1, e2] at this
      exact Int.lt_trans ih this
  intro p
  exact Int.lt_irrefl _ (key n p)

/-- The edges entering a node look like the edges of the draft that end at its name. -/
theorem inward (D : Draws h g d) (r : Reachable h) {n : NRef} (hn : n ∈ graphNodes h g) :
    ∃ es, inwardEdges h n = .ok es ∧
      es.map (seenEdge h) = (d.edges.filter fun v => decide (v.id.2.1 = (h.node n).id)).map .ok := by
  obtain ⟨es, -, hse, hs, hes⟩ := D.edges
  refine ⟨_, (hs n hn).2.2, ?_⟩
  have key : ∀ e v, e ∈ es → seenEdge h e = .ok v → (edgeEnd h e = .ok n ↔ v.id.2.1 = (h.node n).id) := by
    intro e v he ev
    obtain ⟨-, ⟨n', hn', h1⟩, m', hm', h2⟩ := hes e he
    have hl : LiveEdge h g e := ⟨n', hn', _, (hs n' hn').2.1, List.mem_filter.2 ⟨he, by simp [h1]⟩⟩
    obtain ⟨-, i2⟩ := edgeId_names r hl (seenEdge_ok ev) h1 h2
    rw [h2, i2]
    constructor
    · intro e; simp at e; rw [e]
    · intro e; rw [node_eq_of_name r hm' hn e]
  clear hs hes
  generalize d.edges = vs at *
  induction es generalizing vs with
  | nil => cases vs with
    | nil => rfl
    | cons v vs => simp at hse
  | cons e es ih => cases vs with
    | nil => simp at hse
    | cons v vs =>
      simp only [List.map_cons, List.cons.injEq] at hse
      have := ih (fun e' v' he' => key e' v' (by simp [he'])) vs hse.2
      have hk := key e v (by simp) hse.1
      simp only [List.filter_cons, hk, decide_eq_true_eq]
      by_cases hc : v.id.2.1 = (h.node n).id
      · simp [hc, hse.1, this]
      · simp [hc, this]

/-- The edges leaving a node look like the edges of the draft that start at its name. -/
theorem outward (D : Draws h g d) (r : Reachable h) {n : NRef} (hn : n ∈ graphNodes h g) :
    ∃ es, outwardEdges h n = .ok es ∧
      es.map (seenEdge h) = (d.edges.filter fun v => decide (v.id.1 = (h.node n).id)).map .ok := by
  obtain ⟨es, -, hse, hs, hes⟩ := D.edges
  refine ⟨_, (hs n hn).2.1, ?_⟩
  have key : ∀ e v, e ∈ es → seenEdge h e = .ok v → (edgeStart h e = .ok n ↔ v.id.1 = (h.node n).id) := by
    intro e v he ev
    obtain ⟨-, ⟨n', hn', h1⟩, m', hm', h2⟩ := hes e he
    have hl : LiveEdge h g e := ⟨n', hn', _, (hs n' hn').2.1, List.mem_filter.2 ⟨he, by simp [h1]⟩⟩
    obtain ⟨i1, -⟩ := edgeId_names r hl (seenEdge_ok ev) h1 h2
    rw [h1, i1]
    constructor
    · intro e; simp at e; rw [e]
    · intro e; rw [node_eq_of_name r hn' hn e]
  clear hs hes
  generalize d.edges = vs at *
  induction es generalizing vs with
  | nil => cases vs with
    | nil => rfl
    | cons v vs => simp at hse
  | cons e es ih => cases vs with
    | nil => simp at hse
    | cons v vs =>
      simp only [List.map_cons, List.cons.injEq] at hse
      have := ih (fun e' v' he' => key e' v' (by simp [he'])) vs hse.2
      have hk := key e v (by simp) hse.1
      simp only [List.filter_cons, hk, decide_eq_true_eq]
      by_cases hc : v.id.1 = (h.node n).id
      · simp [hc, hse.1, this]
      · simp [hc, this]

end Draws
end Verif
