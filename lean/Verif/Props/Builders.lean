import Verif.Lemmas.Drawn
import Verif.Spec.Append
/-!
# C36: `from_lists`
-/
namespace Verif
open M

example : firsts ["b", "a", "b", "c", "a"] = ["b", "a", "c"] := by decide

theorem mem_firsts {α : Type} [DecidableEq α] {x : α} {l : List α} : x ∈ firsts l ↔ x ∈ l := by
  induction l with
  | nil => rfl
  | cons y ys ih =>
    simp only [firsts, List.mem_cons, List.mem_filter, decide_eq_true_eq, ih]
    by_cases h : x = y
    · simp [h]
    · simp [h]

theorem firsts_append {α : Type} [DecidableEq α] (l : List α) (x : α) :
    firsts (l ++ [x]) = if x ∈ l then firsts l else firsts l ++ [x] := by
  induction l with
  | nil => simp [firsts]
  | cons y ys ih =>
    simp only [List.cons_append, firsts, ih, List.mem_cons]
    by_cases h : x = y
    · subst h
      by_cases h' : x ∈ ys <;> simp [h', List.filter_append]
    · by_cases h' : x ∈ ys <;> simp [h, h', List.filter_append]

/-- A node without attributes. -/
def plainNode (x : String) : NodeD := { name := .str x }

theorem names_plain (l : List String) (st o : Bool) (es : List EdgeD) :
    Draft.names { strict := st, ordering := o, nodes := l.map plainNode, edges := es } = l.map Key.str := by
  simp [Draft.names, plainNode, Function.comp_def]

/-- Adding a name without attributes. -/
theorem Draft.addNode_plain (l : List String) (x : String) (st o : Bool) (es : List EdgeD) :
    Draft.addNode { strict := st, ordering := o, nodes := (firsts l).map plainNode, edges := es } x {} =
      { strict := st, ordering := o, nodes := (firsts (l ++ [x])).map plainNode, edges := es } := by
  unfold Draft.addNode
  rw [names_plain, firsts_append]
  have : Key.str x ∈ (firsts l).map Key.str ↔ x ∈ l := by simp [mem_firsts]
  simp only [this]
  by_cases h : x ∈ l
  · rw [if_pos h, if_pos h]
    congr 1
    conv => rhs; rw [← List.map_id ((firsts l).map plainNode)]
    apply List.map_congr_left
    intro v _
    simp [given]
  · rw [if_neg h, if_neg h]
    simp [plainNode]

theorem Draft.fits_plain {l : List String} {x : String} {st o : Bool} {es : List EdgeD} {p : IfExists} (hp : p ≠ .error) :
    Draft.NodeFits { strict := st, ordering := o, nodes := (firsts l).map plainNode, edges := es } x {} p := by
  unfold Draft.NodeFits
  split
  · exact ⟨hp, rfl⟩
  · trivial

/-- The rows of three lists: as many as the shortest has. -/
def rowsOf (start stop : List String) (edge : List Val) : List (String × String × Val) := start.zip (stop.zip edge)

/-- The names in the order in which they are read. -/
def rowNames (rows : List (String × String × Val)) : List String := rows.flatMap fun r => [r.1, r.2.1]

/-- The edge of row `i`. -/
def rowEdge (i : Nat) (r : String × String × Val) : EdgeD :=
  { id := (.str r.1, .str r.2.1, .key (.int i)), label := r.2.2 }

theorem fromListsLoop_run {h0 h : Heap} {A : Spec} {g : GRef} {st o : Bool} (rows done : List (String × String × Val))
    (D : Drawn h0 h A g { strict := st, ordering := o, nodes := (firsts (rowNames done)).map plainNode,
                          edges := done.mapIdx rowEdge }) (m : Nat) (hm : rows.length ≤ m) :
    ∃ h' A', fromListsLoop g ((List.range' done.length m).zip (rows.map fun r => (Key.str r.1, Key.str r.2.1, r.2.2))) h =
        (.ok (), h') ∧
      Drawn h0 h' A' g { strict := st, ordering := o, nodes := (firsts (rowNames (done ++ rows))).map plainNode,
                         edges := (done ++ rows).mapIdx rowEdge } := by
  induction rows generalizing h A done m with
  | nil => exact ⟨h, A, by simp [fromListsLoop], by simpa using D⟩
  | cons r rows ih =>
    obtain ⟨s, t, l⟩ := r
    obtain ⟨m, rfl⟩ : ∃ k, m = k + 1 := ⟨m - 1, by simp at hm; omega⟩
    simp only [List.length_cons, Nat.add_le_add_iff_right] at hm
    obtain ⟨n1, h1, A1, e1, D1, m1, -, -⟩ := D.addNode (x := s) (a := {}) (p := .ignore) (Draft.fits_plain (by simp))
    rw [Draft.addNode_plain] at D1
    obtain ⟨n2, h2, A2, e2, D2, m2, k2, -⟩ := D1.addNode (x := t) (a := {}) (p := .ignore) (Draft.fits_plain (by simp))
    rw [Draft.addNode_plain] at D2
    have m1 := k2 _ m1
    have a1 : A2.argName (.node n1) = some (.str s) := by
      simp only [Spec.argName, D2.hist.rep.name n1, (D2.hist.rep.nodeOk g _ _ m1).2.1]
    have a2 : A2.argName (.node n2) = some (.str t) := by
      simp only [Spec.argName, D2.hist.rep.name n2, (D2.hist.rep.nodeOk g _ _ m2).2.1]
    have hnew : (Key.str s, Key.str t, RawId.key (.int done.length)) ∉ (done.mapIdx rowEdge).map EdgeD.id := by
      intro hc
      simp only [List.mem_map, List.mem_mapIdx] at hc
      obtain ⟨v, ⟨i, hi, rfl⟩, e⟩ := hc
      simp only [rowEdge, Prod.mk.injEq, RawId.key.injEq, Key.int.injEq] at e
      omega
    obtain ⟨e, h3, A3, e3, D3, -⟩ := D2.connect (a := { id := some (.int done.length), label := l }) (p := .warn) a1 a2 (by
      refine ⟨?_, ?_, ?_⟩
      · rw [D2.names]; exact List.mem_map.2 ⟨_, m1, rfl⟩
      · rw [D2.names]; exact List.mem_map.2 ⟨_, m2, rfl⟩
      · rw [if_neg (by exact hnew)]; trivial)
    rw [Draft.connect, if_neg (by exact hnew)] at D3
    have hd : Drawn h0 h3 A3 g { strict := st, ordering := o, nodes := (firsts (rowNames (done ++ [(s, t, l)]))).map plainNode,
                                 edges := (done ++ [(s, t, l)]).mapIdx rowEdge } := by
      simpa [rowNames, List.mapIdx_append, rowEdge, EdgeArgs.raw] using D3
    obtain ⟨h4, A4, e4, D4⟩ := ih (done ++ [(s, t, l)]) hd m hm
    refine ⟨h4, A4, ?_, by simpa using D4⟩
    rw [List.range'_succ, List.map_cons, List.zip_cons_cons]
    simp only [fromListsLoop, bind_apply, e1, e2, e3]
    simpa using e4

/-- **C36.** For all lists of names and labels, of any lengths: `from_lists` returns a new graph whose nodes are the names in
order of first appearance, without attributes, and whose edges are one per row, in order: row `i` gives the edge from
`start[i]` to `end[i]` with id `i` and label `edge[i]`. Nothing else changes. -/
theorem C36_from_lists {h : Heap} (r : Reachable h) (start stop : List String) (edge : List Val) (strict : Bool) :
    ∃ h', fromLists (start.map .str) (stop.map .str) edge strict h = (.ok h.nG, h') ∧ Reachable h' ∧
      Draws h' h.nG { strict := strict, ordering := true,
                      nodes := (firsts (rowNames (rowsOf start stop edge))).map fun x => { name := .str x },
                      edges := (rowsOf start stop edge).mapIdx fun i row =>
                        { id := (.str row.1, .str row.2.1, .key (.int i)), label := row.2.2 } } ∧
      ∀ g, g < h.nG → Untouched h h' g := by
  obtain ⟨h1, A1, e1, n1, D1⟩ := Drawn.new r strict true false
  obtain ⟨h2, A2, e2, D2⟩ := fromListsLoop_run (rowsOf start stop edge) [] (st := strict) (o := true) (by simpa [rowNames, firsts] using D1)
    start.length (by simp [rowsOf]; omega)
  have hz : (start.map Key.str).zip ((stop.map Key.str).zip edge) =
      (rowsOf start stop edge).map fun r => (Key.str r.1, Key.str r.2.1, r.2.2) := by
    simp only [rowsOf, List.zip_map_left, List.zip_map_right, List.map_map]
    rfl
  refine ⟨h2, ?_, D2.reachable, D2.draws, fun g hg => D2.others g hg (Nat.ne_of_lt hg)⟩
  simp only [fromLists, bind_apply, e1, List.length_map, hz, List.range_eq_range']
  simp only [List.length_nil] at e2
  rw [e2]
  rfl

/-- Two rows with the same ends are two edges; the rest of the longest list is ignored. -/
example : ((fromLists [.str "a", .str "a", .str "b", .str "zz"] [.str "b", .str "b", .str "c"] [.none, .str "x", .none] false demo).2.graph 2).nodes.map
      Prod.fst = [.str "a", .str "b", .str "c"] ∧
    (((fromLists [.str "a", .str "a", .str "b", .str "zz"] [.str "b", .str "b", .str "c"] [.none, .str "x", .none] false demo).2.node 5).outE.map
      Prod.fst) = [(.str "a", .str "b", .key (.int 0)), (.str "a", .str "b", .key (.int 1))] := by decide +kernel

end Verif
