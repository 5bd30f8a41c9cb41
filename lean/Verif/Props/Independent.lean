import Verif.Lemmas.Independent
import Verif.Props.Ledger
/-!
# Independent calls

**C113.** Two calls on a graph that are about different nodes and edges can be made in either order; two parties whose calls are
independent of each other do not notice each other, whatever the schedule.
-/
namespace Verif

/-- What a graph looks like has no two nodes of the same name and no two edges of the same id. -/
theorem Reads.good {h : Heap} {g : GRef} {L : Ledger} (K : Reads h g L) (r : Reachable h) (hg : g < h.nG) : L.Good := by
  obtain ⟨A, B⟩ := K.booked r hg
  exact ⟨B.names ▸ B.rep.keysNodup g, B.ids ▸ B.rep.idsNodup g⟩

theorem Deed.run_nG {h : Heap} {g : GRef} (hg : g < h.nG) (d : Deed) : g < (d.run g h).2.nG := by
  rcases d.call g h with ⟨op, -, e, -⟩ | e
  · rw [e]; exact Nat.lt_of_lt_of_le hg (Grows.step op h).nG
  · rw [e]; exact hg

theorem runDeeds_reads (ds : List Deed) : ∀ {h : Heap} (_ : Reachable h) {g : GRef} (_ : g < h.nG) {L : Ledger} (_ : Reads h g L),
    Reachable (runDeeds g ds h).2 ∧ g < (runDeeds g ds h).2.nG ∧ (runDeeds g ds h).1 = (L.runAll ds).1 ∧
      Reads (runDeeds g ds h).2 g (L.runAll ds).2 := by
  induction ds with
  | nil => exact fun r g hg L K => ⟨r, hg, rfl, K⟩
  | cons d ds ih =>
    intro h r g hg L K
    obtain ⟨h1, h2⟩ := C107_step r hg K d
    obtain ⟨a, b, c, e⟩ := ih (d.reachable r hg) (d.run_nG hg) h2
    exact ⟨a, b, by simp only [runDeeds, Ledger.runAll, h1, c], e⟩

theorem runShared_reads (ms : List (Bool × Deed)) : ∀ {h : Heap} (_ : Reachable h) {g : GRef} (_ : g < h.nG) {L : Ledger}
    (_ : Reads h g L), Reachable (runShared g ms h).2 ∧ g < (runShared g ms h).2.nG ∧ (runShared g ms h).1 = (L.runBoth ms).1 ∧
      Reads (runShared g ms h).2 g (L.runBoth ms).2 := by
  induction ms with
  | nil => exact fun r g hg L K => ⟨r, hg, rfl, K⟩
  | cons m ms ih =>
    obtain ⟨c, d⟩ := m
    intro h r g hg L K
    obtain ⟨h1, h2⟩ := C107_step r hg K d
    obtain ⟨a, b, c, e⟩ := ih (d.reachable r hg) (d.run_nG hg) h2
    exact ⟨a, b, by simp only [runShared, Ledger.runBoth, h1, c], e⟩

/-- Graphs that look the same up to order have the same shape. -/
theorem Ledger.Same.shape {h h' : Heap} (r : Reachable h) (r' : Reachable h') {g g' : GRef} (hg : g < h.nG) (hg' : g' < h'.nG)
    {L L' : Ledger} (K : Reads h g L) (K' : Reads h' g' L') (s : L.Same L') : OneShape h g h' g' := by
  obtain ⟨A, B⟩ := K.booked r hg
  obtain ⟨A', B'⟩ := K'.booked r' hg'
  refine sameShape_of B.rep B'.rep (fun k => ?_) fun x y => ?_
  · rw [← B.names, ← B'.names]
    exact (s.nodes.map NodeL.name).mem_iff
  · rw [← B.ids, ← B'.ids]
    exact exists_congr fun i => (s.edges.map EdgeL.id).mem_iff

/-- **C113**: two independent calls can be made in either order. Each raises the same exception, or none, first or second; and the graph
has the same nodes and edges, with the same things written on them, and the same shape. -/
theorem C113_commute {h : Heap} (r : Reachable h) {g : GRef} (hg : g < h.nG) {d e : Deed} (I : d.Independent e) :
    (d.run g (e.run g h).2).1 = (d.run g h).1 ∧ (e.run g (d.run g h).2).1 = (e.run g h).1 ∧
      OneShape (e.run g (d.run g h).2).2 g (d.run g (e.run g h).2).2 g ∧
      ∃ L L' : Ledger, Reads (e.run g (d.run g h).2).2 g L ∧ Reads (d.run g (e.run g h).2).2 g L' ∧ L.Same L' := by
  obtain ⟨L, K⟩ := C107_exists r hg
  obtain ⟨d1, d2⟩ := C107_step r hg K d
  obtain ⟨e1, e2⟩ := C107_step r hg K e
  have rd := d.reachable r hg
  have re := e.reachable r hg
  obtain ⟨a1, a2⟩ := C107_step rd (d.run_nG hg) d2 e
  obtain ⟨b1, b2⟩ := C107_step re (e.run_nG hg) e2 d
  have G := K.good r hg
  have s : ((L.run d).2.run e).2.Same ((L.run e).2.run d).2 := (Ledger.independent_alike I L).same
    ((Ledger.local_of e).good _ ((Ledger.local_of d).good _ G)) ((Ledger.local_of d).good _ ((Ledger.local_of e).good _ G))
  refine ⟨?_, ?_, s.shape (e.reachable rd (d.run_nG hg)) (d.reachable re (e.run_nG hg)) (e.run_nG (d.run_nG hg))
    (d.run_nG (e.run_nG hg)) a2 b2, _, _, a2, b2, s⟩
  · rw [b1, d1, Ledger.independent_raises I.symm]
  · rw [a1, e1, Ledger.independent_raises I]

/-- **C113**: two parties make calls on one graph, in any order; the calls of the one are independent of those of the other. Each party
gets the exceptions it would get if it were alone. -/
theorem C113_alone {h : Heap} (r : Reachable h) {g : GRef} (hg : g < h.nG) (ms : List (Bool × Deed))
    (I : ∀ x ∈ ms, ∀ y ∈ ms, x.1 ≠ y.1 → x.2.Independent y.2) (b : Bool) :
    partOf b (runShared g ms h).1 = (runDeeds g (partOf b ms) h).1 := by
  obtain ⟨L, K⟩ := C107_exists r hg
  obtain ⟨-, -, h1, -⟩ := runShared_reads ms r hg K
  obtain ⟨-, -, h2, -⟩ := runDeeds_reads (partOf b ms) r hg K
  rw [h1, h2, (Ledger.both ms L I).1]

/-- **C113**: and every schedule leads to the same graph, up to the order in which nodes and edges are listed: that of party `true`
first, then party `false`. -/
theorem C113_serial {h : Heap} (r : Reachable h) {g : GRef} (hg : g < h.nG) (ms : List (Bool × Deed))
    (I : ∀ x ∈ ms, ∀ y ∈ ms, x.1 ≠ y.1 → x.2.Independent y.2) :
    OneShape (runShared g ms h).2 g (runDeeds g (partOf true ms ++ partOf false ms) h).2 g ∧
      ∃ L L' : Ledger, Reads (runShared g ms h).2 g L ∧ Reads (runDeeds g (partOf true ms ++ partOf false ms) h).2 g L' ∧ L.Same L' := by
  obtain ⟨L, K⟩ := C107_exists r hg
  obtain ⟨r1, g1, -, K1⟩ := runShared_reads ms r hg K
  obtain ⟨r2, g2, -, K2⟩ := runDeeds_reads (partOf true ms ++ partOf false ms) r hg K
  have s := (Ledger.both ms L I).2.same (K1.good r1 g1) (K2.good r2 g2)
  exact ⟨s.shape r1 r2 g1 g2 K1 K2, _, _, K1, K2, s⟩

/-- **C113**: two schedules of the same calls. -/
theorem C113_schedules {h : Heap} (r : Reachable h) {g : GRef} (hg : g < h.nG) (ms ms' : List (Bool × Deed))
    (I : ∀ x ∈ ms, ∀ y ∈ ms, x.1 ≠ y.1 → x.2.Independent y.2) (same : ∀ b, partOf b ms = partOf b ms') :
    (∀ b, partOf b (runShared g ms h).1 = partOf b (runShared g ms' h).1) ∧
      OneShape (runShared g ms h).2 g (runShared g ms' h).2 g ∧
      ∃ L L' : Ledger, Reads (runShared g ms h).2 g L ∧ Reads (runShared g ms' h).2 g L' ∧ L.Same L' := by
  have I' : ∀ x ∈ ms', ∀ y ∈ ms', x.1 ≠ y.1 → x.2.Independent y.2 := by
    have m : ∀ x ∈ ms', x ∈ ms := fun x hx => Ledger.mem_partOf.1 (same x.1 ▸ Ledger.mem_partOf.2 hx)
    exact fun x hx y hy => I x (m x hx) y (m y hy)
  obtain ⟨L, K⟩ := C107_exists r hg
  obtain ⟨r1, g1, -, K1⟩ := runShared_reads ms r hg K
  obtain ⟨r2, g2, -, K2⟩ := runShared_reads ms' r hg K
  have s2 := (Ledger.both ms' L I').2.symm
  rw [← same, ← same] at s2
  have s := ((Ledger.both ms L I).2.trans s2).same (K1.good r1 g1) (K2.good r2 g2)
  refine ⟨fun b => ?_, s.shape r1 r2 g1 g2 K1 K2, _, _, K1, K2, s⟩
  rw [C113_alone r hg ms I, C113_alone r hg ms' I', same]

end Verif
