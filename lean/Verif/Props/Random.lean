import Verif.Lemmas.DraftGraph
import Verif.Model.Builders
import Std.Data.String.ToInt
/-!
# C41: `random`
-/
namespace Verif
open M

/-- The name of a numbered node. -/
def numberName (n : Int) : Key := .str (Int.repr n)

theorem numberName_inj {a b : Int} : numberName a = numberName b ↔ a = b := by
  simp [numberName, Key.str.injEq, Int.repr_inj]

/-- The nodes `start, start + 1, ...`. -/
def numberNodes (N : Nat) (start : Int) : List NodeD := (List.range N).map fun i : Nat => { name := numberName (start + i) }

/-- The pairs of positions in row `i` whose draw is below `p`: pair `(i, j)` has draw number `i * N + j`. -/
def pickedRow (N : Nat) (cycle : Bool) (p : Rat) (u : Nat → Rat) (i : Nat) : List (Nat × Nat) :=
  ((List.range N).filter fun j => decide (u (i * N + j) < p ∧ (cycle = true ∨ i < j))).map fun j => (i, j)

/-- All pairs of positions that are picked, row by row. -/
def picked (N : Nat) (cycle : Bool) (p : Rat) (u : Nat → Rat) : List (Nat × Nat) :=
  (List.range N).flatMap (pickedRow N cycle p u)

def numberEdge (start : Int) (q : Nat × Nat) : EdgeD :=
  { id := (numberName (start + q.1), numberName (start + q.2), .none) }

theorem numberNames (st o : Bool) (N : Nat) (start : Int) (es : List EdgeD) :
    Draft.names { strict := st, ordering := o, nodes := numberNodes N start, edges := es } =
      (List.range N).map fun i : Nat => numberName (start + i) := by
  simp [Draft.names, numberNodes, Function.comp_def]

theorem randomNodes_run {h0 h : Heap} {A : Spec} {g : GRef} {st o : Bool} {start : Int} (m i : Nat)
    (D : Drawn h0 h A g { strict := st, ordering := o, nodes := numberNodes i start, edges := [] }) :
    ∃ h' A', randomNodes g ((List.range' i m).map fun i : Nat => (i : Int) + start) h = (.ok (), h') ∧
      Drawn h0 h' A' g { strict := st, ordering := o, nodes := numberNodes (i + m) start, edges := [] } := by
  induction m generalizing h A i with
  | zero => exact ⟨h, A, by simp [randomNodes], by simpa using D⟩
  | succ m ih =>
    have hnew : numberName ((i : Int) + start) ∉ Draft.names
        { strict := st, ordering := o, nodes := numberNodes i start, edges := [] } := by
      rw [numberNames]
      simp only [List.mem_map, List.mem_range, numberName_inj, not_exists, not_and]
      intro j hj e
      omega
    obtain ⟨n, h1, A1, e1, D1, -⟩ := D.addNode (x := Int.repr ((i : Int) + start)) (a := {}) (p := .warn) (by
      unfold Draft.NodeFits; rw [if_neg (by exact hnew)]; trivial)
    rw [Draft.addNode, if_neg (by exact hnew)] at D1
    have D1 : Drawn h0 h1 A1 g { strict := st, ordering := o, nodes := numberNodes (i + 1) start, edges := [] } := by
      have e : numberNodes (i + 1) start = numberNodes i start ++ [{ name := Key.str (Int.repr ((i : Int) + start)) }] := by
        simp [numberNodes, List.range_succ, numberName, Int.add_comm]
      rw [e]
      exact D1
    obtain ⟨h2, A2, e2, D2⟩ := ih (i + 1) D1
    refine ⟨h2, A2, ?_, by rw [Nat.add_right_comm] at D2; exact D2⟩
    rw [List.range'_succ, List.map_cons]
    simp only [randomNodes, bind_apply, e1, e2]

/-- The first `j` pairs of row `i`. -/
def pickedPart (N : Nat) (cycle : Bool) (p : Rat) (u : Nat → Rat) (i j : Nat) : List (Nat × Nat) :=
  ((List.range j).filter fun j => decide (u (i * N + j) < p ∧ (cycle = true ∨ i < j))).map fun j => (i, j)

theorem randomInner_run {h0 h : Heap} {A : Spec} {g : GRef} {st o : Bool} {start : Int} {N : Nat} {cycle : Bool} {p : Rat}
    {u : Nat → Rat} {E : List (Nat × Nat)} {i : Nat} (hi : i < N) (hE : ∀ q ∈ E, q.1 < i) (m j : Nat) (hm : j + m ≤ N)
    (D : Drawn h0 h A g { strict := st, ordering := o, nodes := numberNodes N start,
                          edges := (E ++ pickedPart N cycle p u i j).map (numberEdge start) }) :
    ∃ h' A', randomInner g p cycle u ((i : Int) + start) ((List.range' j m).map fun i : Nat => (i : Int) + start) (i * N + j) h =
        (.ok (i * N + j + m), h') ∧
      Drawn h0 h' A' g { strict := st, ordering := o, nodes := numberNodes N start,
                         edges := (E ++ pickedPart N cycle p u i (j + m)).map (numberEdge start) } := by
  induction m generalizing h A j with
  | zero => exact ⟨h, A, by simp [randomInner], by simpa using D⟩
  | succ m ih =>
    have step : ∃ h1 A1, onlyIf (u (i * N + j) < p ∧ (cycle = true ∨ (i : Int) + start < (j : Int) + start)) (do
          let _ ← Verif.connect g (.key (.str (Int.repr ((i : Int) + start)))) (.key (.str (Int.repr ((j : Int) + start)))) {} .warn) h =
          (.ok (), h1) ∧
        Drawn h0 h1 A1 g { strict := st, ordering := o, nodes := numberNodes N start,
                           edges := (E ++ pickedPart N cycle p u i (j + 1)).map (numberEdge start) } := by
      have hc : (i : Int) + start < (j : Int) + start ↔ i < j := by omega
      simp only [hc]
      have hpart : pickedPart N cycle p u i (j + 1) = pickedPart N cycle p u i j ++
          if u (i * N + j) < p ∧ (cycle = true ∨ i < j) then [(i, j)] else [] := by
        simp only [pickedPart, List.range_succ, List.filter_append, List.map_append]
        congr 1
        by_cases hb : u (i * N + j) < p ∧ (cycle = true ∨ i < j)
        · simp [hb]
        · simp [hb]
      by_cases hb : u (i * N + j) < p ∧ (cycle = true ∨ i < j)
      · have hne : (numberName (start + i), numberName (start + j), RawId.none) ∉ Draft.ids
            { strict := st, ordering := o, nodes := numberNodes N start, edges := (E ++ pickedPart N cycle p u i j).map (numberEdge start) } := by
          simp only [Draft.ids, List.map_map, List.mem_map, Function.comp_apply, numberEdge, Prod.mk.injEq, numberName_inj,
            not_exists, not_and, List.mem_append]
          rintro ⟨a, b⟩ hq e1 e2
          rcases hq with hq | hq
          · have := hE _ hq
            simp only at this e1
            omega
          · simp only [pickedPart, List.mem_map, List.mem_filter, List.mem_range, Prod.mk.injEq] at hq
            obtain ⟨c, ⟨hcj, -⟩, rfl, rfl⟩ := hq
            simp only at e2
            omega
        obtain ⟨e, h1, A1, e1, D1, -⟩ := D.connect (s := numberName (start + i)) (t := numberName (start + j))
          (sa := .key (numberName (start + i))) (ta := .key (numberName (start + j))) (a := {}) (p := .warn) rfl rfl (by
            refine ⟨?_, ?_, ?_⟩
            · rw [numberNames]; exact List.mem_map.2 ⟨i, List.mem_range.2 hi, rfl⟩
            · rw [numberNames]; exact List.mem_map.2 ⟨j, List.mem_range.2 (by omega), rfl⟩
            · rw [if_neg (by exact hne)]; trivial)
        rw [Draft.connect, if_neg (by exact hne)] at D1
        refine ⟨h1, A1, ?_, ?_⟩
        · simp only [numberName, Int.add_comm start] at e1
          rw [onlyIf, if_pos hb]
          simp only [bind_apply, e1, pure_apply]
        · rw [hpart, if_pos hb, ← List.append_assoc, List.map_append]
          exact D1
      · refine ⟨h, A, ?_, ?_⟩
        · simp only [onlyIf, hb, if_false, pure_apply]
        · rw [hpart, if_neg hb, List.append_nil]
          exact D
    obtain ⟨h1, A1, e1, D1⟩ := step
    obtain ⟨h2, A2, e2, D2⟩ := ih (j + 1) (by omega) D1
    refine ⟨h2, A2, ?_, by rw [Nat.add_right_comm] at D2; exact D2⟩
    rw [List.range'_succ, List.map_cons]
    simp only [randomInner, bind_apply, e1]
    rw [show i * N + j + (m + 1) = i * N + (j + 1) + m by omega, ← e2]
    rfl

theorem randomOuter_run {h0 h : Heap} {A : Spec} {g : GRef} {st o : Bool} {start : Int} {N : Nat} {cycle : Bool} {p : Rat}
    {u : Nat → Rat} (m i : Nat) (hm : i + m ≤ N)
    (D : Drawn h0 h A g { strict := st, ordering := o, nodes := numberNodes N start,
                          edges := ((List.range i).flatMap (pickedRow N cycle p u)).map (numberEdge start) }) :
    ∃ h' A', randomOuter g p cycle u ((List.range N).map fun i : Nat => (i : Int) + start)
        ((List.range' i m).map fun i : Nat => (i : Int) + start) (i * N) h = (.ok (), h') ∧
      Drawn h0 h' A' g { strict := st, ordering := o, nodes := numberNodes N start,
                         edges := ((List.range (i + m)).flatMap (pickedRow N cycle p u)).map (numberEdge start) } := by
  induction m generalizing h A i with
  | zero => exact ⟨h, A, by simp [randomOuter], by simpa using D⟩
  | succ m ih =>
    obtain ⟨h1, A1, e1, D1⟩ := randomInner_run (N := N) (E := (List.range i).flatMap (pickedRow N cycle p u)) (u := u) (cycle := cycle) (p := p)
      (i := i) (by omega) (by
        intro q hq
        simp only [List.mem_flatMap, List.mem_range, pickedRow, List.mem_map, List.mem_filter] at hq
        obtain ⟨a, ha, j, -, rfl⟩ := hq
        exact ha) N 0 (by omega) (by simpa [pickedPart] using D)
    rw [Nat.zero_add] at D1
    have D1 : Drawn h0 h1 A1 g { strict := st, ordering := o, nodes := numberNodes N start,
                                 edges := ((List.range (i + 1)).flatMap (pickedRow N cycle p u)).map (numberEdge start) } := by
      rw [List.range_succ, List.flatMap_append]
      simpa [pickedPart, pickedRow] using D1
    obtain ⟨h2, A2, e2, D2⟩ := ih (i + 1) (by omega) D1
    refine ⟨h2, A2, ?_, by rw [Nat.add_right_comm] at D2; exact D2⟩
    rw [List.range'_succ, List.map_cons]
    rw [← List.range_eq_range'] at e1
    simp only [Nat.add_zero] at e1
    simp only [randomOuter, bind_apply, e1]
    rw [← e2, Nat.succ_mul]

/-- What `random` returns, as a draft. -/
def randomDraft (numNodes : Int) (strict cycle : Bool) (start : Int) (p : Rat) (ordering : Bool) (u : Nat → Rat) : Draft :=
  { strict := strict, ordering := ordering, nodes := numberNodes numNodes.toNat start,
    edges := (picked numNodes.toNat cycle p u).map (numberEdge start) }

theorem clamp_lt {x p : Rat} (h0 : 0 ≤ x) (h1 : x < 1) : x < min 1 (max 0 p) ↔ x < p := by
  have e1 : ∀ a b : Rat, min a b = if a ≤ b then a else b := fun _ _ => rfl
  have e2 : ∀ a b : Rat, max a b = if a ≤ b then b else a := fun _ _ => rfl
  rw [e1, e2]
  grind

theorem random_drawn {h : Heap} (r : Reachable h) (numNodes : Int) (strict cycle : Bool) (start : Int) (p : Rat)
    (ordering : Bool) (u : Nat → Rat) (hu : ∀ k, 0 ≤ u k ∧ u k < 1) :
    ∃ h' A', randomGraph numNodes strict cycle start p ordering u h = (.ok h.nG, h') ∧
      Drawn h h' A' h.nG (randomDraft numNodes strict cycle start p ordering u) := by
  obtain ⟨h1, A1, e1, n1, D1⟩ := Drawn.new r strict ordering false
  obtain ⟨h2, A2, e2, D2⟩ := randomNodes_run (start := start) numNodes.toNat 0 (by simpa [numberNodes] using D1)
  rw [Nat.zero_add] at D2
  obtain ⟨h3, A3, e3, D3⟩ := randomOuter_run (u := u) (cycle := cycle) (p := min 1 (max 0 p)) numNodes.toNat 0 (N := numNodes.toNat) (by omega)
    (by simpa using D2)
  rw [Nat.zero_add] at D3
  rw [← List.range_eq_range'] at e2 e3
  rw [Nat.zero_mul] at e3
  refine ⟨h3, A3, ?_, ?_⟩
  · simp only [randomGraph, bind_apply, e1, randomNames, e2, e3]
    rfl
  · have : picked numNodes.toNat cycle p u = (List.range numNodes.toNat).flatMap (pickedRow numNodes.toNat cycle (min 1 (max 0 p)) u) := by
      unfold picked
      congr 1
      funext i
      unfold pickedRow
      congr 2
      funext j
      simp only [clamp_lt (hu _).1 (hu _).2]
    unfold randomDraft
    rw [this]
    exact D3

/-- **C41**: `random(n, ...)` returns a new graph with the nodes `start, ..., start + n - 1` (none if `n` is negative) and an
edge for every pair whose draw is below the probability: all pairs with `cycle=True`, else only pairs in increasing order.
This holds for every outcome of the draws. Nothing else changes. -/
theorem C41_exact {h : Heap} (r : Reachable h) (numNodes : Int) (strict cycle : Bool) (start : Int) (p : Rat)
    (ordering : Bool) (u : Nat → Rat) (hu : ∀ k, 0 ≤ u k ∧ u k < 1) :
    ∃ h', randomGraph numNodes strict cycle start p ordering u h = (.ok h.nG, h') ∧ Reachable h' ∧
      Draws h' h.nG { strict := strict, ordering := ordering,
                      nodes := (List.range numNodes.toNat).map fun i : Nat => { name := .str (Int.repr (start + i)) },
                      edges := (picked numNodes.toNat cycle p u).map fun q =>
                        { id := (.str (Int.repr (start + q.1)), .str (Int.repr (start + q.2)), .none) } } ∧
      ∀ g, g < h.nG → Untouched h h' g := by
  obtain ⟨h', A', e, D⟩ := random_drawn r numNodes strict cycle start p ordering u hu
  exact ⟨h', e, D.reachable, D.draws, fun g hg => D.others g hg (Nat.ne_of_lt hg)⟩

theorem mem_picked {N : Nat} {cycle : Bool} {p : Rat} {u : Nat → Rat} {i j : Nat} :
    (i, j) ∈ picked N cycle p u ↔ i < N ∧ j < N ∧ u (i * N + j) < p ∧ (cycle = true ∨ i < j) := by
  simp only [picked, pickedRow, List.mem_flatMap, List.mem_range, List.mem_map, List.mem_filter, Prod.mk.injEq, decide_eq_true_eq]
  constructor
  · rintro ⟨a, ha, b, ⟨hb, h1⟩, rfl, rfl⟩; exact ⟨ha, hb, h1⟩
  · rintro ⟨ha, hb, h1⟩; exact ⟨i, ha, j, ⟨hb, h1⟩, rfl, rfl⟩

/-- **C41**: without `cycle=True` every edge goes from a smaller to a larger number, there is at most one for each pair,
and no node is in a loop. -/
theorem C41_acyclic {h : Heap} (r : Reachable h) (numNodes : Int) (strict : Bool) (start : Int) (p : Rat)
    (ordering : Bool) (u : Nat → Rat) (hu : ∀ k, 0 ≤ u k ∧ u k < 1) (g : GRef) (h' : Heap)
    (ok : randomGraph numNodes strict false start p ordering u h = (.ok g, h')) :
    (∀ n m, Arrow h' g n m → ∃ a b : Int, a < b ∧ (h'.node n).id = .str (Int.repr a) ∧ (h'.node m).id = .str (Int.repr b)) ∧
    (∀ e1 e2 n m, LiveEdge h' g e1 → LiveEdge h' g e2 → edgeStart h' e1 = .ok n → edgeStart h' e2 = .ok n →
      edgeEnd h' e1 = .ok m → edgeEnd h' e2 = .ok m → e1 = e2) ∧
    ∀ n, ¬ Path h' g n n := by
  obtain ⟨h2, A2, e, DD⟩ := random_drawn r numNodes strict false start p ordering u hu
  rw [ok] at e
  simp only [Prod.mk.injEq, Except.ok.injEq] at e
  obtain ⟨rfl, rfl⟩ := e
  have D := DD.draws
  refine ⟨?_, ?_, ?_⟩
  · intro n m ha
    obtain ⟨-, -, v, hv, e1, e2⟩ := (D.arrow DD.reachable).1 ha
    obtain ⟨⟨i, j⟩, hq, rfl⟩ := List.mem_map.1 hv
    have := (mem_picked.1 hq).2.2.2
    refine ⟨start + i, start + j, ?_, e1.symm, e2.symm⟩
    simp only [Bool.false_eq_true, false_or] at this
    omega
  · intro e1 e2 n m l1 l2 s1 s2 t1 t2
    have R := DD.hist.rep
    obtain ⟨i1, m1⟩ := (liveEdge_iff R).1 l1
    obtain ⟨i2, m2⟩ := (liveEdge_iff R).1 l2
    have q1 := edgeId_names DD.reachable l1 (R.edgeId_eq m1) s1 t1
    have q2 := edgeId_names DD.reachable l2 (R.edgeId_eq m2) s2 t2
    have raw : ∀ (i : EdgeId) (e : ERef), (i, e) ∈ (A2.graph h.nG).edges → i.2.2 = .none := by
      intro i e hm
      have : seenAs h' (i, e) ∈ (randomDraft numNodes strict false start p ordering u).edges := by
        rw [← DD.edges]; exact List.mem_map.2 ⟨_, hm, rfl⟩
      obtain ⟨q, -, eq⟩ := List.mem_map.1 this
      have := congrArg EdgeD.id eq
      simp only [seenAs, numberEdge] at this
      rw [← this]
    have : i1 = i2 := by
      obtain ⟨a1, b1, c1⟩ := i1
      obtain ⟨a2, b2, c2⟩ := i2
      simp only at q1 q2
      have r1 := raw _ _ m1
      have r2 := raw _ _ m2
      simp only at r1 r2
      rw [q1.1, q1.2, q2.1, q2.2, r1, r2]
    subst this
    exact val_unique (R.idsNodup h.nG) m1 m2
  · refine D.acyclic DD.reachable (fun k => match k with | .str s => (s.toInt?).getD 0 | _ => 0) ?_
    intro v hv
    obtain ⟨⟨i, j⟩, hq, rfl⟩ := List.mem_map.1 hv
    have := (mem_picked.1 hq).2.2.2
    simp only [Bool.false_eq_true, false_or] at this
    simp only [numberEdge, numberName, Int.toInt?_repr, Option.getD_some]
    omega

/-- **C41**: without `cycle=True` there are at most `n (n - 1) / 2` edges. -/
theorem C41_count (N : Nat) (p : Rat) (u : Nat → Rat) : 2 * (picked N false p u).length ≤ N * (N - 1) := by
  have row : ∀ i, i < N → (pickedRow N false p u i).length ≤ N - (i + 1) := by
    intro i hi
    have h1 : (pickedRow N false p u i).length ≤ ((List.range N).filter fun j => decide (i < j)).length := by
      simp only [pickedRow, List.length_map]
      rw [← List.countP_eq_length_filter, ← List.countP_eq_length_filter]
      apply List.countP_mono_left
      intro x _ hx
      simp only [Bool.false_eq_true, false_or, decide_eq_true_eq] at hx
      simp [hx.2]
    refine Nat.le_trans h1 ?_
    have : ∀ N, ((List.range N).filter fun j => decide (i < j)).length ≤ N - (i + 1) := by
      intro N
      induction N with
      | zero => simp
      | succ N ih =>
        rw [List.range_succ, List.filter_append, List.length_append]
        by_cases h : i < N
        · simp [h]; omega
        · simp [h]; omega
    exact this N
  have key : ∀ k, k ≤ N → 2 * ((List.range k).flatMap (pickedRow N false p u)).length + (k * k + k) ≤ 2 * (N * k) := by
    intro k hk
    induction k with
    | zero => simp
    | succ k ih =>
      have := ih (by omega)
      have hr := row k (by omega)
      rw [List.range_succ, List.flatMap_append, List.length_append]
      simp only [List.flatMap_cons, List.flatMap_nil, List.append_nil]
      have e1 : (k + 1) * (k + 1) = k * k + 2 * k + 1 := by grind
      have e2 : N * (k + 1) = N * k + N := by grind
      rw [e1, e2]
      omega
  have := key N (Nat.le_refl _)
  unfold picked
  rw [Nat.mul_sub, Nat.mul_one]
  omega

/-- **C41**: probability 0 or less gives no edges. -/
theorem C41_none (N : Nat) (cycle : Bool) (p : Rat) (hp : p ≤ 0) (u : Nat → Rat) (hu : ∀ k, 0 ≤ u k ∧ u k < 1) :
    picked N cycle p u = [] := by
  apply List.eq_nil_iff_forall_not_mem.2
  rintro ⟨i, j⟩ hm
  have h1 := (mem_picked.1 hm).2.2.1
  have h2 := (hu (i * N + j)).1
  grind

/-- **C41**: probability 1 or more gives all pairs. -/
theorem C41_all (N : Nat) (cycle : Bool) (p : Rat) (hp : 1 ≤ p) (u : Nat → Rat) (hu : ∀ k, 0 ≤ u k ∧ u k < 1) (i j : Nat)
    (hi : i < N) (hj : j < N) (hc : cycle = true ∨ i < j) : (i, j) ∈ picked N cycle p u := by
  have h2 := (hu (i * N + j)).2
  exact mem_picked.2 ⟨hi, hj, by grind, hc⟩

/-- Three nodes, draws 0, 1/9, 2/9, ...: the draws below 1/2 among pairs in increasing order are those of (0, 1), (0, 2). -/
example : (∀ k, (0 : Rat) ≤ (fun k : Nat => if k < 9 then (k : Rat) / 9 else 0) k ∧ (fun k : Nat => if k < 9 then (k : Rat) / 9 else 0) k < 1) ∧
    picked 3 false (1 / 2) (fun k => if k < 9 then (k : Rat) / 9 else 0) = [(0, 1), (0, 2)] := by
  constructor
  · intro k
    by_cases h : k < 9
    · simp only [h, if_true]
      have : ∀ k : Nat, k < 9 → (0 : Rat) ≤ (k : Rat) / 9 ∧ (k : Rat) / 9 < 1 := by decide +kernel
      exact this k h
    · simp only [h, if_false]
      decide +kernel
  · decide +kernel

end Verif
