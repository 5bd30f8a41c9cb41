import Verif.Lemmas.RepNodes
/-!
# What the edge queries return in a represented state
-/
namespace Verif

/-- Handles of a graph's edges. -/
def SGraph.handles (G : SGraph) : List ERef := G.edges.map Prod.snd

/-- `for x in l: if x not in acc: acc.append(x)`. -/
def dedupInto {α : Type} [DecidableEq α] (acc : List α) (l : List α) : List α :=
  l.foldl (fun acc e => if e ∈ acc then acc else acc ++ [e]) acc

theorem dedupInto_nil {α : Type} [DecidableEq α] (acc : List α) : dedupInto acc [] = acc := rfl

theorem dedupInto_cons {α : Type} [DecidableEq α] (acc : List α) (a : α) (l : List α) :
    dedupInto acc (a :: l) = dedupInto (if a ∈ acc then acc else acc ++ [a]) l := rfl

theorem dedupInto_nodup {α : Type} [DecidableEq α] (l acc : List α) (hl : l.Nodup) :
    dedupInto acc l = acc ++ l.filter (fun e => decide (e ∉ acc)) := by
  induction l generalizing acc with
  | nil => simp [dedupInto_nil]
  | cons a l ih =>
    rw [List.nodup_cons] at hl
    rw [dedupInto_cons, ih _ hl.2]
    split
    · next ha => simp [ha]
    · next ha =>
      simp only [List.append_assoc, ha, not_false_eq_true, decide_true, List.filter_cons_of_pos,
        List.mem_append, List.mem_cons, List.not_mem_nil, or_false, not_or, List.cons_append, List.nil_append]
      congr 2
      apply List.filter_congr
      intro x hx
      have : x ≠ a := by rintro rfl; exact hl.1 hx
      simp [this]

theorem dedupInto_nil_nodup {α : Type} [DecidableEq α] (l : List α) (hl : l.Nodup) : dedupInto [] l = l := by
  rw [dedupInto_nodup _ _ hl]; simp

theorem mem_dedupInto {α : Type} [DecidableEq α] (l acc : List α) (x : α) :
    x ∈ dedupInto acc l ↔ x ∈ acc ∨ x ∈ l := by
  induction l generalizing acc with
  | nil => simp [dedupInto_nil]
  | cons a l ih =>
    rw [dedupInto_cons, ih]
    split
    · next ha =>
      constructor
      · rintro (h | h) <;> simp [h]
      · rintro (h | h)
        · simp [h]
        · rcases List.mem_cons.1 h with rfl | h <;> simp [*]
    · simp [or_assoc]

theorem nodup_dedupInto {α : Type} [DecidableEq α] (l acc : List α) (ha : acc.Nodup) : (dedupInto acc l).Nodup := by
  induction l generalizing acc with
  | nil => exact ha
  | cons a l ih =>
    rw [dedupInto_cons]
    apply ih
    split
    · exact ha
    · next h =>
      rw [List.nodup_append]
      refine ⟨ha, by simp, ?_⟩
      rintro x hx y hy rfl
      simp at hy; subst hy; exact h hx

namespace Rep
variable {h : Heap} {A : Spec}

theorem mem_handles {g : GRef} {e : ERef} : e ∈ (A.graph g).handles ↔ ∃ i, (i, e) ∈ (A.graph g).edges := by
  simp [SGraph.handles]

theorem handles_nodup (R : Rep h A) (g : GRef) : (A.graph g).handles.Nodup := by
  have hi := R.idsNodup g
  unfold SGraph.handles
  have key : ∀ p ∈ (A.graph g).edges, ∀ q ∈ (A.graph g).edges, p.2 = q.2 → p.1 = q.1 := by
    rintro ⟨i, e⟩ hp ⟨j, f⟩ hq hef
    simp only at hef
    subst hef
    exact (R.handle_unique hp hq).2
  generalize (A.graph g).edges = l at hi key
  induction l with
  | nil => simp
  | cons p l ih =>
    simp only [List.map_cons, List.nodup_cons, List.mem_map, not_exists, not_and] at hi ⊢
    refine ⟨?_, ih hi.2 (fun p hp q hq => key p (by simp [hp]) q (by simp [hq]))⟩
    intro q hq hqp
    exact hi.1 q hq (key q (by simp [hq]) p (by simp) hqp)

theorem edgeEq_live (R : Rep h A) {g : GRef} {e f : ERef} (he : e ∈ (A.graph g).handles)
    (hf : f ∈ (A.graph g).handles) : edgeEq h e f = .ok (decide (e = f)) := by
  obtain ⟨i, hi⟩ := mem_handles.1 he
  obtain ⟨j, hj⟩ := mem_handles.1 hf
  simp only [edgeEq, R.edge_graph hi, R.edge_graph hj, R.edgeId_eq hi, R.edgeId_eq hj]
  have : i = j ↔ e = f := by
    constructor
    · rintro rfl; exact val_unique (R.idsNodup g) hi hj
    · rintro rfl; exact (R.handle_unique hi hj).2
  simp [this, bind, Except.bind, pure, Except.pure]

theorem memEdge_live (R : Rep h A) {g : GRef} {e : ERef} (he : e ∈ (A.graph g).handles) {l : List ERef}
    (hl : ∀ x ∈ l, x ∈ (A.graph g).handles) : memEdge h e l = .ok (decide (e ∈ l)) := by
  induction l with
  | nil => simp [memEdge]
  | cons x l ih =>
    have ih := ih (fun y hy => hl y (by simp [hy]))
    unfold memEdge
    by_cases hx : x = e
    · simp [hx]
    · rw [if_neg hx, R.edgeEq_live (hl x (by simp)) he]
      simp [bind, Except.bind, hx, ih, Ne.symm hx]

theorem dedup_live (R : Rep h A) {g : GRef} {l acc : List ERef}
    (hl : ∀ x ∈ l, x ∈ (A.graph g).handles) (ha : ∀ x ∈ acc, x ∈ (A.graph g).handles) :
    dedupEdges h l acc = .ok (dedupInto acc l) := by
  induction l generalizing acc with
  | nil => rfl
  | cons x l ih =>
    unfold dedupEdges
    rw [R.memEdge_live (hl x (by simp)) ha, dedupInto_cons]
    have hl' : ∀ y ∈ l, y ∈ (A.graph g).handles := fun y hy => hl y (by simp [hy])
    by_cases hx : x ∈ acc
    · simp [bind, Except.bind, hx, ih hl' ha]
    · simp only [bind, Except.bind, hx, decide_false, Bool.false_eq_true, ↓reduceIte]
      exact ih hl' (by
        intro y hy
        rcases List.mem_append.1 hy with hy | hy
        · exact ha y hy
        · simp at hy; subst hy; exact hl _ (by simp))

theorem out_handles {G : SGraph} {k : Key} : ∀ x ∈ (G.out k).map Prod.snd, x ∈ G.handles := by
  intro x hx
  obtain ⟨p, hp, rfl⟩ := List.mem_map.1 hx
  exact List.mem_map.2 ⟨p, (List.mem_filter.1 hp).1, rfl⟩

theorem inn_handles {G : SGraph} {k : Key} : ∀ x ∈ (G.inn k).map Prod.snd, x ∈ G.handles := by
  intro x hx
  obtain ⟨p, hp, rfl⟩ := List.mem_map.1 hx
  exact List.mem_map.2 ⟨p, (List.mem_filter.1 hp).1, rfl⟩

theorem out_nodup (R : Rep h A) (g : GRef) (k : Key) : (((A.graph g).out k).map Prod.snd).Nodup :=
  (R.handles_nodup g).sublist ((List.filter_sublist).map _)

theorem inn_nodup (R : Rep h A) (g : GRef) (k : Key) : (((A.graph g).inn k).map Prod.snd).Nodup :=
  (R.handles_nodup g).sublist ((List.filter_sublist).map _)

/-- The outward edges of a registered node. -/
theorem outwardEdges (R : Rep h A) {g : GRef} {k : Key} {n : NRef} (hm : (k, n) ∈ (A.graph g).nodes) :
    Verif.outwardEdges h n = .ok (((A.graph g).out k).map Prod.snd) := by
  unfold Verif.outwardEdges dvals
  rw [R.outE g k n hm, R.dedup_live (g := g) out_handles (by simp), dedupInto_nodup _ _ (R.out_nodup g k)]
  simp

/-- The inward edges of a registered node. -/
theorem inwardEdges (R : Rep h A) {g : GRef} {k : Key} {n : NRef} (hm : (k, n) ∈ (A.graph g).nodes) :
    Verif.inwardEdges h n = .ok (((A.graph g).inn k).map Prod.snd) := by
  unfold Verif.inwardEdges dvals
  rw [R.inE g k n hm, R.dedup_live (g := g) inn_handles (by simp), dedupInto_nodup _ _ (R.inn_nodup g k)]
  simp

/-- All edges of a registered node: the outward ones, then the inward ones that are not self loops. -/
theorem nodeEdges (R : Rep h A) {g : GRef} {k : Key} {n : NRef} (hm : (k, n) ∈ (A.graph g).nodes) :
    Verif.nodeEdges h n = .ok (((A.graph g).out k).map Prod.snd ++
      (((A.graph g).inn k).map Prod.snd).filter (fun e => decide (e ∉ ((A.graph g).out k).map Prod.snd))) := by
  unfold Verif.nodeEdges dvals
  rw [R.outE g k n hm, R.inE g k n hm, R.dedup_live (g := g) out_handles (by simp),
    dedupInto_nil_nodup _ (R.out_nodup g k)]
  simp only [bind, Except.bind]
  rw [R.dedup_live (g := g) inn_handles out_handles, dedupInto_nodup _ _ (R.inn_nodup g k)]

end Rep
end Verif
