import Verif.Props.Add
/-!
# C130: sums of several graphs
-/
namespace Verif
variable {C : Type} [Palette C]

/-- A sum as it is written: a graph, or two sums with a `+` between them. -/
inductive SumOf where
  | graph (g : GRef)
  | plus (a b : SumOf)

namespace SumOf

/-- The graphs in the sum. -/
def parts : SumOf → List GRef
  | graph g => [g]
  | plus a b => a.parts ++ b.parts

/-- Python evaluates the left side, then the right side, then calls `add`. -/
def run (base : GraphArgs C) (order : List Key → List Key) (f : Val → Val → Except PyErr Val) : SumOf → W C GRef
  | graph g => pure g
  | plus a b => do
    let x ← a.run base order f
    let y ← b.run base order f
    addGraphs base order f x (.graph y)

end SumOf

/-- The graph has a node with this name and this value. -/
def Holds (h : Heap) (g : GRef) (k : Key) (v : Val) : Prop := ∃ n ∈ graphNodes h g, (h.node n).id = k ∧ (h.node n).value = v

/-- What a sum shows at a name. A name that only one side has keeps its value. At a name both sides have, `add` combines the
value of the right side with itself. -/
def SumOf.Shows (f : Val → Val → Except PyErr Val) (h : Heap) : SumOf → Key → Val → Prop
  | graph g, k, v => Holds h g k v
  | plus a b, k, v =>
    (a.Shows f h k v ∧ ¬ ∃ u, b.Shows f h k u) ∨ (b.Shows f h k v ∧ ¬ ∃ u, a.Shows f h k u) ∨
      ∃ u x, a.Shows f h k u ∧ b.Shows f h k x ∧ f x x = .ok v

/-- A graph that can be an operand: no edges, no styles for single edges, values of a kind that can be added. -/
structure Operable (P : Val → Prop) (w : World C) (g : GRef) : Prop where
  lt : g < w.heap.nG
  edgeless : graphEdges w.heap g = .ok []
  display : ∃ d, w.display g = some d ∧ d.edgeStyles = []
  values : ∀ n ∈ graphNodes w.heap g, P (w.heap.node n).value

theorem Holds.untouched {h h' : Heap} {g : GRef} (U : Untouched h h' g) (k : Key) (v : Val) : Holds h' g k v ↔ Holds h g k v := by
  unfold Holds
  rw [U.graphNodes]
  constructor <;> rintro ⟨n, hn, e1, e2⟩
  · rw [U.nodes n hn] at e1 e2; exact ⟨n, hn, e1, e2⟩
  · rw [← U.nodes n hn] at e1 e2; exact ⟨n, hn, e1, e2⟩

theorem SumOf.Shows.untouched {f : Val → Val → Except PyErr Val} {h h' : Heap} : ∀ (s : SumOf) (_ : ∀ g ∈ s.parts, Untouched h h' g) (k : Key) (v : Val),
    s.Shows f h' k v ↔ s.Shows f h k v
  | .graph g, H, k, v => Holds.untouched (H g (by simp [parts])) k v
  | .plus a b, H, k, v => by
    have ha := SumOf.Shows.untouched (f := f) a (fun g hg => H g (by simp [parts, hg])) k
    have hb := SumOf.Shows.untouched (f := f) b (fun g hg => H g (by simp [parts, hg])) k
    simp only [SumOf.Shows, ha, hb]

theorem Untouched.names {h h' : Heap} {g : GRef} (U : Untouched h h' g) : namesOf h' g = namesOf h g := by
  unfold namesOf
  rw [U.graphNodes]
  exact List.map_congr_left fun n hn => by rw [U.nodes n hn]

theorem mem_namesOf {h : Heap} {g : GRef} {k : Key} : k ∈ namesOf h g ↔ ∃ v, Holds h g k v := by
  unfold namesOf Holds
  rw [List.mem_map]
  constructor
  · rintro ⟨n, hn, e⟩; exact ⟨_, n, hn, e, rfl⟩
  · rintro ⟨_, n, hn, e, -⟩; exact ⟨n, hn, e⟩

section
variable {base : GraphArgs C} {order : List Key → List Key} (ho : ∀ l, (order l).Perm l) {f : Val → Val → Except PyErr Val}
  {P : Val → Prop} (hP : ∀ v, P v → ∃ v', f v v = .ok v' ∧ P v')
include ho hP

/-- One addition. -/
theorem add_operable {w : World C} (r : Reachable w.heap) {x y : GRef} (X : Operable P w x) (Y : Operable P w y) :
    ∃ g' w', addGraphs base order f x (.graph y) w = (.ok g', w') ∧ Reachable w'.heap ∧ w.heap.nG ≤ w'.heap.nG ∧
      (∀ g, g < w.heap.nG → Untouched w.heap w'.heap g ∧ (Operable P w g → Operable P w' g)) ∧ Operable P w' g' ∧
      ∀ k v, Holds w'.heap g' k v ↔
        (Holds w.heap x k v ∧ ¬ ∃ u, Holds w.heap y k u) ∨ (Holds w.heap y k v ∧ ¬ ∃ u, Holds w.heap x k u) ∨
          ∃ u u', Holds w.heap x k u ∧ Holds w.heap y k u' ∧ f u' u' = .ok v := by
  obtain ⟨d1, hd1, hs1⟩ := X.display
  obtain ⟨d2, hd2, hs2⟩ := Y.display
  have hf : ∀ n ∈ graphNodes w.heap y, (w.heap.node n).id ∈ namesOf w.heap x → ∃ v, f (w.heap.node n).value (w.heap.node n).value = .ok v :=
    fun n hn _ => (hP _ (Y.values n hn)).imp fun _ h => h.1
  obtain ⟨w', e1, r', e2, -, -, -, e3, e4, e5⟩ := C43_union_partial (base := base) r X.edgeless Y.edgeless hd1 hd2 hs1 hs2 ho hf
  have hx := exportGraph_edgeless r Y.edgeless hd2
  obtain ⟨w'', qs, q1, -, -, -, -, -, q2, q3, -, q4, q5⟩ := addGraphs_run (order := order) (f := f) r X.edgeless hd1 hs1 (other := .graph y) hx hs2
    (tidy_export r y) ⟨by simp [exportWith, edgeIds], by simp [exportWith], by simp [exportWith]⟩ ho
    (by
      intro q hq
      obtain ⟨n, hn, rfl⟩ := List.mem_map.1 hq
      exact hf n hn) base
  rw [e1] at q1
  cases q1
  have val : ∀ k v, Holds w'.heap w.heap.nG k v ↔
        (Holds w.heap x k v ∧ ¬ ∃ u, Holds w.heap y k u) ∨ (Holds w.heap y k v ∧ ¬ ∃ u, Holds w.heap x k u) ∨
          ∃ u u', Holds w.heap x k u ∧ Holds w.heap y k u' ∧ f u' u' = .ok v := by
    have back : ∀ m ∈ graphNodes w'.heap w.heap.nG, ∀ v,
        ((Holds w.heap x (w'.heap.node m).id v ∧ ¬ ∃ u, Holds w.heap y (w'.heap.node m).id u) ∨
          (Holds w.heap y (w'.heap.node m).id v ∧ ¬ ∃ u, Holds w.heap x (w'.heap.node m).id u) ∨
          ∃ u u', Holds w.heap x (w'.heap.node m).id u ∧ Holds w.heap y (w'.heap.node m).id u' ∧ f u' u' = .ok v) →
        (w'.heap.node m).value = v := by
      intro m hm v H
      obtain ⟨v1, v2, v3⟩ := e4 m hm
      rcases H with ⟨⟨n, hn, e, rfl⟩, h2⟩ | ⟨⟨n, hn, e, rfl⟩, h2⟩ | ⟨u, u', ⟨n, hn, e, rfl⟩, ⟨n', hn', e', rfl⟩, h2⟩
      · exact (v1 n hn e (by rwa [mem_namesOf])).1
      · exact (v2 n hn e (by rwa [mem_namesOf])).1
      · have := (v3 n hn n' hn' e e').1
        rw [h2] at this
        exact (Except.ok.inj this).symm
    intro k v
    constructor
    · rintro ⟨m, hm, rfl, rfl⟩
      have hk := (e3 (w'.heap.node m).id).1 (List.mem_map.2 ⟨m, hm, rfl⟩)
      rw [mem_namesOf, mem_namesOf] at hk
      by_cases hx : ∃ u, Holds w.heap x (w'.heap.node m).id u <;> by_cases hy : ∃ u, Holds w.heap y (w'.heap.node m).id u
      · obtain ⟨u, hu⟩ := hx
        obtain ⟨u', hu'⟩ := hy
        have : ∃ v, f u' u' = .ok v := by
          obtain ⟨n', hn', -, rfl⟩ := hu'
          exact (hP _ (Y.values n' hn')).imp fun _ h => h.1
        obtain ⟨v, hv⟩ := this
        have H : ∃ u u', Holds w.heap x (w'.heap.node m).id u ∧ Holds w.heap y (w'.heap.node m).id u' ∧ f u' u' = .ok v := ⟨u, u', hu, hu', hv⟩
        rw [back m hm v (.inr (.inr H))]
        exact .inr (.inr H)
      · obtain ⟨u, hu⟩ := hx
        rw [back m hm u (.inl ⟨hu, hy⟩)]
        exact .inl ⟨hu, hy⟩
      · obtain ⟨u, hu⟩ := hy
        rw [back m hm u (.inr (.inl ⟨hu, hx⟩))]
        exact .inr (.inl ⟨hu, hx⟩)
      · exact absurd hk (by simp [hx, hy])
    · intro H
      have hk : k ∈ namesOf w'.heap w.heap.nG := by
        rw [e3, mem_namesOf, mem_namesOf]
        rcases H with ⟨h1, -⟩ | ⟨h1, -⟩ | ⟨u, -, h1, -⟩
        · exact .inl ⟨_, h1⟩
        · exact .inr ⟨_, h1⟩
        · exact .inl ⟨_, h1⟩
      obtain ⟨m, hm, rfl⟩ := List.mem_map.1 hk
      exact ⟨m, hm, rfl, back m hm v H⟩
  refine ⟨w.heap.nG, w', e1, r', Nat.le_of_lt q4, ?_, ⟨q4, e2, q5, ?_⟩, val⟩
  · intro g hg
    refine ⟨e5 g hg, fun O => ⟨Nat.lt_trans hg q4, (e5 g hg).edgeless r r' O.edgeless, ?_, ?_⟩⟩
    · by_cases hgx : g = x
      · subst hgx
        exact ⟨_, q3 hg, hs1⟩
      · rw [q2 g hg hgx]; exact O.display
    · intro n hn
      rw [(e5 g hg).graphNodes] at hn
      rw [(e5 g hg).nodes n hn]
      exact O.values n hn
  · intro m hm
    have := (val (w'.heap.node m).id (w'.heap.node m).value).1 ⟨m, hm, rfl, rfl⟩
    rcases this with ⟨⟨n, hn, -, e⟩, -⟩ | ⟨⟨n, hn, -, e⟩, -⟩ | ⟨-, u', -, ⟨n, hn, -, e⟩, e'⟩
    · rw [← e]; exact X.values n hn
    · rw [← e]; exact Y.values n hn
    · obtain ⟨v', h1, h2⟩ := hP _ (Y.values n hn)
      rw [e, e'] at h1
      cases h1
      exact h2

theorem sum_run : ∀ (s : SumOf) {w : World C} (_ : Reachable w.heap) (_ : ∀ g ∈ s.parts, Operable P w g),
    ∃ g' w', s.run base order f w = (.ok g', w') ∧ Reachable w'.heap ∧ w.heap.nG ≤ w'.heap.nG ∧
      (∀ g, g < w.heap.nG → Untouched w.heap w'.heap g ∧ (Operable P w g → Operable P w' g)) ∧ Operable P w' g' ∧
      ∀ k v, Holds w'.heap g' k v ↔ s.Shows f w.heap k v
  | .graph g, w, r, H => ⟨g, w, rfl, r, Nat.le_refl _, fun g _ => ⟨.refl _ _, id⟩, H g (by simp [SumOf.parts]), fun k v => Iff.rfl⟩
  | .plus a b, w, r, H => by
    obtain ⟨x, w1, a1, a2, a3, a4, a5, a6⟩ := sum_run a r (fun g hg => H g (by simp [SumOf.parts, hg]))
    obtain ⟨y, w2, b1, b2, b3, b4, b5, b6⟩ := sum_run b a2 (fun g hg =>
      (a4 g (H g (by simp [SumOf.parts, hg])).lt).2 (H g (by simp [SumOf.parts, hg])))
    obtain ⟨z, w3, c1, c2, c3, c4, c5, c6⟩ := add_operable ho hP (base := base) b2 ((b4 x a5.lt).2 a5) b5
    refine ⟨z, w3, ?_, c2, by omega, ?_, c5, ?_⟩
    · simp only [SumOf.run, W.bind_apply, a1, b1, c1]
    · intro g hg
      have h1 := a4 g hg
      have h2 := b4 g (by omega)
      have h3 := c4 g (by omega)
      exact ⟨(h1.1.trans r a2 h2.1).trans r b2 h3.1, fun O => h3.2 (h2.2 (h1.2 O))⟩
    · intro k v
      have hx : ∀ v, Holds w2.heap x k v ↔ a.Shows f w.heap k v := fun v => by
        rw [Holds.untouched (b4 x a5.lt).1, a6]
      have hy : ∀ v, Holds w2.heap y k v ↔ b.Shows f w.heap k v := fun v => by
        rw [b6, SumOf.Shows.untouched b fun g hg => (a4 g (H g (by simp [SumOf.parts, hg])).lt).1]
      rw [c6]
      simp only [hx, hy, SumOf.Shows]

omit [Palette C] ho in
/-- A sum shows values that can be added, at the names of its parts. -/
theorem SumOf.shows_operable {w : World C} : ∀ (s : SumOf) (_ : ∀ g ∈ s.parts, Operable P w g) (k : Key),
    (∀ v, s.Shows f w.heap k v → P v) ∧ ((∃ v, s.Shows f w.heap k v) ↔ ∃ g ∈ s.parts, k ∈ namesOf w.heap g)
  | .graph g, H, k => by
    refine ⟨?_, by simp [SumOf.parts, mem_namesOf, SumOf.Shows]⟩
    rintro v ⟨n, hn, -, rfl⟩
    exact (H g (by simp [SumOf.parts])).values n hn
  | .plus a b, H, k => by
    obtain ⟨a1, a2⟩ := SumOf.shows_operable a (fun g hg => H g (by simp [SumOf.parts, hg])) k
    obtain ⟨b1, b2⟩ := SumOf.shows_operable b (fun g hg => H g (by simp [SumOf.parts, hg])) k
    constructor
    · rintro v (⟨h, -⟩ | ⟨h, -⟩ | ⟨u, x, -, h, e⟩)
      · exact a1 v h
      · exact b1 v h
      · obtain ⟨v', e1, e2⟩ := hP x (b1 x h)
        rw [e] at e1
        cases e1
        exact e2
    · have : (∃ g ∈ (SumOf.plus a b).parts, k ∈ namesOf w.heap g) ↔ (∃ v, a.Shows f w.heap k v) ∨ ∃ v, b.Shows f w.heap k v := by
        rw [a2, b2]
        simp only [SumOf.parts, List.mem_append]
        grind
      rw [this]
      constructor
      · rintro ⟨v, ⟨h, -⟩ | ⟨h, -⟩ | ⟨u, x, h, -⟩⟩
        · exact .inl ⟨v, h⟩
        · exact .inr ⟨v, h⟩
        · exact .inl ⟨u, h⟩
      · intro h
        by_cases h1 : ∃ v, a.Shows f w.heap k v <;> by_cases h2 : ∃ v, b.Shows f w.heap k v
        · obtain ⟨u, hu⟩ := h1
          obtain ⟨x, hx⟩ := h2
          obtain ⟨v', e, -⟩ := hP x (b1 x hx)
          exact ⟨v', .inr (.inr ⟨u, x, hu, hx, e⟩)⟩
        · obtain ⟨u, hu⟩ := h1
          exact ⟨u, .inl ⟨hu, h2⟩⟩
        · obtain ⟨u, hu⟩ := h2
          exact ⟨u, .inr (.inl ⟨hu, h1⟩)⟩
        · exact absurd h (by simp [h1, h2])

/-- **C130**, the names: a sum of graphs without edges, however many there are and however it is bracketed, is a graph
without edges with exactly the names of all the graphs in it, each once; and every graph there was has its nodes and edges as
before. So neither the order nor the brackets matter for the names.
Missing for the full property: graphs with edges cannot be added at all (`C43_edges_violated`), and the values depend on the
order and on the brackets. -/
theorem C130_names_partial {w : World C} (r : Reachable w.heap) (s : SumOf) (H : ∀ g ∈ s.parts, Operable P w g) :
    ∃ g' w', s.run base order f w = (.ok g', w') ∧ Reachable w'.heap ∧ graphEdges w'.heap g' = .ok [] ∧ (namesOf w'.heap g').Nodup ∧
      (∀ k, k ∈ namesOf w'.heap g' ↔ ∃ g ∈ s.parts, k ∈ namesOf w.heap g) ∧
      ∀ g, g < w.heap.nG → Untouched w.heap w'.heap g := by
  obtain ⟨g', w', h1, h2, -, h4, h5, h6⟩ := sum_run ho hP (base := base) s r H
  refine ⟨g', w', h1, h2, h5.edgeless, names_nodup h2 g', fun k => ?_, fun g hg => (h4 g hg).1⟩
  rw [mem_namesOf, ← (SumOf.shows_operable hP s H k).2]
  exact exists_congr fun v => h6 k v

/-- **C130**, the values, exactly: a sum has at every name the value it shows there. -/
theorem C130_values {w : World C} (r : Reachable w.heap) (s : SumOf) (H : ∀ g ∈ s.parts, Operable P w g) :
    ∃ g' w', s.run base order f w = (.ok g', w') ∧ ∀ k v, Holds w'.heap g' k v ↔ s.Shows f w.heap k v := by
  obtain ⟨g', w', h1, -, -, -, -, h6⟩ := sum_run ho hP (base := base) s r H
  exact ⟨g', w', h1, h6⟩

/-- **C130**, graphs with no name in common: the sum has the nodes of its parts with their values, whatever the order and the
brackets. -/
theorem C130_disjoint_partial {w : World C} (r : Reachable w.heap) (s : SumOf) (H : ∀ g ∈ s.parts, Operable P w g)
    (dis : s.parts.Pairwise fun g g' => ∀ k, k ∈ namesOf w.heap g → k ∉ namesOf w.heap g') :
    ∃ g' w', s.run base order f w = (.ok g', w') ∧ ∀ k v, Holds w'.heap g' k v ↔ ∃ g ∈ s.parts, Holds w.heap g k v := by
  obtain ⟨g', w', h1, h2⟩ := C130_values ho hP (base := base) r s H
  refine ⟨g', w', h1, fun k v => (h2 k v).trans ?_⟩
  clear h1 h2
  induction s generalizing v with
  | graph g => simp [SumOf.Shows, SumOf.parts]
  | plus a b iha ihb =>
    simp only [SumOf.parts, List.pairwise_append] at dis
    obtain ⟨d1, d2, d3⟩ := dis
    have Ha : ∀ g ∈ a.parts, Operable P w g := fun g hg => H g (by simp [SumOf.parts, hg])
    have Hb : ∀ g ∈ b.parts, Operable P w g := fun g hg => H g (by simp [SumOf.parts, hg])
    have no : ¬ ((∃ v, a.Shows f w.heap k v) ∧ ∃ v, b.Shows f w.heap k v) := by
      rw [(SumOf.shows_operable hP a Ha k).2, (SumOf.shows_operable hP b Hb k).2]
      rintro ⟨⟨g, hg, kg⟩, g2, hg2, kg2⟩
      exact d3 g hg g2 hg2 k kg kg2
    have ia := fun v => iha Ha d1 v
    have ib := fun v => ihb Hb d2 v
    simp only [SumOf.Shows, SumOf.parts, List.mem_append, or_and_right, exists_or, ← ia, ← ib]
    grind

end

/-- A number. -/
def IsInt (v : Val) : Prop := ∃ i, v = .int i

theorem addValues_int : ∀ v, IsInt v → ∃ v', addValues v v = .ok v' ∧ IsInt v' := by
  rintro v ⟨i, rfl⟩
  exact ⟨_, C43_default_values.1 i i, _, rfl⟩

theorem shows_both {h : Heap} {a b : SumOf} {k : Key} {u : Val} {j : Int} (ha : a.Shows addValues h k u) (hb : b.Shows addValues h k (.int j)) :
    (SumOf.plus a b).Shows addValues h k (.int (j + j)) := .inr (.inr ⟨u, .int j, ha, hb, C43_default_values.1 j j⟩)

/-- **C130** does not hold for the order: a node that two graphs have with different numbers has a different value in the sum
of the two the other way round. -/
theorem C130_order_violated {base : GraphArgs C} {order : List Key → List Key} (ho : ∀ l, (order l).Perm l) {w : World C}
    (r : Reachable w.heap) {g1 g2 : GRef} (H1 : Operable IsInt w g1) (H2 : Operable IsInt w g2) {k : Key} {i j : Int}
    (h1 : Holds w.heap g1 k (.int i)) (h2 : Holds w.heap g2 k (.int j)) (hne : i ≠ j) :
    ∃ x w1 y w2, (SumOf.plus (.graph g1) (.graph g2)).run base order addValues w = (.ok x, w1) ∧
      (SumOf.plus (.graph g2) (.graph g1)).run base order addValues w = (.ok y, w2) ∧
      Holds w1.heap x k (.int (j + j)) ∧ Holds w2.heap y k (.int (i + i)) ∧ j + j ≠ i + i := by
  obtain ⟨x, w1, e1, v1⟩ := C130_values ho addValues_int (base := base) r (.plus (.graph g1) (.graph g2)) (by
    simp only [SumOf.parts, List.mem_append, List.mem_singleton]; rintro g (rfl | rfl) <;> assumption)
  obtain ⟨y, w2, e2, v2⟩ := C130_values ho addValues_int (base := base) r (.plus (.graph g2) (.graph g1)) (by
    simp only [SumOf.parts, List.mem_append, List.mem_singleton]; rintro g (rfl | rfl) <;> assumption)
  exact ⟨x, w1, y, w2, e1, e2, (v1 _ _).2 (shows_both h1 h2), (v2 _ _).2 (shows_both h2 h1), by omega⟩

/-- **C130** does not hold for the brackets: a node that three graphs have, with a number other than 0 in the last, is twice
that number in `(g1 + g2) + g3` and four times in `g1 + (g2 + g3)`. -/
theorem C130_brackets_violated {base : GraphArgs C} {order : List Key → List Key} (ho : ∀ l, (order l).Perm l) {w : World C}
    (r : Reachable w.heap) {g1 g2 g3 : GRef} (H1 : Operable IsInt w g1) (H2 : Operable IsInt w g2) (H3 : Operable IsInt w g3)
    {k : Key} {u u' : Val} {j : Int} (h1 : Holds w.heap g1 k u) (h2 : Holds w.heap g2 k u') (h3 : Holds w.heap g3 k (.int j)) (hne : j ≠ 0) :
    ∃ x w1 y w2, (SumOf.plus (.plus (.graph g1) (.graph g2)) (.graph g3)).run base order addValues w = (.ok x, w1) ∧
      (SumOf.plus (.graph g1) (.plus (.graph g2) (.graph g3))).run base order addValues w = (.ok y, w2) ∧
      Holds w1.heap x k (.int (j + j)) ∧ Holds w2.heap y k (.int (j + j + (j + j))) ∧ j + j ≠ j + j + (j + j) := by
  obtain ⟨x, w1, e1, v1⟩ := C130_values ho addValues_int (base := base) r (.plus (.plus (.graph g1) (.graph g2)) (.graph g3)) (by
    simp only [SumOf.parts, List.mem_append, List.mem_singleton]; rintro g ((rfl | rfl) | rfl) <;> assumption)
  obtain ⟨y, w2, e2, v2⟩ := C130_values ho addValues_int (base := base) r (.plus (.graph g1) (.plus (.graph g2) (.graph g3))) (by
    simp only [SumOf.parts, List.mem_append, List.mem_singleton]; rintro g (rfl | rfl | rfl) <;> assumption)
  have s12 : ∃ v, (SumOf.plus (.graph g1) (.graph g2)).Shows addValues w.heap k v :=
    ((SumOf.shows_operable addValues_int (.plus (.graph g1) (.graph g2)) (by
      simp only [SumOf.parts, List.mem_append, List.mem_singleton]; rintro g (rfl | rfl) <;> assumption) k).2).2
      ⟨g1, by simp [SumOf.parts], mem_namesOf.2 ⟨u, h1⟩⟩
  obtain ⟨v, hv⟩ := s12
  exact ⟨x, w1, y, w2, e1, e2, (v1 _ _).2 (shows_both hv h3), (v2 _ _).2 (shows_both h1 (shows_both (a := .graph g2) (b := .graph g3) h2 h3)), by omega⟩

/-! ## A case: three graphs with a node "a" each, and a fourth with another name -/

def trioHeap : Heap :=
  runOps [.newGraph true true false, .addNode 0 (.str "a") { value := .int 1 } .warn, .addNode 0 (.str "b") { value := .int 7 } .warn,
    .newGraph false false false, .addNode 1 (.str "a") { value := .int 2 } .warn,
    .newGraph false false false, .addNode 2 (.str "a") { value := .int 3 } .warn, .addNode 2 (.str "c") { value := .int 4 } .warn,
    .newGraph false false false, .addNode 3 (.str "d") { value := .int 5 } .warn] Heap.init

theorem trioHeap_reachable : Reachable trioHeap := by
  refine Reachable.runOps .init _ ?_
  simp only [AllOk, Op.Ok]
  decide

def trioWorld : World Rat :=
  { heap := trioHeap, ns := fun _ => defaultNode 0, es := fun _ => defaultEdge 0 0, display := fun _ => some { scheme := [0, 1] } }

theorem trio_operable : ∀ g : GRef, g ∈ ([0, 1, 2, 3] : List GRef) → Operable IsInt trioWorld g := by
  intro g hg
  simp only [List.mem_cons, List.not_mem_nil, or_false] at hg
  have vals : ∀ n ∈ [0, 1, 2, 3, 4, 5], IsInt (trioHeap.node n).value := by
    intro n hn
    simp only [List.mem_cons, List.not_mem_nil, or_false] at hn
    rcases hn with rfl | rfl | rfl | rfl | rfl | rfl
    · exact ⟨1, by decide +kernel⟩
    · exact ⟨7, by decide +kernel⟩
    · exact ⟨2, by decide +kernel⟩
    · exact ⟨3, by decide +kernel⟩
    · exact ⟨4, by decide +kernel⟩
    · exact ⟨5, by decide +kernel⟩
  have sub : ∀ n ∈ graphNodes trioHeap 0 ++ graphNodes trioHeap 1 ++ graphNodes trioHeap 2 ++ graphNodes trioHeap 3, n ∈ [0, 1, 2, 3, 4, 5] := by
    decide +kernel
  rcases hg with rfl | rfl | rfl | rfl
  all_goals exact ⟨by decide +kernel, by decide +kernel, ⟨_, rfl, rfl⟩, fun n hn => vals n (sub n (by
    have hn : n ∈ graphNodes trioHeap _ := hn
    simp [hn]))⟩

/-- The hypotheses of the violations. -/
example : Reachable trioWorld.heap ∧ Holds trioWorld.heap 0 (.str "a") (.int 1) ∧ Holds trioWorld.heap 1 (.str "a") (.int 2) ∧
    Holds trioWorld.heap 2 (.str "a") (.int 3) :=
  ⟨trioHeap_reachable, ⟨0, by decide +kernel, by decide +kernel, by decide +kernel⟩, ⟨2, by decide +kernel, by decide +kernel, by decide +kernel⟩,
    ⟨3, by decide +kernel, by decide +kernel, by decide +kernel⟩⟩

/-- Graphs with no name in common. -/
example : (SumOf.plus (.graph 1) (.graph 3)).parts.Pairwise fun g g' => ∀ k, k ∈ namesOf trioHeap g → k ∉ namesOf trioHeap g' := by
  have h1 : namesOf trioHeap 1 = [.str "a"] := by decide +kernel
  have h3 : namesOf trioHeap 3 = [.str "d"] := by decide +kernel
  simp [SumOf.parts, h1, h3]

end Verif
