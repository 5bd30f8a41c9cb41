import Verif.Lemmas.Passes
import Verif.Props.Style
import Verif.Props.Edges
/-!
# The default stylist (C48 - C51, C63, C64)
-/
namespace Verif
open Palette W
variable {C : Type} [Palette C]

/-- **C51.** With as many stack frames as the graph has nodes, `inherit_style` returns, and what it returns is the
inherited style; or it finds that a node it inherits from has no style. It never runs out of stack, and never takes the
first of no parents. -/
theorem C51_terminates {w : World C} (r : Reachable w.heap) {g : GRef}
    (hown : ∀ n ∈ graphNodes w.heap g, (w.heap.node n).graph = some g) {lim : Nat}
    (hlim : (graphNodes w.heap g).length ≤ lim) {n : NRef} (hn : n ∈ graphNodes w.heap g) (divergence : Rat) :
    (∃ s, inheritStyle lim w paleRatio (graphNodes w.heap g).length n divergence = .ok s ∧
      Tint w.heap g (nodeLook w) divergence n s) ∨
    (inheritStyle lim w paleRatio (graphNodes w.heap g).length n divergence = .error .attributeError ∧
      ∃ m ∈ graphNodes w.heap g, SemiRoot w.heap g m ∧ nodeLook w m = none ∧ (m = n ∨ Path w.heap g m n)) := by
  rcases inherit_top r hown hlim paleRatio hn divergence (Nat.le_refl _) with h1 | ⟨h1, m, m1, m2, m3, m4⟩
  · exact .inl h1
  · exact .inr ⟨h1, m, m1, m2, m3, m4⟩

/-- **C51**: when the nodes that inherit from nobody have styles, every node inherits one. -/
theorem C51_succeeds {w : World C} (r : Reachable w.heap) {g : GRef}
    (hown : ∀ n ∈ graphNodes w.heap g, (w.heap.node n).graph = some g) {lim : Nat}
    (hlim : (graphNodes w.heap g).length ≤ lim) {n : NRef} (hn : n ∈ graphNodes w.heap g) (divergence : Rat)
    (hroots : ∀ m ∈ graphNodes w.heap g, SemiRoot w.heap g m → nodeLook w m ≠ none) :
    ∃ s, inheritStyle lim w paleRatio (graphNodes w.heap g).length n divergence = .ok s ∧
      Tint w.heap g (nodeLook w) divergence n s := by
  rcases C51_terminates r hown hlim hn divergence with h1 | ⟨-, m, m1, m2, m3, -⟩
  · exact h1
  · exact absurd m3 (hroots m m1 m2)

theorem live_start {h : Heap} (r : Reachable h) {g : GRef} {e : ERef} (he : LiveEdge h g e) :
    ∃ n ∈ graphNodes h g, edgeStart h e = .ok n := by
  obtain ⟨A, H⟩ := r.hist
  have R := H.rep
  obtain ⟨i, hi⟩ := (liveEdge_iff R).1 he
  obtain ⟨n, m, h1, h2, -, -, -, h6, -⟩ := R.live_edge hi
  exact ⟨n, (mem_graphNodes R).2 ⟨_, h6⟩, by simp [edgeStart, h1]⟩

theorem onLoop_edge {h : Heap} {g : GRef} {n : NRef} (hl : OnLoop h g n) : ∃ e, LiveEdge h g e ∧ edgeStart h e = .ok n := by
  obtain ⟨m, ⟨e, h1, h2, -⟩, -⟩ := Relation.TransGen.head'_iff.1 hl
  exact ⟨e, h1, h2⟩

theorem firsts_pos {C : Type} [DecidableEq C] {l : List C} (h : l ≠ []) : 0 < (firsts l).length := by
  cases l with
  | nil => exact absurd rfl h
  | cons x l => simp [firsts]

theorem mem_pick {α : Type} {l : List α} {p : α → Prop} [DecidablePred p] {x : α} (hx : x ∈ l) (hp : p x) :
    ∃ (j : Nat) (hj : j < (l.filter fun y => decide (p y)).length), (l.filter fun y => decide (p y))[j] = x :=
  List.getElem_of_mem (List.mem_filter.2 ⟨hx, decide_eq_true hp⟩)

theorem not_semiRoot {h : Heap} {g : GRef} {n : NRef} : ¬ SemiRoot h g n ↔ ∃ p, Arrow h g p n ∧ ¬ OnLoop h g p := by
  unfold SemiRoot
  simp

section
variable [DecidableEq C]
variable {w : World C} (F : Fine w) (r : Reachable w.heap) {g : GRef} {d : Display C} (hd : w.display g = some d)
  (hown : ∀ n ∈ graphNodes w.heap g, (w.heap.node n).graph = some g) {lim : Nat} (hlim : (graphNodes w.heap g).length ≤ lim)
include F r hown hlim

omit hd in
open scoped Classical in
/-- The passes over the nodes. -/
theorem nodes_run (hs : d.scheme ≠ []) :
    ∃ w1 w2, rootPass lim (graphNodes w.heap g) (coloursUnused d.scheme) w = (.ok (), w1) ∧
      branchPass lim (graphNodes w.heap g) w1 = (.ok (), w2) ∧ Becomes w w2 (nodeLook w2) (edgeLook w) ∧
      (∀ j (hj : j < ((graphNodes w.heap g).filter fun n => decide (nodeLook w n = none ∧ SemiRoot w.heap g n)).length),
        nodeLook w2 ((graphNodes w.heap g).filter fun n => decide (nodeLook w n = none ∧ SemiRoot w.heap g n))[j] =
          some (defaultNode ((firsts d.scheme)[j % (firsts d.scheme).length]'(Nat.mod_lt _ (firsts_pos hs))))) ∧
      (∀ n ∈ graphNodes w.heap g, nodeLook w n = none → ¬ SemiRoot w.heap g n → ¬ OnLoop w.heap g n →
        ∃ s, nodeLook w2 n = some s ∧ Tint w.heap g (nodeLook w2) (1 / 20) n s) ∧
      (∀ n, nodeLook w n ≠ none ∨ n ∉ graphNodes w.heap g ∨ Stranded w g n → nodeLook w2 n = nodeLook w n) := by
  have hnd := graphNodes_nodup r g
  have hr0 : rounds (firsts d.scheme) (0 / (firsts d.scheme).length) (0 % (firsts d.scheme).length) = coloursUnused d.scheme := by
    rw [coloursUnused_eq]; simp [rounds]
  obtain ⟨w1, a1, a2⟩ := rootPass_run (g := g) (lim := lim) (firsts d.scheme) (nodup_firsts _) (firsts_pos hs) (graphNodes w.heap g) w 0 F r hown hlim
    (fun _ h => h) hnd
  rw [hr0] at a1
  have S := a2.shape
  have hget : ∀ n, nodeLook w n = none → SemiRoot w.heap g n → n ∈ graphNodes w.heap g → nodeLook w1 n ≠ none := by
    intro n h1 h2 h3
    obtain ⟨j, hj, hjn⟩ := mem_pick (p := fun n => nodeLook w n = none ∧ SemiRoot w.heap g n) h3 ⟨h1, h2⟩
    rw [a2.nodes]
    have := handRoots_get (fun i => (firsts d.scheme)[i % (firsts d.scheme).length]'(Nat.mod_lt _ (firsts_pos hs))) _ (hnd.filter _) 0 (nodeLook w) j hj
    rw [hjn] at this
    rw [this]
    simp
  have hkeep : ∀ n, ¬ (n ∈ graphNodes w.heap g ∧ nodeLook w n = none ∧ SemiRoot w.heap g n) → nodeLook w1 n = nodeLook w n := by
    intro n h
    rw [a2.nodes]
    exact handRoots_other _ _ _ _ (by simpa using h)
  have hroots : ∀ n ∈ graphNodes w1.heap g, SemiRoot w1.heap g n → nodeLook w1 n ≠ none := by
    intro n h1 h2
    rw [← S.graphNodes] at h1
    rw [← S.semiRoot] at h2
    by_cases h3 : nodeLook w n = none
    · exact hget n h3 h2 h1
    · rw [hkeep n (by simp [h3])]; exact h3
  obtain ⟨w2, N', b1, b2, b3⟩ := branchPass_run (g := g) (lim := lim) (graphNodes w.heap g) w1 a2.fine (a2.reach r)
    (fun x hx => by rw [← S.nodeGraph]; exact hown x (by rw [S.graphNodes]; exact hx))
    (by rw [← S.graphNodes]; exact hlim) (fun x hx => by rw [← S.graphNodes]; exact hx) hnd hroots
  have hN := b2.nodes
  subst hN
  rw [← S.semiRoot, ← S.onLoop] at b3
  have hsemi : ∀ n, SemiRoot w.heap g n → nodeLook w2 n = nodeLook w1 n := fun n h => (b3 n).2 (fun hc => hc.2.2.1 h)
  have hb := a2.trans b2
  rw [a2.edges] at hb
  refine ⟨w1, w2, a1, b1, hb, ?_, ?_, ?_⟩
  · intro j hj
    have hm := List.getElem_mem hj
    obtain ⟨-, hm2⟩ := List.mem_filter.1 hm
    have hm2 := of_decide_eq_true hm2
    rw [hsemi _ hm2.2, a2.nodes]
    have := handRoots_get (fun i => (firsts d.scheme)[i % (firsts d.scheme).length]'(Nat.mod_lt _ (firsts_pos hs))) _ (hnd.filter _) 0 (nodeLook w) j hj
    rw [this]
    simp
  · intro n h1 h2 h3 h4
    obtain ⟨s, s1, s2⟩ := (b3 n).1 ⟨h1, by rw [hkeep n (by simp [h3])]; exact h2, h3, h4⟩
    refine ⟨s, s1, s2.move S.symm (fun x hx => ?_)⟩
    rw [← S.semiRoot] at hx
    exact (hsemi x hx).symm
  · intro n h
    have h1 : nodeLook w1 n = nodeLook w n := by
      refine hkeep n ?_
      rintro ⟨c1, c2, c3⟩
      rcases h with h | h | ⟨-, -, h⟩
      · exact h c2
      · exact h c1
      · exact not_semiRoot.2 h c3
    rw [← h1]
    refine (b3 n).2 ?_
    rintro ⟨c1, c2, c3, c4⟩
    rw [h1] at c2
    rcases h with h | h | ⟨-, h, -⟩
    · exact h c2
    · exact h c1
    · exact c4 h

include hd
open scoped Classical in
/-- The whole stylist, when it succeeds. -/
theorem pensieve_run (hs : d.scheme ≠ [])
    (hstart : ∀ e n, LiveEdge w.heap g e → edgeLook w e = none → edgeStart w.heap e = .ok n → ¬ Stranded w g n)
    (hval : ∀ e, LiveEdge w.heap g e → edgeLook w e = none → (w.heap.edge e).value.factor ≠ none) :
    ∃ w' es, stylizeWithPensieve lim g w = (.ok (), w') ∧ Becomes w w' (nodeLook w') (edgeLook w') ∧
      graphEdges w.heap g = .ok es ∧ es.Nodup ∧ (∀ e, e ∈ es ↔ LiveEdge w.heap g e) ∧
      (∀ j (hj : j < ((graphNodes w.heap g).filter fun n => decide (nodeLook w n = none ∧ SemiRoot w.heap g n)).length),
        nodeLook w' ((graphNodes w.heap g).filter fun n => decide (nodeLook w n = none ∧ SemiRoot w.heap g n))[j] =
          some (defaultNode ((firsts d.scheme)[j % (firsts d.scheme).length]'(Nat.mod_lt _ (firsts_pos hs))))) ∧
      (∀ n ∈ graphNodes w.heap g, nodeLook w n = none → ¬ SemiRoot w.heap g n → ¬ OnLoop w.heap g n →
        ∃ s, nodeLook w' n = some s ∧ Tint w.heap g (nodeLook w') (1 / 20) n s) ∧
      (∀ n, nodeLook w n ≠ none ∨ n ∉ graphNodes w.heap g ∨ Stranded w g n → nodeLook w' n = nodeLook w n) ∧
      (∀ j (hj : j < (es.filter fun e => decide (edgeLook w e = none)).length), ∃ n s,
        edgeStart w.heap (es.filter fun e => decide (edgeLook w e = none))[j] = .ok n ∧ nodeLook w' n = some s ∧
        edgeLook w' (es.filter fun e => decide (edgeLook w e = none))[j] =
          some (defaultEdge (darken s.colour (1 / 10))
            ((((es.filter fun e => decide (edgeLook w e = none)).take (j + 1)).map
              fun e => ((w.heap.edge e).value.factor).getD 1).foldl (· * ·) (1 / 2)))) ∧
      (∀ e, edgeLook w e ≠ none ∨ e ∉ es → edgeLook w' e = edgeLook w e) := by
  obtain ⟨w1, w2, a1, a2, B, c1, c2, c3⟩ := nodes_run F r hown hlim hs
  obtain ⟨es, e1, e2, e3, -⟩ := C11_edges r g
  have hlive : ∀ e, e ∈ es ↔ LiveEdge w.heap g e := e3
  have S := B.shape
  -- every start has a style
  have hstyled : ∀ n ∈ graphNodes w.heap g, ¬ Stranded w g n → nodeLook w2 n ≠ none := by
    intro n hn hns
    by_cases h1 : nodeLook w n = none
    · by_cases h2 : SemiRoot w.heap g n
      · obtain ⟨j, hj, hjn⟩ := mem_pick (p := fun n => nodeLook w n = none ∧ SemiRoot w.heap g n) hn ⟨h1, h2⟩
        have := c1 j hj
        rw [hjn] at this
        rw [this]; simp
      · by_cases h3 : OnLoop w.heap g n
        · exact absurd ⟨h1, h3, not_semiRoot.1 h2⟩ hns
        · obtain ⟨s, hs, -⟩ := c2 n hn h1 h2 h3
          rw [hs]; simp
    · rw [c3 n (.inl h1)]; exact h1
  let colour : ERef → C := fun e => match startColour w2 e with
    | .ok c => darken c edgeDarknessRatio
    | .error _ => Palette.default
  have hready : ∀ e ∈ es, edgeLook w2 e = none → ∃ n s, edgeStart w.heap e = .ok n ∧ nodeLook w2 n = some s ∧
      startColour w2 e = .ok s.colour := by
    intro e he hl
    rw [B.edges] at hl
    obtain ⟨n, hn, hen⟩ := live_start r ((hlive e).1 he)
    have h1 := hstyled n hn (hstart e n ((hlive e).1 he) hl hen)
    cases hst : (w2.heap.node n).style with
    | none => exact absurd (nodeLook_none.2 hst) h1
    | some s =>
      refine ⟨n, w2.ns s, hen, by simp [nodeLook, hst], ?_⟩
      simp [startColour, ← S.edgeStart, hen, bind, Except.bind, hst]
  obtain ⟨w', p1, p2⟩ := edgePass_run edgeDarknessRatio colour (fun e => ((w.heap.edge e).value.factor).getD 1) es w2 none (1 / 2) B.fine e2
    (fun c => nextEdge_none c) (by
      intro e he hl
      obtain ⟨n, s, h1, h2, h3⟩ := hready e he hl
      refine ⟨s.colour, ⟨h3, ?_⟩, by simp [colour, h3]⟩
      rw [← S.edgeValue]
      rw [B.edges] at hl
      have := hval e ((hlive e).1 he) hl
      cases hf : (w.heap.edge e).value.factor with
      | none => exact absurd hf this
      | some x => rfl)
  have hB := B.trans p2
  refine ⟨w', es, ?_, ?_, e1, e2, hlive, ?_, ?_, ?_, ?_, ?_⟩
  · simp only [stylizeWithPensieve, W.bind_apply, W.display, hd, W.look_apply, a1, a2, W.ask_apply, ← S.graphEdges, e1, p1]
  · exact ⟨hB.shape, hB.display, hB.fine, rfl, rfl, hB.reach⟩
  · intro j hj; rw [p2.nodes]; exact c1 j hj
  · intro n h1 h2 h3 h4; rw [p2.nodes]; exact c2 n h1 h2 h3 h4
  · intro n hn; rw [p2.nodes]; exact c3 n hn
  · intro j hj
    have hm := List.getElem_mem hj
    obtain ⟨m1, m2⟩ := List.mem_filter.1 hm
    have m2 := of_decide_eq_true m2
    obtain ⟨n, s, h1, h2, h3⟩ := hready _ m1 (by rw [B.edges]; exact m2)
    refine ⟨n, s, h1, by rw [p2.nodes]; exact h2, ?_⟩
    rw [p2.edges, B.edges]
    rw [handEdges_get _ _ _ (e2.filter _) _ _ j hj]
    simp only [colour, h3, edgeDarknessRatio]
  · intro e he
    rw [p2.edges, B.edges]
    refine handEdges_other _ _ _ _ _ ?_
    rw [List.mem_filter]
    rintro ⟨q1, q2⟩
    rcases he with he | he
    · exact he (of_decide_eq_true q2)
    · exact he q1

/-- **C48**, exactly when: given colours and edge values that can be multiplied, the default stylist succeeds unless an
edge without style starts at a node without style on a cycle with a parent on no cycle; then it raises `AttributeError`. -/
theorem C48_succeeds_iff (hs : d.scheme ≠ [])
    (hval : ∀ e, LiveEdge w.heap g e → edgeLook w e = none → (w.heap.edge e).value.factor ≠ none) :
    ((stylizeWithPensieve lim g w).1 = .ok () ↔
      ∀ e n, LiveEdge w.heap g e → edgeLook w e = none → edgeStart w.heap e = .ok n → ¬ Stranded w g n) ∧
    ((stylizeWithPensieve lim g w).1 ≠ .ok () → (stylizeWithPensieve lim g w).1 = .error .attributeError) := by
  by_cases H : ∀ e n, LiveEdge w.heap g e → edgeLook w e = none → edgeStart w.heap e = .ok n → ¬ Stranded w g n
  · obtain ⟨w', es, h1, -⟩ := pensieve_run F r hd hown hlim hs H hval
    simp [h1]
    exact H
  · have hbad : ∃ e n, LiveEdge w.heap g e ∧ edgeLook w e = none ∧ edgeStart w.heap e = .ok n ∧ Stranded w g n := by
      simpa using H
    obtain ⟨w1, w2, a1, a2, B, c1, c2, c3⟩ := nodes_run F r hown hlim hs
    obtain ⟨es, e1, e2, e3, -⟩ := C11_edges r g
    have hlive : ∀ e, e ∈ es ↔ LiveEdge w.heap g e := e3
    have S := B.shape
    obtain ⟨err, w', p1, p2⟩ := edgePass_fail edgeDarknessRatio es w2 none (1 / 2) B.fine e2 (fun c => nextEdge_none c) (by
      obtain ⟨e, n, q1, q2, q3, q4⟩ := hbad
      refine ⟨e, (hlive e).2 q1, by rw [B.edges]; exact q2, ?_⟩
      rintro ⟨c, x, hc, -⟩
      have hl : nodeLook w2 n = none := by rw [c3 n (.inr (.inr q4))]; exact q4.1
      simp [startColour, ← S.edgeStart, q3, bind, Except.bind, nodeLook_none.1 hl] at hc)
    have herr : err = .attributeError := p2 (fun e he hl => by
        rw [B.edges] at hl
        rw [← S.edgeValue]
        exact hval e ((hlive e).1 he) hl) (fun e he => by
        obtain ⟨n, -, hn⟩ := live_start r ((hlive e).1 he)
        exact ⟨n, by rw [← S.edgeStart]; exact hn⟩)
    have : (stylizeWithPensieve lim g w).1 = .error .attributeError := by
      simp only [stylizeWithPensieve, W.bind_apply, W.display, hd, W.look_apply, a1, a2, W.ask_apply, ← S.graphEdges, e1, p1, herr]
    rw [this]
    simp
    obtain ⟨e, n, q1, q2, q3, q4⟩ := hbad
    exact ⟨e, q1, q2, n, q3, q4⟩

/-- **C48**, the part that holds: on a graph without stranded nodes the default stylist gives a style to every node and
every edge, and changes none that was there. -/
theorem C48_all_styled_partial (hs : d.scheme ≠ []) (hstr : ∀ n ∈ graphNodes w.heap g, ¬ Stranded w g n)
    (hval : ∀ e, LiveEdge w.heap g e → edgeLook w e = none → (w.heap.edge e).value.factor ≠ none) :
    ∃ w', stylizeWithPensieve lim g w = (.ok (), w') ∧
      (∀ n ∈ graphNodes w.heap g, nodeLook w' n ≠ none) ∧ (∀ e, LiveEdge w.heap g e → edgeLook w' e ≠ none) ∧
      (∀ n, nodeLook w n ≠ none → nodeLook w' n = nodeLook w n) ∧ (∀ e, edgeLook w e ≠ none → edgeLook w' e = edgeLook w e) ∧
      Becomes w w' (nodeLook w') (edgeLook w') := by
  classical
  obtain ⟨w', es, h1, h2, h3, h4, h5, h6, h7, h8, h9, h10⟩ := pensieve_run F r hd hown hlim hs (by
    intro e n he _ hn
    obtain ⟨m, hm, hm'⟩ := live_start r he
    rw [hn] at hm'
    cases hm'
    exact hstr n hm) hval
  refine ⟨w', h1, ?_, ?_, fun n hn => h8 n (.inl hn), fun e he => h10 e (.inl he), h2⟩
  · intro n hn
    by_cases c1 : nodeLook w n = none
    · by_cases c2 : SemiRoot w.heap g n
      · obtain ⟨j, hj, hjn⟩ := mem_pick (p := fun n => nodeLook w n = none ∧ SemiRoot w.heap g n) hn ⟨c1, c2⟩
        have := h6 j hj
        rw [hjn] at this
        rw [this]; simp
      · by_cases c3 : OnLoop w.heap g n
        · exact absurd ⟨c1, c3, not_semiRoot.1 c2⟩ (hstr n hn)
        · obtain ⟨s, hs, -⟩ := h7 n hn c1 c2 c3
          rw [hs]; simp
    · rw [h8 n (.inl c1)]; exact c1
  · intro e he
    by_cases c1 : edgeLook w e = none
    · obtain ⟨j, hj, hje⟩ := mem_pick (p := fun e => edgeLook w e = none) ((h5 e).2 he) c1
      obtain ⟨n, s, -, -, q⟩ := h9 j hj
      rw [hje] at q
      rw [q]; simp
    · rw [h10 e (.inl c1)]; exact c1

omit F in
/-- **C48**: without any colours, a node that inherits from nobody cannot be styled. -/
theorem C48_no_colours (hs : d.scheme = []) (H : ∃ n ∈ graphNodes w.heap g, SemiRoot w.heap g n ∧ nodeLook w n = none) :
    stylizeWithPensieve lim g w = (.error (.valueError "min() arg is an empty sequence"), w) := by
  simp only [stylizeWithPensieve, W.bind_apply, W.display, hd, W.look_apply, hs]
  rw [show coloursUnused ([] : List C) = [] from rfl, rootPass_nocolour r hown hlim _ (fun _ h => h) H]

open scoped Classical in
/-- **C63.** The nodes without style that have no parents off cycles get the default style, in the colours of the scheme
one after the other (each counted once, from the beginning again when they are used up), in the order of the nodes. -/
theorem C63_round_robin (hs : d.scheme ≠ []) {w' : World C} (hok : stylizeWithPensieve lim g w = (.ok (), w'))
    {fresh : List NRef} (hf : fresh = (graphNodes w.heap g).filter fun n => decide (nodeLook w n = none ∧ SemiRoot w.heap g n)) :
    ∀ j (hj : j < fresh.length),
      nodeLook w' fresh[j] = some (defaultNode ((firsts d.scheme)[j % (firsts d.scheme).length]'(Nat.mod_lt _ (firsts_pos hs)))) := by
  subst hf
  intro j hj
  obtain ⟨w1, w2, a1, a2, B, c1, c2, c3⟩ := nodes_run F r hown hlim hs
  obtain ⟨es, e1, e2, -⟩ := C11_edges r g
  simp only [stylizeWithPensieve, W.bind_apply, W.display, hd, W.look_apply, a1, a2, W.ask_apply, ← B.shape.graphEdges, e1] at hok
  have key : nodeLook w' = nodeLook w2 := by
    by_cases hb : ∃ e ∈ es, edgeLook w2 e = none ∧ ¬ ∃ c x, EdgeReady w2 e c x
    · obtain ⟨err, w3, p1, -⟩ := edgePass_fail edgeDarknessRatio es w2 none (1 / 2) B.fine e2 (fun c => nextEdge_none c) hb
      rw [p1] at hok; cases hok
    · have hb : ∀ e ∈ es, edgeLook w2 e = none → ∃ c x, EdgeReady w2 e c x := by
        intro e he hl
        exact Classical.byContradiction fun h => hb ⟨e, he, hl, h⟩
      obtain ⟨w3, p1, p2⟩ := edgePass_run edgeDarknessRatio (fun e => if h : ∃ c x, EdgeReady w2 e c x then darken h.choose edgeDarknessRatio else Palette.default)
        (fun e => if h : ∃ c x, EdgeReady w2 e c x then h.choose_spec.choose else 0) es w2 none (1 / 2) B.fine e2 (fun c => nextEdge_none c) (by
          intro e he hl
          have h := hb e he hl
          simp only [dif_pos h]
          exact ⟨h.choose, h.choose_spec.choose_spec, rfl⟩)
      rw [p1] at hok
      cases hok
      exact p2.nodes
  rw [key]
  exact c1 j hj

/-- **C64.** A node without style that is on no cycle and has a parent on no cycle gets the tint it inherits. -/
theorem C64_inherits (hs : d.scheme ≠ []) (hstr : ∀ n ∈ graphNodes w.heap g, ¬ Stranded w g n)
    (hval : ∀ e, LiveEdge w.heap g e → edgeLook w e = none → (w.heap.edge e).value.factor ≠ none)
    {w' : World C} (hok : stylizeWithPensieve lim g w = (.ok (), w')) {n : NRef} (hn : n ∈ graphNodes w.heap g)
    (h1 : nodeLook w n = none) (h2 : ¬ OnLoop w.heap g n) {p : NRef} (h3 : Arrow w.heap g p n) (h4 : ¬ OnLoop w.heap g p) :
    ∃ s, nodeLook w' n = some s ∧ Tint w.heap g (nodeLook w') (1 / 20) n s := by
  obtain ⟨w'', es, q1, -, -, -, -, -, q2, -⟩ := pensieve_run F r hd hown hlim hs (by
    intro e n he _ hn
    obtain ⟨m, hm, hm'⟩ := live_start r he
    rw [hn] at hm'
    cases hm'
    exact hstr n hm) hval
  rw [hok] at q1
  cases q1
  exact q2 n hn h1 (not_semiRoot.2 ⟨p, h3, h4⟩) h2

/-- **C50**, what happens: the sizes of the arrows of the edges without style are multiplied up, in the order of the edges;
the colour is that of the start, darkened. -/
theorem C50_compound (hs : d.scheme ≠ []) (hstr : ∀ n ∈ graphNodes w.heap g, ¬ Stranded w g n)
    (hval : ∀ e, LiveEdge w.heap g e → edgeLook w e = none → (w.heap.edge e).value.factor ≠ none)
    {w' : World C} (hok : stylizeWithPensieve lim g w = (.ok (), w')) {es fresh : List ERef}
    (hes : graphEdges w.heap g = .ok es) (hf : fresh = es.filter fun e => (w.heap.edge e).style.isNone)
    (j : Nat) (hj : j < fresh.length) :
    ∃ n s, edgeStart w.heap fresh[j] = .ok n ∧ nodeLook w' n = some s ∧
      edgeLook w' fresh[j] = some (defaultEdge (darken s.colour (1 / 10))
        (((fresh.take (j + 1)).map fun e => ((w.heap.edge e).value.factor).getD 1).foldl (· * ·) (1 / 2))) := by
  classical
  obtain ⟨w'', es', q1, -, q0, -, -, -, -, -, q2, -⟩ := pensieve_run F r hd hown hlim hs (by
    intro e n he _ hn
    obtain ⟨m, hm, hm'⟩ := live_start r he
    rw [hn] at hm'
    cases hm'
    exact hstr n hm) hval
  rw [hok] at q1
  cases q1
  rw [hes] at q0
  cases q0
  have : fresh = es.filter fun e => decide (edgeLook w e = none) := by
    rw [hf]
    refine List.filter_congr fun e _ => ?_
    simp [edgeLook]
    cases (w.heap.edge e).style <;> simp
  subst this
  exact q2 j hj

/-- **C49**, for the default stylist alone: after a run that succeeded, a second run succeeds and changes nothing. -/
theorem C49_pensieve (hs : d.scheme ≠ []) {w' : World C} (hok : stylizeWithPensieve lim g w = (.ok (), w')) :
    stylizeWithPensieve lim g w' = (.ok (), w') := by
  classical
  obtain ⟨w1, w2, a1, a2, B, c1, c2, c3⟩ := nodes_run F r hown hlim hs
  obtain ⟨es, e1, e2, -⟩ := C11_edges r g
  simp only [stylizeWithPensieve, W.bind_apply, W.display, hd, W.look_apply, a1, a2, W.ask_apply, ← B.shape.graphEdges, e1] at hok
  have key : Becomes w2 w' (nodeLook w2) (edgeLook w') ∧ ∀ e ∈ es, edgeLook w' e ≠ none := by
    by_cases hb : ∃ e ∈ es, edgeLook w2 e = none ∧ ¬ ∃ c x, EdgeReady w2 e c x
    · obtain ⟨err, w3, p1, -⟩ := edgePass_fail edgeDarknessRatio es w2 none (1 / 2) B.fine e2 (fun c => nextEdge_none c) hb
      rw [p1] at hok; cases hok
    · have hb : ∀ e ∈ es, edgeLook w2 e = none → ∃ c x, EdgeReady w2 e c x := by
        intro e he hl
        exact Classical.byContradiction fun h => hb ⟨e, he, hl, h⟩
      obtain ⟨w3, p1, p2⟩ := edgePass_run edgeDarknessRatio (fun e => if h : ∃ c x, EdgeReady w2 e c x then darken h.choose edgeDarknessRatio else Palette.default)
        (fun e => if h : ∃ c x, EdgeReady w2 e c x then h.choose_spec.choose else 0) es w2 none (1 / 2) B.fine e2 (fun c => nextEdge_none c) (by
          intro e he hl
          have h := hb e he hl
          simp only [dif_pos h]
          exact ⟨h.choose, h.choose_spec.choose_spec, rfl⟩)
      rw [p1] at hok
      cases hok
      refine ⟨⟨p2.shape, p2.display, p2.fine, p2.nodes, rfl, p2.reach⟩, fun e he => ?_⟩
      rw [p2.edges]
      by_cases hl : edgeLook w2 e = none
      · obtain ⟨j, hj, hje⟩ := mem_pick (p := fun e => edgeLook w2 e = none) he hl
        have := handEdges_get (C := C) (fun e => if h : ∃ c x, EdgeReady w2 e c x then darken h.choose edgeDarknessRatio else Palette.default)
          (fun e => if h : ∃ c x, EdgeReady w2 e c x then h.choose_spec.choose else 0) _ (e2.filter _) (1 / 2) (edgeLook w2) j hj
        rw [hje] at this
        rw [this]; simp
      · rw [handEdges_other]
        · exact hl
        · simp [hl]
  obtain ⟨B', hE⟩ := key
  have S := B.shape.trans B'.shape
  have hg : graphNodes w'.heap g = graphNodes w.heap g := (S.graphNodes g).symm
  have hown' : ∀ n ∈ graphNodes w'.heap g, (w'.heap.node n).graph = some g := by
    intro n hn; rw [← S.nodeGraph]; exact hown n (by rw [← hg]; exact hn)
  have hlim' : (graphNodes w'.heap g).length ≤ lim := by rw [hg]; exact hlim
  have r' := B'.reach (B.reach r)
  have hd' : w'.display g = some d := by rw [B'.display, B.display]; exact hd
  simp only [stylizeWithPensieve, W.bind_apply, W.display, hd', W.look_apply, W.ask_apply]
  rw [rootPass_idle r' hown' hlim' _ _ (fun _ h => h)]
  · simp only
    rw [branchPass_idle r' hown' hlim' _ (fun _ h => h)]
    · simp only [← S.graphEdges, e1]
      exact edgePass_idle _ _ _ hE
    · intro n hn h1 h2
      rw [B'.nodes]
      rw [← S.semiRoot] at h1
      rw [← S.onLoop] at h2
      rw [hg] at hn
      by_cases h0 : nodeLook w n = none
      · obtain ⟨s, hs, -⟩ := c2 n hn h0 h1 h2
        rw [hs]; simp
      · rw [c3 n (.inl h0)]; exact h0
  · intro n hn h1
    rw [B'.nodes]
    rw [← S.semiRoot] at h1
    rw [hg] at hn
    by_cases h0 : nodeLook w n = none
    · obtain ⟨j, hj, hjn⟩ := mem_pick (p := fun n => nodeLook w n = none ∧ SemiRoot w.heap g n) hn ⟨h0, h1⟩
      have := c1 j hj
      rw [hjn] at this
      rw [this]; simp
    · rw [c3 n (.inl h0)]; exact h0

end

/-! ## Examples and violations -/

/-- Nodes `a b c d` (0 - 3), edges `a→b` with the value 3, `a→c` with the value 2, `b→d`, `c→d`. -/
def diamond : Heap :=
  runOps [.newGraph false true false, .add 0 "a", .add 0 "b", .add 0 "c", .add 0 "d",
    .connect 0 (.key (.str "a")) (.key (.str "b")) { value := .int 3 } .warn,
    .connect 0 (.key (.str "a")) (.key (.str "c")) { value := .int 2 } .warn, .link 0 "b" "d", .link 0 "c" "d"] Heap.init

/-- Nodes `a b c` (0 - 2), edges `a→b`, `b→c`, `c→b`. -/
def lasso : Heap :=
  runOps [.newGraph false true false, .add 0 "a", .add 0 "b", .add 0 "c", .link 0 "a" "b", .link 0 "b" "c", .link 0 "c" "b"] Heap.init

theorem diamond_reachable : Reachable diamond := by
  refine Reachable.runOps .init _ ?_
  refine ⟨trivial, ?_⟩
  simp only [AllOk, Op.Ok, Op.add, Op.link]
  decide

theorem lasso_reachable : Reachable lasso := by
  refine Reachable.runOps .init _ ?_
  refine ⟨trivial, ?_⟩
  simp only [AllOk, Op.Ok, Op.add, Op.link]
  decide

/-- `h` without style objects, to be painted in black, grey and white. -/
def plainWorld (h : Heap) (stylist : Stylist := .pensieve) : World Rat :=
  { heap := h, ns := fun _ => defaultNode 0, es := fun _ => defaultEdge 0 0,
    display := fun _ => some { scheme := [0, 1 / 2, 1], stylist := stylist } }

theorem diamond_made : Made diamond := by
  refine Made.init.runOps _ ?_
  simp only [AllStylesOk, Op.StylesOk, Op.add, Op.link, StyleArg.Below, and_self]

theorem lasso_made : Made lasso := by
  refine Made.init.runOps _ ?_
  simp only [AllStylesOk, Op.StylesOk, Op.add, Op.link, StyleArg.Below, and_self]

/-- No node of the diamond is on a cycle. -/
theorem diamond_acyclic : ∀ n ∈ graphNodes diamond 0, ¬ OnLoop diamond 0 n := by
  intro n hn
  have h1 := nodeIsInLoop_eq diamond_reachable (g := 0) (lim := 10) (by decide +kernel) (by decide +kernel) hn
  have h2 : ∀ n ∈ graphNodes diamond 0, nodeIsInLoop 10 diamond n = .ok false := by decide +kernel
  rw [h2 n hn] at h1
  simpa using h1

/-- The diamond meets the hypotheses of the theorems above. -/
example : Fine (plainWorld diamond) ∧ Reachable (plainWorld diamond).heap ∧
    (∀ n ∈ graphNodes diamond 0, (diamond.node n).graph = some 0) ∧ (graphNodes diamond 0).length ≤ 10 ∧
    (∀ n ∈ graphNodes diamond 0, ¬ Stranded (plainWorld diamond) 0 n) ∧
    (∀ e, LiveEdge diamond 0 e → edgeLook (plainWorld diamond) e = none → (diamond.edge e).value.factor ≠ none) := by
  refine ⟨diamond_made, diamond_reachable, by decide +kernel, by decide +kernel, fun n hn h => diamond_acyclic n hn h.2.1, ?_⟩
  intro e he _
  obtain ⟨es, h1, -, h2, -⟩ := C11_edges diamond_reachable 0
  have h3 : graphEdges diamond 0 = .ok [0, 1, 2, 3] := by decide +kernel
  rw [h3] at h1
  cases h1
  have := (h2 e).2 he
  have h4 : ∀ e ∈ [0, 1, 2, 3], (diamond.edge e).value.factor ≠ none := by decide +kernel
  exact h4 e this

/-- What the default stylist makes of it: `a` is the only root; `b` and `c` take after `a`, and `d` after both. -/
example : (stylizeWithPensieve 10 0 (plainWorld diamond)).1 = .ok () ∧
    (graphNodes diamond 0).map (nodeLook (stylizeWithPensieve 10 0 (plainWorld diamond)).2) =
      [some (defaultNode 0), some (defaultNode 0), some (defaultNode 0), some (defaultNode 0)] ∧
    [0, 1, 2, 3].map (edgeLook (stylizeWithPensieve 10 0 (plainWorld diamond)).2) =
      [some (defaultEdge 0 (3 / 2)), some (defaultEdge 0 3), some (defaultEdge 0 3), some (defaultEdge 0 3)] := by decide +kernel

/-- Four roots, three colours. -/
example : (stylizeWithPensieve 10 0 (plainWorld (runOps [.newGraph false true false, .add 0 "a", .add 0 "b", .add 0 "c", .add 0 "d"] Heap.init))).1 =
      .ok () ∧
    [0, 1, 2, 3].map (nodeLook (stylizeWithPensieve 10 0 (plainWorld (runOps [.newGraph false true false, .add 0 "a", .add 0 "b",
      .add 0 "c", .add 0 "d"] Heap.init))).2) =
      [some (defaultNode 0), some (defaultNode (1 / 2)), some (defaultNode 1), some (defaultNode 0)] := by decide +kernel

/-- **C48** fails for `a → b → c → b`: node `b`, on a cycle, with a parent on none, is skipped by both passes over the
nodes, and `AttributeError` is raised at its edge. -/
theorem C48_violated : Reachable (plainWorld lasso).heap ∧ Fine (plainWorld lasso) ∧
    (∀ n ∈ graphNodes lasso 0, nodeLook (plainWorld lasso) n = none) ∧
    (stylizeWithPensieve 10 0 (plainWorld lasso)).1 = .error .attributeError ∧
    nodeLook (stylizeWithPensieve 10 0 (plainWorld lasso)).2 1 = none :=
  ⟨lasso_reachable, lasso_made, by decide +kernel, by decide +kernel, by decide +kernel⟩

/-- **C50** fails: the edge `a → c` with the value 2, styled after the edge `a → b` with the value 3, gets an arrow of size
`1/2 * 3 * 2`; its own value would make it `1/2 * 2`. The edges without value get that size as well. -/
theorem C50_violated : Reachable (plainWorld diamond).heap ∧ Fine (plainWorld diamond) ∧
    (stylizeWithPensieve 10 0 (plainWorld diamond)).1 = .ok () ∧ (diamond.edge 1).value = .int 2 ∧
    (edgeLook (stylizeWithPensieve 10 0 (plainWorld diamond)).2 1).map (·.arrowSize) = some 3 ∧
    (diamond.edge 2).value = .none ∧ (edgeLook (stylizeWithPensieve 10 0 (plainWorld diamond)).2 2).map (·.arrowSize) = some 3 :=
  ⟨diamond_reachable, diamond_made, by decide +kernel, by decide +kernel, by decide +kernel, by decide +kernel, by decide +kernel⟩

theorem foldl_ones (a : Rat) (l : List Rat) (H : ∀ x ∈ l, x = 1) : l.foldl (· * ·) a = a := by
  induction l with
  | nil => rfl
  | cons x l ih => rw [List.foldl_cons, H x (by simp), Rat.mul_one]; exact ih (fun y hy => H y (by simp [hy]))

/-- **C50**, the part that holds: if no edge that is styled before it has a value other than 1, an edge gets the base size
times its own value. -/
theorem C50_own_partial [DecidableEq C] {w : World C} (F : Fine w) (r : Reachable w.heap) {g : GRef} {d : Display C}
    (hd : w.display g = some d) (hown : ∀ n ∈ graphNodes w.heap g, (w.heap.node n).graph = some g) {lim : Nat}
    (hlim : (graphNodes w.heap g).length ≤ lim) (hs : d.scheme ≠ []) (hstr : ∀ n ∈ graphNodes w.heap g, ¬ Stranded w g n)
    (hval : ∀ e, LiveEdge w.heap g e → edgeLook w e = none → (w.heap.edge e).value.factor ≠ none)
    {w' : World C} (hok : stylizeWithPensieve lim g w = (.ok (), w')) {es fresh : List ERef}
    (hes : graphEdges w.heap g = .ok es) (hf : fresh = es.filter fun e => (w.heap.edge e).style.isNone)
    (j : Nat) (hj : j < fresh.length)
    (hbefore : ∀ i (_ : i < j), ((w.heap.edge fresh[i]).value = .none ∨ (w.heap.edge fresh[i]).value = .int 1)) :
    ∃ s, edgeLook w' fresh[j] = some s ∧ s.arrowSize = 1 / 2 * ((w.heap.edge fresh[j]).value.factor).getD 1 := by
  obtain ⟨n, s, -, -, h3⟩ := C50_compound F r hd hown hlim hs hstr hval hok hes hf j hj
  refine ⟨_, h3, ?_⟩
  rw [List.take_succ_eq_append_getElem hj, List.map_append, List.foldl_append,
    foldl_ones (1 / 2) ((fresh.take j).map fun e => ((w.heap.edge e).value.factor).getD 1)]
  · rfl
  · intro x hx
    obtain ⟨e, he, rfl⟩ := List.mem_map.1 hx
    obtain ⟨i, hi, rfl⟩ := List.getElem_of_mem he
    have hij : i < j := by simp at hi; omega
    rw [List.getElem_take]
    rcases hbefore i hij with h | h
    · simp [h, Val.factor]
    · simp [h, Val.factor]

end Verif
