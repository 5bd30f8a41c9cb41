import Verif.Lemmas.BrushPass
import Verif.Props.Stylize
import Verif.Props.Settings
/-!
# Painting with given styles (C91 - C93), and loops (C94)
-/
namespace Verif
open Palette W
variable {C : Type} [Palette C]

/-! ## With the defaults -/

theorem edgePassWith_eq (ratio : Rat) (es : List ERef) : ∀ (last : Option (EdgeStyle C)), (∀ s, last = some s → s.textAuto ≠ none) →
    ∀ w, edgePassWith ratio es last w = edgePass ratio es last w := by
  induction es with
  | nil => intro _ _ _; rfl
  | cons e es ih =>
    intro last hl w
    simp only [edgePassWith, edgePass, W.bind_apply, W.look_apply]
    cases (w.heap.edge e).style with
    | some s => exact ih last hl w
    | none =>
      simp only [W.bind_apply, W.ask_apply]
      cases startColour w e with
      | error _ => rfl
      | ok c =>
        have hn : nextEdgeStyleWith last (darken c ratio) = .ok (nextEdgeStyle last (darken c ratio)) := by
          cases last with
          | none => rfl
          | some s => simp only [nextEdgeStyleWith, nextEdgeStyle, copy_whole (hl s rfl), bind, Except.bind]
        simp only [hn]
        cases hsc : (nextEdgeStyle last (darken c ratio)).scaleArrow (w.heap.edge e).value with
        | error _ => rfl
        | ok st =>
          simp only
          cases assignEdge e st w with
          | mk x w1 =>
            cases x with
            | error _ => rfl
            | ok _ => exact ih (some st) (fun s hs => by cases hs; exact whole_scaleArrow (whole_next last _) hsc) w1

theorem branchPassWith_eq (lim : Nat) (ns : List NRef) : ∀ w : World C, branchPassWith lim {} ns w = branchPass lim ns w := by
  induction ns with
  | nil => intro _; rfl
  | cons n ns ih =>
    intro w
    simp only [branchPassWith, branchPass, W.bind_apply, W.ask_apply]
    cases isRootOrParentsInLoop lim w.heap n with
    | error _ => rfl
    | ok b =>
      cases b with
      | true => exact ih w
      | false =>
        simp only [Bool.false_eq_true, if_false, W.bind_apply, W.ask_apply]
        cases nodeIsInLoop lim w.heap n with
        | error _ => rfl
        | ok b =>
          cases b with
          | true => exact ih w
          | false =>
            simp only [Bool.false_eq_true, if_false, W.bind_apply, W.look_apply]
            cases (w.heap.node n).style with
            | some s => exact ih w
            | none =>
              simp only [W.bind_apply, W.ask_apply, inheritWith_none, paleRatio, divergenceRatio]
              cases inheritStyle lim w (1 / 20) lim n (1 / 20) with
              | error _ => rfl
              | ok st =>
                simp only
                cases assignNode n st w with
                | mk x w1 =>
                  cases x with
                  | error _ => rfl
                  | ok _ => exact ih w1

section
variable [DecidableEq C]

theorem rootPassWith_eq (lim : Nat) (ns : List NRef) : ∀ (used : Dict C Nat) (w : World C),
    rootPassWith lim none ns used w = rootPass lim ns used w := by
  induction ns with
  | nil => intro _ _; rfl
  | cons n ns ih =>
    intro used w
    simp only [rootPassWith, rootPass, W.bind_apply, W.look_apply]
    cases (w.heap.node n).style with
    | some s => exact ih used w
    | none =>
      simp only [W.bind_apply, W.ask_apply]
      cases isRootOrParentsInLoop lim w.heap n with
      | error _ => rfl
      | ok b =>
        cases b with
        | false => exact ih used w
        | true =>
          simp only [if_true, W.bind_apply, W.ask_apply, W.look_apply, freshStyle]
          cases getLeastUsedColour used with
          | error _ => rfl
          | ok r =>
            simp only
            cases assignNode n (.make { colour := some r.1 }) w with
            | mk x w1 =>
              cases x with
              | error _ => rfl
              | ok _ => exact ih r.2 w1

theorem randomPassWith_eq (ns : List NRef) : ∀ (used : Dict C Nat) (w : World C),
    randomPassWith none ns used w = randomPass ns used w := by
  induction ns with
  | nil => intro _ _; rfl
  | cons n ns ih =>
    intro used w
    simp only [randomPassWith, randomPass, W.bind_apply, W.look_apply, W.ask_apply, freshStyle]
    cases getLeastUsedColour used with
    | error _ => rfl
    | ok r =>
      simp only
      cases assignNode n (.make { colour := some r.1 }) w with
      | mk x w1 =>
        cases x with
        | error _ => rfl
        | ok _ => exact ih r.2 w1

/-- **C91**: `stylize` calls the stylists with their defaults: what the theorems about `stylize` say holds for them. -/
theorem C91_defaults (lim : Nat) (shuffle : List NRef → List NRef) (g : GRef) (w : World C) :
    pensieveWith lim {} g w = stylizeWithPensieve lim g w ∧ randomlyWith shuffle {} g w = stylizeRandomly shuffle g w := by
  constructor
  · simp only [pensieveWith, stylizeWithPensieve, W.bind_apply, W.look_apply, rootPassWith_eq, branchPassWith_eq, W.ask_apply]
    cases W.display g w with
    | mk x w0 =>
      cases x with
      | error _ => rfl
      | ok d =>
        simp only
        cases rootPass lim (graphNodes w0.heap g) (coloursUnused d.scheme) w0 with
        | mk x w1 =>
          cases x with
          | error _ => rfl
          | ok _ =>
            simp only
            cases branchPass lim (graphNodes w0.heap g) w1 with
            | mk x w2 =>
              cases x with
              | error _ => rfl
              | ok _ =>
                simp only
                cases graphEdges w2.heap g with
                | error _ => rfl
                | ok es => exact edgePassWith_eq _ es none (by simp) w2
  · simp only [randomlyWith, stylizeRandomly, W.bind_apply, W.look_apply, randomPassWith_eq, W.ask_apply]
    cases W.display g w with
    | mk x w0 =>
      cases x with
      | error _ => rfl
      | ok d =>
        simp only
        cases randomPass (shuffle (graphNodes w0.heap g)) (coloursUnused d.scheme) w0 with
        | mk x w1 =>
          cases x with
          | error _ => rfl
          | ok _ =>
            simp only
            cases graphEdges w1.heap g with
            | error _ => rfl
            | ok es => exact edgePassWith_eq _ es none (by simp) w1
end

/-! ## With given styles -/

section
variable {w : World C} {g : GRef}

open scoped Classical in
/-- The pass over the edges, when every start has a style. -/
theorem edgesWith_run {w2 : World C} (r : Reachable w.heap) (S : SameBody w.heap w2.heap) (F : Fine w2) (hE : edgeLook w2 = edgeLook w)
    (b : Brush) {E : Option (EdgeStyle C)} (hgiv : b.edge.map w2.es = E) (hwhole : ∀ s, E = some s → s.textAuto ≠ none)
    (hstyled : ∀ e n, LiveEdge w.heap g e → edgeLook w e = none → edgeStart w.heap e = .ok n → nodeLook w2 n ≠ none)
    (hval : ∀ e, LiveEdge w.heap g e → edgeLook w e = none → (w.heap.edge e).value.factor ≠ none)
    {es : List ERef} (e2 : es.Nodup) (hlive : ∀ e, e ∈ es ↔ LiveEdge w.heap g e) :
    ∃ w', edgePassWith b.darkness es (b.edge.map w2.es) w2 = (.ok (), w') ∧ Becomes w2 w' (nodeLook w2) (edgeLook w') ∧ Kept w2 w' ∧
      (∀ j (hj : j < (es.filter fun e => decide (edgeLook w e = none)).length), ∃ n s,
        edgeStart w.heap (es.filter fun e => decide (edgeLook w e = none))[j] = .ok n ∧ nodeLook w' n = some s ∧
        edgeLook w' (es.filter fun e => decide (edgeLook w e = none))[j] =
          some (penned E (darken s.colour b.darkness)
            ((((es.filter fun e => decide (edgeLook w e = none)).take (j + 1)).map
              fun e => ((w.heap.edge e).value.factor).getD 1).foldl (· * ·) (firstSize E)))) ∧
      (∀ e, edgeLook w e ≠ none ∨ e ∉ es → edgeLook w' e = edgeLook w e) := by
  let colour : ERef → C := fun e => match startColour w2 e with
    | .ok c => darken c b.darkness
    | .error _ => Palette.default
  have hready : ∀ e ∈ es, edgeLook w2 e = none → ∃ n s, edgeStart w.heap e = .ok n ∧ nodeLook w2 n = some s ∧
      startColour w2 e = .ok s.colour := by
    intro e he hl
    rw [hE] at hl
    obtain ⟨n, hn, hen⟩ := live_start r ((hlive e).1 he)
    have h1 := hstyled e n ((hlive e).1 he) hl hen
    cases hst : (w2.heap.node n).style with
    | none => exact absurd (nodeLook_none.2 hst) h1
    | some s =>
      refine ⟨n, w2.ns s, hen, by simp [nodeLook, hst], ?_⟩
      simp [startColour, ← S.edgeStart, hen, bind, Except.bind, hst]
  obtain ⟨w', p1, p2, p3⟩ := edgePassWith_run b.darkness E colour (fun e => ((w.heap.edge e).value.factor).getD 1) es w2 (b.edge.map w2.es)
    (firstSize E) F e2 (fun c => by rw [hgiv]; exact nextEdge_given E hwhole c) (by
      intro e he hl
      obtain ⟨n, s, h1, h2, h3⟩ := hready e he hl
      refine ⟨s.colour, ⟨h3, ?_⟩, by simp [colour, h3]⟩
      rw [← S.edgeValue]
      rw [hE] at hl
      have := hval e ((hlive e).1 he) hl
      cases hf : (w.heap.edge e).value.factor with
      | none => exact absurd hf this
      | some x => rfl)
  refine ⟨w', p1, ⟨p2.shape, p2.display, p2.fine, p2.nodes, rfl, p2.reach⟩, p3, ?_, ?_⟩
  · intro j hj
    have hm := List.getElem_mem hj
    obtain ⟨m1, m2⟩ := List.mem_filter.1 hm
    have m2 := of_decide_eq_true m2
    obtain ⟨n, s, h1, h2, h3⟩ := hready _ m1 (by rw [hE]; exact m2)
    refine ⟨n, s, h1, by rw [p2.nodes]; exact h2, ?_⟩
    rw [p2.edges, hE]
    rw [penOut_get _ _ _ _ (e2.filter _) _ _ j hj]
    simp only [colour, h3]
  · intro e he
    rw [p2.edges, hE]
    refine penOut_other _ _ _ _ _ _ ?_
    rw [List.mem_filter]
    rintro ⟨q1, q2⟩
    rcases he with he | he
    · exact he (of_decide_eq_true q2)
    · exact he q1

variable [DecidableEq C]

open scoped Classical in
/-- The passes over the nodes. -/
theorem nodesWith_run (F : Fine w) (r : Reachable w.heap) {d : Display C}
    (hown : ∀ n ∈ graphNodes w.heap g, (w.heap.node n).graph = some g) {lim : Nat} (hlim : (graphNodes w.heap g).length ≤ lim)
    (hs : d.scheme ≠ []) (b : Brush) (hmain : ∀ o, b.node = some o → o < w.heap.nStyle) :
    ∃ w1 w2, rootPassWith lim b.node (graphNodes w.heap g) (coloursUnused d.scheme) w = (.ok (), w1) ∧
      branchPassWith lim b (graphNodes w.heap g) w1 = (.ok (), w2) ∧ Becomes w w2 (nodeLook w2) (edgeLook w) ∧ Kept w w2 ∧
      (∀ j (hj : j < ((graphNodes w.heap g).filter fun n => decide (nodeLook w n = none ∧ SemiRoot w.heap g n)).length),
        nodeLook w2 ((graphNodes w.heap g).filter fun n => decide (nodeLook w n = none ∧ SemiRoot w.heap g n))[j] =
          some (brushed (b.node.map w.ns) ((firsts d.scheme)[j % (firsts d.scheme).length]'(Nat.mod_lt _ (firsts_pos hs))))) ∧
      (∀ n ∈ graphNodes w.heap g, nodeLook w n = none → ¬ SemiRoot w.heap g n → ¬ OnLoop w.heap g n →
        ∃ s, nodeLook w2 n = some s ∧ Takes b (b.node.map w.ns) w.heap g (nodeLook w2) n s) ∧
      (∀ n, nodeLook w n ≠ none ∨ n ∉ graphNodes w.heap g ∨ Stranded w g n → nodeLook w2 n = nodeLook w n) := by
  have hnd := graphNodes_nodup r g
  have hr0 : rounds (firsts d.scheme) (0 / (firsts d.scheme).length) (0 % (firsts d.scheme).length) = coloursUnused d.scheme := by
    rw [coloursUnused_eq]; simp [rounds]
  obtain ⟨w1, a1, a2, K1⟩ := rootPassWith_run (g := g) (lim := lim) (firsts d.scheme) (nodup_firsts _) (firsts_pos hs) (graphNodes w.heap g) w 0 F r hown hlim
    (fun _ h => h) hnd rfl hmain
  rw [hr0] at a1
  have S := a2.shape
  have hget : ∀ n, nodeLook w n = none → SemiRoot w.heap g n → n ∈ graphNodes w.heap g → nodeLook w1 n ≠ none := by
    intro n h1 h2 h3
    obtain ⟨j, hj, hjn⟩ := mem_pick (p := fun n => nodeLook w n = none ∧ SemiRoot w.heap g n) h3 ⟨h1, h2⟩
    rw [a2.nodes]
    have := paintOut_get (brushed (b.node.map w.ns)) (fun i => (firsts d.scheme)[i % (firsts d.scheme).length]'(Nat.mod_lt _ (firsts_pos hs))) _ (hnd.filter _) 0 (nodeLook w) j hj
    rw [hjn] at this
    rw [this]
    simp
  have hkeep : ∀ n, ¬ (n ∈ graphNodes w.heap g ∧ nodeLook w n = none ∧ SemiRoot w.heap g n) → nodeLook w1 n = nodeLook w n := by
    intro n h
    rw [a2.nodes]
    exact paintOut_other _ _ _ _ _ (by simpa using h)
  have hroots : ∀ n ∈ graphNodes w1.heap g, SemiRoot w1.heap g n → nodeLook w1 n ≠ none := by
    intro n h1 h2
    rw [← S.graphNodes] at h1
    rw [← S.semiRoot] at h2
    by_cases h3 : nodeLook w n = none
    · exact hget n h3 h2 h1
    · rw [hkeep n (by simp [h3])]; exact h3
  obtain ⟨k1, k2⟩ := K1.given hmain
  obtain ⟨w2, N', b1, b2, K2, b3⟩ := branchPassWith_run (g := g) (lim := lim) b (graphNodes w.heap g) w1 a2.fine (a2.reach r)
    (fun x hx => by rw [← S.nodeGraph]; exact hown x (by rw [S.graphNodes]; exact hx))
    (by rw [← S.graphNodes]; exact hlim) (fun x hx => by rw [← S.graphNodes]; exact hx) hnd hroots k1 k2
  have hN := b2.nodes
  subst hN
  rw [← S.semiRoot, ← S.onLoop] at b3
  have hsemi : ∀ n, SemiRoot w.heap g n → nodeLook w2 n = nodeLook w1 n := fun n h => (b3 n).2 (fun hc => hc.2.2.1 h)
  have hb := a2.trans b2
  rw [a2.edges] at hb
  refine ⟨w1, w2, a1, b1, hb, K1.trans K2, ?_, ?_, ?_⟩
  · intro j hj
    have hm := List.getElem_mem hj
    obtain ⟨-, hm2⟩ := List.mem_filter.1 hm
    have hm2 := of_decide_eq_true hm2
    rw [hsemi _ hm2.2, a2.nodes]
    have := paintOut_get (brushed (b.node.map w.ns)) (fun i => (firsts d.scheme)[i % (firsts d.scheme).length]'(Nat.mod_lt _ (firsts_pos hs))) _ (hnd.filter _) 0 (nodeLook w) j hj
    rw [this]
    simp
  · intro n h1 h2 h3 h4
    obtain ⟨s, s1, s2⟩ := (b3 n).1 ⟨h1, by rw [hkeep n (by simp [h3])]; exact h2, h3, h4⟩
    refine ⟨s, s1, s2.move S.symm (fun x hx => ?_)⟩
    rw [← S.semiRoot] at hx
    exact (hsemi x hx).symm
  · intro n h
    have h1 : nodeLook w1 n = nodeLook w n := by
      refine hkeep n ?_
      rintro ⟨c1, c2, c3⟩
      rcases h with h | h | ⟨-, -, h⟩
      · exact h c2
      · exact h c1
      · exact not_semiRoot.2 h c3
    rw [← h1]
    refine (b3 n).2 ?_
    rintro ⟨c1, c2, c3, c4⟩
    rw [h1] at c2
    rcases h with h | h | ⟨-, h, -⟩
    · exact h c2
    · exact h c1
    · exact c4 h

open scoped Classical in
/-- **C91**, **C93**, everything that `stylize_with_pensieve` does with given styles and ratios: the nodes without style that have
no parents off cycles get the given style (or the default one) in the colours of the scheme, one after the other; the other nodes
without style off cycles take their colour from it, or from their parents; the edges without style get the given edge style in the
darkened colour of their start, with the sizes of the arrows multiplied up. Nothing else changes: not the styles that were there, and
not the given ones. -/
theorem C91_pensieve (F : Fine w) (r : Reachable w.heap) {d : Display C} (hd : w.display g = some d)
    (hown : ∀ n ∈ graphNodes w.heap g, (w.heap.node n).graph = some g) {lim : Nat} (hlim : (graphNodes w.heap g).length ≤ lim)
    (hs : d.scheme ≠ []) (b : Brush) (hmain : ∀ o, b.node = some o → o < w.heap.nStyle)
    (hpen : ∀ o, b.edge = some o → o < w.heap.nStyle ∧ (w.es o).textAuto ≠ none)
    (hstart : ∀ e n, LiveEdge w.heap g e → edgeLook w e = none → edgeStart w.heap e = .ok n → ¬ Stranded w g n)
    (hval : ∀ e, LiveEdge w.heap g e → edgeLook w e = none → (w.heap.edge e).value.factor ≠ none) :
    ∃ w' es, pensieveWith lim b g w = (.ok (), w') ∧ Becomes w w' (nodeLook w') (edgeLook w') ∧ Kept w w' ∧
      graphEdges w.heap g = .ok es ∧ es.Nodup ∧ (∀ e, e ∈ es ↔ LiveEdge w.heap g e) ∧
      (∀ j (hj : j < ((graphNodes w.heap g).filter fun n => decide (nodeLook w n = none ∧ SemiRoot w.heap g n)).length),
        nodeLook w' ((graphNodes w.heap g).filter fun n => decide (nodeLook w n = none ∧ SemiRoot w.heap g n))[j] =
          some (brushed (b.node.map w.ns) ((firsts d.scheme)[j % (firsts d.scheme).length]'(Nat.mod_lt _ (firsts_pos hs))))) ∧
      (∀ n ∈ graphNodes w.heap g, nodeLook w n = none → ¬ SemiRoot w.heap g n → ¬ OnLoop w.heap g n →
        ∃ s, nodeLook w' n = some s ∧ Takes b (b.node.map w.ns) w.heap g (nodeLook w') n s) ∧
      (∀ n, nodeLook w n ≠ none ∨ n ∉ graphNodes w.heap g ∨ Stranded w g n → nodeLook w' n = nodeLook w n) ∧
      (∀ j (hj : j < (es.filter fun e => decide (edgeLook w e = none)).length), ∃ n s,
        edgeStart w.heap (es.filter fun e => decide (edgeLook w e = none))[j] = .ok n ∧ nodeLook w' n = some s ∧
        edgeLook w' (es.filter fun e => decide (edgeLook w e = none))[j] =
          some (penned (b.edge.map w.es) (darken s.colour b.darkness)
            ((((es.filter fun e => decide (edgeLook w e = none)).take (j + 1)).map
              fun e => ((w.heap.edge e).value.factor).getD 1).foldl (· * ·) (firstSize (b.edge.map w.es))))) ∧
      (∀ e, edgeLook w e ≠ none ∨ e ∉ es → edgeLook w' e = edgeLook w e) := by
  obtain ⟨w1, w2, a1, a2, B, K, c1, c2, c3⟩ := nodesWith_run F r hown hlim hs b hmain
  obtain ⟨es, e1, e2, e3, -⟩ := C11_edges r g
  have S := B.shape
  have hstyled : ∀ n ∈ graphNodes w.heap g, ¬ Stranded w g n → nodeLook w2 n ≠ none := by
    intro n hn hns
    by_cases h1 : nodeLook w n = none
    · by_cases h2 : SemiRoot w.heap g n
      · obtain ⟨j, hj, hjn⟩ := mem_pick (p := fun n => nodeLook w n = none ∧ SemiRoot w.heap g n) hn ⟨h1, h2⟩
        have := c1 j hj
        rw [hjn] at this
        rw [this]; simp
      · by_cases h3 : OnLoop w.heap g n
        · exact absurd ⟨h1, h3, not_semiRoot.1 h2⟩ hns
        · obtain ⟨s, hs, -⟩ := c2 n hn h1 h2 h3
          rw [hs]; simp
    · rw [c3 n (.inl h1)]; exact h1
  have hE : b.edge.map w2.es = b.edge.map w.es := by
    cases hb : b.edge with
    | none => rfl
    | some o => simp [K.edge o (hpen o hb).1]
  obtain ⟨w', p1, p2, p3, p4, p5⟩ := edgesWith_run (g := g) r S B.fine B.edges b hE (by
      intro s h
      cases hb : b.edge with
      | none => rw [hb] at h; cases h
      | some o => rw [hb] at h; cases h; exact (hpen o hb).2)
    (fun e n he hl hen => by
      obtain ⟨m, hm, hm'⟩ := live_start r he
      rw [hen] at hm'
      cases hm'
      exact hstyled n hm (hstart e n he hl hen)) hval e2 e3
  have hB := B.trans p2
  refine ⟨w', es, ?_, ⟨hB.shape, hB.display, hB.fine, rfl, rfl, hB.reach⟩, K.trans p3, e1, e2, e3, ?_, ?_, ?_, p4, p5⟩
  · simp only [pensieveWith, W.bind_apply, W.display, hd, W.look_apply, a1, a2, W.ask_apply, ← S.graphEdges, e1, p1]
  · intro j hj; rw [p2.nodes]; exact c1 j hj
  · intro n h1 h2 h3 h4; rw [p2.nodes]; exact c2 n h1 h2 h3 h4
  · intro n hn; rw [p2.nodes]; exact c3 n hn

open scoped Classical in
/-- **C91**, **C93**, everything that `stylize_randomly` does with given styles, on a graph that allows overwriting styles, or has
none: the nodes get the given style (or the default one), in the shuffled order, in the colours of the scheme one after the other. -/
theorem C91_randomly (F : Fine w) (r : Reachable w.heap) {d : Display C} (hd : w.display g = some d) {shuffle : List NRef → List NRef}
    (hsh : ∀ l, (shuffle l).Perm l)
    (hfree : ∀ n ∈ graphNodes w.heap g, nodeLook w n = none ∨ ∃ g', (w.heap.node n).graph = some g' ∧ (w.heap.graph g').overwrite = some true)
    (hs : d.scheme ≠ []) (b : Brush) (hmain : ∀ o, b.node = some o → o < w.heap.nStyle)
    (hpen : ∀ o, b.edge = some o → o < w.heap.nStyle ∧ (w.es o).textAuto ≠ none)
    (hval : ∀ e, LiveEdge w.heap g e → edgeLook w e = none → (w.heap.edge e).value.factor ≠ none) :
    ∃ w' es, randomlyWith shuffle b g w = (.ok (), w') ∧ Becomes w w' (nodeLook w') (edgeLook w') ∧ Kept w w' ∧
      graphEdges w.heap g = .ok es ∧ es.Nodup ∧ (∀ e, e ∈ es ↔ LiveEdge w.heap g e) ∧
      (∀ j (hj : j < (shuffle (graphNodes w.heap g)).length),
        nodeLook w' (shuffle (graphNodes w.heap g))[j] =
          some (brushed (b.node.map w.ns) ((firsts d.scheme)[j % (firsts d.scheme).length]'(Nat.mod_lt _ (firsts_pos hs))))) ∧
      (∀ n, n ∉ graphNodes w.heap g → nodeLook w' n = nodeLook w n) ∧
      (∀ j (hj : j < (es.filter fun e => decide (edgeLook w e = none)).length), ∃ n s,
        edgeStart w.heap (es.filter fun e => decide (edgeLook w e = none))[j] = .ok n ∧ nodeLook w' n = some s ∧
        edgeLook w' (es.filter fun e => decide (edgeLook w e = none))[j] =
          some (penned (b.edge.map w.es) (darken s.colour b.darkness)
            ((((es.filter fun e => decide (edgeLook w e = none)).take (j + 1)).map
              fun e => ((w.heap.edge e).value.factor).getD 1).foldl (· * ·) (firstSize (b.edge.map w.es))))) ∧
      (∀ e, edgeLook w e ≠ none ∨ e ∉ es → edgeLook w' e = edgeLook w e) := by
  have hnd := (hsh _).nodup_iff.2 (graphNodes_nodup r g)
  have hr0 : rounds (firsts d.scheme) (0 / (firsts d.scheme).length) (0 % (firsts d.scheme).length) = coloursUnused d.scheme := by
    rw [coloursUnused_eq]; simp [rounds]
  obtain ⟨w2, a1, B, K⟩ := randomPassWith_run (firsts d.scheme) (nodup_firsts _) (firsts_pos hs) (shuffle (graphNodes w.heap g)) w 0 F hnd
    (fun n hn => by
      rcases hfree n ((hsh _).mem_iff.1 hn) with h | h
      · exact .inl (nodeLook_none.1 h)
      · exact .inr h) rfl hmain
  rw [hr0] at a1
  obtain ⟨es, e1, e2, e3, -⟩ := C11_edges r g
  have S := B.shape
  have hall : ∀ j (hj : j < (shuffle (graphNodes w.heap g)).length),
        nodeLook w2 (shuffle (graphNodes w.heap g))[j] =
          some (brushed (b.node.map w.ns) ((firsts d.scheme)[j % (firsts d.scheme).length]'(Nat.mod_lt _ (firsts_pos hs)))) := by
    intro j hj
    rw [B.nodes, paintOut_get _ _ _ hnd _ _ j hj]
    simp
  have hE : b.edge.map w2.es = b.edge.map w.es := by
    cases hb : b.edge with
    | none => rfl
    | some o => simp [K.edge o (hpen o hb).1]
  obtain ⟨w', p1, p2, p3, p4, p5⟩ := edgesWith_run (g := g) r S B.fine B.edges b hE (by
      intro s h
      cases hb : b.edge with
      | none => rw [hb] at h; cases h
      | some o => rw [hb] at h; cases h; exact (hpen o hb).2)
    (fun e n he hl hen => by
      obtain ⟨m, hm, hm'⟩ := live_start r he
      rw [hen] at hm'
      cases hm'
      obtain ⟨j, hj, hjn⟩ := List.getElem_of_mem ((hsh _).mem_iff.2 hm)
      have := hall j hj
      rw [hjn] at this
      rw [this]; simp) hval e2 e3
  have hB := B.trans p2
  refine ⟨w', es, ?_, ⟨hB.shape, hB.display, hB.fine, rfl, rfl, hB.reach⟩, K.trans p3, e1, e2, e3, ?_, ?_, p4, p5⟩
  · simp only [randomlyWith, W.bind_apply, W.display, hd, W.look_apply, a1, W.ask_apply, ← S.graphEdges, e1, p1]
  · intro j hj; rw [p2.nodes]; exact hall j hj
  · intro n hn
    rw [p2.nodes, B.nodes]
    exact paintOut_other _ _ _ _ _ (fun h => hn ((hsh _).mem_iff.1 h))

/-! ## What users see -/

/-- A node that gets its style from a stylist with a given style looks like the given style, in some colour. -/
theorem painted_tinted (F : Fine w) (r : Reachable w.heap) {d : Display C} (hd : w.display g = some d)
    (hown : ∀ n ∈ graphNodes w.heap g, (w.heap.node n).graph = some g) {lim : Nat} (hlim : (graphNodes w.heap g).length ≤ lim)
    (hs : d.scheme ≠ []) (b : Brush) {o : SRef} (hb : b.node = some o) (ho : o < w.heap.nStyle)
    (hpen : ∀ o, b.edge = some o → o < w.heap.nStyle ∧ (w.es o).textAuto ≠ none)
    (hstart : ∀ e n, LiveEdge w.heap g e → edgeLook w e = none → edgeStart w.heap e = .ok n → ¬ Stranded w g n)
    (hval : ∀ e, LiveEdge w.heap g e → edgeLook w e = none → (w.heap.edge e).value.factor ≠ none)
    {w' : World C} (hok : pensieveWith lim b g w = (.ok (), w')) {n : NRef} {t : NodeStyle C} (hn : nodeLook w n = none)
    (ht : nodeLook w' n = some t) : ∃ c, t = tinted (w.ns o) c := by
  classical
  obtain ⟨w1, es, q1, -, -, -, -, -, q2, q3, q4, -⟩ := C91_pensieve F r hd hown hlim hs b
    (fun x hx => by rw [hb] at hx; cases hx; exact ho) hpen hstart hval
  rw [hok] at q1
  cases q1
  rw [hb] at q2 q3
  by_cases h1 : n ∈ graphNodes w.heap g
  · by_cases h2 : SemiRoot w.heap g n
    · obtain ⟨j, hj, hjn⟩ := mem_pick (p := fun n => nodeLook w n = none ∧ SemiRoot w.heap g n) h1 ⟨hn, h2⟩
      have := q2 j hj
      rw [hjn, ht] at this
      cases this
      exact ⟨_, rfl⟩
    · by_cases h3 : OnLoop w.heap g n
      · rw [q4 n (.inr (.inr ⟨hn, h3, not_semiRoot.1 h2⟩)), hn] at ht
        cases ht
      · obtain ⟨s, s1, c, -, s2⟩ := q3 n h1 hn h2 h3
        rw [ht] at s1
        cases s1
        exact ⟨c, s2⟩
  · rw [q4 n (.inr (.inl h1)), hn] at ht
    cases ht

/-- **C91**, the part that holds: a node painted with a given style has its shape, its shape style, its font, its text size and its
opacity. Missing for the full property: whether the fill is lighter or darker than the border (`C91_lighter_violated`). -/
theorem C91_keeps_partial (F : Fine w) (r : Reachable w.heap) {d : Display C} (hd : w.display g = some d)
    (hown : ∀ n ∈ graphNodes w.heap g, (w.heap.node n).graph = some g) {lim : Nat} (hlim : (graphNodes w.heap g).length ≤ lim)
    (hs : d.scheme ≠ []) (b : Brush) {o : SRef} (hb : b.node = some o) (ho : o < w.heap.nStyle)
    (hpen : ∀ o, b.edge = some o → o < w.heap.nStyle ∧ (w.es o).textAuto ≠ none)
    (hstart : ∀ e n, LiveEdge w.heap g e → edgeLook w e = none → edgeStart w.heap e = .ok n → ¬ Stranded w g n)
    (hval : ∀ e, LiveEdge w.heap g e → edgeLook w e = none → (w.heap.edge e).value.factor ≠ none)
    {w' : World C} (hok : pensieveWith lim b g w = (.ok (), w')) {n : NRef} {t : NodeStyle C} (hn : nodeLook w n = none)
    (ht : nodeLook w' n = some t) :
    t.shape = (w.ns o).shape ∧ t.shapeStyle = (w.ns o).shapeStyle ∧ t.font = (w.ns o).font ∧ t.textSize = (w.ns o).textSize ∧
      t.opacity = (w.ns o).opacity := by
  obtain ⟨c, rfl⟩ := painted_tinted F r hd hown hlim hs b hb ho hpen hstart hval hok hn ht
  exact ⟨rfl, rfl, rfl, rfl, rfl⟩

/-- **C91**, violated for `lighter_fill`: whatever the given style says, the fill is lighter than the colour and the border darker. -/
theorem C91_lighter_violated (F : Fine w) (r : Reachable w.heap) {d : Display C} (hd : w.display g = some d)
    (hown : ∀ n ∈ graphNodes w.heap g, (w.heap.node n).graph = some g) {lim : Nat} (hlim : (graphNodes w.heap g).length ≤ lim)
    (hs : d.scheme ≠ []) (b : Brush) {o : SRef} (hb : b.node = some o) (ho : o < w.heap.nStyle)
    (hpen : ∀ o, b.edge = some o → o < w.heap.nStyle ∧ (w.es o).textAuto ≠ none)
    (hstart : ∀ e n, LiveEdge w.heap g e → edgeLook w e = none → edgeStart w.heap e = .ok n → ¬ Stranded w g n)
    (hval : ∀ e, LiveEdge w.heap g e → edgeLook w e = none → (w.heap.edge e).value.factor ≠ none)
    {w' : World C} (hok : pensieveWith lim b g w = (.ok (), w')) {n : NRef} {t : NodeStyle C} (hn : nodeLook w n = none)
    (ht : nodeLook w' n = some t) : t.fill = some (lighten t.colour (1 / 2)) ∧ t.border = some (darken t.colour (1 / 6)) := by
  obtain ⟨c, rfl⟩ := painted_tinted F r hd hown hlim hs b hb ho hpen hstart hval hok hn ht
  exact ⟨rfl, rfl⟩

/-- **C92**, what happens: with a given style, a node off cycles with one parent, off cycles too, gets the colour of the given
style, turned by its place among its siblings; the colour of its parent does not come into it. -/
theorem C92_independent (F : Fine w) (r : Reachable w.heap) {d : Display C} (hd : w.display g = some d)
    (hown : ∀ n ∈ graphNodes w.heap g, (w.heap.node n).graph = some g) {lim : Nat} (hlim : (graphNodes w.heap g).length ≤ lim)
    (hs : d.scheme ≠ []) (b : Brush) {o : SRef} (hb : b.node = some o) (ho : o < w.heap.nStyle)
    (hpen : ∀ o, b.edge = some o → o < w.heap.nStyle ∧ (w.es o).textAuto ≠ none)
    (hstart : ∀ e n, LiveEdge w.heap g e → edgeLook w e = none → edgeStart w.heap e = .ok n → ¬ Stranded w g n)
    (hval : ∀ e, LiveEdge w.heap g e → edgeLook w e = none → (w.heap.edge e).value.factor ≠ none)
    {w' : World C} (hok : pensieveWith lim b g w = (.ok (), w')) {n p : NRef} (hn : n ∈ graphNodes w.heap g) (h1 : nodeLook w n = none)
    (h2 : ¬ OnLoop w.heap g n) (h3 : nodeParents w.heap n = .ok [p]) (h4 : ¬ OnLoop w.heap g p) :
    ∃ children x, nodeChildren w.heap p = .ok children ∧
      getDivergingNumber (children.countP fun c => decide (nodeLt w.heap c n = .ok true)) children.length false = .ok x ∧
      nodeLook w' n = some (tinted (w.ns o) (scaleSaturation (increaseHue (w.ns o).colour (b.divergence * x)) (3 / 4))) := by
  classical
  obtain ⟨w1, es, q1, -, -, -, -, -, -, q3, -⟩ := C91_pensieve F r hd hown hlim hs b
    (fun x hx => by rw [hb] at hx; cases hx; exact ho) hpen hstart hval
  rw [hok] at q1
  cases q1
  rw [hb] at q3
  have ha : Arrow w.heap g p n := by
    refine (mem_pars r hn).1 ?_
    have := nodeParents_eq r hown hn
    rw [h3] at this
    rw [← Except.ok.inj this]
    simp
  have hsr : ¬ SemiRoot w.heap g n := not_semiRoot.2 ⟨p, ha, h4⟩
  obtain ⟨s, s1, c, s2, s3⟩ := q3 n hn h1 hsr h2
  cases s2 with
  | own h => exact absurd h hsr
  | @only _ _ q children rank x h5 h6 h7 h8 h9 =>
    rw [h3] at h6
    cases h6
    subst h8
    exact ⟨children, x, h7, h9, by rw [s1, s3]⟩
  | mix colour h5 h6 h7 h8 =>
    rw [h3] at h6
    cases h6
    simp at h7

/-- **C93**, the part that holds: an edge painted with a given edge style has its font, its text size, its opacity and its line
width; its colour, and that of its text, is that of its start, darkened; its arrows have the size of the style when no edge has a
value. Missing for the full property: the style of the label (`C93_label_violated`), and sizes (`C93_size`). -/
theorem C93_keeps_partial (F : Fine w) (r : Reachable w.heap) {d : Display C} (hd : w.display g = some d)
    (hown : ∀ n ∈ graphNodes w.heap g, (w.heap.node n).graph = some g) {lim : Nat} (hlim : (graphNodes w.heap g).length ≤ lim)
    (hs : d.scheme ≠ []) (b : Brush) (hmain : ∀ o, b.node = some o → o < w.heap.nStyle) {o : SRef} (hb : b.edge = some o)
    (ho : o < w.heap.nStyle) (hwhole : (w.es o).textAuto ≠ none)
    (hstart : ∀ e n, LiveEdge w.heap g e → edgeLook w e = none → edgeStart w.heap e = .ok n → ¬ Stranded w g n)
    (hval : ∀ e, LiveEdge w.heap g e → edgeLook w e = none → (w.heap.edge e).value.factor ≠ none)
    {w' : World C} (hok : pensieveWith lim b g w = (.ok (), w')) {e : ERef} (he : LiveEdge w.heap g e) (hn : edgeLook w e = none) :
    ∃ n s t, edgeStart w.heap e = .ok n ∧ nodeLook w' n = some s ∧ edgeLook w' e = some t ∧
      t.font = (w.es o).font ∧ t.textSize = (w.es o).textSize ∧ t.opacity = (w.es o).opacity ∧ t.lineWidth = (w.es o).lineWidth ∧
      t.colour = darken s.colour b.darkness ∧ t.text = some t.colour ∧ t.labelStyle = some "below" ∧
      ((∀ e, LiveEdge w.heap g e → (w.heap.edge e).value = .none) → t.arrowSize = (w.es o).arrowSize) := by
  classical
  obtain ⟨w1, es, q1, -, -, -, -, q2, -, -, -, q3, -⟩ := C91_pensieve F r hd hown hlim hs b hmain
    (fun x hx => by rw [hb] at hx; cases hx; exact ⟨ho, hwhole⟩) hstart hval
  rw [hok] at q1
  cases q1
  rw [hb] at q3
  obtain ⟨j, hj, hje⟩ := mem_pick (p := fun e => edgeLook w e = none) ((q2 e).2 he) hn
  obtain ⟨n, s, h1, h2, h3⟩ := q3 j hj
  rw [hje] at h1 h3
  refine ⟨n, s, _, h1, h2, h3, rfl, rfl, rfl, rfl, rfl, rfl, rfl, fun hno => ?_⟩
  simp only [Option.map_some, penned, firstSize]
  have : ∀ l : List ERef, (∀ e ∈ l, LiveEdge w.heap g e) → ∀ a : Rat,
      (l.map fun e => ((w.heap.edge e).value.factor).getD 1).foldl (· * ·) a = a := by
    intro l
    induction l with
    | nil => intro _ a; rfl
    | cons x l ih =>
      intro hl a
      simp only [List.map_cons, List.foldl_cons, hno x (hl x (by simp)), Val.factor, Option.getD_some, Rat.mul_one]
      exact ih (fun e h => hl e (by simp [h])) a
  exact this _ (fun x hx => (q2 x).1 (List.mem_filter.1 (List.mem_of_mem_take hx)).1) _

/-- **C93**, violated for the style of labels: whatever the given edge style says, labels are drawn below. -/
theorem C93_label_violated (F : Fine w) (r : Reachable w.heap) {d : Display C} (hd : w.display g = some d)
    (hown : ∀ n ∈ graphNodes w.heap g, (w.heap.node n).graph = some g) {lim : Nat} (hlim : (graphNodes w.heap g).length ≤ lim)
    (hs : d.scheme ≠ []) (b : Brush) (hmain : ∀ o, b.node = some o → o < w.heap.nStyle) {o : SRef} (hb : b.edge = some o)
    (ho : o < w.heap.nStyle) (hwhole : (w.es o).textAuto ≠ none) (hl : (w.es o).labelStyle ≠ some "below")
    (hstart : ∀ e n, LiveEdge w.heap g e → edgeLook w e = none → edgeStart w.heap e = .ok n → ¬ Stranded w g n)
    (hval : ∀ e, LiveEdge w.heap g e → edgeLook w e = none → (w.heap.edge e).value.factor ≠ none)
    {w' : World C} (hok : pensieveWith lim b g w = (.ok (), w')) {e : ERef} (he : LiveEdge w.heap g e) (hn : edgeLook w e = none) :
    ∃ t, edgeLook w' e = some t ∧ t.labelStyle ≠ (w.es o).labelStyle := by
  obtain ⟨n, s, t, -, -, h3, -, -, -, -, -, -, h4, -⟩ := C93_keeps_partial F r hd hown hlim hs b hmain hb ho hwhole hstart hval hok he hn
  exact ⟨t, h3, by rw [h4]; exact fun h => hl h.symm⟩

/-- **C93**, sizes: the arrows of the edges without style have the size of the given style, multiplied with the values of all such
edges up to this one. -/
theorem C93_size (F : Fine w) (r : Reachable w.heap) {d : Display C} (hd : w.display g = some d)
    (hown : ∀ n ∈ graphNodes w.heap g, (w.heap.node n).graph = some g) {lim : Nat} (hlim : (graphNodes w.heap g).length ≤ lim)
    (hs : d.scheme ≠ []) (b : Brush) (hmain : ∀ o, b.node = some o → o < w.heap.nStyle) {o : SRef} (hb : b.edge = some o)
    (ho : o < w.heap.nStyle) (hwhole : (w.es o).textAuto ≠ none)
    (hstart : ∀ e n, LiveEdge w.heap g e → edgeLook w e = none → edgeStart w.heap e = .ok n → ¬ Stranded w g n)
    (hval : ∀ e, LiveEdge w.heap g e → edgeLook w e = none → (w.heap.edge e).value.factor ≠ none)
    {w' : World C} (hok : pensieveWith lim b g w = (.ok (), w')) {es fresh : List ERef}
    (hes : graphEdges w.heap g = .ok es) (hf : fresh = es.filter fun e => (w.heap.edge e).style.isNone) (j : Nat) (hj : j < fresh.length) :
    ∃ t, edgeLook w' fresh[j] = some t ∧
      t.arrowSize = ((fresh.take (j + 1)).map fun e => ((w.heap.edge e).value.factor).getD 1).foldl (· * ·) (w.es o).arrowSize := by
  classical
  obtain ⟨w1, es', q1, -, -, q0, -, -, -, -, -, q3, -⟩ := C91_pensieve F r hd hown hlim hs b hmain
    (fun x hx => by rw [hb] at hx; cases hx; exact ⟨ho, hwhole⟩) hstart hval
  rw [hok] at q1
  cases q1
  rw [hes] at q0
  cases q0
  rw [hb] at q3
  have hfr : fresh = es.filter fun e => decide (edgeLook w e = none) := by
    rw [hf]
    refine List.filter_congr fun e _ => ?_
    simp only [edgeLook_none]
    cases (w.heap.edge e).style <;> simp
  subst hfr
  obtain ⟨n, s, -, -, h3⟩ := q3 j hj
  exact ⟨_, h3, rfl⟩

/-- **C93**, violated by styles that were deep-copied, or are taken from a graph that was: when an edge has no style, the stylist
raises `AttributeError`. -/
theorem C93_deepcopy_violated (F : Fine w) (r : Reachable w.heap) {d : Display C} (hd : w.display g = some d)
    (hown : ∀ n ∈ graphNodes w.heap g, (w.heap.node n).graph = some g) {lim : Nat} (hlim : (graphNodes w.heap g).length ≤ lim)
    (hs : d.scheme ≠ []) (b : Brush) (hmain : ∀ o, b.node = some o → o < w.heap.nStyle) {o : SRef} (hb : b.edge = some o)
    (ho : o < w.heap.nStyle) (hcopied : (w.es o).textAuto = none) {e : ERef} (he : LiveEdge w.heap g e) (hn : edgeLook w e = none) :
    (pensieveWith lim b g w).1 = .error .attributeError := by
  obtain ⟨w1, w2, a1, a2, B, K, c1, c2, c3⟩ := nodesWith_run F r hown hlim hs b hmain
  obtain ⟨es, e1, e2, e3, -⟩ := C11_edges r g
  have S := B.shape
  simp only [pensieveWith, W.bind_apply, W.display, hd, W.look_apply, a1, a2, W.ask_apply, ← S.graphEdges, e1, hb, Option.map_some, K.edge o ho]
  have key : ∀ l : List ERef, (∀ x ∈ l, ∃ n, edgeStart w2.heap x = .ok n) → (∃ x ∈ l, edgeLook w2 x = none) →
      (edgePassWith b.darkness l (some (w.es o)) w2).1 = .error .attributeError := by
    intro l
    induction l with
    | nil => intro _ h; simp at h
    | cons x l ih =>
      intro hst hex
      simp only [edgePassWith, W.bind_apply, W.look_apply]
      cases hx : (w2.heap.edge x).style with
      | some s =>
        refine ih (fun y hy => hst y (by simp [hy])) ?_
        obtain ⟨y, hy, hy'⟩ := hex
        rcases List.mem_cons.1 hy with rfl | hy
        · rw [edgeLook_none, hx] at hy'; cases hy'
        · exact ⟨y, hy, hy'⟩
      | none =>
        simp only [W.bind_apply, W.ask_apply]
        obtain ⟨n, hn⟩ := hst x (by simp)
        cases hsty : (w2.heap.node n).style with
        | none => simp [startColour, hn, bind, Except.bind, hsty]
        | some s => simp [startColour, hn, bind, Except.bind, hsty, nextEdgeStyleWith, EdgeStyle.copy, hcopied]
  refine key es (fun x hx => ?_) ⟨e, (e3 e).2 he, by rw [B.edges]; exact hn⟩
  obtain ⟨n, -, h⟩ := live_start r ((e3 x).1 hx)
  exact ⟨n, by rw [← S.edgeStart]; exact h⟩

/-! ## Loops -/

omit [DecidableEq C] in
/-- A style that is inherited has the shape of those it is inherited from. -/
theorem TintBy.shaped {light : Rat} {h : Heap} {base : NRef → Option (NodeStyle C)} {shape shapeStyle : Option String}
    {ns : List NRef} (hps : ∀ n ∈ ns, ∀ ps, nodeParents h n = .ok ps → ∀ p ∈ ps, p ∈ ns)
    (H : ∀ n ∈ ns, ∀ s, SemiRoot h g n → base n = some s → s.shape = shape ∧ s.shapeStyle = shapeStyle) {q : Rat} {n : NRef}
    {s : NodeStyle C} (T : TintBy light h g base q n s) : n ∈ ns → s.shape = shape ∧ s.shapeStyle = shapeStyle := by
  induction T with
  | @own _ n s h1 h2 =>
    intro hn
    have := H n hn s h1 h2
    simpa [NodeStyle.copy, NodeStyle.make] using this
  | only _ h2 _ _ _ _ ih => exact fun hn => ih (hps _ hn _ h2 _ (by simp))
  | @mix _ _ first parents rest style _ h2 _ h4 _ ih =>
    intro hn
    have : first ∈ parents := by
      have hm : first ∈ first :: rest := by simp
      rw [← h4] at hm
      exact (List.mem_filter.1 hm).1
    exact ih _ (by simp) (hps _ hn _ h2 _ this)

/-- **C94 is violated** by every graph without styles: no node that the default stylist paints is a circle, on a loop or not; all
are rounded boxes. -/
theorem C94_violated (F : Fine w) (r : Reachable w.heap) {d : Display C} (hd : w.display g = some d)
    (hown : ∀ n ∈ graphNodes w.heap g, (w.heap.node n).graph = some g) {lim : Nat} (hlim : (graphNodes w.heap g).length ≤ lim)
    (hs : d.scheme ≠ []) (hno : ∀ n ∈ graphNodes w.heap g, nodeLook w n = none)
    (hstr : ∀ n ∈ graphNodes w.heap g, ¬ Stranded w g n)
    (hval : ∀ e, LiveEdge w.heap g e → edgeLook w e = none → (w.heap.edge e).value.factor ≠ none)
    {w' : World C} (hok : stylizeWithPensieve lim g w = (.ok (), w')) {n : NRef} (hn : n ∈ graphNodes w.heap g) :
    ∃ s, nodeLook w' n = some s ∧ s.shape = some "box" ∧ s.shapeStyle = some "rounded, filled" := by
  classical
  obtain ⟨w1, es, q1, -, -, -, -, q2, q3, q4, -⟩ := pensieve_run F r hd hown hlim hs (by
    intro e n he _ hn
    obtain ⟨m, hm, hm'⟩ := live_start r he
    rw [hn] at hm'
    cases hm'
    exact hstr n hm) hval
  rw [hok] at q1
  cases q1
  have root : ∀ n ∈ graphNodes w.heap g, SemiRoot w.heap g n → ∃ c, nodeLook w' n = some (defaultNode c) := by
    intro n hn hr
    obtain ⟨j, hj, hjn⟩ := mem_pick (p := fun n => nodeLook w n = none ∧ SemiRoot w.heap g n) hn ⟨hno n hn, hr⟩
    have := q2 j hj
    rw [hjn] at this
    exact ⟨_, this⟩
  by_cases h2 : SemiRoot w.heap g n
  · obtain ⟨c, hc⟩ := root n hn h2
    exact ⟨_, hc, rfl, rfl⟩
  · by_cases h3 : OnLoop w.heap g n
    · exact absurd ⟨hno n hn, h3, not_semiRoot.1 h2⟩ (hstr n hn)
    · obtain ⟨s, s1, s2⟩ := q3 n hn (hno n hn) h2 h3
      refine ⟨s, s1, ?_⟩
      refine s2.shaped (ns := graphNodes w.heap g) (fun m hm ps hps p hp => ?_) (fun m hm t h1 h2 => ?_) hn
      · rw [nodeParents_eq r hown hm] at hps
        rw [← Except.ok.inj hps] at hp
        exact (arrow_mem r ((mem_pars r hm).1 hp)).1
      · obtain ⟨c, hc⟩ := root m hm h1
        rw [hc] at h2
        cases h2
        exact ⟨rfl, rfl⟩
end

/-! ## Violations -/

/-- `diamond`, and two style objects: 0, used by a node of another graph, and 1. -/
def easel : Heap :=
  runOps [.newGraph false true false, .add 1 "y", .add 1 "z", .nodeStyle 4 (.dict true), .nodeStyle 5 (.dict true)] diamond

theorem easel_reachable : Reachable easel :=
  Reachable.runOps diamond_reachable _ (by simp only [AllOk, Op.Ok, Op.add]; decide +kernel)

theorem easel_made : Made easel := by
  refine diamond_made.runOps _ ?_
  simp only [AllStylesOk, Op.StylesOk, Op.add, StyleArg.Below, and_self]

/-- Circles filled darker than their border, and thick edges with labels above. -/
def easelWorld : World Rat :=
  { plainWorld easel with
    ns := fun _ => { defaultNode 1 with shape := some "circle", font := some "times", lighter := false, fill := some (1 / 2) }
    es := fun _ => { defaultEdge 1 2 with labelStyle := some "above", lineWidth := some 3 } }

def easelBrush : Brush := { node := some 0, edge := some 1, pale := 1 / 10, divergence := 1 / 4, darkness := 1 / 2 }

/-- **C92 is violated**: painted with a given style, `b` and `c` do not take after their parent `a`: `a` is black and they are white,
like the given style. Painted without, they are black like `a`. -/
theorem C92_violated : Reachable easelWorld.heap ∧ Made easelWorld.heap ∧
    (pensieveWith 10 easelBrush 0 easelWorld).1 = .ok () ∧
    ([0, 1, 2].map fun n => (nodeLook (pensieveWith 10 easelBrush 0 easelWorld).2 n).map (·.colour)) = [some 0, some 1, some 1] ∧
    ([0, 1, 2].map fun n => (nodeLook (pensieveWith 10 {} 0 easelWorld).2 n).map (·.colour)) = [some 0, some 0, some 0] :=
  ⟨easel_reachable, easel_made, by decide +kernel, by decide +kernel, by decide +kernel⟩

end Verif
