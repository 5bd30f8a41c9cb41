import Verif.Lemmas.CanStyle
import Verif.Spec.Sensible
import Verif.Props.Leftover
import Verif.Props.Restyle
import Verif.Props.Draws
/-!
# When a graph can be styled and drawn

**C118.** Where styles may be overwritten and the settings make sense, a graph can be styled exactly if every style and colour given for a
single node or edge is for one that the graph has; and then it can be drawn unless its label has no place.
-/
namespace Verif
open Palette W
variable {C : Type}

theorem getNode_of_name {h : Heap} (r : Reachable h) {g : GRef} {k : Key} (hk : k ∈ namesOf h g) :
    ∃ n ∈ graphNodes h g, getNode h g (.key k) = .ok n := by
  obtain ⟨A, H⟩ := r.hist
  obtain ⟨n, hn, rfl⟩ := List.mem_map.1 hk
  obtain ⟨k', hk'⟩ := (mem_graphNodes H.rep).1 hn
  refine ⟨n, hn, H.rep.getNode_key.2 ?_⟩
  rw [(H.rep.nodeOk _ _ _ hk').2.1]
  exact hk'

theorem edgeById_of_live {h : Heap} (r : Reachable h) {g : GRef} {e : ERef} {i : EdgeId} (he : LiveEdge h g e) (hi : edgeId h e = .ok i) :
    ∃ e', LiveEdge h g e' ∧ edgeById h g i = .ok e' := by
  obtain ⟨es, d, h1, h2, h3, h4, h5⟩ := C11_edges_dict r g
  obtain ⟨es', h1', -, h6, -⟩ := C11_edges r g
  rw [h1] at h1'
  cases h1'
  obtain ⟨⟨j, e'⟩, hm, rfl⟩ := List.mem_map.1 ((h4 e).2 ((h6 e).2 he))
  have := h5 _ _ hm
  rw [hi] at this
  cases this
  exact ⟨e', he, by simp [edgeById, h2, bind, Except.bind, dget_of_mem h3 hm]⟩

section
variable [Palette C] [DecidableEq C] {lim : Nat} {shuffle : List NRef → List NRef} {g : GRef} {w : World C} {d : Display C}

omit [Palette C] [DecidableEq C] in
theorem stranded_moves {v : World C} {n : NRef} (S : SameBody w.heap v.heap) (hl : nodeLook v n = none → nodeLook w n = none)
    (h : Stranded v g n) : Stranded w g n := by
  obtain ⟨h1, h2, p, h3, h4⟩ := h
  unfold OnLoop at h2 h4
  rw [← S.path] at h2 h4
  rw [← S.arrow] at h3
  exact ⟨hl h1, h2, p, h3, h4⟩

omit [Palette C] in
theorem coloursUnused_ne {l : List C} (h : l ≠ []) : coloursUnused l ≠ [] := by
  rw [coloursUnused_eq]
  have := firsts_pos h
  intro e
  rw [List.map_eq_nil_iff.1 e] at this
  exact absurd this (Nat.lt_irrefl 0)

/-- The first two steps and the stylist go through and leave nothing without a style. -/
theorem first_steps (hsh : ∀ l, (shuffle l).Perm l) (F : Made w.heap) (r : Reachable w.heap)
    (hown : ∀ n ∈ graphNodes w.heap g, (w.heap.node n).graph = some g)
    (ho : (w.heap.graph g).overwrite = some true ∨ ((∀ n ∈ graphNodes w.heap g, nodeLook w n = none) ∧
      (∀ e, LiveEdge w.heap g e → edgeLook w e = none) ∧ (d.stylist = .random → d.globalNode = none ∨ graphNodes w.heap g = [])))
    (hlim : (graphNodes w.heap g).length ≤ lim) (hd : w.display g = some d) (hs : Sensible w g d) :
    ∃ w1 w2 w3, globalNodeAssign g d.globalNode w = (.ok (), w1) ∧ globalEdgeAssign g d.globalEdge w1 = (.ok (), w2) ∧
      runStylist lim shuffle g d.stylist w2 = (.ok (), w3) ∧ Quiet w w3 ∧ (∀ n ∈ graphNodes w.heap g, nodeLook w3 n ≠ none) ∧
      ∀ e, LiveEdge w.heap g e → Whole w3 e := by
  have own := owned_of_reachable r hown
  obtain ⟨es, hes, hnd, hlive, -⟩ := C11_edges r g
  have hlive : ∀ e, e ∈ es ↔ LiveEdge w.heap g e := hlive
  obtain ⟨w1, a1, a2, a3, a4⟩ : ∃ w1, globalNodeAssign g d.globalNode w = (.ok (), w1) ∧ Becomes w w1 (nodeLook w1) (edgeLook w) ∧
      (d.globalNode = none → nodeLook w1 = nodeLook w) ∧ (d.globalNode ≠ none → ∀ n ∈ graphNodes w.heap g, nodeLook w1 n ≠ none) := by
    cases hg : d.globalNode with
    | none => exact ⟨w, rfl, .refl F, fun _ => rfl, by simp⟩
    | some l =>
      obtain ⟨s1, s2⟩ := hs.nodeItems l hg
      obtain ⟨l', h1, h2⟩ := smartStyle_sane s1 s2
      obtain ⟨w1, h3, h4, h5⟩ := assignNodes_sane (g := g) h2 (graphNodes w.heap g) w rfl F
        (ho.imp (fun ho => ⟨ho, hown⟩) fun ho => ⟨graphNodes_nodup r g, ho.1⟩)
      exact ⟨w1, by simp only [globalNodeAssign, W.bind_apply, W.ask_apply, h1, W.look_apply, h3], h4, by simp, fun _ => h5⟩
  obtain ⟨w2, b1, b2, b3, b4⟩ : ∃ w2, globalEdgeAssign g d.globalEdge w1 = (.ok (), w2) ∧ Becomes w1 w2 (nodeLook w1) (edgeLook w2) ∧
      (d.globalEdge = none → edgeLook w2 = edgeLook w1) ∧ (d.globalEdge ≠ none → ∀ e ∈ es, Whole w2 e) := by
    cases hg : d.globalEdge with
    | none => exact ⟨w1, rfl, .refl a2.fine, fun _ => rfl, by simp⟩
    | some l =>
      obtain ⟨w2, h3, h4, h5⟩ := assignEdges_sane (g := g) (hs.edgeItems l hg) es w1 a2.shape a2.fine
        (ho.imp (fun ho => ⟨ho, own.edges es hes⟩) fun ho => ⟨hnd, fun e he => by rw [a2.edges]; exact ho.2.1 e ((hlive e).1 he)⟩)
      exact ⟨w2, by simp only [globalEdgeAssign, W.bind_apply, W.ask_apply, ← a2.shape.graphEdges, hes, h3], h4, by simp, fun _ => h5⟩
  have q2 := ((Silent.globalNodeAssign g d.globalNode).quiet F a1).trans ((Silent.globalEdgeAssign g d.globalEdge).quiet a2.fine b1)
  have S := q2.shape
  have r2 := q2.reach r
  have hd2 : w2.display g = some d := by rw [q2.display]; exact hd
  have hown2 : ∀ n ∈ graphNodes w2.heap g, (w2.heap.node n).graph = some g := by
    intro n hn
    rw [← S.graphNodes] at hn
    rw [← S.nodeGraph]
    exact hown n hn
  have hval : ∀ e ∈ es, edgeLook w2 e = none → (w2.heap.edge e).value.factor ≠ none := by
    intro e he hl
    cases hg : d.globalEdge with
    | none =>
      rw [b3 hg, a2.edges] at hl
      rw [← S.edgeValue]
      exact hs.values hg e ((hlive e).1 he) hl
    | some l =>
      obtain ⟨st, h1, -⟩ := b4 (by simp [hg]) e he
      rw [hl] at h1; cases h1
  have hwh : ∀ e ∈ es, edgeLook w2 e ≠ none → Whole w2 e := by
    intro e he hl
    cases hg : d.globalEdge with
    | none =>
      rw [b3 hg, a2.edges] at hl
      cases hq : edgeLook w e with
      | none => exact absurd hq hl
      | some st => exact ⟨st, by rw [b3 hg, a2.edges]; exact hq, hs.whole e st ((hlive e).1 he) hq⟩
    | some l => exact b4 (by simp [hg]) e he
  have hstart : ∀ (v : World C), SameBody w.heap v.heap → (∀ n ∈ graphNodes w.heap g, nodeLook v n ≠ none) →
      ∀ e ∈ es, ∃ n, edgeStart v.heap e = .ok n ∧ nodeLook v n ≠ none := by
    intro v Sv hv e he
    obtain ⟨n, hn, hn'⟩ := live_start r ((hlive e).1 he)
    exact ⟨n, by rw [← Sv.edgeStart]; exact hn', hv n hn⟩
  obtain ⟨w3, c1, c2, c3⟩ : ∃ w3, runStylist lim shuffle g d.stylist w2 = (.ok (), w3) ∧ (∀ n ∈ graphNodes w.heap g, nodeLook w3 n ≠ none) ∧
      ∀ e ∈ es, Whole w3 e := by
    cases hst : d.stylist with
    | other => exact absurd hst hs.stylist
    | pensieve =>
      have hstr : ∀ n ∈ graphNodes w2.heap g, ¬ Stranded w2 g n := by
        intro n hn hx
        rw [← S.graphNodes] at hn
        cases hg : d.globalNode with
        | none => exact hs.stranded hst hg n hn (stranded_moves S (by rw [b2.nodes, a3 hg]; exact id) hx)
        | some l => exact a4 (by simp [hg]) n hn (by rw [← b2.nodes]; exact hx.1)
      obtain ⟨w3, h1, h2, h3, -, h5, h6⟩ := C48_all_styled_partial (lim := lim) b2.fine r2 hd2 hown2 (by rw [← S.graphNodes]; exact hlim)
        hs.scheme hstr (fun e he => hval e ((hlive e).2 ((S.liveEdge g e).2 he)))
      refine ⟨w3, h1, by rw [S.graphNodes]; exact h2, fun e he => ?_⟩
      by_cases hl : edgeLook w2 e = none
      · classical
        obtain ⟨w3', es', k1, -, k2, -, -, -, -, -, k3, -⟩ := pensieve_run (lim := lim) b2.fine r2 hd2 hown2
          (by rw [← S.graphNodes]; exact hlim) hs.scheme (by
            intro e n he _ hn
            obtain ⟨m, hm, hm'⟩ := live_start r2 he
            rw [hn] at hm'
            cases hm'
            exact hstr n hm) (fun e he => hval e ((hlive e).2 ((S.liveEdge g e).2 he)))
        rw [h1] at k1
        cases k1
        rw [← S.graphEdges, hes] at k2
        cases k2
        obtain ⟨j, hj, hje⟩ := mem_pick (p := fun e => edgeLook w2 e = none) he hl
        obtain ⟨n, s, -, -, y⟩ := k3 j hj
        rw [hje] at y
        exact ⟨_, y, by simp [defaultEdge]⟩
      · obtain ⟨st, x1, x2⟩ := hwh e he hl
        exact ⟨st, by rw [h5 e hl]; exact x1, x2⟩
    | random =>
      obtain ⟨v, h1, h2, h3⟩ := randomPass_sane (h := w.heap) (g := g) (shuffle (graphNodes w.heap g)) (coloursUnused d.scheme) w2
        (coloursUnused_ne hs.scheme) S b2.fine
        (ho.imp (fun ho => ⟨ho, fun n hn => hown n ((hsh _).mem_iff.1 hn)⟩) fun ho => ⟨(hsh _).nodup_iff.2 (graphNodes_nodup r g), fun n hn => by
          have hn := (hsh _).mem_iff.1 hn
          rcases ho.2.2 hst with hg | hg
          · rw [b2.nodes, a3 hg]; exact ho.1 n hn
          · rw [hg] at hn; simp at hn⟩)
      have hns : ∀ n ∈ graphNodes w.heap g, nodeLook v n ≠ none := fun n hn => h3 n ((hsh _).mem_iff.2 hn)
      obtain ⟨w3, k1, k2, k3⟩ := edgePass_sane edgeDarknessRatio es none v h2.fine (hstart v (S.trans h2.shape) hns)
        (fun e he hl => by rw [h2.edges] at hl; rw [← h2.shape.edgeValue]; exact hval e he hl)
        (fun e he hl => by
          rw [h2.edges] at hl
          obtain ⟨st, x1, x2⟩ := hwh e he hl
          exact ⟨st, by rw [h2.edges]; exact x1, x2⟩)
      refine ⟨w3, ?_, fun n hn => by rw [k2.nodes]; exact hns n hn, k3⟩
      simp only [runStylist, stylizeRandomly, W.bind_apply, W.display, hd2, W.look_apply, ← S.graphNodes, h1, W.ask_apply,
        ← h2.shape.graphEdges, ← S.graphEdges, hes, k1]
  exact ⟨w1, w2, w3, a1, b1, c1, q2.trans ((Silent.runStylist lim shuffle g d.stylist).quiet b2.fine c1), c2, fun e he => c3 e ((hlive e).2 he)⟩

/-- The remaining steps go through. -/
theorem last_steps (r : Reachable w.heap) (hown : ∀ n ∈ graphNodes w.heap g, (w.heap.node n).graph = some g)
    (ho : (w.heap.graph g).overwrite = some true ∨ (d.edgeStyles = [] ∧ d.nodeColours = [] ∧ d.edgeColours = []))
    (hd : w.display g = some d) (hs : Sensible w g d) (kn : ∀ k ∈ dkeys d.nodeStyles ++ dkeys d.nodeColours, k ∈ namesOf w.heap g)
    (ke : ∀ i ∈ dkeys d.edgeStyles ++ dkeys d.edgeColours, ∃ e, LiveEdge w.heap g e ∧ edgeId w.heap e = .ok i) {w1 w2 w3 : World C}
    (h1 : globalNodeAssign g d.globalNode w = (.ok (), w1)) (h2 : globalEdgeAssign g d.globalEdge w1 = (.ok (), w2))
    (h3 : runStylist lim shuffle g d.stylist w2 = (.ok (), w3)) (q3 : Quiet w w3) (sn : ∀ n ∈ graphNodes w.heap g, nodeLook w3 n ≠ none)
    (se : ∀ e, LiveEdge w.heap g e → Whole w3 e) : (stylize lim shuffle g w).1 = .ok () := by
  have own := owned_of_reachable r hown
  obtain ⟨es, hes, hnd, hlive, -⟩ := C11_edges r g
  have hlive : ∀ e, e ∈ es ↔ LiveEdge w.heap g e := hlive
  let I : World C → Prop := fun v => SameBody w.heap v.heap ∧ (∀ n ∈ graphNodes w.heap g, nodeLook v n ≠ none) ∧
    ∀ e, LiveEdge w.heap g e → Whole v e
  have hI : ∀ v v', Quiet v v' → I v → I v' := fun v v' q ⟨i1, i2, i3⟩ =>
    ⟨i1.trans q.shape, fun n hn => q.nodes n (i2 n hn), fun e he => q.whole e (i3 e he)⟩
  have i3 : I w3 := ⟨q3.shape, sn, se⟩
  have known : ∀ k, k ∈ dkeys d.nodeStyles ++ dkeys d.nodeColours → ∀ v, I v → ∃ n s, getNode v.heap g (.key k) = .ok n ∧
      n ∈ graphNodes w.heap g ∧ (v.heap.node n).style = some s := by
    intro k hk v iv
    obtain ⟨n, hn, hn'⟩ := getNode_of_name r (kn k hk)
    have := iv.2.1 n hn
    cases hq : (v.heap.node n).style with
    | none => exact absurd (by simp [nodeLook, hq]) this
    | some s => exact ⟨n, s, by rw [← iv.1.getNode]; exact hn', hn, hq⟩
  have knownE : ∀ i, i ∈ dkeys d.edgeStyles ++ dkeys d.edgeColours → ∀ v, I v → ∃ e s, edgeById v.heap g i = .ok e ∧
      LiveEdge w.heap g e ∧ (v.heap.edge e).style = some s ∧ (v.es s).textAuto ≠ none := by
    intro i hi v iv
    obtain ⟨e, x1, x2⟩ := ke i hi
    obtain ⟨e', x3, x4⟩ := edgeById_of_live r x1 x2
    obtain ⟨st, y1, y2⟩ := iv.2.2 e' x3
    obtain ⟨s, z1, rfl⟩ := Option.map_eq_some_iff.1 y1
    exact ⟨e', s, by rw [edgeById_same iv.1]; exact x4, x3, z1, y2⟩
  obtain ⟨w4, h4⟩ := forEach_sane hI (Silent.nodeStyleOverwrite g) d.nodeStyles (fun p hp v Fv iv => by
    obtain ⟨n, s, x1, x2, x3⟩ := known p.1 (List.mem_append_left _ (List.mem_map.2 ⟨p, hp, rfl⟩)) v iv
    simp only [nodeStyleOverwrite, complementNode, W.bind_apply, W.ask_apply, x1, W.look_apply, x3]
    exact ⟨_, rfl⟩) w3 q3.fine i3
  have q4 := (Silent.forEach (Silent.nodeStyleOverwrite g) d.nodeStyles).quiet q3.fine h4
  have i4 := hI _ _ q4 i3
  obtain ⟨w5, h5⟩ := forEach_sane hI (Silent.edgeStyleOverwrite g) d.edgeStyles (fun p hp v Fv iv => by
    have ho := ho.resolve_right fun e => by simp [e.1] at hp
    obtain ⟨n, s, x1, x2, x3⟩ := knownE p.1 (List.mem_append_left _ (List.mem_map.2 ⟨p, hp, rfl⟩)) v iv
    obtain ⟨v', y, -⟩ := assignEdges_sane (h := w.heap) (g := g) (hs.edgeStyles p.1 p.2 hp) [n] v iv.1 Fv (.inl ⟨ho, by
      intro m hm
      rw [List.mem_singleton.1 hm]
      exact own.edges es hes n ((hlive n).2 x2)⟩)
    exact ⟨v', by simp only [edgeStyleOverwrite, W.bind_apply, W.ask_apply, x1, y]⟩) w4 q4.fine i4
  have q5 := (Silent.forEach (Silent.edgeStyleOverwrite g) d.edgeStyles).quiet q4.fine h5
  have i5 := hI _ _ q5 i4
  obtain ⟨w6, h6⟩ := forEach_sane hI (Silent.nodeColourOverwrite g) d.nodeColours (fun p hp v Fv iv => by
    have ho := ho.resolve_right fun e => by simp [e.2.1] at hp
    obtain ⟨n, s, x1, x2, x3⟩ := known p.1 (List.mem_append_right _ (List.mem_map.2 ⟨p, hp, rfl⟩)) v iv
    obtain ⟨v', y, -⟩ := assignNode_run Fv (free_node ho (hown n x2) iv.1) ((v.ns s).recolour p.2)
    exact ⟨v', by simp only [nodeColourOverwrite, W.bind_apply, W.ask_apply, x1, W.look_apply, x3, y]⟩) w5 q5.fine i5
  have q6 := (Silent.forEach (Silent.nodeColourOverwrite g) d.nodeColours).quiet q5.fine h6
  have i6 := hI _ _ q6 i5
  obtain ⟨w7, h7⟩ := forEach_sane hI (Silent.edgeColourOverwrite g) d.edgeColours (fun p hp v Fv iv => by
    have ho := ho.resolve_right fun e => by simp [e.2.2] at hp
    obtain ⟨n, s, x1, x2, x3, x4⟩ := knownE p.1 (List.mem_append_right _ (List.mem_map.2 ⟨p, hp, rfl⟩)) v iv
    obtain ⟨v', y, -⟩ := assignEdge_run Fv (free_edge ho (own.edges es hes n ((hlive n).2 x2)) iv.1) (((v.es s).copied).resetColours.setColour p.2)
    exact ⟨v', by simp only [edgeColourOverwrite, W.bind_apply, W.ask_apply, x1, W.look_apply, x3, copy_whole x4, y]⟩) w6 q6.fine i6
  have q7 := (Silent.forEach (Silent.edgeColourOverwrite g) d.edgeColours).quiet q6.fine h7
  have i7 := hI _ _ q7 i6
  obtain ⟨w8, h8⟩ : ∃ w8, globalNodeComplement g d.globalNode w7 = (.ok (), w8) := by
    cases hg : d.globalNode with
    | none => exact ⟨w7, rfl⟩
    | some l =>
      obtain ⟨s1, s2⟩ := hs.nodeItems l hg
      obtain ⟨l', x1, x2⟩ := smartStyle_sane s1 s2
      obtain ⟨w8, y⟩ := forEach_sane hI (Silent.complementNode l') (graphNodes w.heap g) (fun n hn v Fv iv => by
        have := iv.2.1 n hn
        cases hq : (v.heap.node n).style with
        | none => exact absurd (by simp [nodeLook, hq]) this
        | some s =>
          simp only [complementNode, W.bind_apply, W.look_apply, hq]
          exact ⟨_, rfl⟩) w7 q7.fine i7
      exact ⟨w8, by simp only [globalNodeComplement, W.bind_apply, W.ask_apply, smartStyle_same i7.1, x1, W.look_apply, ← i7.1.graphNodes, y]⟩
  have q8 := (Silent.globalNodeComplement g d.globalNode).quiet q7.fine h8
  have i8 := hI _ _ q8 i7
  obtain ⟨w9, h9⟩ : ∃ w9, globalEdgeComplement g d.globalEdge w8 = (.ok (), w9) := by
    cases hg : d.globalEdge with
    | none => exact ⟨w8, rfl⟩
    | some l =>
      obtain ⟨w9, y⟩ := forEach_sane hI (Silent.complementEdge l) es (fun n hn v Fv iv => by
        obtain ⟨st, y1, -⟩ := iv.2.2 n ((hlive n).1 hn)
        obtain ⟨s, z1, rfl⟩ := Option.map_eq_some_iff.1 y1
        simp only [complementEdge, W.bind_apply, W.look_apply, z1]
        exact ⟨_, rfl⟩) w8 q8.fine i8
      exact ⟨w9, by simp only [globalEdgeComplement, W.bind_apply, W.ask_apply, ← i8.1.graphEdges, hes, y]⟩
  simp only [stylize, W.bind_apply, W.display, hd, h1, h2, h3, h4, h5, h6, h7, h8, h9]

/-- **C118.** Where styles may be overwritten and the settings make sense, a graph can be styled exactly if every style and colour given for
a single node or edge is for one that the graph has. -/
theorem C118_styled (hsh : ∀ l, (shuffle l).Perm l) (F : Made w.heap) (r : Reachable w.heap)
    (hown : ∀ n ∈ graphNodes w.heap g, (w.heap.node n).graph = some g) (ho : (w.heap.graph g).overwrite = some true)
    (hlim : (graphNodes w.heap g).length ≤ lim) (hd : w.display g = some d) (hs : Sensible w g d) :
    (stylize lim shuffle g w).1 = .ok () ↔
      (∀ k ∈ dkeys d.nodeStyles ++ dkeys d.nodeColours, k ∈ namesOf w.heap g) ∧
        ∀ i ∈ dkeys d.edgeStyles ++ dkeys d.edgeColours, ∃ e, LiveEdge w.heap g e ∧ edgeId w.heap e = .ok i := by
  refine ⟨C114_known F r hd, fun ⟨kn, ke⟩ => ?_⟩
  obtain ⟨w1, w2, w3, h1, h2, h3, q3, sn, se⟩ := first_steps hsh F r hown (.inl ho) hlim hd hs
  exact last_steps r hown (.inl ho) hd hs kn ke h1 h2 h3 q3 sn se

/-- A graph can be drawn exactly if it can be styled and its label has a place. -/
theorem render_iff (F : Made w.heap) (r : Reachable w.heap)
    (hown : ∀ n ∈ graphNodes w.heap g, (w.heap.node n).graph = some g) (hd : w.display g = some d) (a : DrawArgs) :
    (∃ src, (render lim shuffle g a w).1 = .ok src) ↔ (stylize lim shuffle g w).1 = .ok () ∧ ¬ LabelLost d := by
  have draws : ∀ w', Quiet w w' → ((∃ src, graphvizStr w' g (renderArgs d a) = .ok src) ↔ ¬ LabelLost d) := by
    intro w' q
    refine C85_draws_partial (q.reach r) (by rw [q.display]; exact hd) ?_ _
    intro n hn
    rw [← q.shape.graphNodes] at hn
    rw [← q.shape.nodeGraph]
    exact hown n hn
  constructor
  · rintro ⟨src, h⟩
    cases hr : render lim shuffle g a w with
    | mk o w' =>
    rw [hr] at h
    cases h
    obtain ⟨d', hd', hst, hg⟩ := render_ok hr
    rw [hd] at hd'
    cases hd'
    exact ⟨by rw [hst], (draws w' ((Silent.stylize (C := C) lim shuffle g).quiet F hst)).1 ⟨src, hg⟩⟩
  · rintro ⟨h, hl⟩
    cases hst : stylize lim shuffle g w with
    | mk o w' =>
    rw [hst] at h
    cases h
    obtain ⟨src, hg⟩ := (draws w' ((Silent.stylize (C := C) lim shuffle g).quiet F hst)).2 hl
    exact ⟨src, by rw [render_run hd hst hg]⟩

/-- **C118**: and it can be drawn exactly if, besides, its label has a place. -/
theorem C118_drawn (hsh : ∀ l, (shuffle l).Perm l) (F : Made w.heap) (r : Reachable w.heap)
    (hown : ∀ n ∈ graphNodes w.heap g, (w.heap.node n).graph = some g) (ho : (w.heap.graph g).overwrite = some true)
    (hlim : (graphNodes w.heap g).length ≤ lim) (hd : w.display g = some d) (hs : Sensible w g d) (a : DrawArgs) :
    (∃ src, (render lim shuffle g a w).1 = .ok src) ↔
      (∀ k ∈ dkeys d.nodeStyles ++ dkeys d.nodeColours, k ∈ namesOf w.heap g) ∧
        (∀ i ∈ dkeys d.edgeStyles ++ dkeys d.edgeColours, ∃ e, LiveEdge w.heap g e ∧ edgeId w.heap e = .ok i) ∧ ¬ LabelLost d := by
  rw [← and_assoc, ← C118_styled hsh F r hown ho hlim hd hs]
  exact render_iff F r hown hd a

end

/-! ## A case -/

theorem gaudy_sensible (d : Display Rat) (hd : (gaudyWorld openDiamond).display 0 = some d) : Sensible (gaudyWorld openDiamond) 0 d := by
  cases hd
  refine ⟨by simp, by simp, ?_, ?_, ?_, by simp, by simp, ?_⟩
  · intro l hl
    cases hl
    refine ⟨by simp, fun s hs => ?_⟩
    have : s = some "auto" := by simpa using hs
    subst this
    exact ⟨by simp, by decide +kernel⟩
  · intro l hl
    cases hl
    simp
  · intro i l hl
    have : l = [.arrowSize 2] := by simpa using (List.mem_singleton.1 hl ▸ rfl : (i, l).2 = _)
    subst this
    simp
  · intro e st _ hst
    simp [edgeLook, gaudyWorld, (openDiamond_made.noStyles (by decide +kernel)).2 e] at hst

/-- Painted at random, with global styles and settings for nodes and edges that it has: **C118** says that it can be drawn. -/
example : ∃ src, (render 10 id 0 {} (gaudyWorld openDiamond)).1 = .ok src := by
  refine (C118_drawn (lim := 10) (shuffle := id) (fun l => .refl _) openDiamond_made openDiamond_reachable (by decide +kernel)
    (by decide +kernel) (by decide +kernel) rfl (gaudy_sensible _ rfl) {}).2 ⟨by decide +kernel, ?_, ?_⟩
  · intro i hi
    have : i = (.str "a", .str "b", .none) ∨ i = (.str "c", .str "d", .none) := by simpa [gaudyWorld, dkeys] using hi
    rcases this with rfl | rfl
    · exact ⟨0, ⟨0, by decide +kernel, _, rfl, by decide +kernel⟩, by decide +kernel⟩
    · exact ⟨3, ⟨2, by decide +kernel, _, rfl, by decide +kernel⟩, by decide +kernel⟩
  · rintro ⟨l, -, hl | ⟨hl, -⟩⟩ <;> exact absurd hl (by decide +kernel)

end Verif
