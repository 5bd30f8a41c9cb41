import Verif.Props.CanStyle
/-!
# Styling a graph for the first time

**C119.** Where styles must not be overwritten, which is the default, a graph that has none can be styled exactly if no colour is given for a
single node or edge, no style for a single edge, styles only for nodes it has, and no style for all nodes together with random colours.
-/
namespace Verif
open Palette W
variable {C : Type} [Palette C] [DecidableEq C] {lim : Nat} {shuffle : List NRef → List NRef} {g : GRef} {w : World C} {d : Display C}

/-- **C119.** -/
theorem C119_first (hsh : ∀ l, (shuffle l).Perm l) (F : Made w.heap) (r : Reachable w.heap)
    (hown : ∀ n ∈ graphNodes w.heap g, (w.heap.node n).graph = some g) (ho : (w.heap.graph g).overwrite = some false)
    (hn : ∀ n ∈ graphNodes w.heap g, nodeLook w n = none) (he : ∀ e, LiveEdge w.heap g e → edgeLook w e = none)
    (hlim : (graphNodes w.heap g).length ≤ lim) (hd : w.display g = some d) (hs : Sensible w g d) :
    (stylize lim shuffle g w).1 = .ok () ↔
      (∀ k ∈ dkeys d.nodeStyles, k ∈ namesOf w.heap g) ∧ d.edgeStyles = [] ∧ d.nodeColours = [] ∧ d.edgeColours = [] ∧
        (d.stylist = .random → d.globalNode = none ∨ graphNodes w.heap g = []) := by
  have own := owned_of_reachable r hown
  obtain ⟨es, hes, hnd, hlive, -⟩ := C11_edges r g
  have hlive : ∀ e, e ∈ es ↔ LiveEdge w.heap g e := hlive
  constructor
  · intro hok
    have hrand : d.stylist = .random → d.globalNode = none ∨ graphNodes w.heap g = [] := by
      intro hr
      refine Classical.byContradiction fun hx => ?_
      rw [not_or] at hx
      obtain ⟨l, hl⟩ := Option.ne_none_iff_exists'.1 hx.1
      obtain ⟨s1, s2⟩ := hs.nodeItems l hl
      obtain ⟨l', k1, k2⟩ := smartStyle_sane s1 s2
      obtain ⟨w1, k3, B1, k5⟩ := assignNodes_sane (h := w.heap) (g := g) k2 (graphNodes w.heap g) w rfl F (.inr ⟨graphNodes_nodup r g, hn⟩)
      have h1 : globalNodeAssign g d.globalNode w = (.ok (), w1) := by
        simp only [hl, globalNodeAssign, W.bind_apply, W.ask_apply, k1, W.look_apply, k3]
      cases hst : stylize lim shuffle g w with
      | mk o w' =>
      rw [hst] at hok
      cases hok
      obtain ⟨d', w0, a0, s0⟩ := W.bind_ok hst
      obtain ⟨rfl, rfl⟩ : d' = d ∧ w0 = w := by
        simp only [W.display, hd] at a0
        cases a0
        exact ⟨rfl, rfl⟩
      obtain ⟨_, w1', a1, s1⟩ := W.bind_ok s0
      rw [h1] at a1
      cases a1
      obtain ⟨_, w2, a2, s2⟩ := W.bind_ok s1
      obtain ⟨_, w3, a3, -⟩ := W.bind_ok s2
      have q1 := (Silent.globalNodeAssign g d'.globalNode).quiet F h1
      have q2 := (Silent.globalEdgeAssign g d'.globalEdge).quiet q1.fine a2
      have S := (q1.trans q2).shape
      rw [hr] at a3
      obtain ⟨dd, w2', b1, b2⟩ := W.bind_ok a3
      obtain ⟨rfl, rfl⟩ : dd = d' ∧ w2' = w2 := by
        simp only [W.display, (q1.trans q2).display, hd] at b1
        cases b1
        exact ⟨rfl, rfl⟩
      simp only [W.bind_apply, W.look_apply, ← S.graphNodes] at b2
      obtain ⟨n, ns, hns⟩ := List.exists_cons_of_ne_nil (l := shuffle (graphNodes w0.heap g)) (fun e => hx.2 (by
        have := hsh (graphNodes w0.heap g); rw [e] at this; exact this.symm.eq_nil))
      have hm : n ∈ graphNodes w0.heap g := (hsh _).mem_iff.1 (by rw [hns]; simp)
      have hr : (randomPass (n :: ns) (coloursUnused dd.scheme) w2').1 ≠ .ok () := by
        simp only [randomPass, W.bind_apply, W.ask_apply]
        cases hq : getLeastUsedColour (coloursUnused dd.scheme) with
        | error e => simp
        | ok c =>
          have := assignNode_refused (h := w0.heap) (g := g) S ho (hown n hm) (q2.nodes n (k5 n hm)) (.make { colour := some c.1 })
          simp only
          cases hz : assignNode n (.make { colour := some c.1 }) w2' with
          | mk o v =>
            rw [hz] at this
            simp only at this
            subst this
            simp
      rw [hns] at b2
      cases hz : randomPass (n :: ns) (coloursUnused dd.scheme) w2' with
      | mk o v =>
        rw [hz] at hr b2
        cases o with
        | ok u => exact hr rfl
        | error e => cases b2
    obtain ⟨w1, w2, w3, h1, h2, h3, q3, sn, se⟩ := first_steps (lim := lim) hsh F r hown (.inr ⟨hn, he, hrand⟩) hlim hd hs
    have known := C114_known F r hd hok
    cases hst : stylize lim shuffle g w with
    | mk o w' =>
    rw [hst] at hok
    cases hok
    simp only [stylize, W.bind_apply, W.display, hd, h1, h2, h3] at hst
    obtain ⟨_, w4, h4, s4⟩ := W.bind_ok hst
    obtain ⟨_, w5, h5, s5⟩ := W.bind_ok s4
    obtain ⟨_, w6, h6, s6⟩ := W.bind_ok s5
    obtain ⟨_, w7, h7, s7⟩ := W.bind_ok s6
    have q4 := q3.trans ((Silent.forEach (Silent.nodeStyleOverwrite g) d.nodeStyles).quiet q3.fine h4)
    have q5 := q4.trans ((Silent.forEach (Silent.edgeStyleOverwrite g) d.edgeStyles).quiet q4.fine h5)
    have q6 := q5.trans ((Silent.forEach (Silent.nodeColourOverwrite g) d.nodeColours).quiet q5.fine h6)
    refine ⟨fun k hk => known.1 k (List.mem_append_left _ hk), ?_, nodeColours_denied q5.shape ho own h6,
      edgeColours_denied q6.shape ho own h7, hrand⟩
    refine Classical.byContradiction fun hne => ?_
    obtain ⟨p, l, hp⟩ := List.exists_cons_of_ne_nil hne
    rw [hp] at h5
    obtain ⟨_, v, x1, -⟩ := W.bind_ok h5
    obtain ⟨e, v', y1, y2⟩ := W.bind_ok x1
    simp only [ask_apply, edgeById_same q4.shape] at y1
    obtain ⟨y0, rfl⟩ := Prod.mk.inj y1
    obtain ⟨st, z, -⟩ := ((Silent.forEach (Silent.nodeStyleOverwrite g) d.nodeStyles).quiet q3.fine h4).whole e (se e (live_of_edgeById r y0).1)
    have := assignEdges_refused (h := w.heap) (g := g) q4.shape ho (own.byId _ _ y0) (by rw [z]; simp) p.2 []
    rw [y2] at this
    cases this
  · rintro ⟨kn, c1, c2, c3, hrand⟩
    obtain ⟨w1, w2, w3, h1, h2, h3, q3, sn, se⟩ := first_steps (lim := lim) hsh F r hown (.inr ⟨hn, he, hrand⟩) hlim hd hs
    exact last_steps r hown (.inr ⟨c1, c2, c3⟩) hd hs (by rw [c2]; simpa [dkeys] using kn) (by rw [c1, c3]; simp [dkeys]) h1 h2 h3 q3 sn se

/-- **C119**: and it can be drawn exactly if, besides, its label has a place. -/
theorem C119_drawn (hsh : ∀ l, (shuffle l).Perm l) (F : Made w.heap) (r : Reachable w.heap)
    (hown : ∀ n ∈ graphNodes w.heap g, (w.heap.node n).graph = some g) (ho : (w.heap.graph g).overwrite = some false)
    (hn : ∀ n ∈ graphNodes w.heap g, nodeLook w n = none) (he : ∀ e, LiveEdge w.heap g e → edgeLook w e = none)
    (hlim : (graphNodes w.heap g).length ≤ lim) (hd : w.display g = some d) (hs : Sensible w g d) (a : DrawArgs) :
    (∃ src, (render lim shuffle g a w).1 = .ok src) ↔
      (∀ k ∈ dkeys d.nodeStyles, k ∈ namesOf w.heap g) ∧ d.edgeStyles = [] ∧ d.nodeColours = [] ∧ d.edgeColours = [] ∧
        (d.stylist = .random → d.globalNode = none ∨ graphNodes w.heap g = []) ∧ ¬ LabelLost d := by
  have key := C119_first hsh F r hown ho hn he hlim hd hs
  rw [render_iff F r hown hd a, key]
  grind

/-! ## Cases -/

/-- Painted at random, with a style for all edges and one for a single node. -/
def neatWorld (h : Heap) : World Rat :=
  { gaudyWorld h with
    display := fun _ => some
      { scheme := [0, 1 / 2, 1], stylist := .random, globalEdge := some [.lineWidth (some 2)],
        nodeStyles := [(.str "a", [.fill (some 0)])] } }

theorem neat_sensible (d : Display Rat) (hd : (neatWorld diamond).display 0 = some d) : Sensible (neatWorld diamond) 0 d := by
  cases hd
  refine ⟨by simp, by simp, by simp, ?_, by simp, by simp, by simp, ?_⟩
  · intro l hl
    cases hl
    simp
  · intro e st _ hst
    simp [edgeLook, neatWorld, gaudyWorld, (diamond_made.noStyles (by decide +kernel)).2 e] at hst

/-- **C119** says that it can be drawn the first time, ... -/
example : ∃ src, (render 10 id 0 {} (neatWorld diamond)).1 = .ok src := by
  refine (C119_drawn (lim := 10) (shuffle := id) (fun l => .refl _) diamond_made diamond_reachable (by decide +kernel)
    (by decide +kernel) (fun n _ => ?_) (fun e _ => ?_) (by decide +kernel) rfl (neat_sensible _ rfl) {}).2
    ⟨by decide +kernel, rfl, rfl, rfl, fun _ => .inl rfl, ?_⟩
  · simp [nodeLook, neatWorld, gaudyWorld, (diamond_made.noStyles (by decide +kernel)).1 n]
  · simp [edgeLook, neatWorld, gaudyWorld, (diamond_made.noStyles (by decide +kernel)).2 e]
  · rintro ⟨l, -, hl | ⟨hl, -⟩⟩ <;> exact absurd hl (by decide +kernel)

end Verif
