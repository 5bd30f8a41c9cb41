import Verif.Lemmas.Settle
import Verif.Props.Restyle
import Mathlib.Data.Int.CardIntervalMod
/-!
# What the style settings do (C71 - C74)
-/
namespace Verif
open Palette W
variable {C : Type} [Palette C]

theorem getNode_own {h : Heap} (r : Reachable h) {g : GRef} {n : NRef} (hn : n ∈ graphNodes h g) (k : Key) :
    getNode h g (.key k) = .ok n ↔ k = (h.node n).id := by
  obtain ⟨A, H⟩ := r.hist
  have R := H.rep
  rw [R.getNode_key]
  constructor
  · intro hm; exact (R.nodeOk g k n hm).2.1.symm
  · rintro rfl
    simp only [graphNodes, R.nodes g, dvals] at hn
    obtain ⟨⟨k, m⟩, hm, rfl⟩ := List.mem_map.1 hn
    have := (R.nodeOk g k m hm).2.1
    rwa [this]

theorem edgeById_own {h : Heap} (r : Reachable h) {g : GRef} {es : List ERef} (hes : graphEdges h g = .ok es) {e : ERef} (he : e ∈ es)
    {i : EdgeId} (hi : edgeId h e = .ok i) (i' : EdgeId) : edgeById h g i' = .ok e ↔ i' = i := by
  obtain ⟨es', d, h1, h2, h3, h4, h5⟩ := C11_edges_dict r g
  rw [hes] at h1
  cases h1
  simp only [edgeById, h2, bind, Except.bind]
  constructor
  · intro hg
    cases hg' : dget d i' with
    | none => rw [hg'] at hg; cases hg
    | some x =>
      rw [hg'] at hg
      cases hg
      have := h5 i' e (mem_of_dget hg')
      rw [hi] at this
      cases this
      rfl
  · rintro rfl
    obtain ⟨⟨j, e'⟩, hm, rfl⟩ := List.mem_map.1 ((h4 e).2 he)
    have := h5 j e' hm
    simp only at hi
    rw [hi] at this
    cases this
    rw [(dget_iff h3).2 hm]

variable [DecidableEq C] {lim : Nat} {shuffle : List NRef → List NRef} {g : GRef} {w w' : World C} {d : Display C}

/-- The three parts of `stylize`. -/
theorem stylize_parts (F : Made w.heap) (ap : Apart w.heap) (hd : w.display g = some d) (hok : stylize lim shuffle g w = (.ok (), w')) :
    ∃ w1 w2, before g d w = (.ok (), w1) ∧ runStylist lim shuffle g d.stylist w1 = (.ok (), w2) ∧ after g d w2 = (.ok (), w') ∧
      Okay w.heap w ∧ Okay w.heap w1 ∧ Okay w.heap w2 ∧ Quiet w w1 ∧ Quiet w1 w2 ∧ w1.display g = some d := by
  rw [stylize_split hd] at hok
  obtain ⟨w1, a1, hok⟩ := seq_ok hok
  obtain ⟨w2, a2, a3⟩ := seq_ok hok
  have O : Okay w.heap w := ⟨rfl, F, ap⟩
  have q1 := (before_silent d).quiet O.fine a1
  have q2 := (Silent.runStylist lim shuffle g d.stylist).quiet q1.fine a2
  exact ⟨w1, w2, a1, a2, a3, O, O.quiet q1, (O.quiet q1).quiet q2, q1, q2, by rw [q1.display]; exact hd⟩

/-- **C71** for nodes. After `stylize`, every node with settings has a style, and of all the settings for it, those for all nodes
come first, then its colour, then those for itself. -/
theorem C71_nodes (F : Made w.heap) (r : Reachable w.heap) (ap : Apart w.heap) (full : AllFull w) (hd : w.display g = some d)
    (D : d.Dicts) (hok : stylize lim shuffle g w = (.ok (), w')) {n : NRef} (hn : n ∈ graphNodes w.heap g) :
    (nodeLook w' n = none → d.globalNode = none ∧ (w.heap.node n).id ∉ dkeys d.nodeColours ∧ (w.heap.node n).id ∉ dkeys d.nodeStyles) ∧
    ∀ s, nodeLook w' n = some s → NodePrevail (nodeSettings w.heap g d (w.heap.node n).id) s := by
  obtain ⟨w1, w2, a1, a2, a3, O, O1, O2, q1, q2, -⟩ := stylize_parts F ap hd hok
  obtain ⟨h1, h2⟩ := after_node O2 a3 (graphNodes_nodup r g) hn (getNode_own r hn) D.nodeStyles.1 D.nodeColours D.globalNode
  constructor
  · intro hno
    refine ⟨Classical.byContradiction fun hh => h2 (.inl hh) hno, ?_, ?_⟩
    · exact dget_none.1 (Classical.byContradiction fun hh => h2 (.inr (.inl hh)) hno)
    · exact dget_none.1 (Classical.byContradiction fun hh => h2 (.inr (.inr hh)) hno)
  · intro s hs
    rw [h1, Option.map_eq_some_iff] at hs
    obtain ⟨s0, e0, rfl⟩ := hs
    exact settleNode_prevail (q2.full (q1.full full) n s0 e0) D.globalNode (fun l hl => D.nodeStyles.2 _ (mem_of_dget hl))

/-- **C71** for edges. -/
theorem C71_edges (F : Made w.heap) (r : Reachable w.heap) (ap : Apart w.heap) (hd : w.display g = some d)
    (D : d.Dicts) (hok : stylize lim shuffle g w = (.ok (), w')) {es : List ERef} (hes : graphEdges w.heap g = .ok es) {e : ERef}
    (he : e ∈ es) {i : EdgeId} (hi : edgeId w.heap e = .ok i) :
    (edgeLook w' e = none → d.globalEdge = none ∧ i ∉ dkeys d.edgeColours ∧ i ∉ dkeys d.edgeStyles) ∧
    ∀ s, edgeLook w' e = some s → EdgePrevail (edgeSettings d i) s := by
  obtain ⟨w1, w2, a1, a2, a3, O, O1, O2, q1, q2, -⟩ := stylize_parts F ap hd hok
  obtain ⟨es', he', hnd, -⟩ := C11_edges r g
  rw [hes] at he'
  cases he'
  obtain ⟨h1, h2, h3⟩ := after_edge O2 a3 hes hnd he (edgeById_own r hes he hi) D.edgeStyles.1 D.edgeColours
  constructor
  · intro hno
    refine ⟨Classical.byContradiction fun hh => h2 (.inl hh) hno, ?_, ?_⟩
    · exact dget_none.1 (Classical.byContradiction fun hh => h2 (.inr (.inl hh)) hno)
    · exact dget_none.1 (Classical.byContradiction fun hh => h2 (.inr (.inr hh)) hno)
  · intro s hs
    rw [h1] at hs
    exact settleEdge_prevail hs D.globalEdge (fun l hl => ⟨D.edgeStyles.2 _ (mem_of_dget hl), h3 l hl⟩)

/-! ## Styles for all -/

/-- What the stylists leave alone. -/
theorem stylist_keeps (hd : w.display g = some d) {h : Heap} (O : Okay h w) (hok : runStylist lim shuffle g d.stylist w = (.ok (), w')) :
    (d.stylist ≠ .random → ∀ n, nodeLook w n ≠ none → nodeLook w' n = nodeLook w n) ∧
    ∀ e, edgeLook w e ≠ none → edgeLook w' e = edgeLook w e := by
  have q := (Silent.runStylist lim shuffle g d.stylist).quiet O.fine hok
  cases hst : d.stylist with
  | pensieve =>
    rw [hst] at hok
    obtain ⟨⟨b1, b2⟩, -⟩ := pensieve_keeps O hd hok (.refl q.fine)
    exact ⟨fun _ => b1, b2⟩
  | other => rw [hst] at hok; cases hok; exact ⟨fun _ _ _ => rfl, fun _ _ => rfl⟩
  | random =>
    rw [hst] at hok
    have hok : stylizeRandomly shuffle g w = (.ok (), w') := hok
    rw [random_split hd] at hok
    obtain ⟨w1, h1, h2⟩ := seq_ok hok
    have q1 := (Silent.randomPass _ _).quiet O.fine h1
    obtain ⟨Φ, Ψ, t1, t2, t3⟩ := randomPass_tame (h := h) (shuffle (graphNodes w.heap g)) (coloursUnused d.scheme)
    refine ⟨fun hh => absurd rfl hh, fun e he => ?_⟩
    have e1 : edgeLook w1 e = edgeLook w e := by rw [(t1 w w1 O h1).2 e, t3 e]
    rw [(edgesPart_keeps (O.quiet q1) h2).2 e (by rw [e1]; exact he), e1]

omit [DecidableEq C] in
theorem settleNode_plain {h : Heap} {k : Key} (h1 : k ∉ dkeys d.nodeColours) (h2 : k ∉ dkeys d.nodeStyles) (s : NodeStyle C) :
    settleNode h g d k s = s.complement (globalNodeSettings h g d) := by
  simp [settleNode, dget_none.2 h1, dget_none.2 h2, NodeStyle.complement]

omit [DecidableEq C] in
theorem settleEdge_plain {k : EdgeId} (h1 : k ∉ dkeys d.edgeColours) (h2 : k ∉ dkeys d.edgeStyles) (o : Option (EdgeStyle C)) :
    settleEdge d k o = o.map (·.complement (d.globalEdge.getD [])) := by
  simp [settleEdge, dget_none.2 h1, dget_none.2 h2]

omit [DecidableEq C] in
/-- What happens to the nodes before the stylist. -/
theorem before_node {h : Heap} {o : Option (List (EdgeItemStyle C))} {w w1 : World C} (O : Okay h w)
    (hok : globalEdgeAssign g o w = (.ok (), w1)) : nodeLook w1 = nodeLook w := by
  obtain ⟨Φ, Ψ, t1, t2, -⟩ := globalEdgeAssign_tame (h := h) (g := g) o
  funext n
  rw [(t1 w w1 O hok).1 n, t2 n]

omit [DecidableEq C] in
/-- What happens to the edges before the stylist. -/
theorem before_edge {h : Heap} {o : Option (List (NodeItem C))} {w w1 : World C} (O : Okay h w)
    (hok : globalNodeAssign g o w = (.ok (), w1)) : edgeLook w1 = edgeLook w := by
  obtain ⟨Φ, Ψ, t1, -, t3⟩ := globalNodeAssign_tame (h := h) (g := g) o
  funext n
  rw [(t1 w w1 O hok).2 n, t3 n]

/-- **C72** for edges: with a style for all edges, the edges without own settings all look the same, whatever the stylist. -/
theorem C72_edges_alike (F : Made w.heap) (r : Reachable w.heap) (ap : Apart w.heap) (hd : w.display g = some d)
    (D : d.Dicts) (hok : stylize lim shuffle g w = (.ok (), w')) (hg : d.globalEdge ≠ none) {es : List ERef}
    (hes : graphEdges w.heap g = .ok es) :
    ∃ s, EdgePrevail [d.globalEdge.getD []] s ∧ ∀ e ∈ es, ∀ i, edgeId w.heap e = .ok i → i ∉ dkeys d.edgeColours → i ∉ dkeys d.edgeStyles →
      edgeLook w' e = some s := by
  obtain ⟨l, hl⟩ := Option.ne_none_iff_exists'.1 hg
  obtain ⟨w1, w2, a1, a2, a3, O, O1, O2, q1, q2, hd1⟩ := stylize_parts F ap hd hok
  obtain ⟨es', he', hnd, -⟩ := C11_edges r g
  rw [hes] at he'
  cases he'
  have shows : ∀ s : EdgeStyle C, EdgePrevail [d.globalEdge.getD []] (s.complement l) := by
    intro s A l' B hsplit i hi hA
    rw [hl, Option.getD_some] at hsplit
    match A, hsplit with
    | [], hsplit =>
      simp only [List.nil_append, List.cons.injEq] at hsplit
      obtain ⟨rfl, -⟩ := hsplit
      exact edge_complement_shows (D.globalEdge l hl) i hi
    | a :: A, hsplit => simp at hsplit
  obtain ⟨w0, b1, b2⟩ := seq_ok a1
  have O0 := O.quiet ((Silent.globalNodeAssign g _).quiet O.fine b1)
  rw [hl] at b2
  by_cases hne : es = []
  · exact ⟨_, shows (.make { colour := none }), by simp [hne]⟩
  obtain ⟨e0, he0⟩ := List.exists_mem_of_ne_nil _ hne
  obtain ⟨st, hst⟩ : ∃ st, EdgeStyle.ofItems l = .ok st := by
    rw [globalEdgeAssign, ask_cases (fun w S => (S.graphEdges g).symm) _ O0.body, hes] at b2
    exact assignEdges_ok he0 b2
  refine ⟨st.complement l, shows st, fun e he i hi n1 n2 => ?_⟩
  have e1 : edgeLook w1 e = some st := by
    rw [(globalEdgeAssign_effect hes hnd l w0 w1 O0 b2).2 e]
    simp [he, setEdge, hst]
  have e2 : edgeLook w2 e = some st := by rw [(stylist_keeps hd1 O1 a2).2 e (by rw [e1]; simp), e1]
  rw [(after_edge O2 a3 hes hnd he (edgeById_own r hes he hi) D.edgeStyles.1 D.edgeColours).1, settleEdge_plain n1 n2, e2, hl]
  rfl

/-- **C72** for nodes, if the nodes are not painted at random: with a style for all nodes, the nodes without own settings
all look the same. Missing for the full property: the stylist `stylize_randomly`, see `C72_violated`. -/
theorem C72_nodes_alike_partial (F : Made w.heap) (r : Reachable w.heap) (ap : Apart w.heap) (hd : w.display g = some d)
    (D : d.Dicts) (hok : stylize lim shuffle g w = (.ok (), w')) (hg : d.globalNode ≠ none) (hst : d.stylist ≠ .random) :
    ∃ s, NodePrevail [globalNodeSettings w.heap g d] s ∧ ∀ n ∈ graphNodes w.heap g, (w.heap.node n).id ∉ dkeys d.nodeColours →
      (w.heap.node n).id ∉ dkeys d.nodeStyles → nodeLook w' n = some s := by
  obtain ⟨l, hl⟩ := Option.ne_none_iff_exists'.1 hg
  obtain ⟨w1, w2, a1, a2, a3, O, O1, O2, q1, q2, hd1⟩ := stylize_parts F ap hd hok
  have hnd := graphNodes_nodup r g
  have dict : NodeDict (globalNodeSettings w.heap g d) := by
    unfold globalNodeSettings; rw [hl]; exact autoShape_dict (D.globalNode l hl)
  have shows : ∀ s : NodeStyle C, s.Complete → NodePrevail [globalNodeSettings w.heap g d] (s.complement (globalNodeSettings w.heap g d)) := by
    intro s hs A l' B hsplit i hi hA
    match A, hsplit with
    | [], hsplit =>
      simp only [List.nil_append, List.cons.injEq] at hsplit
      obtain ⟨rfl, -⟩ := hsplit
      exact complement_shows hs dict i hi
    | a :: A, hsplit => simp at hsplit
  by_cases hne : graphNodes w.heap g = []
  · exact ⟨_, shows (.make { colour := none }) (full_make _), by simp [hne]⟩
  obtain ⟨n0, hn0⟩ := List.exists_mem_of_ne_nil _ hne
  obtain ⟨w0, b1, b2⟩ := seq_ok a1
  have O0 := O.quiet ((Silent.globalNodeAssign g _).quiet O.fine b1)
  rw [hl] at b1
  have smart : ∃ l', smartStyle w.heap g l = .ok l' ∧ ∃ st, NodeStyle.ofItems l' = .ok st := by
    rw [globalNodeAssign, ask_cases (fun w S => smartStyle_same S g l) _ O.body] at b1
    cases hs : smartStyle w.heap g l with
    | error e => rw [hs] at b1; cases b1
    | ok l' =>
      rw [hs] at b1
      simp only [W.bind_apply, look_apply] at b1
      exact ⟨l', rfl, assignNodes_ok hn0 b1⟩
  obtain ⟨l', hl', st, hst'⟩ := smart
  have hg' : globalNodeSettings w.heap g d = l' := by
    unfold globalNodeSettings; rw [hl, smartStyle_shape (D.globalNode l hl) hl']; rfl
  refine ⟨_, shows st (full_ofItems hst'), fun n hn n1 n2 => ?_⟩
  have e0 : nodeLook w0 n = some st := by
    rw [(globalNodeAssign_effect hnd l w w0 O b1).1 n]
    simp [hn, setNode, globalItems, hl', hst']
  have e1 : nodeLook w1 n = some st := by rw [before_node O0 b2, e0]
  have e2 : nodeLook w2 n = some st := by rw [(stylist_keeps hd1 O1 a2).1 hst n (by rw [e1]; simp), e1]
  rw [(after_node O2 a3 hnd hn (getNode_own r hn) D.nodeStyles.1 D.nodeColours D.globalNode).1, e2, Option.map_some, settleNode_plain n1 n2]

/-- **C72**: without settings, what had a style keeps it; nodes only if they are not painted at random. -/
theorem C72_untouched (F : Made w.heap) (r : Reachable w.heap) (ap : Apart w.heap) (hd : w.display g = some d)
    (D : d.Dicts) (hok : stylize lim shuffle g w = (.ok (), w')) :
    (d.stylist ≠ .random → d.globalNode = none → ∀ n ∈ graphNodes w.heap g, (w.heap.node n).id ∉ dkeys d.nodeColours →
      (w.heap.node n).id ∉ dkeys d.nodeStyles → nodeLook w n ≠ none → nodeLook w' n = nodeLook w n) ∧
    (d.globalEdge = none → ∀ es, graphEdges w.heap g = .ok es → ∀ e ∈ es, ∀ i, edgeId w.heap e = .ok i → i ∉ dkeys d.edgeColours →
      i ∉ dkeys d.edgeStyles → edgeLook w e ≠ none → edgeLook w' e = edgeLook w e) := by
  obtain ⟨w1, w2, a1, a2, a3, O, O1, O2, q1, q2, hd1⟩ := stylize_parts F ap hd hok
  obtain ⟨w0, b1, b2⟩ := seq_ok a1
  have O0 := O.quiet ((Silent.globalNodeAssign g _).quiet O.fine b1)
  constructor
  · intro hst hg n hn n1 n2 hs
    rw [hg] at b1
    cases b1
    have e1 : nodeLook w1 n = nodeLook w n := by rw [before_node O0 b2]
    have e2 : nodeLook w2 n = nodeLook w n := by rw [(stylist_keeps hd1 O1 a2).1 hst n (by rw [e1]; exact hs), e1]
    rw [(after_node O2 a3 (graphNodes_nodup r g) hn (getNode_own r hn) D.nodeStyles.1 D.nodeColours D.globalNode).1, e2]
    obtain ⟨s, hs⟩ := Option.ne_none_iff_exists'.1 hs
    rw [hs, Option.map_some, settleNode_plain n1 n2, globalNodeSettings, hg]
    rfl
  · intro hg es hes e he i hi n1 n2 hs
    obtain ⟨es', he', hnd, -⟩ := C11_edges r g
    rw [hes] at he'
    cases he'
    rw [hg] at b2
    cases b2
    have e1 : edgeLook w1 e = edgeLook w e := by rw [before_edge O b1]
    have e2 : edgeLook w2 e = edgeLook w e := by rw [(stylist_keeps hd1 O1 a2).2 e (by rw [e1]; exact hs), e1]
    rw [(after_edge O2 a3 hes hnd he (edgeById_own r hes he hi) D.edgeStyles.1 D.edgeColours).1, e2, settleEdge_plain n1 n2, hg]
    obtain ⟨s, hs⟩ := Option.ne_none_iff_exists'.1 hs
    rw [hs]
    rfl

/-! ## The shape `auto` -/

/-- **C73** in part: with the shape `auto` for all nodes, all nodes are circles if all names are short. Missing for the full
property: graphs with longer names, where the shape stays `auto`, and graphs without nodes, see below. -/
theorem C73_circle_partial (F : Made w.heap) (r : Reachable w.heap) (ap : Apart w.heap) (full : AllFull w) (hd : w.display g = some d)
    (D : d.Dicts) (hok : stylize lim shuffle g w = (.ok (), w')) {l : List (NodeItem C)} (hl : d.globalNode = some l) {a : String}
    (ha : .shape (some a) ∈ l) (hauto : "auto".toList.isPrefixOf a.toLower.toList) {n : NRef} (hn : n ∈ graphNodes w.heap g) :
    ∃ s, nodeLook w' n = some s ∧ (ShortNames w.heap g → s.shape = some "circle") ∧ (¬ ShortNames w.heap g → s.shape = some a) := by
  obtain ⟨h1, h2⟩ := C71_nodes F r ap full hd D hok hn
  cases hs : nodeLook w' n with
  | none => have := (h1 hs).1; rw [hl] at this; cases this
  | some s =>
    refine ⟨s, rfl, ?_⟩
    have := h2 s hs [] (globalNodeSettings w.heap g d) _ rfl (autoShape w.heap g (.shape (some a)))
      (by unfold globalNodeSettings; rw [hl]; exact List.mem_map_of_mem ha) (by simp)
    simp only [autoShape] at this
    constructor
    · intro hsh; rw [if_pos ⟨hauto, hsh⟩] at this; exact this
    · intro hsh; rw [if_neg fun hh => hsh hh.2] at this; exact this

/-- **C73 is violated** by graphs without nodes: `stylize` raises `ValueError`. -/
theorem C73_empty_violated (hd : w.display g = some d) (hn : graphNodes w.heap g = []) {l : List (NodeItem C)} (hl : d.globalNode = some l)
    {a : String} (ha : shapeOf l = some (some a)) (hauto : "auto".toList.isPrefixOf a.toLower.toList) :
    stylize lim shuffle g w = (.error (.valueError "max() arg is an empty sequence"), w) := by
  have : before g d w = (.error (.valueError "max() arg is an empty sequence"), w) := by
    simp only [before, W.bind_apply, globalNodeAssign, hl, ask_apply, smartStyle, ha]
    rw [if_pos hauto, if_pos hn]
  rw [stylize_split hd, W.bind_apply, this]

/-! ## Painting at random -/

omit [Palette C] [DecidableEq C] in
theorem rounds_next (cs : List C) (hm : 0 < cs.length) (i : Nat) :
    rounds cs (i / cs.length) (i % cs.length + 1) = rounds cs ((i + 1) / cs.length) ((i + 1) % cs.length) := by
  have hk := Nat.mod_lt i hm
  by_cases hw : i % cs.length + 1 = cs.length
  · rw [hw, rounds_wrap]
    have : (i + 1) % cs.length = 0 := by
      rw [Nat.add_mod_eq_ite]
      by_cases h1 : cs.length = 1
      · simp [h1, Nat.mod_one]
      · rw [Nat.mod_eq_of_lt (show 1 < cs.length by omega)]; simp [hw]
    rw [this]
    congr 1
    have e1 := Nat.div_add_mod i cs.length
    have e2 := Nat.div_add_mod (i + 1) cs.length
    have : cs.length * ((i + 1) / cs.length) = cs.length * (i / cs.length + 1) := by rw [Nat.mul_add]; omega
    exact (Nat.eq_of_mul_eq_mul_left hm this).symm
  · have hlt : i % cs.length + 1 < cs.length := by omega
    have : (i + 1) % cs.length = i % cs.length + 1 := by
      rw [Nat.add_mod, Nat.mod_eq_of_lt (show 1 < cs.length by omega), Nat.mod_eq_of_lt hlt]
    rw [this]
    congr 1
    have e1 := Nat.div_add_mod i cs.length
    have e2 := Nat.div_add_mod (i + 1) cs.length
    have : cs.length * ((i + 1) / cs.length) = cs.length * (i / cs.length) := by omega
    exact (Nat.eq_of_mul_eq_mul_left hm this).symm

theorem randomPass_looks {h : Heap} {cs : List C} (nd : cs.Nodup) (hm : 0 < cs.length) {ns : List NRef} (hns : ns.Nodup) (i : Nat) {w w' : World C}
    (O : Okay h w) (hok : randomPass ns (rounds cs (i / cs.length) (i % cs.length)) w = (.ok (), w')) :
    (∀ j (hj : j < ns.length), nodeLook w' ns[j] = some (defaultNode (cs[(i + j) % cs.length]'(Nat.mod_lt _ hm)))) ∧
    (∀ n, n ∉ ns → nodeLook w' n = nodeLook w n) := by
  induction ns generalizing w i with
  | nil => cases hok; simp
  | cons n ns ih =>
    simp only [List.nodup_cons] at hns
    simp only [randomPass, W.bind_apply, ask_apply, rounds_step cs nd (i / cs.length) _ (Nat.mod_lt i hm)] at hok
    obtain ⟨w1, h1, h2⟩ := seq_ok hok
    have O1 := O.quiet ((Silent.assignNode n (full_make _)).quiet O.fine h1)
    rw [rounds_next cs hm i] at h2
    obtain ⟨a, b⟩ := ih hns.2 (i + 1) O1 h2
    obtain ⟨p1, -⟩ := assignNode_effect w w1 O h1
    constructor
    · intro j hj
      cases j with
      | zero =>
        simp only [List.getElem_cons_zero, Nat.add_zero]
        rw [b n hns.1, p1 n, onlyAt_self, make_plain]
      | succ j =>
        simp only [List.getElem_cons_succ]
        rw [a j (by simpa using hj)]
        simp [show i + 1 + j = i + (j + 1) by omega]
    · intro m hmem
      simp only [List.mem_cons, not_or] at hmem
      rw [b m hmem.2, p1 m, onlyAt_ne hmem.1]

/-- **C74.** `stylize_randomly` gives the nodes, in the shuffled order, the colours of the scheme one after the other (each
counted once, from the beginning again when they are used up), with the default style for the colour; also nodes that had a
style. -/
theorem C74_round_robin (F : Made w.heap) (r : Reachable w.heap) (ap : Apart w.heap) (hd : w.display g = some d) (hs : d.scheme ≠ [])
    (hsh : ∀ l, (shuffle l).Perm l) (hok : stylizeRandomly shuffle g w = (.ok (), w')) :
    (∀ n, n ∈ shuffle (graphNodes w.heap g) ↔ n ∈ graphNodes w.heap g) ∧
    ∀ j (hj : j < (shuffle (graphNodes w.heap g)).length),
      nodeLook w' (shuffle (graphNodes w.heap g))[j] =
        some (defaultNode ((firsts d.scheme)[j % (firsts d.scheme).length]'(Nat.mod_lt _ (firsts_pos hs)))) := by
  refine ⟨fun n => (hsh _).mem_iff, ?_⟩
  have O : Okay w.heap w := ⟨rfl, F, ap⟩
  rw [random_split hd] at hok
  obtain ⟨w1, h1, h2⟩ := seq_ok hok
  have q1 := (Silent.randomPass _ _).quiet O.fine h1
  have hr0 : rounds (firsts d.scheme) (0 / (firsts d.scheme).length) (0 % (firsts d.scheme).length) = coloursUnused d.scheme := by
    rw [coloursUnused_eq]; simp [rounds]
  rw [← hr0] at h1
  obtain ⟨a, -⟩ := randomPass_looks (nodup_firsts _) (firsts_pos hs) ((hsh _).nodup_iff.2 (graphNodes_nodup r g)) 0 O h1
  intro j hj
  rw [(edgesPart_keeps (O.quiet q1) h2).1, a j hj]
  simp

theorem range_countP (m : Nat) (hm : 0 < m) (a L : Nat) (ha : a < m) :
    (List.range L).countP (fun j => decide (j % m = a)) = L / m + if a < L % m then 1 else 0 := by
  have h := Nat.count_modEq_card L hm a
  rw [Nat.mod_eq_of_lt ha] at h
  rw [← h]
  clear h
  induction L with
  | zero => rfl
  | succ L ih =>
    rw [List.range_succ, List.countP_append, ih, Nat.count_succ]
    simp [Nat.ModEq, Nat.mod_eq_of_lt ha, List.countP_cons]

/-- **C74**: after that, no colour of the scheme is used by two nodes more than another. -/
theorem C74_balanced (F : Made w.heap) (r : Reachable w.heap) (ap : Apart w.heap) (hd : w.display g = some d)
    (hsh : ∀ l, (shuffle l).Perm l) (hok : stylizeRandomly shuffle g w = (.ok (), w')) {c c' : C} (hc : c ∈ d.scheme) (hc' : c' ∈ d.scheme) :
    (graphNodes w.heap g).countP (fun n => decide ((nodeLook w' n).map (·.colour) = some c)) ≤
      (graphNodes w.heap g).countP (fun n => decide ((nodeLook w' n).map (·.colour) = some c')) + 1 := by
  have hs : d.scheme ≠ [] := List.ne_nil_of_mem hc
  obtain ⟨-, H⟩ := C74_round_robin F r ap hd hs hsh hok
  have hm := firsts_pos hs
  have key : ∀ x ∈ d.scheme, ∃ a < (firsts d.scheme).length,
      (graphNodes w.heap g).countP (fun n => decide ((nodeLook w' n).map (·.colour) = some x)) =
        (graphNodes w.heap g).length / (firsts d.scheme).length + if a < (graphNodes w.heap g).length % (firsts d.scheme).length then 1 else 0 := by
    intro x hx
    obtain ⟨a, ha, rfl⟩ := List.getElem_of_mem (mem_firsts.2 hx)
    refine ⟨a, ha, ?_⟩
    rw [← range_countP _ hm a _ ha, ← (hsh (graphNodes w.heap g)).countP_eq, ← (hsh (graphNodes w.heap g)).length_eq]
    have e : (shuffle (graphNodes w.heap g)).map (fun n => (nodeLook w' n).map (·.colour)) =
        (List.range (shuffle (graphNodes w.heap g)).length).map
          (fun j => some ((firsts d.scheme)[j % (firsts d.scheme).length]'(Nat.mod_lt _ hm))) := by
      refine List.ext_getElem (by simp) fun j h1 h2 => ?_
      simp only [List.getElem_map, List.getElem_range]
      rw [H j (by simpa using h1)]
      rfl
    have e1 : ∀ l : List NRef, l.countP (fun n => decide ((nodeLook w' n).map (·.colour) = some (firsts d.scheme)[a])) =
        (l.map (fun n => (nodeLook w' n).map (·.colour))).countP (fun o => decide (o = some (firsts d.scheme)[a])) := by
      intro l; rw [List.countP_map]; rfl
    rw [e1, e, List.countP_map]
    refine List.countP_congr fun j _ => ?_
    simp only [Function.comp_apply, decide_eq_true_eq, Option.some.injEq]
    exact (nodup_firsts d.scheme).getElem_inj_iff
  obtain ⟨a, -, e1⟩ := key c hc
  obtain ⟨b, -, e2⟩ := key c' hc'
  rw [e1, e2]
  split <;> split <;> omega

/-! ## Examples and violations -/

/-- `gaudyWorld` painted by the stylist `st`. -/
def gaudyWith (h : Heap) (st : Stylist) : World Rat :=
  { gaudyWorld h with display := fun g => ((gaudyWorld h).display g).map fun d => { d with stylist := st } }

theorem gaudy_dicts {h : Heap} {st : Stylist} {d : Display Rat} (hd : (gaudyWith h st).display 0 = some d) : d.Dicts := by
  simp only [gaudyWith, gaudyWorld, Option.map_some, Option.some.injEq] at hd
  subst hd
  constructor <;> simp [NodeDict, EdgeDict, NodeItem.attr, EdgeItemStyle.attr]

/-- It meets the hypotheses of **C71**, **C72** and **C73**, for all stylists. -/
example : ∀ st, Made (gaudyWith openDiamond st).heap ∧ Reachable (gaudyWith openDiamond st).heap ∧ Apart (gaudyWith openDiamond st).heap ∧
    AllFull (gaudyWith openDiamond st) ∧ (∀ d, (gaudyWith openDiamond st).display 0 = some d → d.Dicts) ∧
    ShortNames openDiamond 0 ∧ (stylize 10 List.reverse 0 (gaudyWith openDiamond st)).1 = .ok () := by
  intro st
  refine ⟨openDiamond_made, openDiamond_reachable, openDiamond_made.apart (by decide +kernel), openDiamond_made.allFull (show openDiamond.nStyle = 0 by decide +kernel),
    fun d hd => gaudy_dicts hd, by decide +kernel, ?_⟩
  cases st <;> decide +kernel

deriving instance DecidableEq for NodeItem

/-- The settings for the node `b`, in order of precedence. -/
example : nodeSettings openDiamond 0 (((gaudyWorld openDiamond).display 0).getD { scheme := [], stylist := .other }) (.str "b") =
    [[.shape (some "circle"), .colour 1], colourSettings (1 / 2), []] := by decide +kernel

/-- **C72 is violated** by `stylize_randomly`: with a style for all nodes, the nodes `c` and `d`, without own settings, have
the colour asked for, but different fill colours. -/
theorem C72_violated : Reachable (gaudyWith openDiamond .random).heap ∧ Made (gaudyWith openDiamond .random).heap ∧
    Apart (gaudyWith openDiamond .random).heap ∧
    (stylize 10 id 0 (gaudyWith openDiamond .random)).1 = .ok () ∧
    (nodeLook (stylize 10 id 0 (gaudyWith openDiamond .random)).2 2).map (·.colour) = some 1 ∧
    (nodeLook (stylize 10 id 0 (gaudyWith openDiamond .random)).2 3).map (·.colour) = some 1 ∧
    (nodeLook (stylize 10 id 0 (gaudyWith openDiamond .random)).2 2).map (·.fill) ≠
      (nodeLook (stylize 10 id 0 (gaudyWith openDiamond .random)).2 3).map (·.fill) :=
  ⟨openDiamond_reachable, openDiamond_made, openDiamond_made.apart (by decide +kernel), by decide +kernel, by decide +kernel,
    by decide +kernel, by decide +kernel⟩

/-- Two nodes with long names. -/
def fruit : Heap := runOps [.newGraph false true true, .add 0 "apple", .add 0 "banana", .link 0 "apple" "banana"] Heap.init

theorem fruit_reachable : Reachable fruit := by
  refine Reachable.runOps .init _ ?_
  refine ⟨trivial, ?_⟩
  simp only [AllOk, Op.Ok, Op.add, Op.link]
  decide

theorem fruit_made : Made fruit := by
  refine Made.init.runOps _ ?_
  simp only [AllStylesOk, Op.StylesOk, Op.add, Op.link, StyleArg.Below, and_self]

/-- **C73 is violated** by graphs with longer names: the shape of the nodes is `auto`, which is no shape. -/
theorem C73_violated : Reachable fruit ∧ Made fruit ∧ Apart fruit ∧
    (stylize 10 id 0 { plainWorld fruit with display := fun _ => some { scheme := [0, 1 / 2, 1], stylist := .pensieve, globalNode := some [.shape (some "auto")] } }).1 = .ok () ∧
    (nodeLook (stylize 10 id 0 { plainWorld fruit with display := fun _ => some { scheme := [0, 1 / 2, 1], stylist := .pensieve, globalNode := some [.shape (some "auto")] } }).2 0).map (·.shape) =
      some (some "auto") :=
  ⟨fruit_reachable, fruit_made, fruit_made.apart (by decide +kernel), by decide +kernel, by decide +kernel⟩

/-- A graph without nodes, and a shape that means `auto`. -/
example : graphNodes (runOps [.newGraph false true true] Heap.init) 0 = [] ∧
    shapeOf ([.colour 1, .shape (some "Automatic")] : List (NodeItem Rat)) = some (some "Automatic") ∧
    "auto".toList.isPrefixOf "Automatic".toLower.toList := by decide +kernel

/-- The hypotheses of **C74**, with some nodes that have styles. -/
example : Apart openDiamond ∧ (∀ l : List NRef, l.reverse.Perm l) ∧
    (stylizeRandomly List.reverse 0 (plainWorld openDiamond)).1 = .ok () ∧
    ((graphNodes openDiamond 0).map fun n => (nodeLook (stylizeRandomly List.reverse 0 (plainWorld openDiamond)).2 n).map (·.colour)) =
      [some 0, some 1, some (1 / 2), some 0] :=
  ⟨openDiamond_made.apart (by decide +kernel), List.reverse_perm, by decide +kernel, by decide +kernel⟩

end Verif
