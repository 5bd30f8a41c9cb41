import Verif.Props.Settings
import Verif.Props.Independent
import Verif.Model.Render
/-!
# Settings for nodes and edges that are gone

**C114.** The styles and colours given for single nodes and edges are kept by name and by id; they stay when the node or the edge is
removed, and then the graph cannot be drawn.
-/
namespace Verif
open Palette W
variable {C : Type}

theorem W.bind_ok {α β : Type} {x : W C α} {f : α → W C β} {w w' : World C} {b : β} (h : (x >>= f) w = (.ok b, w')) :
    ∃ a w1, x w = (.ok a, w1) ∧ f a w1 = (.ok b, w') := by
  simp only [W.bind_apply] at h
  cases hx : x w with
  | mk o w1 =>
    rw [hx] at h
    cases o with
    | error e => cases h
    | ok a => exact ⟨a, w1, rfl, h⟩

theorem forEach_ok {α : Type} {f : α → W C Unit} (sf : ∀ a, Silent (f a)) (l : List α) : ∀ {w w' : World C}, Fine w →
    forEach f l w = (.ok (), w') → ∀ a ∈ l, ∃ w1 w2, Quiet w w1 ∧ f a w1 = (.ok (), w2) := by
  induction l with
  | nil => simp
  | cons b l ih =>
    intro w w' F h a ha
    obtain ⟨u, w1, h1, h2⟩ := W.bind_ok h
    have q := sf b w F
    rw [h1] at q
    rcases List.mem_cons.1 ha with rfl | ha
    · exact ⟨w, w1, .refl F, h1⟩
    · obtain ⟨w2, w3, q2, h3⟩ := ih q.fine h2 a ha
      exact ⟨w2, w3, q.trans q2, h3⟩

section
variable [Palette C] [DecidableEq C] {lim : Nat} {shuffle : List NRef → List NRef} {g : GRef} {w : World C} {d : Display C}

omit [Palette C] [DecidableEq C] in
theorem name_of_getNode {h : Heap} (r : Reachable h) {g : GRef} {k : Key} {n : NRef} (hn : getNode h g (.key k) = .ok n) :
    k ∈ namesOf h g := by
  obtain ⟨A, H⟩ := r.hist
  obtain ⟨k', e, hk⟩ := H.rep.getNode_ok.1 hn
  have hm := getNode_mem r hn
  have := (H.rep.nodeOk _ _ _ hk).2.1
  refine List.mem_map.2 ⟨n, hm, ?_⟩
  rw [this]
  simp only [Rep.argName, Option.some.injEq] at e
  exact e.symm

omit [Palette C] [DecidableEq C] in
theorem live_of_edgeById {h : Heap} (r : Reachable h) {g : GRef} {i : EdgeId} {e : ERef} (he : edgeById h g i = .ok e) :
    LiveEdge h g e ∧ edgeId h e = .ok i := by
  obtain ⟨es, d, h1, h2, -, h4, h5⟩ := C11_edges_dict r g
  obtain ⟨es', h1', -, h6, -⟩ := C11_edges r g
  rw [h1] at h1'
  cases h1'
  simp only [edgeById, h2, bind, Except.bind] at he
  cases hd : dget d i with
  | none => rw [hd] at he; cases he
  | some e' =>
    rw [hd] at he
    cases he
    have hm := mem_of_dget hd
    exact ⟨(h6 e).1 ((h4 e).1 (List.mem_map.2 ⟨_, hm, rfl⟩)), h5 _ _ hm⟩

/-- **C114**: a graph can be styled only if every style and every colour it was given for a node is for a node it has, and every one for an
edge is for an edge it has. -/
theorem C114_known (F : Made w.heap) (r : Reachable w.heap) (hd : w.display g = some d)
    (hok : (stylize lim shuffle g w).1 = .ok ()) :
    (∀ k ∈ dkeys d.nodeStyles ++ dkeys d.nodeColours, k ∈ namesOf w.heap g) ∧
      ∀ i ∈ dkeys d.edgeStyles ++ dkeys d.edgeColours, ∃ e, LiveEdge w.heap g e ∧ edgeId w.heap e = .ok i := by
  cases hs : stylize lim shuffle g w with
  | mk o w' =>
  rw [hs] at hok
  cases hok
  obtain ⟨d', w0, h0, s0⟩ := W.bind_ok hs
  obtain ⟨rfl, rfl⟩ : d' = d ∧ w0 = w := by
    simp only [W.display, hd] at h0
    cases h0
    exact ⟨rfl, rfl⟩
  obtain ⟨_, w1, h1, s1⟩ := W.bind_ok s0
  obtain ⟨_, w2, h2, s2⟩ := W.bind_ok s1
  obtain ⟨_, w3, h3, s3⟩ := W.bind_ok s2
  obtain ⟨_, w4, h4, s4⟩ := W.bind_ok s3
  obtain ⟨_, w5, h5, s5⟩ := W.bind_ok s4
  obtain ⟨_, w6, h6, s6⟩ := W.bind_ok s5
  obtain ⟨_, w7, h7, s7⟩ := W.bind_ok s6
  have q1 := Silent.globalNodeAssign g d'.globalNode w0 F
  rw [h1] at q1
  have q2 := Silent.globalEdgeAssign g d'.globalEdge w1 q1.fine
  rw [h2] at q2
  have q3 := Silent.runStylist lim shuffle g d'.stylist w2 q2.fine
  rw [h3] at q3
  have q4 := Silent.forEach (Silent.nodeStyleOverwrite g) d'.nodeStyles w3 q3.fine
  rw [h4] at q4
  have q5 := Silent.forEach (Silent.edgeStyleOverwrite g) d'.edgeStyles w4 q4.fine
  rw [h5] at q5
  have q6 := Silent.forEach (Silent.nodeColourOverwrite g) d'.nodeColours w5 q5.fine
  rw [h6] at q6
  have Q3 := (q1.trans q2).trans q3
  have Q4 := Q3.trans q4
  have Q5 := Q4.trans q5
  have Q6 := Q5.trans q6
  refine ⟨fun k hk => ?_, fun i hi => ?_⟩
  · rcases List.mem_append.1 hk with hk | hk
    · obtain ⟨p, hp, rfl⟩ := List.mem_map.1 hk
      obtain ⟨x, y, q, hx⟩ := forEach_ok (Silent.nodeStyleOverwrite g) _ Q3.fine h4 p hp
      obtain ⟨n, _, hn, -⟩ := W.bind_ok hx
      simp only [ask_apply] at hn
      have hn := (Prod.mk.inj hn).1
      rw [← (Q3.trans q).shape.getNode] at hn
      exact name_of_getNode r hn
    · obtain ⟨p, hp, rfl⟩ := List.mem_map.1 hk
      obtain ⟨x, y, q, hx⟩ := forEach_ok (Silent.nodeColourOverwrite g) _ Q5.fine h6 p hp
      obtain ⟨n, _, hn, -⟩ := W.bind_ok hx
      simp only [ask_apply] at hn
      have hn := (Prod.mk.inj hn).1
      rw [← (Q5.trans q).shape.getNode] at hn
      exact name_of_getNode r hn
  · rcases List.mem_append.1 hi with hi | hi
    · obtain ⟨p, hp, rfl⟩ := List.mem_map.1 hi
      obtain ⟨x, y, q, hx⟩ := forEach_ok (Silent.edgeStyleOverwrite g) _ Q4.fine h5 p hp
      obtain ⟨e, _, he, -⟩ := W.bind_ok hx
      simp only [ask_apply] at he
      have he := (Prod.mk.inj he).1
      rw [edgeById_same (Q4.trans q).shape] at he
      exact ⟨e, live_of_edgeById r he⟩
    · obtain ⟨p, hp, rfl⟩ := List.mem_map.1 hi
      obtain ⟨x, y, q, hx⟩ := forEach_ok (Silent.edgeColourOverwrite g) _ Q6.fine h7 p hp
      obtain ⟨e, _, he, -⟩ := W.bind_ok hx
      simp only [ask_apply] at he
      have he := (Prod.mk.inj he).1
      rw [edgeById_same (Q6.trans q).shape] at he
      exact ⟨e, live_of_edgeById r he⟩

/-- **C114**: nor can it be rendered. -/
theorem C114_rendered (F : Made w.heap) (r : Reachable w.heap) (hd : w.display g = some d) (a : DrawArgs)
    (hok : ∃ s, (render lim shuffle g a w).1 = .ok s) :
    (∀ k ∈ dkeys d.nodeStyles ++ dkeys d.nodeColours, k ∈ namesOf w.heap g) ∧
      ∀ i ∈ dkeys d.edgeStyles ++ dkeys d.edgeColours, ∃ e, LiveEdge w.heap g e ∧ edgeId w.heap e = .ok i := by
  obtain ⟨s, hok⟩ := hok
  refine C114_known (lim := lim) (shuffle := shuffle) F r hd ?_
  cases hs : render lim shuffle g a w with
  | mk o w' =>
  rw [hs] at hok
  cases hok
  obtain ⟨d', w0, h0, s0⟩ := W.bind_ok hs
  obtain ⟨rfl, rfl⟩ : d' = d ∧ w0 = w := by
    simp only [W.display, hd] at h0
    cases h0
    exact ⟨rfl, rfl⟩
  obtain ⟨_, w1, h1, -⟩ := W.bind_ok s0
  rw [h1]

/-- **C114**: the exception is `KeyError`, if nothing goes wrong before. -/
theorem C114_key_error (F : Made w.heap) (r : Reachable w.heap) (hd : w.display g = some d) (hn : d.globalNode = none)
    (he : d.globalEdge = none) {w1 : World C} (hst : runStylist lim shuffle g d.stylist w = (.ok (), w1))
    (first : (∃ k l ls, d.nodeStyles = (k, l) :: ls ∧ k ∉ namesOf w.heap g) ∨
      (d.nodeStyles = [] ∧ ∃ i l ls, d.edgeStyles = (i, l) :: ls ∧ ∀ e, LiveEdge w.heap g e → edgeId w.heap e ≠ .ok i) ∨
      (d.nodeStyles = [] ∧ d.edgeStyles = [] ∧ ∃ k c cs, d.nodeColours = (k, c) :: cs ∧ k ∉ namesOf w.heap g) ∨
      (d.nodeStyles = [] ∧ d.edgeStyles = [] ∧ d.nodeColours = [] ∧
        ∃ i c cs, d.edgeColours = (i, c) :: cs ∧ ∀ e, LiveEdge w.heap g e → edgeId w.heap e ≠ .ok i)) :
    stylize lim shuffle g w = (.error .keyError, w1) := by
  have q := Silent.runStylist lim shuffle g d.stylist w F
  rw [hst] at q
  have node : ∀ k, k ∉ namesOf w.heap g → getNode w1.heap g (.key k) = .error .keyError := by
    intro k hk
    rw [← q.shape.getNode]
    cases hq : getNode w.heap g (.key k) with
    | ok n => exact absurd (name_of_getNode r hq) hk
    | error e =>
      simp only [getNode] at hq
      split at hq <;> simp_all
  have edge : ∀ i, (∀ e, LiveEdge w.heap g e → edgeId w.heap e ≠ .ok i) → edgeById w1.heap g i = .error .keyError := by
    intro i hi
    rw [edgeById_same q.shape]
    cases hq : edgeById w.heap g i with
    | ok n => exact absurd (live_of_edgeById r hq).2 (hi n (live_of_edgeById r hq).1)
    | error e =>
      obtain ⟨es, d, -, h2, -⟩ := C11_edges_dict r g
      simp only [edgeById, h2, bind, Except.bind] at hq
      cases hd : dget d i with
      | none => rw [hd] at hq; cases hq; rfl
      | some e' => rw [hd] at hq; cases hq
  unfold stylize
  simp only [W.bind_apply, W.display, hd, hn, he, globalNodeAssign, globalEdgeAssign, W.pure_apply, hst]
  rcases first with ⟨k, l, ls, e, hk⟩ | ⟨e1, i, l, ls, e, hi⟩ | ⟨e1, e2, k, c, cs, e, hk⟩ | ⟨e1, e2, e3, i, c, cs, e, hi⟩
  · simp only [e, forEach, W.bind_apply, nodeStyleOverwrite, ask_apply, node k hk]
  · simp only [e1, e, forEach, W.bind_apply, W.pure_apply, edgeStyleOverwrite, ask_apply, edge i hi]
  · simp only [e1, e2, e, forEach, W.bind_apply, W.pure_apply, nodeColourOverwrite, ask_apply, node k hk]
  · simp only [e1, e2, e3, e, forEach, W.bind_apply, W.pure_apply, edgeColourOverwrite, ask_apply, edge i hi]

omit [Palette C] [DecidableEq C] in
theorem Booked.heard {h : Heap} {A : Spec} {L : Ledger} (B : Booked h A g L) :
    (∀ k, k ∈ namesOf h g ↔ k ∈ L.names) ∧ ∀ i, (∃ e, LiveEdge h g e ∧ edgeId h e = .ok i) ↔ i ∈ L.ids := by
  refine ⟨fun k => ?_, fun i => ⟨?_, ?_⟩⟩
  · rw [B.names]
    constructor
    · intro hk
      obtain ⟨n, hn, rfl⟩ := List.mem_map.1 hk
      obtain ⟨k, hk⟩ := (mem_graphNodes B.rep).1 hn
      rw [(B.rep.nodeOk _ _ _ hk).2.1]
      exact List.mem_map.2 ⟨_, hk, rfl⟩
    · intro hk
      obtain ⟨p, hp, rfl⟩ := List.mem_map.1 hk
      exact List.mem_map.2 ⟨p.2, (mem_graphNodes B.rep).2 ⟨_, hp⟩, (B.rep.nodeOk _ _ _ hp).2.1⟩
  · rintro ⟨e, he, hi⟩
    obtain ⟨j, hj⟩ := (liveEdge_iff B.rep).1 he
    rw [B.rep.edgeId_eq hj] at hi
    cases hi
    rw [B.ids]
    exact List.mem_map.2 ⟨_, hj, rfl⟩
  · intro hi
    rw [B.ids] at hi
    obtain ⟨p, hp, rfl⟩ := List.mem_map.1 hi
    exact ⟨p.2, (liveEdge_iff B.rep).2 ⟨_, hp⟩, B.rep.edgeId_eq hp⟩

/-- **C114**, and a trap: a graph that was given a style or a colour for a node can no longer be styled or rendered once the node is
removed, and the same holds for a style or a colour given for an edge that starts or ends there. -/
theorem C114_node_removed (F : Made w.heap) (r : Reachable w.heap) (hg : g < w.heap.nG) (hd : w.display g = some d) {k : Key}
    (hk : k ∈ dkeys d.nodeStyles ++ dkeys d.nodeColours ∨ ∃ i ∈ dkeys d.edgeStyles ++ dkeys d.edgeColours, i.1 = k ∨ i.2.1 = k)
    {o : Except PyErr Unit} {h' : Heap} (hrun : removeNode g (.key k) w.heap = (o, h')) (a : DrawArgs) :
    (∃ err, (stylize lim shuffle g { w with heap := h' }).1 = .error err) ∧
      ∃ err, (render lim shuffle g a { w with heap := h' }).1 = .error err := by
  have e : h' = ((Deed.removeNode k).run g w.heap).2 := by rw [Deed.run, hrun]
  subst e
  obtain ⟨L, K⟩ := C107_exists r hg
  obtain ⟨A, B⟩ := K.booked r hg
  have K' := (C107_step r hg K (.removeNode k)).2
  have r' := Deed.reachable r hg (.removeNode k)
  have F' := (Keeps.removeNode (k := 0) g (.key k) w.heap (Nat.zero_le _) F).2.1
  obtain ⟨A', B'⟩ := K'.booked r' (Deed.run_nG hg _)
  have no : k ∉ (L.run (.removeNode k)).2.names ∧ ∀ i ∈ (L.run (.removeNode k)).2.ids, i.1 ≠ k ∧ i.2.1 ≠ k := by
    simp only [Ledger.run]
    split
    · simp only [Ledger.names, Ledger.ids, List.mem_map, List.mem_filter]
      grind
    · next hn =>
      refine ⟨hn, fun i hi => ?_⟩
      rw [B.ids] at hi
      obtain ⟨p, hp, rfl⟩ := List.mem_map.1 hi
      obtain ⟨n, m, -, -, -, -, -, h6, h7⟩ := B.rep.live_edge hp
      rw [B.names] at hn
      exact ⟨fun e => hn (List.mem_map.2 ⟨_, h6, e⟩), fun e => hn (List.mem_map.2 ⟨_, h7, e⟩)⟩
  have bad : ¬ ((∀ k' ∈ dkeys d.nodeStyles ++ dkeys d.nodeColours, k' ∈ namesOf ((Deed.removeNode k).run g w.heap).2 g) ∧
      ∀ i ∈ dkeys d.edgeStyles ++ dkeys d.edgeColours,
        ∃ e, LiveEdge ((Deed.removeNode k).run g w.heap).2 g e ∧ edgeId ((Deed.removeNode k).run g w.heap).2 e = .ok i) := by
    rintro ⟨h1, h2⟩
    rcases hk with hk | ⟨i, hi, hk⟩
    · exact no.1 ((B'.heard.1 k).1 (h1 k hk))
    · have := no.2 i ((B'.heard.2 i).1 (h2 i hi))
      grind
  constructor
  · cases hq : (stylize lim shuffle g { w with heap := ((Deed.removeNode k).run g w.heap).2 }).1 with
    | error err => exact ⟨err, rfl⟩
    | ok u => exact absurd (C114_known (w := { w with heap := ((Deed.removeNode k).run g w.heap).2 }) F' r' hd hq) bad
  · cases hq : (render lim shuffle g a { w with heap := ((Deed.removeNode k).run g w.heap).2 }).1 with
    | error err => exact ⟨err, rfl⟩
    | ok u => exact absurd (C114_rendered (w := { w with heap := ((Deed.removeNode k).run g w.heap).2 }) F' r' hd a ⟨u, hq⟩) bad

/-- **C114**: likewise for an edge that is removed. -/
theorem C114_edge_removed (F : Made w.heap) (r : Reachable w.heap) (hd : w.display g = some d) {e : ERef}
    {i : EdgeId} (he : LiveEdge w.heap g e) (hi : edgeId w.heap e = .ok i) (hs : i ∈ dkeys d.edgeStyles ++ dkeys d.edgeColours)
    {h' : Heap} (hrun : disconnect e w.heap = (.ok (), h') ∨ edgeRemoveSelf e w.heap = (.ok (), h')) (a : DrawArgs) :
    (∃ err, (stylize lim shuffle g { w with heap := h' }).1 = .error err) ∧
      ∃ err, (render lim shuffle g a { w with heap := h' }).1 = .error err := by
  have F' : Made h' := by
    rcases hrun with h | h
    · have := (Keeps.disconnect (k := 0) e w.heap (Nat.zero_le _) F).2.1
      rwa [h] at this
    · have := (Keeps.edgeRemoveSelf (k := 0) e w.heap (Nat.zero_le _) F).2.1
      rwa [h] at this
  obtain ⟨A, H⟩ := r.hist
  have R := H.rep
  obtain ⟨j, hj⟩ := (liveEdge_iff R).1 he
  rw [R.edgeId_eq hj] at hi
  cases hi
  have r' : Reachable h' := by
    rcases hrun with h | h
    · have := Reachable.step (.disconnect e) r trivial
      simpa [Op.step, M.bind_apply, h] using this
    · have := Reachable.step (.removeSelf e) r trivial
      simpa [Op.step, M.bind_apply, h] using this
  have D : EdgeDeleted w.heap h' e := by
    rcases hrun with h | h
    · obtain ⟨h'', q, D, -⟩ := C07_disconnect r he
      rw [h] at q; cases q; exact D
    · obtain ⟨h'', q, D, -⟩ := C07_remove_self r he
      rw [h] at q; cases q; exact D
  have bad : ¬ ∃ f, LiveEdge h' g f ∧ edgeId h' f = .ok i := by
    rintro ⟨f, ⟨n, hn, os, ho, hf⟩, hid⟩
    have hn' : n ∈ graphNodes w.heap g := by
      have : graphNodes h' g = graphNodes w.heap g := by simp only [graphNodes, D.graphs]
      rwa [this] at hn
    obtain ⟨os', q1, q2⟩ := D.out g n hn'
    rw [q2] at ho
    cases ho
    obtain ⟨m1, m2⟩ := List.mem_filter.1 hf
    have ne : f ≠ e := by simpa using m2
    have lf : LiveEdge w.heap g f := ⟨n, hn', os', q1, m1⟩
    obtain ⟨j, hj'⟩ := (liveEdge_iff R).1 lf
    have eid : edgeId h' f = edgeId w.heap f := by
      have nid : ∀ n, (h'.node n).id = (w.heap.node n).id := by
        intro n; obtain ⟨o, i, q⟩ := D.attrs n; rw [q]
      simp only [edgeId, D.others f ne, nid]
    rw [eid, R.edgeId_eq hj'] at hid
    cases hid
    have := dget_of_mem (R.idsNodup g) hj
    have := dget_of_mem (R.idsNodup g) hj'
    grind
  constructor
  · cases hq : (stylize lim shuffle g { w with heap := h' }).1 with
    | error err => exact ⟨err, rfl⟩
    | ok u => exact absurd ((C114_known (w := { w with heap := h' }) F' r' hd hq).2 i hs) bad
  · cases hq : (render lim shuffle g a { w with heap := h' }).1 with
    | error err => exact ⟨err, rfl⟩
    | ok u => exact absurd ((C114_rendered (w := { w with heap := h' }) F' r' hd a ⟨u, hq⟩).2 i hs) bad

end

/-- The settings of the gaudy graph name nodes and edges it has: it can be styled and rendered. -/
example := C114_known (g := 0) (lim := 10) (shuffle := id) openDiamond_made openDiamond_reachable (w := gaudyWorld openDiamond) rfl (by decide +kernel)
theorem gaudy_settled : (render 10 id 0 {} (gaudyWorld openDiamond)).1.isOk = true := by decide +kernel
example := C114_rendered (g := 0) (lim := 10) (shuffle := id) openDiamond_made openDiamond_reachable (w := gaudyWorld openDiamond) rfl {}
  (by
    have := gaudy_settled
    cases h : (render 10 id 0 {} (gaudyWorld openDiamond)).1 with
    | ok s => exact ⟨s, rfl⟩
    | error e => rw [h] at this; cases this)

/-- Node `a` has a style of its own, node `b` a colour, node `c` an edge with a colour: without one of them the graph cannot be drawn. -/
example : (removeNode 0 (.key (.str "a")) openDiamond).1 = .ok () ∧ (removeNode 0 (.key (.str "b")) openDiamond).1 = .ok () ∧
    (removeNode 0 (.key (.str "c")) openDiamond).1 = .ok () := by decide +kernel
example (k : Key) (hk : k = .str "a" ∨ k = .str "b" ∨ k = .str "c" ∨ k = .str "d") :=
  C114_node_removed (lim := 10) (shuffle := id) (w := gaudyWorld openDiamond) openDiamond_made openDiamond_reachable (by decide +kernel) rfl
    (k := k) (by rcases hk with rfl | rfl | rfl | rfl <;> decide +kernel) (h' := (removeNode 0 (.key k) openDiamond).2) rfl {}

/-- The edge from `a` to `b` has a style of its own. -/
example := C114_edge_removed (lim := 10) (shuffle := id) (g := 0) (w := gaudyWorld openDiamond) openDiamond_made openDiamond_reachable rfl
  (e := 0) (i := (.str "a", .str "b", .none)) ⟨0, by decide +kernel, [0, 1], by decide +kernel, by decide +kernel⟩ (by decide +kernel) (by decide +kernel)
  (h' := (disconnect 0 openDiamond).2) (.inl (Prod.ext (by decide +kernel) rfl)) {}

/-- With the default stylist and a colour for an edge that is not there. -/
def staleWorld : World Rat :=
  { plainWorld diamond with display := fun _ => some { scheme := [0, 1 / 2, 1], edgeColours := [((.str "d", .str "a", .none), 1)] } }

example : (runStylist 10 id 0 .pensieve staleWorld).1 = .ok () ∧ (stylize 10 id 0 staleWorld).1 = .error .keyError := by decide +kernel

example (w1 : World Rat) (h : runStylist 10 id 0 .pensieve staleWorld = (.ok (), w1)) :
    stylize 10 id 0 staleWorld = (.error .keyError, w1) := by
  refine C114_key_error diamond_made diamond_reachable (w := staleWorld) rfl rfl rfl h (.inr (.inr (.inr ⟨rfl, rfl, rfl, _, _, _, rfl, ?_⟩)))
  rintro e ⟨n, hn, os, ho, he⟩ hi
  have : ∀ n ∈ graphNodes diamond 0, ∀ e ∈ (outwardEdges diamond n).toOption.getD [], edgeId diamond e ≠ .ok (.str "d", .str "a", .none) := by
    decide +kernel
  refine this n hn e ?_ hi
  have ho : outwardEdges diamond n = .ok os := ho
  rw [ho]
  exact he

end Verif
