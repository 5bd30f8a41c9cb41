import Verif.Lemmas.Again
/-!
# Styling once more without permission to overwrite
-/
namespace Verif
open Palette W
variable {C : Type} [Palette C] {h : Heap} {g : GRef}

/-- Styles must not be overwritten. -/
def Deny (h : Heap) (g : GRef) : Prop := (h.graph g).overwrite = some false

omit [Palette C] in
theorem blocked {w : World C} (S : SameBody h w.heap) (dn : Deny h g) {st : Option SRef} {gr : Option GRef} (hg : gr = some g) (hs : st ≠ none) :
    checkOverwrite st gr w.heap = (.error .runtimeError, w.heap) := by
  subst hg
  obtain ⟨s, rfl⟩ := Option.ne_none_iff_exists'.1 hs
  have : (w.heap.graph g).overwrite = some false := by rw [← S.graph]; exact dn
  simp [checkOverwrite, this]

omit [Palette C] in
theorem seq_error {x : W C Unit} {y : W C Unit} {w : World C} {e : PyErr} (hx : (x w).1 = .error e) : ((x >>= fun _ => y) w).1 = .error e := by
  rw [bind_apply]
  cases hw : x w with
  | mk o w1 => rw [hw] at hx; simp only at hx; subst hx; rfl

omit [Palette C] in
theorem seq_first {x : W C Unit} {y : W C Unit} {w w1 : World C} {e : PyErr} (hx : x w = (.ok (), w1)) (hy : (y w1).1 = .error e) :
    ((x >>= fun _ => y) w).1 = .error e := by
  rw [bind_apply, hx]; exact hy

omit [Palette C] in
theorem assignNode_refused {w : World C} (S : SameBody h w.heap) (dn : Deny h g) {n : NRef} (hn : (h.node n).graph = some g)
    (hs : nodeLook w n ≠ none) (st : NodeStyle C) : (assignNode n st w).1 = .error .runtimeError := by
  rw [ne_eq, nodeLook_none] at hs
  rw [assignNode_blocked st (blocked S dn (by rw [← S.nodeGraph]; exact hn) hs)]

omit [Palette C] in
theorem assignEdge_refused {w : World C} (S : SameBody h w.heap) (dn : Deny h g) {n : ERef} (hn : (h.edge n).graph = some g)
    (hs : edgeLook w n ≠ none) (st : EdgeStyle C) : (assignEdge n st w).1 = .error .runtimeError := by
  rw [ne_eq, edgeLook_none] at hs
  rw [assignEdge_blocked st (blocked S dn (by rw [← S.edgeGraph]; exact hn) hs)]

theorem assignNodes_refused {w : World C} (S : SameBody h w.heap) (dn : Deny h g) {n : NRef} (hn : (h.node n).graph = some g)
    (hs : nodeLook w n ≠ none) (l : List (NodeItem C)) (ns : List NRef) : (assignNodes l (n :: ns) w).1 = .error .runtimeError := by
  rw [ne_eq, nodeLook_none] at hs
  have := blocked (gr := (w.heap.node n).graph) S dn (by rw [← S.nodeGraph]; exact hn) hs
  refine seq_error ?_
  simp only [W.lift, M.bind_apply, M.look_apply, this]

theorem assignEdges_refused {w : World C} (S : SameBody h w.heap) (dn : Deny h g) {n : ERef} (hn : (h.edge n).graph = some g)
    (hs : edgeLook w n ≠ none) (l : List (EdgeItemStyle C)) (ns : List ERef) : (assignEdges l (n :: ns) w).1 = .error .runtimeError := by
  rw [ne_eq, edgeLook_none] at hs
  have := blocked (gr := (w.heap.edge n).graph) S dn (by rw [← S.edgeGraph]; exact hn) hs
  refine seq_error ?_
  simp only [W.lift, M.bind_apply, M.look_apply, this]

theorem globalNodeAssign_refused {l : List (NodeItem C)} {w w' v : World C} (O : Okay h w) (dn : Deny h g) (own : Owned h g)
    (hne : graphNodes h g ≠ []) (hok : globalNodeAssign g (some l) w = (.ok (), w')) (q : Quiet w' v) :
    (globalNodeAssign g (some l) v).1 = .error .runtimeError := by
  have q' := (Silent.globalNodeAssign g (some l)).quiet O.fine hok
  have O' := (O.quiet q').quiet q
  simp only [globalNodeAssign] at hok ⊢
  rw [ask_cases (Q := smartStyle h g l) (fun w S => smartStyle_same S g l) _ O.body] at hok
  rw [ask_cases (Q := smartStyle h g l) (fun w S => smartStyle_same S g l) _ O'.body]
  cases hl : smartStyle h g l with
  | error e => rw [hl] at hok; cases hok
  | ok l' =>
    rw [hl] at hok
    simp only [W.bind_apply, look_apply, ← O.body.graphNodes, ← O'.body.graphNodes] at hok ⊢
    obtain ⟨n, ns, hns⟩ := List.exists_cons_of_ne_nil hne
    obtain ⟨Φ, Ψ, t1, t2, t3⟩ := assignNodes_tame (h := h) l' (graphNodes h g)
    have hn : n ∈ graphNodes h g := by rw [hns]; simp
    have hs : nodeLook w' n ≠ none := by
      rw [(t1 w w' O hok).1 n]
      rcases t2 n with ⟨a, -⟩ | ⟨s, -, b⟩
      · exact absurd hn a
      · rw [b]; simp
    rw [hns]
    exact assignNodes_refused O'.body dn (own.node n hn) (q.nodes n hs) _ _

theorem globalEdgeAssign_refused {l : List (EdgeItemStyle C)} {w w' v : World C} (O : Okay h w) (dn : Deny h g) (own : Owned h g)
    (hne : graphEdges h g ≠ .ok []) (hok : globalEdgeAssign g (some l) w = (.ok (), w')) (q : Quiet w' v) :
    (globalEdgeAssign g (some l) v).1 = .error .runtimeError := by
  have q' := (Silent.globalEdgeAssign g (some l)).quiet O.fine hok
  have O' := (O.quiet q').quiet q
  simp only [globalEdgeAssign] at hok ⊢
  rw [ask_cases (Q := graphEdges h g) (fun w S => by rw [S.graphEdges]) _ O.body] at hok
  rw [ask_cases (Q := graphEdges h g) (fun w S => by rw [S.graphEdges]) _ O'.body]
  cases hl : graphEdges h g with
  | error e => rw [hl] at hok; cases hok
  | ok es =>
    rw [hl] at hok hne
    obtain ⟨n, ns, hns⟩ := List.exists_cons_of_ne_nil (l := es) (by rintro rfl; exact hne rfl)
    obtain ⟨Φ, Ψ, t1, t2, t3⟩ := assignEdges_tame (h := h) l es
    have hn : n ∈ es := by rw [hns]; simp
    have hs : edgeLook w' n ≠ none := by
      rw [(t1 w w' O hok).2 n]
      rcases t3 n with ⟨a, -⟩ | ⟨s, -, b⟩
      · exact absurd hn a
      · rw [b]; simp
    subst hns
    exact assignEdges_refused O'.body dn (own.edges _ hl n hn) (q.edges n hs) _ _

theorem edgeStyles_refused {l : List (EdgeId × List (EdgeItemStyle C))} {w w' v : World C} (O : Okay h w) (dn : Deny h g) (own : Owned h g)
    (hne : l ≠ []) (hok : forEach (edgeStyleOverwrite g) l w = (.ok (), w')) (q : Quiet w' v) :
    (forEach (edgeStyleOverwrite g) l v).1 = .error .runtimeError := by
  have q' := (Silent.forEach (.edgeStyleOverwrite g) l).quiet O.fine hok
  have O' := (O.quiet q').quiet q
  obtain ⟨p, l', rfl⟩ := List.exists_cons_of_ne_nil hne
  obtain ⟨w1, h1, h2⟩ := seq_ok (x := edgeStyleOverwrite g p) (y := forEach (edgeStyleOverwrite g) l') hok
  have q1 := (Silent.edgeStyleOverwrite g p).quiet O.fine h1
  have q2 := (Silent.forEach (.edgeStyleOverwrite g) l').quiet q1.fine h2
  refine seq_error ?_
  unfold edgeStyleOverwrite at h1 ⊢
  rw [ask_cases (Q := edgeById h g p.1) (fun _ S => edgeById_same S _ _) _ O.body] at h1
  rw [ask_cases (Q := edgeById h g p.1) (fun _ S => edgeById_same S _ _) _ O'.body]
  cases he : edgeById h g p.1 with
  | error e => rw [he] at h1; cases h1
  | ok e =>
    rw [he] at h1
    obtain ⟨Φ, Ψ, t1, t2, t3⟩ := assignEdges_tame (h := h) p.2 [e]
    have hs : edgeLook w1 e ≠ none := by
      rw [(t1 w w1 O h1).2 e]
      rcases t3 e with ⟨a, -⟩ | ⟨s, -, b⟩
      · exact absurd (by simp) a
      · rw [b]; simp
    exact assignEdges_refused O'.body dn (own.byId _ _ he) (q.edges e (q2.edges e hs)) _ _

theorem nodeColours_denied {l : List (Key × C)} {w w' : World C} (S : SameBody h w.heap) (dn : Deny h g) (own : Owned h g)
    (hok : forEach (nodeColourOverwrite g) l w = (.ok (), w')) : l = [] := by
  refine Classical.byContradiction fun hne => ?_
  obtain ⟨p, l', rfl⟩ := List.exists_cons_of_ne_nil hne
  obtain ⟨w1, h1, -⟩ := seq_ok (x := nodeColourOverwrite g p) (y := forEach (nodeColourOverwrite g) l') hok
  unfold nodeColourOverwrite at h1
  rw [ask_cases (Q := getNode h g (.key p.1)) (fun _ T => (T.getNode _ _).symm) _ S] at h1
  cases hn : getNode h g (.key p.1) with
  | error e => rw [hn] at h1; cases h1
  | ok n =>
    rw [hn] at h1
    simp only [W.bind_apply, look_apply] at h1
    cases hs : (w.heap.node n).style with
    | none => rw [hs] at h1; cases h1
    | some s =>
      rw [hs] at h1
      simp only [W.bind_apply, look_apply] at h1
      have := assignNode_refused S dn (own.byKey _ _ hn) (w := w) (by rw [ne_eq, nodeLook_none, hs]; simp) ((w.ns s).recolour p.2)
      rw [h1] at this
      cases this

theorem edgeColours_denied {l : List (EdgeId × C)} {w w' : World C} (S : SameBody h w.heap) (dn : Deny h g) (own : Owned h g)
    (hok : forEach (edgeColourOverwrite g) l w = (.ok (), w')) : l = [] := by
  refine Classical.byContradiction fun hne => ?_
  obtain ⟨p, l', rfl⟩ := List.exists_cons_of_ne_nil hne
  obtain ⟨w1, h1, -⟩ := seq_ok (x := edgeColourOverwrite g p) (y := forEach (edgeColourOverwrite g) l') hok
  unfold edgeColourOverwrite at h1
  rw [ask_cases (Q := edgeById h g p.1) (fun _ T => edgeById_same T _ _) _ S] at h1
  cases hn : edgeById h g p.1 with
  | error e => rw [hn] at h1; cases h1
  | ok n =>
    rw [hn] at h1
    simp only [W.bind_apply, look_apply] at h1
    cases hs : (w.heap.edge n).style with
    | none => rw [hs] at h1; cases h1
    | some s =>
      rw [hs] at h1
      simp only [W.bind_apply, ask_apply] at h1
      cases hc : (w.es s).copy with
      | error e => rw [hc] at h1; cases h1
      | ok st =>
      rw [hc] at h1
      simp only at h1
      have := assignEdge_refused S dn (own.byId _ _ hn) (w := w) (by rw [ne_eq, edgeLook_none, hs]; simp) (st.resetColours.setColour p.2)
      rw [h1] at this
      cases this

variable [DecidableEq C]

theorem randomPass_refused {n : NRef} {ns : List NRef} {used : Dict C Nat} {w w' v : World C} (O : Okay h w) (dn : Deny h g)
    (hn : (h.node n).graph = some g) (hok : randomPass (n :: ns) used w = (.ok (), w')) (q : Quiet w' v) :
    (randomPass (n :: ns) used v).1 = .error .runtimeError := by
  have q' := (Silent.randomPass (n :: ns) used).quiet O.fine hok
  have O' := (O.quiet q').quiet q
  simp only [randomPass, W.bind_apply, ask_apply] at hok ⊢
  cases hc : getLeastUsedColour used with
  | error e => rw [hc] at hok; cases hok
  | ok r =>
    rw [hc] at hok
    obtain ⟨w1, h1, h2⟩ := seq_ok (x := assignNode n (.make { colour := some r.1 })) (y := randomPass ns r.2) hok
    have q2 := (Silent.randomPass ns r.2).quiet ((Silent.assignNode n (full_make _)).quiet O.fine h1).fine h2
    have hs : nodeLook w1 n ≠ none := by rw [(assignNode_effect w w1 O h1).1]; simp
    exact seq_error (assignNode_refused O'.body dn hn (q.nodes n (q2.nodes n hs)) _)

theorem random_refused {shuffle : List NRef → List NRef} (hsh : ∀ l, (shuffle l).Perm l) {w w' v : World C} {d : Display C} (O : Okay h w)
    (dn : Deny h g) (own : Owned h g) (hne : graphNodes h g ≠ []) (hd : w.display g = some d)
    (hok : stylizeRandomly shuffle g w = (.ok (), w')) (q : Quiet w' v) : (stylizeRandomly shuffle g v).1 = .error .runtimeError := by
  have q' := (Silent.runStylist 0 shuffle g .random).quiet O.fine hok
  have O' := (O.quiet q').quiet q
  have hd' : v.display g = some d := by rw [q.display, q'.display]; exact hd
  rw [random_split hd, ← O.body.graphNodes] at hok
  rw [random_split hd', ← O'.body.graphNodes]
  obtain ⟨w1, h1, h2⟩ := seq_ok hok
  have q1 := (Silent.randomPass _ _).quiet O.fine h1
  have q2 := edgesPart_silent.quiet q1.fine h2
  obtain ⟨n, ns, hns⟩ := List.exists_cons_of_ne_nil (l := shuffle (graphNodes h g)) (fun e => hne (by
    have := hsh (graphNodes h g); rw [e] at this; exact this.symm.eq_nil))
  have hn : (h.node n).graph = some g := own.node n ((hsh _).mem_iff.1 (by rw [hns]; simp))
  rw [hns] at h1 ⊢
  exact seq_error (randomPass_refused O dn hn h1 (q2.trans q))

/-- Without permission, colours of single nodes and edges cannot be set. -/
theorem coloursNeed {lim : Nat} {shuffle : List NRef → List NRef} {w w' : World C} {d : Display C}
    (O : Okay h w) (dn : Deny h g) (own : Owned h g) (hd : w.display g = some d)
    (hok : stylize lim shuffle g w = (.ok (), w')) : d.nodeColours = [] ∧ d.edgeColours = [] := by
  rw [stylize_split hd] at hok
  obtain ⟨w1, a1, hok⟩ := seq_ok hok
  obtain ⟨w2, a2, a3⟩ := seq_ok hok
  have O1 := O.quiet ((before_silent d).quiet O.fine a1)
  have O2 := O1.quiet ((Silent.runStylist lim shuffle g d.stylist).quiet O1.fine a2)
  obtain ⟨wc, f1, a3⟩ := seq_ok a3
  obtain ⟨wd, f2, a3⟩ := seq_ok a3
  obtain ⟨we, f3, a3⟩ := seq_ok a3
  obtain ⟨wf, f4, a3⟩ := seq_ok a3
  have Oc := O2.quiet ((Silent.forEach (.nodeStyleOverwrite g) d.nodeStyles).quiet O2.fine f1)
  have Od := Oc.quiet ((Silent.forEach (.edgeStyleOverwrite g) d.edgeStyles).quiet Oc.fine f2)
  have Oe := Od.quiet ((Silent.forEach (.nodeColourOverwrite g) d.nodeColours).quiet Od.fine f3)
  exact ⟨nodeColours_denied Od.body dn own f3, edgeColours_denied Oe.body dn own f4⟩

/-- Without permission, styling once more fails as soon as there is something to overwrite. -/
theorem stylize_refused {lim : Nat} {shuffle : List NRef → List NRef} (hsh : ∀ l, (shuffle l).Perm l) {w w' : World C} {d : Display C}
    (O : Okay h w) (hd : w.display g = some d) (dn : Deny h g) (own : Owned h g)
    (hok : stylize lim shuffle g w = (.ok (), w')) (may : ¬ May h g d) : (stylize lim shuffle g w').1 = .error .runtimeError := by
  have qq := (Silent.stylize lim shuffle g).quiet O.fine hok
  have hd3 : w'.display g = some d := by rw [qq.display]; exact hd
  rw [stylize_split hd] at hok
  rw [stylize_split hd3]
  obtain ⟨w1, a1, hok⟩ := seq_ok hok
  obtain ⟨w2, a2, a3⟩ := seq_ok hok
  have q1 := (before_silent d).quiet O.fine a1
  have O1 := O.quiet q1
  have hd1 : w1.display g = some d := by rw [q1.display]; exact hd
  have q2 := (Silent.runStylist lim shuffle g d.stylist).quiet O1.fine a2
  have O2 := O1.quiet q2
  have q3 := (after_silent d).quiet O2.fine a3
  have O3 := O2.quiet q3
  obtain ⟨wa, b1, b2⟩ := seq_ok a1
  have qa := (Silent.globalNodeAssign g d.globalNode).quiet O.fine b1
  have Oa := O.quiet qa
  have qb := (Silent.globalEdgeAssign g d.globalEdge).quiet Oa.fine b2
  have q23 := q2.trans q3
  -- the global node style
  by_cases c1 : d.globalNode = none ∨ graphNodes h g = []
  case neg =>
    rw [not_or] at c1
    obtain ⟨l, hl⟩ := Option.ne_none_iff_exists'.1 c1.1
    refine seq_error (seq_error ?_)
    rw [hl] at b1 ⊢
    exact globalNodeAssign_refused O dn own c1.2 b1 (qb.trans q23)
  have c1' : d.globalNode = none ∨ graphNodes h g = [] ∨ Permit h g := c1.imp id .inl
  obtain ⟨v1, e1⟩ := globalNodeAssign_replays d.globalNode c1' own.node w wa w' O b1 (qb.trans q23)
  have r1 := (Silent.globalNodeAssign g d.globalNode).quiet O3.fine e1
  have P1 := O3.quiet r1
  -- the global edge style
  by_cases c2 : d.globalEdge = none ∨ graphEdges h g = .ok []
  case neg =>
    rw [not_or] at c2
    obtain ⟨l, hl⟩ := Option.ne_none_iff_exists'.1 c2.1
    refine seq_error (seq_first e1 ?_)
    rw [hl] at b2 ⊢
    exact globalEdgeAssign_refused Oa dn own c2.2 b2 (q23.trans r1)
  have c2' : d.globalEdge = none ∨ graphEdges h g = .ok [] ∨ Permit h g := c2.imp id .inl
  obtain ⟨v2, e2⟩ := globalEdgeAssign_replays d.globalEdge c2' own.edges wa w1 v1 Oa b2 (q23.trans r1)
  have e12 : before g d w' = (.ok (), v2) := seq_run e1 e2
  have r2 := (before_silent d).quiet O3.fine e12
  have P2 := O3.quiet r2
  have hdv : v2.display g = some d := by rw [r2.display]; exact hd3
  refine seq_first e12 ?_
  -- the stylist
  have stylist : (d.stylist = .random ∧ graphNodes h g ≠ []) ∨ ∃ v3, runStylist lim shuffle g d.stylist v2 = (.ok (), v3) := by
    cases hst : d.stylist with
    | pensieve =>
      rw [hst] at a2
      exact .inr ⟨v2, (pensieve_keeps O1 hd1 a2 (q3.trans r2)).2⟩
    | other => exact .inr ⟨v2, rfl⟩
    | random =>
      rw [hst] at a2
      by_cases hne : graphNodes h g = []
      · exact .inr (random_replays hsh (.inl hne) own.node O1 hd1 a2 (q3.trans r2))
      · exact .inl ⟨rfl, hne⟩
  rcases stylist with ⟨hst, hne⟩ | ⟨v3, e3⟩
  · refine seq_error ?_
    rw [hst] at a2 ⊢
    exact random_refused hsh O1 dn own hne hd1 a2 (q3.trans r2)
  have r3 := (Silent.runStylist lim shuffle g d.stylist).quiet P2.fine e3
  have P3 := P2.quiet r3
  by_cases hst : d.stylist = .random ∧ graphNodes h g ≠ []
  · refine seq_error ?_
    rw [hst.1] at a2 ⊢
    exact random_refused hsh O1 dn own hst.2 hd1 a2 (q3.trans r2)
  refine seq_first e3 ?_
  -- the overwrites
  obtain ⟨wc, f1, a3⟩ := seq_ok a3
  obtain ⟨wd, f2, a3⟩ := seq_ok a3
  obtain ⟨we, f3, a3⟩ := seq_ok a3
  obtain ⟨wf, f4, a3⟩ := seq_ok a3
  have s1 := (Silent.forEach (.nodeStyleOverwrite g) d.nodeStyles).quiet O2.fine f1
  have Oc := O2.quiet s1
  have s2 := (Silent.forEach (.edgeStyleOverwrite g) d.edgeStyles).quiet Oc.fine f2
  have Od := Oc.quiet s2
  have s3 := (Silent.forEach (.nodeColourOverwrite g) d.nodeColours).quiet Od.fine f3
  have Oe := Od.quiet s3
  have s4 := (Silent.forEach (.edgeColourOverwrite g) d.edgeColours).quiet Oe.fine f4
  have Of := Oe.quiet s4
  have s5 := ((Silent.globalNodeComplement g d.globalNode).bind fun _ => .globalEdgeComplement g d.globalEdge).quiet Of.fine a3
  have hnc := nodeColours_denied Od.body dn own f3
  have hec := edgeColours_denied Oe.body dn own f4
  have tail := s3.trans (s4.trans s5)
  have late := r2.trans r3
  obtain ⟨v4, e4⟩ := Replays.forEach (.nodeStyleOverwrite g) (fun p _ => nodeStyleOverwrite_replays p) w2 wc v3 O2 f1 (s2.trans (tail.trans late))
  have r4 := (Silent.forEach (.nodeStyleOverwrite g) d.nodeStyles).quiet P3.fine e4
  refine seq_first e4 (seq_error ?_)
  have hes : d.edgeStyles ≠ [] := by
    intro hes
    refine may ⟨c1', c2', fun hr => ?_, .inl hes, .inl hnc, .inl hec⟩
    exact Classical.byContradiction fun hh => hst ⟨hr, fun e => hh (.inl e)⟩
  exact edgeStyles_refused Oc dn own hes f2 (tail.trans (late.trans r4))

end Verif
