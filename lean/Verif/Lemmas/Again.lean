import Verif.Lemmas.Tame
/-!
# Styling once more: the stylists and the whole of `stylize`
-/
namespace Verif
open Palette W
variable {C : Type} [Palette C] {h : Heap} {g : GRef}

/-! ## The edges -/

theorem edgePass_keeps {ratio : Rat} {es : List ERef} {last : Option (EdgeStyle C)} {w w' : World C} (O : Okay h w)
    (hok : edgePass ratio es last w = (.ok (), w')) :
    nodeLook w' = nodeLook w ∧ (∀ e, edgeLook w e ≠ none → edgeLook w' e = edgeLook w e) ∧ ∀ e ∈ es, edgeLook w' e ≠ none := by
  induction es generalizing last w with
  | nil => cases hok; exact ⟨rfl, fun _ _ => rfl, by simp⟩
  | cons e es ih =>
    simp only [edgePass, W.bind_apply, look_apply] at hok
    cases hst : (w.heap.edge e).style with
    | some s =>
      rw [hst] at hok
      obtain ⟨a, b, c⟩ := ih O hok
      have he : edgeLook w e ≠ none := by rw [ne_eq, edgeLook_none, hst]; simp
      refine ⟨a, b, ?_⟩
      intro x hx
      rcases List.mem_cons.1 hx with rfl | hx
      · rw [b x he]; exact he
      · exact c x hx
    | none =>
      rw [hst] at hok
      simp only [W.bind_apply, ask_apply] at hok
      cases hc : startColour w e with
      | error err => rw [hc] at hok; cases hok
      | ok c =>
        rw [hc] at hok
        simp only at hok
        cases hs : (nextEdgeStyle last (darken c ratio)).scaleArrow (w.heap.edge e).value with
        | error err => rw [hs] at hok; cases hok
        | ok st =>
          rw [hs] at hok
          simp only at hok
          obtain ⟨w1, h1, h2⟩ := seq_ok (x := assignEdge e st) (y := edgePass ratio es (some st)) hok
          obtain ⟨p1, p2⟩ := assignEdge_effect w w1 O h1
          have O1 := O.quiet ((Silent.assignEdge e (whole_scaleArrow (whole_next _ _) hs)).quiet O.fine h1)
          obtain ⟨a, b, c⟩ := ih O1 h2
          have he : edgeLook w1 e ≠ none := by rw [p2]; simp
          refine ⟨by rw [a]; funext n; exact p1 n, ?_, ?_⟩
          · intro x hx
            have hxe : x ≠ e := by rintro rfl; exact hx (edgeLook_none.2 hst)
            have : edgeLook w1 x = edgeLook w x := by rw [p2, onlyAt_ne hxe]
            rw [b x (by rw [this]; exact hx), this]
          · intro x hx
            rcases List.mem_cons.1 hx with rfl | hx
            · rw [b x he]; exact he
            · exact c x hx

theorem edgePass_again {ratio : Rat} {es : List ERef} {last last' : Option (EdgeStyle C)} {w w' v : World C} (O : Okay h w)
    (hok : edgePass ratio es last w = (.ok (), w')) (q : Quiet w' v) : edgePass ratio es last' v = (.ok (), v) :=
  edgePass_idle _ _ _ fun e he => q.edges e ((edgePass_keeps O hok).2.2 e he)

/-- The last part of both stylists. -/
def edgesPart (g : GRef) : W C Unit := do
  let edges ← W.ask (fun w => graphEdges w.heap g)
  edgePass edgeDarknessRatio edges none

theorem edgesPart_silent : Silent (edgesPart g : W C Unit) := (Silent.ask _).bind fun _ => .edgePass _ _ _

theorem edgesPart_keeps {w w' : World C} (O : Okay h w) (hok : edgesPart g w = (.ok (), w')) :
    nodeLook w' = nodeLook w ∧ (∀ e, edgeLook w e ≠ none → edgeLook w' e = edgeLook w e) := by
  unfold edgesPart at hok
  rw [ask_cases (Q := graphEdges h g) (fun w S => by rw [S.graphEdges]) _ O.body] at hok
  cases hes : graphEdges h g with
  | error err => rw [hes] at hok; cases hok
  | ok es =>
    rw [hes] at hok
    obtain ⟨a, b, -⟩ := edgePass_keeps O hok
    exact ⟨a, b⟩

theorem edgesPart_again {w w' v : World C} (O : Okay h w) (hok : edgesPart g w = (.ok (), w')) (q : Quiet w' v) :
    edgesPart g v = (.ok (), v) := by
  have q' := edgesPart_silent.quiet O.fine hok
  unfold edgesPart at hok ⊢
  rw [ask_cases (Q := graphEdges h g) (fun w S => by rw [S.graphEdges]) _ O.body] at hok
  rw [ask_cases (Q := graphEdges h g) (fun w S => by rw [S.graphEdges]) _ ((O.quiet q').quiet q).body]
  cases hes : graphEdges h g with
  | error err => rw [hes] at hok; cases hok
  | ok es =>
    rw [hes] at hok
    exact edgePass_again O hok q

/-! ## The nodes -/

theorem branchPass_keeps {lim : Nat} {ns : List NRef} {w w' v : World C} (O : Okay h w) (hok : branchPass lim ns w = (.ok (), w'))
    (q : Quiet w' v) : (edgeLook w' = edgeLook w ∧ ∀ n, nodeLook w n ≠ none → nodeLook w' n = nodeLook w n) ∧
      branchPass lim ns v = (.ok (), v) := by
  induction ns generalizing w with
  | nil => cases hok; exact ⟨⟨rfl, fun _ _ => rfl⟩, rfl⟩
  | cons n ns ih =>
    have q' := (Silent.branchPass lim (n :: ns)).quiet O.fine hok
    have S := q'.shape.trans q.shape
    simp only [branchPass, W.bind_apply, ask_apply] at hok ⊢
    rw [← S.isRootOrParentsInLoop]
    cases h1 : isRootOrParentsInLoop lim w.heap n with
    | error err => rw [h1] at hok; cases hok
    | ok b =>
      rw [h1] at hok
      cases b with
      | true =>
        simp only [if_true] at hok ⊢
        exact ih O hok
      | false =>
        simp only [Bool.false_eq_true, if_false, W.bind_apply, ask_apply] at hok ⊢
        rw [← S.nodeIsInLoop]
        cases h2 : nodeIsInLoop lim w.heap n with
        | error err => rw [h2] at hok; cases hok
        | ok b =>
          rw [h2] at hok
          cases b with
          | true =>
            simp only [if_true] at hok ⊢
            exact ih O hok
          | false =>
            simp only [Bool.false_eq_true, if_false, W.bind_apply, look_apply] at hok ⊢
            cases hst : (w.heap.node n).style with
            | some s =>
              rw [hst] at hok
              obtain ⟨a, b⟩ := ih O hok
              have : nodeLook v n ≠ none := q.nodes n (q'.nodes n (by rw [ne_eq, nodeLook_none, hst]; simp))
              rw [ne_eq, nodeLook_none] at this
              obtain ⟨t, ht⟩ := Option.ne_none_iff_exists'.1 this
              rw [ht]
              exact ⟨a, b⟩
            | none =>
              rw [hst] at hok
              simp only [W.bind_apply, ask_apply] at hok
              cases hi : inheritStyle lim w paleRatio lim n divergenceRatio with
              | error err => rw [hi] at hok; cases hok
              | ok st =>
                rw [hi] at hok
                obtain ⟨w1, h3, h4⟩ := seq_ok (x := assignNode n st) (y := branchPass lim ns) hok
                obtain ⟨p1, p2⟩ := assignNode_effect w w1 O h3
                have O1 := O.quiet ((Silent.assignNode n (full_inherit hi)).quiet O.fine h3)
                obtain ⟨⟨a, b⟩, c⟩ := ih O1 h4
                have he : nodeLook w1 n ≠ none := by rw [p1]; simp
                have : nodeLook v n ≠ none := q.nodes n (by rw [b n he]; exact he)
                rw [ne_eq, nodeLook_none] at this
                obtain ⟨t, ht⟩ := Option.ne_none_iff_exists'.1 this
                rw [ht]
                refine ⟨⟨by rw [a]; funext n; exact p2 n, fun x hx => ?_⟩, c⟩
                have hxe : x ≠ n := by rintro rfl; exact hx (nodeLook_none.2 hst)
                have e1 : nodeLook w1 x = nodeLook w x := by rw [p1, onlyAt_ne hxe]
                rw [b x (by rw [e1]; exact hx), e1]

variable [DecidableEq C]

theorem rootPass_keeps {lim : Nat} {ns : List NRef} {used : Dict C Nat} {w w' v : World C} (O : Okay h w)
    (hok : rootPass lim ns used w = (.ok (), w')) (q : Quiet w' v) :
    (edgeLook w' = edgeLook w ∧ ∀ n, nodeLook w n ≠ none → nodeLook w' n = nodeLook w n) ∧
      ∀ used', rootPass lim ns used' v = (.ok (), v) := by
  induction ns generalizing w used with
  | nil => cases hok; exact ⟨⟨rfl, fun _ _ => rfl⟩, fun _ => rfl⟩
  | cons n ns ih =>
    have q' := (Silent.rootPass lim (n :: ns) used).quiet O.fine hok
    have S := q'.shape.trans q.shape
    simp only [rootPass, W.bind_apply, look_apply] at hok ⊢
    cases hst : (w.heap.node n).style with
    | some s =>
      rw [hst] at hok
      obtain ⟨a, b⟩ := ih O hok
      have : nodeLook v n ≠ none := q.nodes n (q'.nodes n (by rw [ne_eq, nodeLook_none, hst]; simp))
      rw [ne_eq, nodeLook_none] at this
      obtain ⟨t, ht⟩ := Option.ne_none_iff_exists'.1 this
      rw [ht]
      exact ⟨a, b⟩
    | none =>
      rw [hst] at hok
      simp only [W.bind_apply, ask_apply] at hok ⊢
      cases h1 : isRootOrParentsInLoop lim w.heap n with
      | error err => rw [h1] at hok; cases hok
      | ok b =>
        rw [h1] at hok
        cases b with
        | false =>
          simp only [Bool.false_eq_true, if_false] at hok
          obtain ⟨a, b⟩ := ih O hok
          refine ⟨a, fun used' => ?_⟩
          cases (v.heap.node n).style with
          | some t => exact b _
          | none =>
            simp only [W.bind_apply, ask_apply, ← S.isRootOrParentsInLoop, h1, Bool.false_eq_true, if_false]
            exact b _
        | true =>
          simp only [if_true, W.bind_apply, ask_apply] at hok
          cases hc : getLeastUsedColour used with
          | error err => rw [hc] at hok; cases hok
          | ok r =>
            rw [hc] at hok
            obtain ⟨w1, h3, h4⟩ := seq_ok (x := assignNode n (.make { colour := some r.1 })) (y := rootPass lim ns r.2) hok
            obtain ⟨p1, p2⟩ := assignNode_effect w w1 O h3
            have O1 := O.quiet ((Silent.assignNode n (full_make _)).quiet O.fine h3)
            obtain ⟨⟨a, b⟩, c⟩ := ih O1 h4
            have he : nodeLook w1 n ≠ none := by rw [p1]; simp
            have : nodeLook v n ≠ none := q.nodes n (by rw [b n he]; exact he)
            rw [ne_eq, nodeLook_none] at this
            obtain ⟨t, ht⟩ := Option.ne_none_iff_exists'.1 this
            rw [ht]
            refine ⟨⟨by rw [a]; funext n; exact p2 n, fun x hx => ?_⟩, c⟩
            have hxe : x ≠ n := by rintro rfl; exact hx (nodeLook_none.2 hst)
            have e1 : nodeLook w1 x = nodeLook w x := by rw [p1, onlyAt_ne hxe]
            rw [b x (by rw [e1]; exact hx), e1]

theorem randomPass_tame (ns : List NRef) (used : Dict C Nat) : Tame h (randomPass ns used) (fun _ => NodeFn) Same := by
  induction ns generalizing used with
  | nil => exact .nothing (fun _ => .id) same_id
  | cons n ns ih =>
    refine .ask (V := getLeastUsedColour used) (fun _ _ => rfl) (fun _ => .id) same_id fun r _ => ?_
    refine .seq (P := fun _ => NodeFn) (Q := Same) (.assignNode n (full_make _)) ⟨_, _, assignNode_effect, fun m => ?_, same_id⟩ (ih r.2)
      (fun _ _ _ a b => a.comp b) same_comp
    exact NodeFn.only (.const _ (full_make _) fun _ _ => rfl) n m

theorem randomPass_replays (ns : List NRef) (used : Dict C Nat) (hp : ns = [] ∨ Permit h g) (hown : ∀ n ∈ ns, (h.node n).graph = some g) :
    Replays h (randomPass ns used) := by
  induction ns generalizing used with
  | nil => exact .nothing
  | cons n ns ih =>
    have hp := hp.resolve_left (by simp)
    refine .ask (Q := getLeastUsedColour used) (fun _ _ => rfl) ?_ fun r _ => ?_
    · intro r
      exact (Silent.assignNode n (full_make _)).bind fun _ => .randomPass _ _
    · exact .seq (.assignNode n (full_make _)) (.randomPass _ _) (assignNode_replays hp (hown n (by simp)) (full_make _))
        (ih r.2 (.inr hp) fun m hm => hown m (by simp [hm]))

/-! ## The stylists -/

theorem pensieve_split {lim : Nat} {w : World C} {d : Display C} (hd : w.display g = some d) :
    stylizeWithPensieve lim g w = (rootPass lim (graphNodes w.heap g) (coloursUnused d.scheme) >>= fun _ =>
      branchPass lim (graphNodes w.heap g) >>= fun _ => edgesPart g) w := by
  simp only [stylizeWithPensieve, edgesPart, W.bind_apply, W.display, hd, look_apply]

theorem random_split {shuffle : List NRef → List NRef} {w : World C} {d : Display C} (hd : w.display g = some d) :
    stylizeRandomly shuffle g w = (randomPass (shuffle (graphNodes w.heap g)) (coloursUnused d.scheme) >>= fun _ => edgesPart g) w := by
  simp only [stylizeRandomly, edgesPart, W.bind_apply, W.display, hd, look_apply]

theorem pensieve_keeps {lim : Nat} {w w' v : World C} {d : Display C} (O : Okay h w) (hd : w.display g = some d)
    (hok : stylizeWithPensieve lim g w = (.ok (), w')) (q : Quiet w' v) :
    ((∀ n, nodeLook w n ≠ none → nodeLook w' n = nodeLook w n) ∧ ∀ e, edgeLook w e ≠ none → edgeLook w' e = edgeLook w e) ∧
      stylizeWithPensieve lim g v = (.ok (), v) := by
  have q' := (Silent.runStylist lim id g .pensieve).quiet O.fine hok
  have S := q'.shape.trans q.shape
  have hd' : v.display g = some d := by rw [q.display, q'.display]; exact hd
  rw [pensieve_split hd] at hok
  rw [pensieve_split hd', ← S.graphNodes]
  obtain ⟨w1, h1, h2⟩ := seq_ok hok
  obtain ⟨w2, h3, h4⟩ := seq_ok h2
  have q1 := (Silent.rootPass _ _ _).quiet O.fine h1
  have O1 := O.quiet q1
  have q2 := (Silent.branchPass _ _).quiet O1.fine h3
  have O2 := O1.quiet q2
  have q3 := edgesPart_silent.quiet O2.fine h4
  obtain ⟨⟨a1, a2⟩, a3⟩ := rootPass_keeps O h1 (q2.trans (q3.trans q))
  obtain ⟨⟨b1, b2⟩, b3⟩ := branchPass_keeps O1 h3 (q3.trans q)
  obtain ⟨c1, c2⟩ := edgesPart_keeps O2 h4
  refine ⟨⟨fun n hn => ?_, fun e he => ?_⟩, seq_run (a3 _) (seq_run b3 (edgesPart_again O2 h4 q))⟩
  · have e1 := a2 n hn
    have e2 := b2 n (by rw [e1]; exact hn)
    rw [c1, e2, e1]
  · have e1 : edgeLook w2 e = edgeLook w e := by rw [b1, a1]
    rw [c2 e (by rw [e1]; exact he), e1]

theorem random_edges {shuffle : List NRef → List NRef} {w w' v v' : World C} {d : Display C} (O : Okay h w) (hd : w.display g = some d)
    (hok : stylizeRandomly shuffle g w = (.ok (), w')) (q : Quiet w' v) (hok' : stylizeRandomly shuffle g v = (.ok (), v')) :
    (∀ e, edgeLook w e ≠ none → edgeLook w' e = edgeLook w e) ∧ edgeLook v' = edgeLook v := by
  have q' := (Silent.runStylist 0 shuffle g .random).quiet O.fine hok
  have O' := (O.quiet q').quiet q
  have hd' : v.display g = some d := by rw [q.display, q'.display]; exact hd
  rw [random_split hd] at hok
  rw [random_split hd'] at hok'
  obtain ⟨w1, h1, h2⟩ := seq_ok hok
  obtain ⟨v1, h3, h4⟩ := seq_ok hok'
  have q1 := (Silent.randomPass _ _).quiet O.fine h1
  have O1 := O.quiet q1
  have q3 := (Silent.randomPass _ _).quiet O'.fine h3
  obtain ⟨Φ, Ψ, t1, t2, t3⟩ := randomPass_tame (h := h) (shuffle (graphNodes w.heap g)) (coloursUnused d.scheme)
  obtain ⟨Φ', Ψ', t1', t2', t3'⟩ := randomPass_tame (h := h) (shuffle (graphNodes v.heap g)) (coloursUnused d.scheme)
  constructor
  · intro e he
    have e1 : edgeLook w1 e = edgeLook w e := by rw [(t1 w w1 O h1).2 e, t3 e]
    rw [(edgesPart_keeps O1 h2).2 e (by rw [e1]; exact he), e1]
  · have := edgesPart_again O1 h2 (q.trans q3)
    rw [this] at h4
    cases h4
    funext e
    rw [(t1' v _ O' h3).2 e, t3' e]

theorem random_nodes (shuffle : List NRef → List NRef) (d : Display C) :
    ∃ Φ : NRef → Option (NodeStyle C) → Option (NodeStyle C), (∀ n, NodeFn (Φ n)) ∧ ∀ w w' : World C, Okay h w → w.display g = some d →
      stylizeRandomly shuffle g w = (.ok (), w') → ∀ n, nodeLook w' n = Φ n (nodeLook w n) := by
  obtain ⟨Φ, Ψ, t1, t2, t3⟩ := randomPass_tame (h := h) (shuffle (graphNodes h g)) (coloursUnused d.scheme)
  refine ⟨Φ, t2, fun w w' O hd hok n => ?_⟩
  rw [random_split hd, ← O.body.graphNodes] at hok
  obtain ⟨w1, h1, h2⟩ := seq_ok hok
  have q1 := (Silent.randomPass _ _).quiet O.fine h1
  rw [(edgesPart_keeps (O.quiet q1) h2).1, (t1 w w1 O h1).1 n]

theorem random_replays {shuffle : List NRef → List NRef} (hsh : ∀ l, (shuffle l).Perm l) {d : Display C}
    (hp : graphNodes h g = [] ∨ Permit h g) (hown : ∀ n ∈ graphNodes h g, (h.node n).graph = some g)
    {w w' v : World C} (O : Okay h w) (hd : w.display g = some d) (hok : stylizeRandomly shuffle g w = (.ok (), w')) (q : Quiet w' v) :
    ∃ v', stylizeRandomly shuffle g v = (.ok (), v') := by
  have q' := (Silent.runStylist 0 shuffle g .random).quiet O.fine hok
  have O' := (O.quiet q').quiet q
  have hd' : v.display g = some d := by rw [q.display, q'.display]; exact hd
  rw [random_split hd, ← O.body.graphNodes] at hok
  rw [random_split hd', ← O'.body.graphNodes]
  obtain ⟨w1, h1, h2⟩ := seq_ok hok
  have q1 := (Silent.randomPass _ _).quiet O.fine h1
  have q2 := edgesPart_silent.quiet q1.fine h2
  obtain ⟨v1, e1⟩ := randomPass_replays _ _ (hp.imp (fun e => by rw [e]; exact (hsh []).eq_nil) _root_.id)
    (fun n hn => hown n ((hsh _).mem_iff.1 hn)) w w1 v O h1 (q2.trans q)
  have q3 := (Silent.randomPass _ _).quiet O'.fine e1
  exact ⟨v1, seq_run e1 (edgesPart_again (O.quiet q1) h2 (q.trans q3))⟩

/-! ## The other parts once more -/

omit [DecidableEq C]

theorem assignNodes_replays (l : List (NodeItem C)) (ns : List NRef) (hp : ns = [] ∨ Permit h g) (hown : ∀ n ∈ ns, (h.node n).graph = some g) :
    Replays h (assignNodes l ns) := by
  induction ns with
  | nil => exact .nothing
  | cons n ns ih =>
    have hp := hp.resolve_left (by simp)
    have ih := ih (.inr hp) fun m hm => hown m (by simp [hm])
    have hn := hown n (by simp)
    cases hst : NodeStyle.ofItems l with
    | error e =>
      intro w w' v O hok q
      unfold assignNodes at hok
      obtain ⟨w1, h1, h2⟩ := seq_ok hok
      rw [bind_apply, ask_apply, hst] at h2
      cases h2
    | ok st =>
      have sl : Silent (assignNode n st >>= fun _ => assignNodes l ns) := (Silent.assignNode n (full_ofItems hst)).bind fun _ => .assignNodes _ _
      have key : Replays h (assignNode n st >>= fun _ => assignNodes l ns) :=
        .seq (.assignNode n (full_ofItems hst)) (.assignNodes _ _) (assignNode_replays hp hn (full_ofItems hst)) ih
      refine .seq (.checkNode n) ?_ (checkNode_replays hp hn) ?_
      · exact Silent.ask_bind fun a _ ha => by rw [hst] at ha; cases ha; exact sl
      · intro w w' v O hok q
        rw [bind_apply, ask_apply, hst] at hok ⊢
        exact key w w' v O hok q

theorem assignEdges_replays (l : List (EdgeItemStyle C)) (ns : List ERef) (hp : ns = [] ∨ Permit h g) (hown : ∀ n ∈ ns, (h.edge n).graph = some g) :
    Replays h (assignEdges l ns) := by
  induction ns with
  | nil => exact .nothing
  | cons n ns ih =>
    have hp := hp.resolve_left (by simp)
    have ih := ih (.inr hp) fun m hm => hown m (by simp [hm])
    have hn := hown n (by simp)
    cases hst : EdgeStyle.ofItems l with
    | error e =>
      intro w w' v O hok q
      exfalso
      unfold assignEdges at hok
      obtain ⟨w1, h1, h2⟩ := seq_ok hok
      rw [bind_apply, ask_apply, hst] at h2
      cases h2
    | ok st =>
      have sl : Silent (assignEdge n st >>= fun _ => assignEdges l ns) := (Silent.assignEdge n (whole_ofItems hst)).bind fun _ => .assignEdges _ _
      have key : Replays h (assignEdge n st >>= fun _ => assignEdges l ns) :=
        .seq (.assignEdge n (whole_ofItems hst)) (.assignEdges _ _) (assignEdge_replays hp hn (whole_ofItems hst)) ih
      refine .seq (.checkEdge n) ?_ (checkEdge_replays hp hn) ?_
      · exact Silent.ask_bind fun a _ ha => by rw [hst] at ha; cases ha; exact sl
      · intro w w' v O hok q
        rw [bind_apply, ask_apply, hst] at hok ⊢
        exact key w w' v O hok q

theorem globalNodeAssign_replays (o : Option (List (NodeItem C))) (hp : o = none ∨ graphNodes h g = [] ∨ Permit h g)
    (hown : ∀ n ∈ graphNodes h g, (h.node n).graph = some g) : Replays h (globalNodeAssign g o) := by
  cases o with
  | none => exact .nothing
  | some l =>
    have hp := hp.resolve_left (by simp)
    refine .ask (Q := smartStyle h g l) (fun w S => smartStyle_same S g l) (fun _ => (Silent.look _).bind fun _ => .assignNodes _ _) fun l' _ => ?_
    refine .ask (q := fun w => .ok (graphNodes w.heap g)) (Q := .ok (graphNodes h g)) (fun w S => by rw [S.graphNodes]) (fun _ => .assignNodes _ _) fun ns hns => ?_
    cases hns
    exact assignNodes_replays l' _ hp hown

theorem globalEdgeAssign_replays (o : Option (List (EdgeItemStyle C))) (hp : o = none ∨ graphEdges h g = .ok [] ∨ Permit h g)
    (hown : ∀ es, graphEdges h g = .ok es → ∀ e ∈ es, (h.edge e).graph = some g) : Replays h (globalEdgeAssign g o) := by
  cases o with
  | none => exact .nothing
  | some l =>
    have hp := hp.resolve_left (by simp)
    refine .ask (Q := graphEdges h g) (fun w S => by rw [S.graphEdges]) (fun _ => .assignEdges _ _) fun es hes => ?_
    exact assignEdges_replays l _ (hp.imp (fun e => by rw [hes] at e; cases e; rfl) _root_.id) (hown es hes)

theorem nodeStyleOverwrite_replays (p : Key × List (NodeItem C)) : Replays h (nodeStyleOverwrite g p) :=
  .ask (Q := getNode h g (.key p.1)) (fun _ S => (S.getNode _ _).symm) (.complementNode _) fun _ _ => complementNode_replays

section
variable (hp : Permit h g)
include hp

theorem edgeStyleOverwrite_replays (p : EdgeId × List (EdgeItemStyle C)) (hown : ∀ e, edgeById h g p.1 = .ok e → (h.edge e).graph = some g) :
    Replays h (edgeStyleOverwrite g p) :=
  .ask (Q := edgeById h g p.1) (fun _ S => edgeById_same S _ _) (fun _ => .assignEdges _ _) fun e he =>
    assignEdges_replays _ _ (.inr hp) (by simpa using hown e he)

omit hp in
theorem recolourNode_silent (c : C) (n : NRef) : Silent (recolourNode c n) := by
  refine (Silent.look _).bind fun o => ?_
  cases o with
  | none => exact .raise _
  | some s => exact (Silent.look _).bind fun _ => .assignNode _ (full_recolour _ _)

omit hp in
theorem redyeEdge_silent (c : C) (n : ERef) : Silent (redyeEdge c n) := by
  refine (Silent.look _).bind fun o => ?_
  cases o with
  | none => exact .raise _
  | some s => exact Silent.ask_bind fun _ _ h => .assignEdge _ (by rw [copy_ok h]; exact whole_redye _ _)

theorem recolourNode_replays (c : C) {n : NRef} (hn : (h.node n).graph = some g) : Replays h (recolourNode c n) := by
  intro w w' v O hok q
  have q' := (recolourNode_silent c n).quiet O.fine hok
  have O' := (O.quiet q').quiet q
  have h1 : nodeLook w n ≠ none := by
    simp only [recolourNode, W.bind_apply, look_apply] at hok
    intro h1
    rw [nodeLook_none] at h1
    rw [h1] at hok; cases hok
  have h2 := q.nodes n (q'.nodes n h1)
  rw [ne_eq, nodeLook_none] at h2
  obtain ⟨s, hs⟩ := Option.ne_none_iff_exists'.1 h2
  obtain ⟨v', e1, -⟩ := assignNode_run O'.fine (free_node hp hn O'.body) ((v.ns s).recolour c)
  refine ⟨v', ?_⟩
  simp [recolourNode, hs, e1]

theorem redyeEdge_replays (c : C) {n : ERef} (hn : (h.edge n).graph = some g) : Replays h (redyeEdge c n) := by
  intro w w' v O hok q
  have q' := (redyeEdge_silent c n).quiet O.fine hok
  have O' := (O.quiet q').quiet q
  have h1 : Whole w n := by
    simp only [redyeEdge, W.bind_apply, look_apply] at hok
    cases hs : (w.heap.edge n).style with
    | none => rw [hs] at hok; cases hok
    | some s =>
      rw [hs] at hok
      simp only [W.bind_apply, ask_apply] at hok
      refine ⟨w.es s, by simp [edgeLook, hs], fun ht => ?_⟩
      have : (w.es s).copy = .error .attributeError := by simp [EdgeStyle.copy, ht]
      rw [this] at hok; cases hok
  obtain ⟨x, hx, ht⟩ := q.whole n (q'.whole n h1)
  simp only [edgeLook, Option.map_eq_some_iff] at hx
  obtain ⟨s, hs, rfl⟩ := hx
  obtain ⟨v', e1, -⟩ := assignEdge_run O'.fine (free_edge hp hn O'.body) ((v.es s).copied.resetColours.setColour c)
  refine ⟨v', ?_⟩
  simp [redyeEdge, hs, e1, copy_whole ht]

theorem nodeColourOverwrite_replays (p : Key × C) (hown : ∀ n, getNode h g (.key p.1) = .ok n → (h.node n).graph = some g) :
    Replays h (nodeColourOverwrite g p) :=
  .ask (Q := getNode h g (.key p.1)) (fun _ S => (S.getNode _ _).symm) (recolourNode_silent _) fun _ hn =>
    recolourNode_replays hp _ (hown _ hn)

theorem edgeColourOverwrite_replays (p : EdgeId × C) (hown : ∀ e, edgeById h g p.1 = .ok e → (h.edge e).graph = some g) :
    Replays h (edgeColourOverwrite g p) :=
  .ask (Q := edgeById h g p.1) (fun _ S => edgeById_same S _ _) (redyeEdge_silent _) fun _ hn =>
    redyeEdge_replays hp _ (hown _ hn)

end

theorem globalNodeComplement_replays (o : Option (List (NodeItem C))) : Replays h (globalNodeComplement g o) := by
  cases o with
  | none => exact .nothing
  | some l =>
    refine .ask (Q := smartStyle h g l) (fun w S => smartStyle_same S g l) (fun _ => (Silent.look _).bind fun _ => .forEach (.complementNode _) _) fun l' _ => ?_
    refine .ask (q := fun w => .ok (graphNodes w.heap g)) (Q := .ok (graphNodes h g)) (fun w S => by rw [S.graphNodes])
      (fun _ => .forEach (.complementNode _) _) fun ns _ => ?_
    exact .forEach (.complementNode _) fun _ _ => complementNode_replays

omit [Palette C] in
theorem globalEdgeComplement_replays (o : Option (List (EdgeItemStyle C))) : Replays h (globalEdgeComplement g o) := by
  cases o with
  | none => exact .nothing
  | some l =>
    refine .ask (Q := graphEdges h g) (fun w S => by rw [S.graphEdges]) (fun _ => .forEach (.complementEdge _) _) fun es _ => ?_
    exact .forEach (.complementEdge _) fun _ _ => complementEdge_replays

/-! ## Everything -/

/-- Before the stylist. -/
def before (g : GRef) (d : Display C) : W C Unit := globalNodeAssign g d.globalNode >>= fun _ => globalEdgeAssign g d.globalEdge

/-- After the stylist. -/
def after (g : GRef) (d : Display C) : W C Unit := do
  forEach (nodeStyleOverwrite g) d.nodeStyles
  forEach (edgeStyleOverwrite g) d.edgeStyles
  forEach (nodeColourOverwrite g) d.nodeColours
  forEach (edgeColourOverwrite g) d.edgeColours
  globalNodeComplement g d.globalNode
  globalEdgeComplement g d.globalEdge

theorem before_silent (d : Display C) : Silent (before g d) := (Silent.globalNodeAssign _ _).bind fun _ => .globalEdgeAssign _ _

theorem after_silent (d : Display C) : Silent (after g d) :=
  (Silent.forEach (.nodeStyleOverwrite g) _).bind fun _ => (Silent.forEach (.edgeStyleOverwrite g) _).bind fun _ =>
    (Silent.forEach (.nodeColourOverwrite g) _).bind fun _ => (Silent.forEach (.edgeColourOverwrite g) _).bind fun _ =>
    (Silent.globalNodeComplement _ _).bind fun _ => .globalEdgeComplement _ _

/-- When there is no global style for `e`, the style is left alone, or recoloured, or set. -/
def EdgeLate (h : Heap) (g : GRef) (o : Option (List (EdgeItemStyle C))) (e : ERef) (f : Option (EdgeStyle C) → Option (EdgeStyle C)) : Prop :=
  (o = none ∨ ∀ es, graphEdges h g = .ok es → e ∉ es) → EdgeFn f

theorem before_tame (d : Display C) : Tame h (before g d) (fun _ => IdOrConst NodeStyle.Complete) (EdgeBase h g d.globalEdge) := by
  refine .seq (.globalNodeAssign _ _) (globalNodeAssign_tame _) (globalEdgeAssign_tame _) ?_ ?_
  · intro n f f' a b
    rw [b]; exact a
  · intro n f f' a b
    rw [a]; exact b

theorem after_tame (d : Display C) : Tame h (after g d) (fun _ => NodeFn) (EdgeLate h g d.globalEdge) := by
  have cN : ∀ (n : NRef) f f', NodeFn (C := C) f → NodeFn f' → NodeFn (fun o => f' (f o)) := fun _ _ _ a b => a.comp b
  have cE : ∀ (n : ERef) f f', EdgeLate h g d.globalEdge n f → EdgeLate h g d.globalEdge n f' → EdgeLate h g d.globalEdge n (fun o => f' (f o)) :=
    fun _ _ _ a b c => (a c).comp (b c)
  have iE : ∀ n : ERef, EdgeLate h g d.globalEdge n (fun o => o) := fun _ _ => .id fun _ => rfl
  have sE : ∀ (n : ERef) f, Same n f → EdgeLate h g d.globalEdge n f := by intro n f hf; rw [hf]; exact iE n
  have sN : ∀ (n : NRef) (f : Option (NodeStyle C) → _), Same n f → NodeFn f := by intro n f hf; rw [hf]; exact .id
  refine .seq (P := fun _ => NodeFn) (P' := fun _ => NodeFn) (Q := EdgeLate h g d.globalEdge) (Q' := EdgeLate h g d.globalEdge) (.forEach (.nodeStyleOverwrite g) _)
    (.forEach (.nodeStyleOverwrite g) (fun p _ => (nodeStyleOverwrite_tame p).weaken (fun _ _ => _root_.id) sE) (fun _ => .id) iE cN cE) ?_ cN cE
  refine .seq (P := fun _ => NodeFn) (P' := fun _ => NodeFn) (Q := EdgeLate h g d.globalEdge) (Q' := EdgeLate h g d.globalEdge) (.forEach (.edgeStyleOverwrite g) _)
    (.forEach (.edgeStyleOverwrite g) (fun p _ => (edgeStyleOverwrite_tame p).weaken sN (fun _ _ h _ => h)) (fun _ => .id) iE cN cE) ?_ cN cE
  refine .seq (P := fun _ => NodeFn) (P' := fun _ => NodeFn) (Q := EdgeLate h g d.globalEdge) (Q' := EdgeLate h g d.globalEdge) (.forEach (.nodeColourOverwrite g) _)
    (.forEach (.nodeColourOverwrite g) (fun p _ => (nodeColourOverwrite_tame p).weaken (fun _ _ => _root_.id) sE) (fun _ => .id) iE cN cE) ?_ cN cE
  refine .seq (P := fun _ => NodeFn) (P' := fun _ => NodeFn) (Q := EdgeLate h g d.globalEdge) (Q' := EdgeLate h g d.globalEdge) (.forEach (.edgeColourOverwrite g) _)
    (.forEach (.edgeColourOverwrite g) (fun p _ => (edgeColourOverwrite_tame p).weaken sN (fun _ _ h _ => h)) (fun _ => .id) iE cN cE) ?_ cN cE
  refine .seq (P := fun _ => NodeFn) (P' := fun _ => NodeFn) (Q := EdgeLate h g d.globalEdge) (Q' := EdgeLate h g d.globalEdge) (.globalNodeComplement _ _)
    ((globalNodeComplement_tame _).weaken (fun _ _ => _root_.id) sE) ?_ cN cE
  refine (globalEdgeComplement_tame _).weaken sN ?_
  intro n f hf hc
  rw [hf hc]
  exact .id fun _ => rfl

/-- What overwriting needs: permission, or nothing to overwrite. -/
structure May (h : Heap) (g : GRef) (d : Display C) : Prop where
  globalNode : d.globalNode = none ∨ graphNodes h g = [] ∨ Permit h g
  globalEdge : d.globalEdge = none ∨ graphEdges h g = .ok [] ∨ Permit h g
  stylist : d.stylist = .random → graphNodes h g = [] ∨ Permit h g
  edgeStyles : d.edgeStyles = [] ∨ Permit h g
  nodeColours : d.nodeColours = [] ∨ Permit h g
  edgeColours : d.edgeColours = [] ∨ Permit h g

/-- Nodes and edges belong to the graph they are in. -/
structure Owned (h : Heap) (g : GRef) : Prop where
  node : ∀ n ∈ graphNodes h g, (h.node n).graph = some g
  edges : ∀ es, graphEdges h g = .ok es → ∀ e ∈ es, (h.edge e).graph = some g
  byKey : ∀ k n, getNode h g (.key k) = .ok n → (h.node n).graph = some g
  byId : ∀ i e, edgeById h g i = .ok e → (h.edge e).graph = some g

theorem before_replays {d : Display C} (may : May h g d) (own : Owned h g) : Replays h (before g d) :=
  .seq (.globalNodeAssign _ _) (.globalEdgeAssign _ _) (globalNodeAssign_replays _ may.globalNode own.node)
    (globalEdgeAssign_replays _ may.globalEdge own.edges)

theorem after_replays {d : Display C} (may : May h g d) (own : Owned h g) : Replays h (after g d) := by
  have none : ∀ {α : Type} {f : α → W C Unit} {l : List α}, l = [] → Replays h (forEach f l) := by rintro α f l rfl; exact .nothing
  refine .seq (.forEach (.nodeStyleOverwrite g) _) ?_ (.forEach (.nodeStyleOverwrite g) fun _ _ => nodeStyleOverwrite_replays _) ?_
  · exact (Silent.forEach (.edgeStyleOverwrite g) _).bind fun _ =>
      (Silent.forEach (.nodeColourOverwrite g) _).bind fun _ => (Silent.forEach (.edgeColourOverwrite g) _).bind fun _ =>
      (Silent.globalNodeComplement _ _).bind fun _ => .globalEdgeComplement _ _
  refine .seq (.forEach (.edgeStyleOverwrite g) _) ?_ ?_ ?_
  · exact (Silent.forEach (.nodeColourOverwrite g) _).bind fun _ => (Silent.forEach (.edgeColourOverwrite g) _).bind fun _ =>
      (Silent.globalNodeComplement _ _).bind fun _ => .globalEdgeComplement _ _
  · rcases may.edgeStyles with e | hp
    · exact none e
    · exact .forEach (.edgeStyleOverwrite g) fun p _ => edgeStyleOverwrite_replays hp p (own.byId _)
  refine .seq (.forEach (.nodeColourOverwrite g) _) ?_ ?_ ?_
  · exact (Silent.forEach (.edgeColourOverwrite g) _).bind fun _ =>
      (Silent.globalNodeComplement _ _).bind fun _ => .globalEdgeComplement _ _
  · rcases may.nodeColours with e | hp
    · exact none e
    · exact .forEach (.nodeColourOverwrite g) fun p _ => nodeColourOverwrite_replays hp p (own.byKey _)
  refine .seq (.forEach (.edgeColourOverwrite g) _) ?_ ?_ ?_
  · exact (Silent.globalNodeComplement _ _).bind fun _ => .globalEdgeComplement _ _
  · rcases may.edgeColours with e | hp
    · exact none e
    · exact .forEach (.edgeColourOverwrite g) fun p _ => edgeColourOverwrite_replays hp p (own.byId _)
  exact .seq (.globalNodeComplement _ _) (.globalEdgeComplement _ _) (globalNodeComplement_replays _) (globalEdgeComplement_replays _)

variable [DecidableEq C]

theorem stylize_split {lim : Nat} {shuffle : List NRef → List NRef} {w : World C} {d : Display C} (hd : w.display g = some d) :
    stylize lim shuffle g w = (before g d >>= fun _ => runStylist lim shuffle g d.stylist >>= fun _ => after g d) w := by
  simp only [stylize, before, after, W.bind_apply, W.display, hd]
  cases h1 : globalNodeAssign g d.globalNode w with
  | mk o w1 => cases o <;> rfl

/-- Styling once more. -/
theorem stylize_again {lim : Nat} {shuffle : List NRef → List NRef} (hsh : ∀ l, (shuffle l).Perm l) {w w' : World C} {d : Display C}
    (O : Okay h w) (full : AllFull w) (hd : w.display g = some d) (may : May h g d) (own : Owned h g)
    (hok : stylize lim shuffle g w = (.ok (), w')) :
    ∃ w'', stylize lim shuffle g w' = (.ok (), w'') ∧ nodeLook w'' = nodeLook w' ∧ edgeLook w'' = edgeLook w' := by
  have qq := (Silent.stylize lim shuffle g).quiet O.fine hok
  have hd3 : w'.display g = some d := by rw [qq.display]; exact hd
  rw [stylize_split hd] at hok
  rw [stylize_split hd3]
  obtain ⟨w1, a1, hok⟩ := seq_ok hok
  obtain ⟨w2, a2, a3⟩ := seq_ok hok
  have q1 := (before_silent d).quiet O.fine a1
  have O1 := O.quiet q1
  have hd1 : w1.display g = some d := by rw [q1.display]; exact hd
  have q2 := (Silent.runStylist lim shuffle g d.stylist).quiet O1.fine a2
  have O2 := O1.quiet q2
  have q3 := (after_silent d).quiet O2.fine a3
  have O3 := O2.quiet q3
  obtain ⟨w4, a4⟩ := before_replays may own w w1 w' O a1 (q2.trans q3)
  have q4 := (before_silent d).quiet O3.fine a4
  have O4 := O3.quiet q4
  have hd4 : w4.display g = some d := by rw [q4.display]; exact hd3
  have q24 := q3.trans q4
  have step : ∃ w5, runStylist lim shuffle g d.stylist w4 = (.ok (), w5) ∧
      (∀ e, edgeLook w1 e ≠ none → edgeLook w2 e = edgeLook w1 e) ∧ edgeLook w5 = edgeLook w4 ∧
      (((∀ n, nodeLook w1 n ≠ none → nodeLook w2 n = nodeLook w1 n) ∧ nodeLook w5 = nodeLook w4) ∨
        ∃ Φ : NRef → Option (NodeStyle C) → Option (NodeStyle C), (∀ n, NodeFn (Φ n)) ∧
          (∀ n, nodeLook w2 n = Φ n (nodeLook w1 n)) ∧ ∀ n, nodeLook w5 n = Φ n (nodeLook w4 n)) := by
    cases hst : d.stylist with
    | pensieve =>
      rw [hst] at a2
      obtain ⟨⟨b1, b2⟩, b3⟩ := pensieve_keeps O1 hd1 a2 q24
      exact ⟨w4, b3, b2, rfl, .inl ⟨b1, rfl⟩⟩
    | other =>
      rw [hst] at a2
      cases a2
      exact ⟨w4, rfl, fun _ _ => rfl, rfl, .inl ⟨fun _ _ => rfl, rfl⟩⟩
    | random =>
      rw [hst] at a2
      obtain ⟨w5, b1⟩ := random_replays hsh (may.stylist hst) own.node O1 hd1 a2 q24
      obtain ⟨b2, b3⟩ := random_edges O1 hd1 a2 q24 b1
      obtain ⟨Φ, c1, c2⟩ := random_nodes (h := h) (g := g) shuffle d
      exact ⟨w5, b1, b2, b3, .inr ⟨Φ, c1, c2 w1 w2 O1 hd1 a2, c2 w4 w5 O4 hd4 b1⟩⟩
  obtain ⟨w5, a5, e1, e2, ns⟩ := step
  have q5 := (Silent.runStylist lim shuffle g d.stylist).quiet O4.fine a5
  have O5 := O4.quiet q5
  obtain ⟨w6, a6⟩ := after_replays may own w2 w' w5 O2 a3 (q4.trans q5)
  obtain ⟨ΦA, ΨA, tA, pA, sA⟩ := before_tame (h := h) (g := g) d
  obtain ⟨ΦB, ΨB, tB, pB, sB⟩ := after_tame (h := h) (g := g) d
  obtain ⟨n1, m1⟩ := tA w w1 O a1
  obtain ⟨n4, m4⟩ := tA w' w4 O3 a4
  obtain ⟨n3, m3⟩ := tB w2 w' O2 a3
  obtain ⟨n6, m6⟩ := tB w5 w6 O5 a6
  refine ⟨w6, seq_run a4 (seq_run a5 a6), ?_, ?_⟩
  · funext n
    rw [n6]
    rcases ns with ⟨k1, k2⟩ | ⟨Φ, k0, k1, k2⟩
    · rw [k2]
      cases pA n with
      | const s hs hc =>
        have : nodeLook w1 n = some s := by rw [n1, hc]
        rw [n4, hc, n3, k1 n (by rw [this]; simp), this]
      | id hc =>
        rw [n4, hc, n3]
        exact (pB n).twice (fun s hs => q2.full (q1.full full) n s hs)
    · have T := ((pA n).nodeFn.comp (k0 n)).comp (pB n)
      have := T.twice (o := nodeLook w n) (fun s hs => full n s hs)
      rw [k2, n4, n3, k1, n1]
      exact this
  · funext e
    rw [m6, e2]
    rcases sA e with ⟨hc, hno⟩ | ⟨s, hc⟩
    · rw [m4, hc, m3]
      exact (sB e hno).twice _
    · have : edgeLook w1 e = some s := by rw [m1, hc]
      rw [m4, hc, m3, e1 e (by rw [this]; simp), this]

end Verif
