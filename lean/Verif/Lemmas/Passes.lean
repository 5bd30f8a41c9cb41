import Verif.Lemmas.Inherit
/-!
# The three passes of `stylize_with_pensieve`
-/
namespace Verif
open Palette W
variable {C : Type} [Palette C]

theorem SameBody.onLoop {h h' : Heap} (S : SameBody h h') (g : GRef) : OnLoop h g = OnLoop h' g := by
  funext n; unfold OnLoop; rw [S.path g]

theorem SameBody.semiRoot {h h' : Heap} (S : SameBody h h') (g : GRef) : SemiRoot h g = SemiRoot h' g := by
  funext n; unfold SemiRoot; rw [S.arrow g, S.onLoop g]

theorem SameBody.nodeLt {h h' : Heap} (S : SameBody h h') (a b : NRef) : Verif.nodeLt h a b = Verif.nodeLt h' a b :=
  S.via (Verif.nodeLt · a b) (Strip.nodeLt · a b)

/-- Tints only depend on the shape and on the styles of the nodes that inherit from nobody. -/
theorem TintBy.move {light : Rat} {h h' : Heap} (S : SameBody h h') {g : GRef} {base base' : NRef → Option (NodeStyle C)}
    (H : ∀ n, SemiRoot h g n → base n = base' n) {d : Rat} {n : NRef} {s : NodeStyle C} (T : TintBy light h g base d n s) :
    TintBy light h' g base' d n s := by
  induction T with
  | own h1 h2 => exact .own (by rw [← S.semiRoot]; exact h1) (by rw [← H _ h1]; exact h2)
  | only h1 h2 h3 h4 h5 _ ih =>
    refine .only (by rw [← S.semiRoot]; exact h1) (by rw [← S.nodeParents]; exact h2) (by rw [← S.nodeChildren]; exact h3) ?_ h5 ih
    rw [← h4]
    congr 1
    funext c
    rw [S.nodeLt]
  | mix style h1 h2 h3 h4 _ ih =>
    refine .mix style (by rw [← S.semiRoot]; exact h1) (by rw [← S.nodeParents]; exact h2) h3 ?_ ih
    rw [← h4, S.path]

/-! ## Roots -/

/-- Give the default style to the nodes `ns`, in the colours `pick i`, `pick (i + 1)`, ... -/
def handRoots (pick : Nat → C) : List NRef → Nat → (NRef → Option (NodeStyle C)) → NRef → Option (NodeStyle C)
  | [], _, N => N
  | n :: ns, i, N => handRoots pick ns (i + 1) (upd N n (some (defaultNode (pick i))))

theorem handRoots_other (pick : Nat → C) (ns : List NRef) (i : Nat) (N : NRef → Option (NodeStyle C)) {n : NRef} (h : n ∉ ns) :
    handRoots pick ns i N n = N n := by
  induction ns generalizing i N with
  | nil => rfl
  | cons m ns ih =>
    simp only [List.mem_cons, not_or] at h
    rw [handRoots, ih _ _ h.2, upd_ne _ _ h.1]

theorem handRoots_get (pick : Nat → C) (ns : List NRef) (nd : ns.Nodup) (i : Nat) (N : NRef → Option (NodeStyle C)) (j : Nat)
    (hj : j < ns.length) : handRoots pick ns i N ns[j] = some (defaultNode (pick (i + j))) := by
  induction ns generalizing i N j with
  | nil => simp at hj
  | cons m ns ih =>
    obtain ⟨h1, h2⟩ := List.nodup_cons.1 nd
    cases j with
    | zero => simp only [List.getElem_cons_zero, handRoots]; rw [handRoots_other _ _ _ _ h1]; simp
    | succ j =>
      simp only [List.getElem_cons_succ, handRoots]
      rw [ih h2 (i + 1) _ j (by simpa using hj)]
      simp [Nat.add_assoc, Nat.add_comm 1 j]

section
variable [DecidableEq C]
open scoped Classical in
theorem rootPass_run {g : GRef} {lim : Nat} (cs : List C) (nd : cs.Nodup) (hm : 0 < cs.length) (ns : List NRef) :
    ∀ (w : World C) (i : Nat), Fine w → Reachable w.heap → (∀ n ∈ graphNodes w.heap g, (w.heap.node n).graph = some g) →
    (graphNodes w.heap g).length ≤ lim → (∀ n ∈ ns, n ∈ graphNodes w.heap g) → ns.Nodup →
    ∃ w', rootPass lim ns (rounds cs (i / cs.length) (i % cs.length)) w = (.ok (), w') ∧
      Becomes w w' (handRoots (fun i => cs[i % cs.length]'(Nat.mod_lt _ hm))
        (ns.filter fun n => decide (nodeLook w n = none ∧ SemiRoot w.heap g n)) i (nodeLook w)) (edgeLook w) := by
  induction ns with
  | nil => intro w i F _ _ _ _ _; exact ⟨w, rfl, .refl F⟩
  | cons n ns ih =>
    intro w i F r hown hlim hmem hnd
    obtain ⟨n1, n2⟩ := List.nodup_cons.1 hnd
    have hn := hmem n (by simp)
    simp only [rootPass, W.bind_apply, W.look_apply]
    cases hst : (w.heap.node n).style with
    | some s =>
      simp only
      obtain ⟨w', h1, h2⟩ := ih w i F r hown hlim (fun x hx => hmem x (by simp [hx])) n2
      refine ⟨w', h1, ?_⟩
      rw [List.filter_cons_of_neg (by simp [nodeLook, hst])]
      exact h2
    | none =>
      have hlook : nodeLook w n = none := nodeLook_none.2 hst
      simp only [W.bind_apply, W.ask_apply, isRoot_eq r hown hlim hn]
      by_cases hr : SemiRoot w.heap g n
      · have hk := Nat.mod_lt i hm
        simp only [hr, decide_true, if_true, W.bind_apply, W.ask_apply, rounds_step cs nd (i / cs.length) _ hk]
        obtain ⟨w1, a1, a2⟩ := assignNode_run F (n := n) (.inl hst) (.make { colour := some (cs[i % cs.length]'hk) })
        rw [a1]
        simp only
        have hrd : rounds cs (i / cs.length) (i % cs.length + 1) = rounds cs ((i + 1) / cs.length) ((i + 1) % cs.length) := by
          by_cases hw : i % cs.length + 1 = cs.length
          · rw [hw, rounds_wrap]
            have : (i + 1) % cs.length = 0 := by
              rw [Nat.add_mod_eq_ite]
              by_cases h1 : cs.length = 1
              · simp [h1, Nat.mod_one]
              · rw [Nat.mod_eq_of_lt (show 1 < cs.length by omega)]; simp [hw]
            rw [this]
            congr 1
            have e1 := Nat.div_add_mod i cs.length
            have e2 := Nat.div_add_mod (i + 1) cs.length
            have : cs.length * ((i + 1) / cs.length) = cs.length * (i / cs.length + 1) := by rw [Nat.mul_add]; omega
            exact (Nat.eq_of_mul_eq_mul_left hm this).symm
          · have hlt : i % cs.length + 1 < cs.length := by omega
            have : (i + 1) % cs.length = i % cs.length + 1 := by
              rw [Nat.add_mod, Nat.mod_eq_of_lt (show 1 < cs.length by omega), Nat.mod_eq_of_lt hlt]
            rw [this]
            congr 1
            have e1 := Nat.div_add_mod i cs.length
            have e2 := Nat.div_add_mod (i + 1) cs.length
            have : cs.length * ((i + 1) / cs.length) = cs.length * (i / cs.length) := by omega
            exact (Nat.eq_of_mul_eq_mul_left hm this).symm
        rw [hrd]
        have S := a2.shape
        obtain ⟨w', h1, h2⟩ := ih w1 (i + 1) a2.fine (a2.reach r) (fun x hx => by
            rw [← S.nodeGraph]; exact hown x (by rw [S.graphNodes]; exact hx))
          (by rw [← S.graphNodes]; exact hlim) (fun x hx => by rw [← S.graphNodes]; exact hmem x (by simp [hx])) n2
        refine ⟨w', h1, ?_⟩
        rw [List.filter_cons_of_pos (by simp [hlook, hr])]
        have := a2.trans h2
        rw [a2.edges, a2.nodes, ← S.semiRoot g] at this
        rw [handRoots]
        rw [make_plain] at this
        rw [List.filter_congr (q := fun n => decide (nodeLook w n = none ∧ SemiRoot w.heap g n))] at this
        · exact this
        · intro x hx
          rw [upd_ne _ _ (show x ≠ n from fun h => n1 (h ▸ hx))]
      · simp only [hr, decide_false, Bool.false_eq_true, if_false]
        obtain ⟨w', h1, h2⟩ := ih w i F r hown hlim (fun x hx => hmem x (by simp [hx])) n2
        refine ⟨w', h1, ?_⟩
        rw [List.filter_cons_of_neg (by simp [hr])]
        exact h2

/-- Without anything to do, nothing is done. -/
theorem rootPass_idle {g : GRef} {lim : Nat} {w : World C} (r : Reachable w.heap)
    (hown : ∀ n ∈ graphNodes w.heap g, (w.heap.node n).graph = some g)
    (hlim : (graphNodes w.heap g).length ≤ lim) (ns : List NRef) (used : Dict C Nat) (hmem : ∀ n ∈ ns, n ∈ graphNodes w.heap g)
    (H : ∀ n ∈ ns, SemiRoot w.heap g n → nodeLook w n ≠ none) : rootPass lim ns used w = (.ok (), w) := by
  induction ns with
  | nil => rfl
  | cons n ns ih =>
    have := ih (fun x hx => hmem x (by simp [hx])) (fun x hx => H x (by simp [hx]))
    simp only [rootPass, W.bind_apply, W.look_apply]
    cases hst : (w.heap.node n).style with
    | some s => exact this
    | none =>
      have hr : ¬ SemiRoot w.heap g n := fun h => H n (by simp) h (nodeLook_none.2 hst)
      simp only [W.bind_apply, W.ask_apply, isRoot_eq r hown hlim (hmem n (by simp)), hr, decide_false, Bool.false_eq_true, if_false]
      exact this

/-- No colours, but a node that needs one. -/
theorem rootPass_nocolour {g : GRef} {lim : Nat} {w : World C} (r : Reachable w.heap)
    (hown : ∀ n ∈ graphNodes w.heap g, (w.heap.node n).graph = some g)
    (hlim : (graphNodes w.heap g).length ≤ lim) (ns : List NRef) (hmem : ∀ n ∈ ns, n ∈ graphNodes w.heap g)
    (H : ∃ n ∈ ns, SemiRoot w.heap g n ∧ nodeLook w n = none) :
    rootPass lim ns [] w = (.error (.valueError "min() arg is an empty sequence"), w) := by
  induction ns with
  | nil => simp at H
  | cons n ns ih =>
    have hih := ih (fun x hx => hmem x (by simp [hx]))
    obtain ⟨m, hm, h1, h2⟩ := H
    simp only [rootPass, W.bind_apply, W.look_apply]
    cases hst : (w.heap.node n).style with
    | some s =>
      refine hih ⟨m, ?_, h1, h2⟩
      rcases List.mem_cons.1 hm with rfl | hm
      · rw [nodeLook_none, hst] at h2; cases h2
      · exact hm
    | none =>
      simp only [W.bind_apply, W.ask_apply, isRoot_eq r hown hlim (hmem n (by simp))]
      by_cases hr : SemiRoot w.heap g n
      · simp [hr, getLeastUsedColour]
      · simp only [hr, decide_false, Bool.false_eq_true, if_false]
        refine hih ⟨m, ?_, h1, h2⟩
        rcases List.mem_cons.1 hm with rfl | hm
        · exact absurd h1 hr
        · exact hm
end

/-! ## Branches -/

theorem branchPass_run {g : GRef} {lim : Nat} (ns : List NRef) :
    ∀ (w : World C), Fine w → Reachable w.heap → (∀ n ∈ graphNodes w.heap g, (w.heap.node n).graph = some g) →
    (graphNodes w.heap g).length ≤ lim → (∀ n ∈ ns, n ∈ graphNodes w.heap g) → ns.Nodup →
    (∀ n ∈ graphNodes w.heap g, SemiRoot w.heap g n → nodeLook w n ≠ none) →
    ∃ w' N', branchPass lim ns w = (.ok (), w') ∧ Becomes w w' N' (edgeLook w) ∧
      ∀ n, (n ∈ ns ∧ nodeLook w n = none ∧ ¬ SemiRoot w.heap g n ∧ ¬ OnLoop w.heap g n →
          ∃ s, N' n = some s ∧ Tint w.heap g (nodeLook w) (1 / 20) n s) ∧
        (¬ (n ∈ ns ∧ nodeLook w n = none ∧ ¬ SemiRoot w.heap g n ∧ ¬ OnLoop w.heap g n) → N' n = nodeLook w n) := by
  induction ns with
  | nil => intro w F _ _ _ _ _ _; exact ⟨w, _, rfl, .refl F, by simp⟩
  | cons n ns ih =>
    intro w F r hown hlim hmem hnd hroots
    obtain ⟨n1, n2⟩ := List.nodup_cons.1 hnd
    have hn := hmem n (by simp)
    -- nothing is done
    have skip : ¬ (nodeLook w n = none ∧ ¬ SemiRoot w.heap g n ∧ ¬ OnLoop w.heap g n) →
        ∃ w' N', branchPass lim ns w = (.ok (), w') ∧ Becomes w w' N' (edgeLook w) ∧
        ∀ m, (m ∈ n :: ns ∧ nodeLook w m = none ∧ ¬ SemiRoot w.heap g m ∧ ¬ OnLoop w.heap g m →
          ∃ s, N' m = some s ∧ Tint w.heap g (nodeLook w) (1 / 20) m s) ∧
        (¬ (m ∈ n :: ns ∧ nodeLook w m = none ∧ ¬ SemiRoot w.heap g m ∧ ¬ OnLoop w.heap g m) → N' m = nodeLook w m) := by
      intro hno
      obtain ⟨w', N', h1, h2, h3⟩ := ih w F r hown hlim (fun x hx => hmem x (by simp [hx])) n2 hroots
      refine ⟨w', N', h1, h2, fun m => ⟨fun ⟨m1, m2⟩ => ?_, fun hm => (h3 m).2 (fun ⟨m1, m2⟩ => hm ⟨by simp [m1], m2⟩)⟩⟩
      rcases List.mem_cons.1 m1 with rfl | m1
      · exact absurd m2 hno
      · exact (h3 m).1 ⟨m1, m2⟩
    simp only [branchPass, W.bind_apply, W.ask_apply, isRoot_eq r hown hlim hn]
    by_cases hr : SemiRoot w.heap g n
    · simp only [hr, decide_true, if_true]; exact skip (by simp [hr])
    · simp only [hr, decide_false, Bool.false_eq_true, if_false, W.bind_apply, W.ask_apply, nodeIsInLoop_eq r hown hlim hn]
      by_cases hl : OnLoop w.heap g n
      · simp only [hl, decide_true, if_true]; exact skip (by simp [hl])
      · simp only [hl, decide_false, Bool.false_eq_true, if_false, W.bind_apply, W.look_apply]
        cases hst : (w.heap.node n).style with
        | some s => exact skip (by simp [nodeLook, hst])
        | none =>
          have hlook : nodeLook w n = none := nodeLook_none.2 hst
          rcases inherit_top r hown hlim paleRatio hn divergenceRatio hlim with ⟨s, i1, i2⟩ | ⟨-, m, m1, m2, m3, -⟩
          · simp only [W.bind_apply, W.ask_apply, i1]
            obtain ⟨w1, a1, a2⟩ := assignNode_run F (n := n) (.inl hst) s
            rw [a1]
            simp only
            have S := a2.shape
            have hbase : ∀ x, SemiRoot w.heap g x → nodeLook w1 x = nodeLook w x := by
              intro x hx
              rw [a2.nodes, upd_ne _ _ (show x ≠ n from fun h => hr (h ▸ hx))]
            obtain ⟨w', N', h1, h2, h3⟩ := ih w1 a2.fine (a2.reach r) (fun x hx => by
                rw [← S.nodeGraph]; exact hown x (by rw [S.graphNodes]; exact hx))
              (by rw [← S.graphNodes]; exact hlim) (fun x hx => by rw [← S.graphNodes]; exact hmem x (by simp [hx])) n2
              (fun x hx hsx => by
                rw [← S.semiRoot] at hsx
                rw [hbase x hsx]
                exact hroots x (by rw [S.graphNodes]; exact hx) hsx)
            refine ⟨w', N', h1, ?_, fun m => ?_⟩
            · have := a2.trans h2
              rwa [a2.edges] at this
            · rw [← S.semiRoot, ← S.onLoop] at h3
              by_cases hmn : m = n
              · subst hmn
                have : N' m = some s := by
                  rw [(h3 m).2 (fun h => n1 h.1), a2.nodes]; simp
                refine ⟨fun _ => ⟨s, this, i2⟩, fun hc => absurd ⟨by simp, hlook, hr, hl⟩ hc⟩
              · have e : nodeLook w1 m = nodeLook w m := by rw [a2.nodes, upd_ne _ _ hmn]
                have hm := h3 m
                rw [e] at hm
                refine ⟨fun ⟨c1, c2⟩ => ?_, fun hc => hm.2 (fun ⟨c1, c2⟩ => hc ⟨by simp [c1], c2⟩)⟩
                rcases List.mem_cons.1 c1 with c1 | c1
                · exact absurd c1 hmn
                · obtain ⟨s', q1, q2⟩ := hm.1 ⟨c1, c2⟩
                  exact ⟨s', q1, q2.move S.symm (fun x hx => hbase x (by rw [S.semiRoot]; exact hx))⟩
          · exact absurd m3 (hroots m m1 m2)

theorem branchPass_idle {g : GRef} {lim : Nat} {w : World C} (r : Reachable w.heap)
    (hown : ∀ n ∈ graphNodes w.heap g, (w.heap.node n).graph = some g)
    (hlim : (graphNodes w.heap g).length ≤ lim) (ns : List NRef) (hmem : ∀ n ∈ ns, n ∈ graphNodes w.heap g)
    (H : ∀ n ∈ ns, ¬ SemiRoot w.heap g n → ¬ OnLoop w.heap g n → nodeLook w n ≠ none) : branchPass lim ns w = (.ok (), w) := by
  induction ns with
  | nil => rfl
  | cons n ns ih =>
    have := ih (fun x hx => hmem x (by simp [hx])) (fun x hx => H x (by simp [hx]))
    have hn := hmem n (by simp)
    simp only [branchPass, W.bind_apply, W.ask_apply, isRoot_eq r hown hlim hn]
    by_cases hr : SemiRoot w.heap g n
    · simp only [hr, decide_true, if_true]; exact this
    · simp only [hr, decide_false, Bool.false_eq_true, if_false, W.bind_apply, W.ask_apply, nodeIsInLoop_eq r hown hlim hn]
      by_cases hl : OnLoop w.heap g n
      · simp only [hl, decide_true, if_true]; exact this
      · simp only [hl, decide_false, Bool.false_eq_true, if_false, W.bind_apply, W.look_apply]
        cases hst : (w.heap.node n).style with
        | some s => exact this
        | none => exact absurd (nodeLook_none.2 hst) (H n (by simp) hr hl)

/-! ## Edges -/

/-- Give the default style to the edges `es`: the arrow sizes are multiplied up from `a`. -/
def handEdges (colour : ERef → C) (factor : ERef → Rat) :
    List ERef → Rat → (ERef → Option (EdgeStyle C)) → ERef → Option (EdgeStyle C)
  | [], _, E => E
  | e :: es, a, E => handEdges colour factor es (a * factor e) (upd E e (some (defaultEdge (colour e) (a * factor e))))

omit [Palette C] in
theorem handEdges_other (colour : ERef → C) (factor : ERef → Rat) (es : List ERef) (a : Rat) (E : ERef → Option (EdgeStyle C))
    {e : ERef} (h : e ∉ es) : handEdges colour factor es a E e = E e := by
  induction es generalizing a E with
  | nil => rfl
  | cons m es ih =>
    simp only [List.mem_cons, not_or] at h
    rw [handEdges, ih _ _ h.2, upd_ne _ _ h.1]

omit [Palette C] in
theorem handEdges_get (colour : ERef → C) (factor : ERef → Rat) (es : List ERef) (nd : es.Nodup) (a : Rat)
    (E : ERef → Option (EdgeStyle C)) (j : Nat) (hj : j < es.length) :
    handEdges colour factor es a E es[j] =
      some (defaultEdge (colour es[j]) (((es.take (j + 1)).map factor).foldl (· * ·) a)) := by
  induction es generalizing a E j with
  | nil => simp at hj
  | cons m es ih =>
    obtain ⟨h1, h2⟩ := List.nodup_cons.1 nd
    cases j with
    | zero => simp only [List.getElem_cons_zero, handEdges]; rw [handEdges_other _ _ _ _ _ h1]; simp
    | succ j =>
      simp only [List.getElem_cons_succ, handEdges]
      rw [ih h2 _ _ j (by simpa using hj)]
      simp

/-- What `stylize_edges_based_on_nodes` needs of an unstyled edge. -/
def EdgeReady (w : World C) (e : ERef) (c : C) (x : Rat) : Prop :=
  startColour w e = .ok c ∧ (w.heap.edge e).value.factor = some x

omit [Palette C] in
theorem startColour_same {w w' : World C} (S : SameBody w.heap w'.heap) (N : nodeLook w' = nodeLook w) (e : ERef) :
    startColour w' e = startColour w e := by
  unfold startColour
  rw [← S.edgeStart]
  cases edgeStart w.heap e with
  | error _ => rfl
  | ok n =>
    simp only [bind, Except.bind]
    have := congrFun N n
    simp only [nodeLook] at this
    cases h1 : (w.heap.node n).style <;> cases h2 : (w'.heap.node n).style <;> simp [h1, h2] at this ⊢
    rw [this]

omit [Palette C] in
theorem scaleArrow_eq (c : C) (a : Rat) {v : Val} {x : Rat} (h : v.factor = some x) :
    (defaultEdge c a).scaleArrow v = .ok (defaultEdge c (a * x)) := by
  cases v with
  | none =>
    have : x = 1 := by simpa [Val.factor] using h.symm
    subst this
    simp [EdgeStyle.scaleArrow, defaultEdge, Rat.mul_one]
  | int i =>
    have : x = i := by simpa [Val.factor] using h.symm
    subst this
    rfl
  | str _ => simp [Val.factor] at h
  | obj _ => simp [Val.factor] at h

open scoped Classical in
theorem edgePass_run (ratio : Rat) (colour : ERef → C) (factor : ERef → Rat) (es : List ERef) :
    ∀ (w : World C) (last : Option (EdgeStyle C)) (a : Rat), Fine w → es.Nodup → (∀ c, nextEdgeStyle last c = defaultEdge c a) →
    (∀ e ∈ es, edgeLook w e = none → ∃ c, EdgeReady w e c (factor e) ∧ colour e = darken c ratio) →
    ∃ w', edgePass ratio es last w = (.ok (), w') ∧
      Becomes w w' (nodeLook w) (handEdges colour factor (es.filter fun e => decide (edgeLook w e = none)) a (edgeLook w)) := by
  induction es with
  | nil => intro w _ _ F _ _ _; exact ⟨w, rfl, .refl F⟩
  | cons e es ih =>
    intro w last a F hnd hlast hready
    obtain ⟨n1, n2⟩ := List.nodup_cons.1 hnd
    simp only [edgePass, W.bind_apply, W.look_apply]
    cases hst : (w.heap.edge e).style with
    | some s =>
      obtain ⟨w', h1, h2⟩ := ih w last a F n2 hlast (fun x hx => hready x (by simp [hx]))
      refine ⟨w', h1, ?_⟩
      rw [List.filter_cons_of_neg (by simp [edgeLook, hst])]
      exact h2
    | none =>
      have hlook : edgeLook w e = none := edgeLook_none.2 hst
      obtain ⟨c, ⟨r1, r2⟩, hc⟩ := hready e (by simp) hlook
      simp only [W.bind_apply, W.ask_apply, r1, hlast, scaleArrow_eq _ _ r2]
      obtain ⟨w1, a1, a2⟩ := assignEdge_run F (n := e) (.inl hst) (defaultEdge (darken c ratio) (a * factor e))
      rw [a1]
      simp only
      obtain ⟨w', h1, h2⟩ := ih w1 (some (defaultEdge (darken c ratio) (a * factor e))) (a * factor e) a2.fine n2
        (fun c' => nextEdge_some c' _ _) (by
          intro x hx hxl
          have hne : x ≠ e := fun h => n1 (h ▸ hx)
          rw [a2.edges, upd_ne _ _ hne] at hxl
          obtain ⟨c', ⟨q1, q2⟩, q3⟩ := hready x (by simp [hx]) hxl
          exact ⟨c', ⟨by rw [startColour_same a2.shape a2.nodes]; exact q1, by rw [← a2.shape.edgeValue]; exact q2⟩, q3⟩)
      refine ⟨w', h1, ?_⟩
      rw [List.filter_cons_of_pos (by simp [hlook])]
      have := a2.trans h2
      rw [a2.nodes, a2.edges] at this
      rw [handEdges, hc]
      rw [List.filter_congr (q := fun e => decide (edgeLook w e = none))] at this
      · exact this
      · intro x hx
        rw [upd_ne _ _ (show x ≠ e from fun h => n1 (h ▸ hx))]

theorem edgePass_idle (ratio : Rat) (es : List ERef) (last : Option (EdgeStyle C)) {w : World C}
    (H : ∀ e ∈ es, edgeLook w e ≠ none) : edgePass ratio es last w = (.ok (), w) := by
  induction es with
  | nil => rfl
  | cons e es ih =>
    have := ih (fun x hx => H x (by simp [hx]))
    simp only [edgePass, W.bind_apply, W.look_apply]
    cases hst : (w.heap.edge e).style with
    | some s => exact this
    | none => exact absurd (edgeLook_none.2 hst) (H e (by simp))

/-- `stylize_edges_based_on_nodes` stops at the first edge that is not ready. -/
theorem edgePass_fail (ratio : Rat) (es : List ERef) :
    ∀ (w : World C) (last : Option (EdgeStyle C)) (a : Rat), Fine w → es.Nodup → (∀ c, nextEdgeStyle last c = defaultEdge c a) →
    (∃ e ∈ es, edgeLook w e = none ∧ ¬ ∃ c x, EdgeReady w e c x) →
    ∃ err w', edgePass ratio es last w = (.error err, w') ∧
      ((∀ e ∈ es, edgeLook w e = none → (w.heap.edge e).value.factor ≠ none) →
       (∀ e ∈ es, ∃ n, edgeStart w.heap e = .ok n) → err = .attributeError) := by
  induction es with
  | nil => intro w _ _ _ _ _ H; simp at H
  | cons e es ih =>
    intro w last a F hnd hlast hbad
    obtain ⟨n1, n2⟩ := List.nodup_cons.1 hnd
    simp only [edgePass, W.bind_apply, W.look_apply]
    cases hst : (w.heap.edge e).style with
    | some s =>
      have hbad' : ∃ x ∈ es, edgeLook w x = none ∧ ¬ ∃ c y, EdgeReady w x c y := by
        obtain ⟨x, hx, q1, q2⟩ := hbad
        refine ⟨x, ?_, q1, q2⟩
        rcases List.mem_cons.1 hx with rfl | hx
        · rw [edgeLook_none, hst] at q1; cases q1
        · exact hx
      obtain ⟨err, w', h1, h2⟩ := ih w last a F n2 hlast hbad'
      exact ⟨err, w', h1, fun q1 q2 => h2 (fun x hx => q1 x (by simp [hx])) (fun x hx => q2 x (by simp [hx]))⟩
    | none =>
      have hlook : edgeLook w e = none := edgeLook_none.2 hst
      simp only [W.bind_apply, W.ask_apply]
      cases hsc : startColour w e with
      | error err =>
        refine ⟨err, w, rfl, fun _ q2 => ?_⟩
        obtain ⟨n, hn⟩ := q2 e (by simp)
        simp only [startColour, hn, bind, Except.bind] at hsc
        split at hsc <;> cases hsc
        rfl
      | ok c =>
        simp only [hlast]
        cases hv : (w.heap.edge e).value.factor with
        | none =>
          cases hval : (w.heap.edge e).value with
          | none => rw [hval] at hv; cases hv
          | int _ => rw [hval] at hv; cases hv
          | str _ => exact ⟨.typeError, w, rfl, fun q1 _ => absurd (by rw [hv]) (q1 e (by simp) hlook)⟩
          | obj _ => exact ⟨.typeError, w, rfl, fun q1 _ => absurd (by rw [hv]) (q1 e (by simp) hlook)⟩
        | some x =>
          rw [scaleArrow_eq _ _ hv]
          simp only
          obtain ⟨w1, a1, a2⟩ := assignEdge_run F (n := e) (.inl hst) (defaultEdge (darken c ratio) (a * x))
          rw [a1]
          simp only
          have hne : ∀ y ∈ es, y ≠ e := fun y hy h => n1 (h ▸ hy)
          have hlk : ∀ y ∈ es, edgeLook w1 y = edgeLook w y := fun y hy => by rw [a2.edges, upd_ne _ _ (hne y hy)]
          obtain ⟨err, w', h1, h2⟩ := ih w1 (some (defaultEdge (darken c ratio) (a * x))) (a * x) a2.fine n2
            (fun c' => nextEdge_some c' _ _) (by
              obtain ⟨y, hy, q1, q2⟩ := hbad
              have hye : y ≠ e := by
                rintro rfl
                exact q2 ⟨c, x, hsc, hv⟩
              have hy : y ∈ es := by simpa [hye] using hy
              refine ⟨y, hy, by rw [hlk y hy]; exact q1, fun ⟨c', x', p1, p2⟩ => q2 ⟨c', x', ?_, ?_⟩⟩
              · rw [startColour_same a2.shape a2.nodes] at p1; exact p1
              · rw [a2.shape.edgeValue]; exact p2)
          refine ⟨err, w', h1, fun q1 q2 => h2 (fun y hy hl => ?_) (fun y hy => ?_)⟩
          · rw [hlk y hy] at hl
            rw [← a2.shape.edgeValue]
            exact q1 y (by simp [hy]) hl
          · rw [← a2.shape.edgeStart]
            exact q2 y (by simp [hy])

end Verif
