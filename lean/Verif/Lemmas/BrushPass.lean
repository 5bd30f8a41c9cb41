import Verif.Lemmas.Brush
/-!
# The passes of the stylists with given styles
-/
namespace Verif
open Palette W
variable {C : Type} [Palette C]

/-! ## Style objects stay as they are -/

omit [Palette C] in
theorem Kept.refl (w : World C) : Kept w w := ⟨Nat.le_refl _, fun _ _ => rfl, fun _ _ => rfl⟩

omit [Palette C] in
theorem Kept.trans {w w' w'' : World C} (a : Kept w w') (b : Kept w' w'') : Kept w w'' :=
  ⟨Nat.le_trans a.more b.more, fun s h => (b.node s (Nat.lt_of_lt_of_le h a.more)).trans (a.node s h),
    fun s h => (b.edge s (Nat.lt_of_lt_of_le h a.more)).trans (a.edge s h)⟩

omit [Palette C] in
theorem assignNode_kept {w w' : World C} {n : NRef} (hn : Free w.heap (w.heap.node n).style (w.heap.node n).graph) {st : NodeStyle C}
    (hr : assignNode n st w = (.ok (), w')) : Kept w w' := by
  have hs : nodeSetStyle n (.dict true) w.heap =
      (.ok (), { w.heap with node := upd w.heap.node n { w.heap.node n with style := some w.heap.nStyle }, nStyle := w.heap.nStyle + 1 }) := by
    simp [nodeSetStyle, checkOverwrite_free hn, resolveStyle, M.newStyle, M.modNode]
  simp [assignNode, lift, hs, setNs] at hr
  subst hr
  refine ⟨by simp, fun s h => ?_, fun _ _ => rfl⟩
  simp only
  rw [upd_ne _ _ (Nat.ne_of_lt h)]

omit [Palette C] in
theorem assignEdge_kept {w w' : World C} {e : ERef} (he : (w.heap.edge e).style = none) {st : EdgeStyle C}
    (hr : assignEdge e st w = (.ok (), w')) : Kept w w' := by
  have hs : edgeSetStyle e (.dict true) w.heap =
      (.ok (), { w.heap with edge := upd w.heap.edge e { w.heap.edge e with style := some w.heap.nStyle }, nStyle := w.heap.nStyle + 1 }) := by
    simp [edgeSetStyle, checkOverwrite_free (.inl he), resolveStyle, M.newStyle, M.modEdge]
  simp [assignEdge, lift, hs, setEs] at hr
  subst hr
  refine ⟨by simp, fun _ _ => rfl, fun s h => ?_⟩
  simp only
  rw [upd_ne _ _ (Nat.ne_of_lt h)]

omit [Palette C] in
theorem Kept.given {w w' : World C} (K : Kept w w') {main : Option SRef} (H : ∀ o, main = some o → o < w.heap.nStyle) :
    main.map w'.ns = main.map w.ns ∧ ∀ o, main = some o → o < w'.heap.nStyle := by
  cases main with
  | none => simp
  | some o => exact ⟨by simp [K.node o (H o rfl)], fun _ h => Nat.lt_of_lt_of_le (H _ h) K.more⟩

/-! ## Roots -/

/-- Give the style `paint c` to the nodes `ns`, in the colours `pick i`, `pick (i + 1)`, ... -/
def paintOut (paint : C → NodeStyle C) (pick : Nat → C) : List NRef → Nat → (NRef → Option (NodeStyle C)) → NRef → Option (NodeStyle C)
  | [], _, N => N
  | n :: ns, i, N => paintOut paint pick ns (i + 1) (upd N n (some (paint (pick i))))

omit [Palette C] in
theorem paintOut_other (paint : C → NodeStyle C) (pick : Nat → C) (ns : List NRef) (i : Nat) (N : NRef → Option (NodeStyle C)) {n : NRef} (h : n ∉ ns) :
    paintOut paint pick ns i N n = N n := by
  induction ns generalizing i N with
  | nil => rfl
  | cons m ns ih =>
    simp only [List.mem_cons, not_or] at h
    rw [paintOut, ih _ _ h.2, upd_ne _ _ h.1]

omit [Palette C] in
theorem paintOut_get (paint : C → NodeStyle C) (pick : Nat → C) (ns : List NRef) (nd : ns.Nodup) (i : Nat) (N : NRef → Option (NodeStyle C)) (j : Nat)
    (hj : j < ns.length) : paintOut paint pick ns i N ns[j] = some (paint (pick (i + j))) := by
  induction ns generalizing i N j with
  | nil => simp at hj
  | cons m ns ih =>
    obtain ⟨h1, h2⟩ := List.nodup_cons.1 nd
    cases j with
    | zero => simp only [List.getElem_cons_zero, paintOut]; rw [paintOut_other _ _ _ _ _ h1]; simp
    | succ j =>
      simp only [List.getElem_cons_succ, paintOut]
      rw [ih h2 (i + 1) _ j (by simpa using hj)]
      simp [Nat.add_assoc, Nat.add_comm 1 j]

omit [Palette C] in
theorem rounds_next (cs : List C) (hm : 0 < cs.length) (i : Nat) :
    rounds cs (i / cs.length) (i % cs.length + 1) = rounds cs ((i + 1) / cs.length) ((i + 1) % cs.length) := by
  have hk := Nat.mod_lt i hm
  by_cases hw : i % cs.length + 1 = cs.length
  · rw [hw, rounds_wrap]
    have : (i + 1) % cs.length = 0 := by
      rw [Nat.add_mod_eq_ite]
      by_cases h1 : cs.length = 1
      · simp [h1, Nat.mod_one]
      · rw [Nat.mod_eq_of_lt (show 1 < cs.length by omega)]; simp [hw]
    rw [this]
    congr 1
    have e1 := Nat.div_add_mod i cs.length
    have e2 := Nat.div_add_mod (i + 1) cs.length
    have : cs.length * ((i + 1) / cs.length) = cs.length * (i / cs.length + 1) := by rw [Nat.mul_add]; omega
    exact (Nat.eq_of_mul_eq_mul_left hm this).symm
  · have hlt : i % cs.length + 1 < cs.length := by omega
    have : (i + 1) % cs.length = i % cs.length + 1 := by
      rw [Nat.add_mod, Nat.mod_eq_of_lt (show 1 < cs.length by omega), Nat.mod_eq_of_lt hlt]
    rw [this]
    congr 1
    have e1 := Nat.div_add_mod i cs.length
    have e2 := Nat.div_add_mod (i + 1) cs.length
    have : cs.length * ((i + 1) / cs.length) = cs.length * (i / cs.length) := by omega
    exact (Nat.eq_of_mul_eq_mul_left hm this).symm

section
variable [DecidableEq C]
open scoped Classical in
theorem rootPassWith_run {g : GRef} {lim : Nat} {main : Option SRef} {given : Option (NodeStyle C)} (cs : List C) (nd : cs.Nodup)
    (hm : 0 < cs.length) (ns : List NRef) :
    ∀ (w : World C) (i : Nat), Fine w → Reachable w.heap → (∀ n ∈ graphNodes w.heap g, (w.heap.node n).graph = some g) →
    (graphNodes w.heap g).length ≤ lim → (∀ n ∈ ns, n ∈ graphNodes w.heap g) → ns.Nodup →
    main.map w.ns = given → (∀ o, main = some o → o < w.heap.nStyle) →
    ∃ w', rootPassWith lim main ns (rounds cs (i / cs.length) (i % cs.length)) w = (.ok (), w') ∧
      Becomes w w' (paintOut (brushed given) (fun i => cs[i % cs.length]'(Nat.mod_lt _ hm))
        (ns.filter fun n => decide (nodeLook w n = none ∧ SemiRoot w.heap g n)) i (nodeLook w)) (edgeLook w) ∧ Kept w w' := by
  induction ns with
  | nil => intro w i F _ _ _ _ _ _ _; exact ⟨w, rfl, .refl F, .refl w⟩
  | cons n ns ih =>
    intro w i F r hown hlim hmem hnd hgiv hmain
    obtain ⟨n1, n2⟩ := List.nodup_cons.1 hnd
    have hn := hmem n (by simp)
    simp only [rootPassWith, W.bind_apply, W.look_apply]
    cases hst : (w.heap.node n).style with
    | some s =>
      simp only
      obtain ⟨w', h1, h2, h3⟩ := ih w i F r hown hlim (fun x hx => hmem x (by simp [hx])) n2 hgiv hmain
      refine ⟨w', h1, ?_, h3⟩
      rw [List.filter_cons_of_neg (by simp [nodeLook, hst])]
      exact h2
    | none =>
      have hlook : nodeLook w n = none := nodeLook_none.2 hst
      simp only [W.bind_apply, W.ask_apply, isRoot_eq r hown hlim hn]
      by_cases hr : SemiRoot w.heap g n
      · have hk := Nat.mod_lt i hm
        simp only [hr, decide_true, if_true, W.bind_apply, W.ask_apply, W.look_apply, rounds_step cs nd (i / cs.length) _ hk,
          fresh_brushed, hgiv]
        obtain ⟨w1, a1, a2⟩ := assignNode_run F (n := n) (.inl hst) (brushed given (cs[i % cs.length]'hk))
        have K := assignNode_kept (.inl hst) a1
        rw [a1]
        simp only
        rw [rounds_next cs hm]
        have S := a2.shape
        obtain ⟨k1, k2⟩ := K.given hmain
        obtain ⟨w', h1, h2, h3⟩ := ih w1 (i + 1) a2.fine (a2.reach r) (fun x hx => by
            rw [← S.nodeGraph]; exact hown x (by rw [S.graphNodes]; exact hx))
          (by rw [← S.graphNodes]; exact hlim) (fun x hx => by rw [← S.graphNodes]; exact hmem x (by simp [hx])) n2
          (k1.trans hgiv) k2
        refine ⟨w', h1, ?_, K.trans h3⟩
        rw [List.filter_cons_of_pos (by simp [hlook, hr])]
        have := a2.trans h2
        rw [a2.edges, a2.nodes, ← S.semiRoot g] at this
        rw [paintOut]
        rw [List.filter_congr (q := fun n => decide (nodeLook w n = none ∧ SemiRoot w.heap g n))] at this
        · exact this
        · intro x hx
          rw [upd_ne _ _ (show x ≠ n from fun h => n1 (h ▸ hx))]
      · simp only [hr, decide_false, Bool.false_eq_true, if_false]
        obtain ⟨w', h1, h2, h3⟩ := ih w i F r hown hlim (fun x hx => hmem x (by simp [hx])) n2 hgiv hmain
        refine ⟨w', h1, ?_, h3⟩
        rw [List.filter_cons_of_neg (by simp [hr])]
        exact h2

end

/-! ## Branches -/

theorem branchPassWith_run {g : GRef} {lim : Nat} (b : Brush) {given : Option (NodeStyle C)} (ns : List NRef) :
    ∀ (w : World C), Fine w → Reachable w.heap → (∀ n ∈ graphNodes w.heap g, (w.heap.node n).graph = some g) →
    (graphNodes w.heap g).length ≤ lim → (∀ n ∈ ns, n ∈ graphNodes w.heap g) → ns.Nodup →
    (∀ n ∈ graphNodes w.heap g, SemiRoot w.heap g n → nodeLook w n ≠ none) →
    b.node.map w.ns = given → (∀ o, b.node = some o → o < w.heap.nStyle) →
    ∃ w' N', branchPassWith lim b ns w = (.ok (), w') ∧ Becomes w w' N' (edgeLook w) ∧ Kept w w' ∧
      ∀ n, (n ∈ ns ∧ nodeLook w n = none ∧ ¬ SemiRoot w.heap g n ∧ ¬ OnLoop w.heap g n →
          ∃ s, N' n = some s ∧ Takes b given w.heap g (nodeLook w) n s) ∧
        (¬ (n ∈ ns ∧ nodeLook w n = none ∧ ¬ SemiRoot w.heap g n ∧ ¬ OnLoop w.heap g n) → N' n = nodeLook w n) := by
  induction ns with
  | nil => intro w F _ _ _ _ _ _ _ _; exact ⟨w, _, rfl, .refl F, .refl w, by simp⟩
  | cons n ns ih =>
    intro w F r hown hlim hmem hnd hroots hgiv hmain
    obtain ⟨n1, n2⟩ := List.nodup_cons.1 hnd
    have hn := hmem n (by simp)
    have skip : ¬ (nodeLook w n = none ∧ ¬ SemiRoot w.heap g n ∧ ¬ OnLoop w.heap g n) →
        ∃ w' N', branchPassWith lim b ns w = (.ok (), w') ∧ Becomes w w' N' (edgeLook w) ∧ Kept w w' ∧
        ∀ m, (m ∈ n :: ns ∧ nodeLook w m = none ∧ ¬ SemiRoot w.heap g m ∧ ¬ OnLoop w.heap g m →
          ∃ s, N' m = some s ∧ Takes b given w.heap g (nodeLook w) m s) ∧
        (¬ (m ∈ n :: ns ∧ nodeLook w m = none ∧ ¬ SemiRoot w.heap g m ∧ ¬ OnLoop w.heap g m) → N' m = nodeLook w m) := by
      intro hno
      obtain ⟨w', N', h1, h2, hk, h3⟩ := ih w F r hown hlim (fun x hx => hmem x (by simp [hx])) n2 hroots hgiv hmain
      refine ⟨w', N', h1, h2, hk, fun m => ⟨fun ⟨m1, m2⟩ => ?_, fun hm => (h3 m).2 (fun ⟨m1, m2⟩ => hm ⟨by simp [m1], m2⟩)⟩⟩
      rcases List.mem_cons.1 m1 with rfl | m1
      · exact absurd m2 hno
      · exact (h3 m).1 ⟨m1, m2⟩
    simp only [branchPassWith, W.bind_apply, W.ask_apply, isRoot_eq r hown hlim hn]
    by_cases hr : SemiRoot w.heap g n
    · simp only [hr, decide_true, if_true]; exact skip (by simp [hr])
    · simp only [hr, decide_false, Bool.false_eq_true, if_false, W.bind_apply, W.ask_apply, nodeIsInLoop_eq r hown hlim hn]
      by_cases hl : OnLoop w.heap g n
      · simp only [hl, decide_true, if_true]; exact skip (by simp [hl])
      · simp only [hl, decide_false, Bool.false_eq_true, if_false, W.bind_apply, W.look_apply]
        cases hst : (w.heap.node n).style with
        | some s => exact skip (by simp [nodeLook, hst])
        | none =>
          have hlook : nodeLook w n = none := nodeLook_none.2 hst
          obtain ⟨s, i1, i2⟩ := inherit_takes r hown hlim b hn hr hroots
          rw [hgiv] at i2
          simp only [W.bind_apply, W.ask_apply, i1]
          obtain ⟨w1, a1, a2⟩ := assignNode_run F (n := n) (.inl hst) s
          have K := assignNode_kept (.inl hst) a1
          obtain ⟨k1, k2⟩ := K.given hmain
          rw [a1]
          simp only
          have S := a2.shape
          have hbase : ∀ x, SemiRoot w.heap g x → nodeLook w1 x = nodeLook w x := by
            intro x hx
            rw [a2.nodes, upd_ne _ _ (show x ≠ n from fun h => hr (h ▸ hx))]
          obtain ⟨w', N', h1, h2, hk, h3⟩ := ih w1 a2.fine (a2.reach r) (fun x hx => by
              rw [← S.nodeGraph]; exact hown x (by rw [S.graphNodes]; exact hx))
            (by rw [← S.graphNodes]; exact hlim) (fun x hx => by rw [← S.graphNodes]; exact hmem x (by simp [hx])) n2
            (fun x hx hsx => by
              rw [← S.semiRoot] at hsx
              rw [hbase x hsx]
              exact hroots x (by rw [S.graphNodes]; exact hx) hsx) (k1.trans hgiv) k2
          refine ⟨w', N', h1, ?_, K.trans hk, fun m => ?_⟩
          · have := a2.trans h2
            rwa [a2.edges] at this
          · rw [← S.semiRoot, ← S.onLoop] at h3
            by_cases hmn : m = n
            · subst hmn
              have : N' m = some s := by
                rw [(h3 m).2 (fun h => n1 h.1), a2.nodes]; simp
              refine ⟨fun _ => ⟨s, this, i2⟩, fun hc => absurd ⟨by simp, hlook, hr, hl⟩ hc⟩
            · have e : nodeLook w1 m = nodeLook w m := by rw [a2.nodes, upd_ne _ _ hmn]
              have hm := h3 m
              rw [e] at hm
              refine ⟨fun ⟨c1, c2⟩ => ?_, fun hc => hm.2 (fun ⟨c1, c2⟩ => hc ⟨by simp [c1], c2⟩)⟩
              rcases List.mem_cons.1 c1 with c1 | c1
              · exact absurd c1 hmn
              · obtain ⟨s', q1, q2⟩ := hm.1 ⟨c1, c2⟩
                exact ⟨s', q1, q2.move S.symm (fun x hx => hbase x (by rw [S.semiRoot]; exact hx))⟩

/-! ## Edges -/

/-- Give the style `paint c a` to the edges `es`: the arrow sizes are multiplied up from `a`. -/
def penOut (paint : C → Rat → EdgeStyle C) (colour : ERef → C) (factor : ERef → Rat) :
    List ERef → Rat → (ERef → Option (EdgeStyle C)) → ERef → Option (EdgeStyle C)
  | [], _, E => E
  | e :: es, a, E => penOut paint colour factor es (a * factor e) (upd E e (some (paint (colour e) (a * factor e))))

omit [Palette C] in
theorem penOut_other (paint : C → Rat → EdgeStyle C) (colour : ERef → C) (factor : ERef → Rat) (es : List ERef) (a : Rat) (E : ERef → Option (EdgeStyle C))
    {e : ERef} (h : e ∉ es) : penOut paint colour factor es a E e = E e := by
  induction es generalizing a E with
  | nil => rfl
  | cons m es ih =>
    simp only [List.mem_cons, not_or] at h
    rw [penOut, ih _ _ h.2, upd_ne _ _ h.1]

omit [Palette C] in
theorem penOut_get (paint : C → Rat → EdgeStyle C) (colour : ERef → C) (factor : ERef → Rat) (es : List ERef) (nd : es.Nodup) (a : Rat)
    (E : ERef → Option (EdgeStyle C)) (j : Nat) (hj : j < es.length) :
    penOut paint colour factor es a E es[j] =
      some (paint (colour es[j]) (((es.take (j + 1)).map factor).foldl (· * ·) a)) := by
  induction es generalizing a E j with
  | nil => simp at hj
  | cons m es ih =>
    obtain ⟨h1, h2⟩ := List.nodup_cons.1 nd
    cases j with
    | zero => simp only [List.getElem_cons_zero, penOut]; rw [penOut_other _ _ _ _ _ _ h1]; simp
    | succ j =>
      simp only [List.getElem_cons_succ, penOut]
      rw [ih h2 _ _ j (by simpa using hj)]
      simp

open scoped Classical in
theorem edgePassWith_run (ratio : Rat) (E : Option (EdgeStyle C)) (colour : ERef → C) (factor : ERef → Rat) (es : List ERef) :
    ∀ (w : World C) (last : Option (EdgeStyle C)) (a : Rat), Fine w → es.Nodup → (∀ c, nextEdgeStyleWith last c = .ok (penned E c a)) →
    (∀ e ∈ es, edgeLook w e = none → ∃ c, EdgeReady w e c (factor e) ∧ colour e = darken c ratio) →
    ∃ w', edgePassWith ratio es last w = (.ok (), w') ∧
      Becomes w w' (nodeLook w) (penOut (penned E) colour factor (es.filter fun e => decide (edgeLook w e = none)) a (edgeLook w)) ∧
      Kept w w' := by
  induction es with
  | nil => intro w _ _ F _ _ _; exact ⟨w, rfl, .refl F, .refl w⟩
  | cons e es ih =>
    intro w last a F hnd hlast hready
    obtain ⟨n1, n2⟩ := List.nodup_cons.1 hnd
    simp only [edgePassWith, W.bind_apply, W.look_apply]
    cases hst : (w.heap.edge e).style with
    | some s =>
      obtain ⟨w', h1, h2, h3⟩ := ih w last a F n2 hlast (fun x hx => hready x (by simp [hx]))
      refine ⟨w', h1, ?_, h3⟩
      rw [List.filter_cons_of_neg (by simp [edgeLook, hst])]
      exact h2
    | none =>
      have hlook : edgeLook w e = none := edgeLook_none.2 hst
      obtain ⟨c, ⟨r1, r2⟩, hc⟩ := hready e (by simp) hlook
      simp only [W.bind_apply, W.ask_apply, r1, hlast, scaleArrow_penned _ _ _ r2]
      obtain ⟨w1, a1, a2⟩ := assignEdge_run F (n := e) (.inl hst) (penned E (darken c ratio) (a * factor e))
      have K := assignEdge_kept hst a1
      rw [a1]
      simp only
      obtain ⟨w', h1, h2, h3⟩ := ih w1 (some (penned E (darken c ratio) (a * factor e))) (a * factor e) a2.fine n2
        (fun c' => nextEdge_last E c' _ _) (by
          intro x hx hxl
          have hne : x ≠ e := fun h => n1 (h ▸ hx)
          rw [a2.edges, upd_ne _ _ hne] at hxl
          obtain ⟨c', ⟨q1, q2⟩, q3⟩ := hready x (by simp [hx]) hxl
          exact ⟨c', ⟨by rw [startColour_same a2.shape a2.nodes]; exact q1, by rw [← a2.shape.edgeValue]; exact q2⟩, q3⟩)
      refine ⟨w', h1, ?_, K.trans h3⟩
      rw [List.filter_cons_of_pos (by simp [hlook])]
      have := a2.trans h2
      rw [a2.nodes, a2.edges] at this
      rw [penOut, hc]
      rw [List.filter_congr (q := fun e => decide (edgeLook w e = none))] at this
      · exact this
      · intro x hx
        rw [upd_ne _ _ (show x ≠ e from fun h => n1 (h ▸ hx))]

/-! ## All nodes -/

section
variable [DecidableEq C]
omit [Palette C] [DecidableEq C] in
/-- Permission to give a node a style outlives styles given to other nodes. -/
theorem Becomes.free {w w' : World C} {n x : NRef} {st : NodeStyle C} {E : ERef → Option (EdgeStyle C)}
    (B : Becomes w w' (upd (nodeLook w) n (some st)) E) (hx : x ≠ n) (H : Free w.heap (w.heap.node x).style (w.heap.node x).graph) :
    Free w'.heap (w'.heap.node x).style (w'.heap.node x).graph := by
  have S := B.shape
  rcases H with H | ⟨g, h1, h2⟩
  · refine .inl (nodeLook_none.1 ?_)
    rw [B.nodes, upd_ne _ _ hx]
    exact nodeLook_none.2 H
  · refine .inr ⟨g, by rw [← S.nodeGraph]; exact h1, ?_⟩
    rw [← h2]
    exact (congrArg (fun h => (h.graph g).overwrite) S).symm

/-- `stylize_randomly` gives styles to the nodes one after the other. -/
theorem randomPassWith_run {main : Option SRef} {given : Option (NodeStyle C)} (cs : List C) (nd : cs.Nodup) (hm : 0 < cs.length) (ns : List NRef) :
    ∀ (w : World C) (i : Nat), Fine w → ns.Nodup → (∀ n ∈ ns, Free w.heap (w.heap.node n).style (w.heap.node n).graph) →
    main.map w.ns = given → (∀ o, main = some o → o < w.heap.nStyle) →
    ∃ w', randomPassWith main ns (rounds cs (i / cs.length) (i % cs.length)) w = (.ok (), w') ∧
      Becomes w w' (paintOut (brushed given) (fun i => cs[i % cs.length]'(Nat.mod_lt _ hm)) ns i (nodeLook w)) (edgeLook w) ∧ Kept w w' := by
  induction ns with
  | nil => intro w i F _ _ _ _; exact ⟨w, rfl, .refl F, .refl w⟩
  | cons n ns ih =>
    intro w i F hnd hno hgiv hmain
    obtain ⟨n1, n2⟩ := List.nodup_cons.1 hnd
    have hst := hno n (by simp)
    have hk := Nat.mod_lt i hm
    simp only [randomPassWith, W.bind_apply, W.ask_apply, W.look_apply, rounds_step cs nd (i / cs.length) _ hk, fresh_brushed, hgiv]
    obtain ⟨w1, a1, a2⟩ := assignNode_run F (n := n) hst (brushed given (cs[i % cs.length]'hk))
    have K := assignNode_kept hst a1
    obtain ⟨k1, k2⟩ := K.given hmain
    rw [a1]
    simp only
    rw [rounds_next cs hm]
    obtain ⟨w', h1, h2, h3⟩ := ih w1 (i + 1) a2.fine n2
      (fun x hx => a2.free (fun h => n1 (h ▸ hx)) (hno x (by simp [hx]))) (k1.trans hgiv) k2
    refine ⟨w', h1, ?_, K.trans h3⟩
    have := a2.trans h2
    rw [a2.edges, a2.nodes] at this
    exact this
end
end Verif
