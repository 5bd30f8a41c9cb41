import Verif.Props.Structure
/-!
# C03, C04, C05: `connect`
-/
namespace Verif
open M

/-- The style argument is accepted by the style constructor (a style object, a dict with known keywords, or `None`). -/
def StyleArg.Valid : StyleArg → Prop
  | .none => True
  | .obj _ => True
  | .dict v => v = true
  | .bad => False

theorem styleResult_valid {s : StyleArg} (hs : s.Valid) (k : Nat) : ∃ sr, styleResult none k s = some sr := by
  cases s with
  | dict v => cases v <;> simp [StyleArg.Valid, styleResult] at hs ⊢
  | bad => simp [StyleArg.Valid] at hs
  | _ => simp [styleResult]

/-- **C03.** Whatever the history, `connect` never raises one of its two "This is very weird!" errors. -/
theorem C03_never_weird {h : Heap} (r : Reachable h) (g : GRef) (s t : NodeArg) (a : EdgeArgs) (p : IfExists) :
    (connect g s t a p h).1 ≠ .error (.valueError "This is very weird! (outward)") ∧
    (connect g s t a p h).1 ≠ .error (.valueError "This is very weird! (inward)") := by
  obtain ⟨A, H⟩ := r.hist
  have R := H.rep
  have main : ∀ msg, msg ≠ "already exists" → (connect g s t a p h).1 ≠ .error (.valueError msg) := by
    intro msg hmsg
    cases hs : getNode h g s with
    | error err =>
      simp only [connect, bind_apply, ask_apply, hs]
      intro hc
      have : err = .valueError msg := by simpa using hc
      subst this
      cases s <;> simp [getNode] at hs <;> split at hs <;> simp at hs
    | ok n =>
      cases ht : getNode h g t with
      | error err =>
        simp only [connect, bind_apply, ask_apply, hs, ht]
        intro hc
        have : err = .valueError msg := by simpa using hc
        subst this
        cases t <;> simp [getNode] at ht <;> split at ht <;> simp at ht
      | ok m =>
        obtain ⟨x, hx, hn⟩ := R.getNode_ok.1 hs
        obtain ⟨y, hy, hm⟩ := R.getNode_ok.1 ht
        by_cases hnew : (x, y, a.raw) ∈ (A.graph g).ids
        · obtain ⟨e, he⟩ := Rep.mem_ids.1 hnew
          rw [R.connect_old hs ht hn hm a p he]
          -- none of the attribute setters raises a `ValueError`
          have noVal : ∀ {h : Heap}, (edgeUpdate e a.label a.value a.style h).1 ≠ .error (.valueError msg) := by
            intro h
            have st : ∀ h, (onlyIf (a.style ≠ .none) (edgeSetStyle e a.style) h).1 ≠ .error (.valueError msg) := by
              intro h
              unfold onlyIf
              split
              · simp only [edgeSetStyle, bind_apply, look_apply]
                have hc : ∀ o g, (checkOverwrite o g h).1 ≠ .error (.valueError msg) := by
                  intro o g
                  cases o with
                  | none => simp [checkOverwrite]
                  | some o =>
                    cases g with
                    | none => simp [checkOverwrite]
                    | some g =>
                      simp only [checkOverwrite, bind_apply, look_apply]
                      cases (h.graph g).overwrite with
                      | none => simp
                      | some b => cases b <;> simp
                have hc := hc (h.edge e).style (h.edge e).graph
                cases hk : checkOverwrite (h.edge e).style (h.edge e).graph h with
                | mk r h1 =>
                  rw [hk] at hc
                  cases r with
                  | error err => exact hc
                  | ok u =>
                    simp only [run_resolveStyle]
                    cases styleResult (h.edge e).style h1.nStyle a.style <;> simp [modEdge]
              · simp
            have lab : ∀ h, (onlyIf (a.label ≠ .none) (edgeSetLabel e a.label) h).1 ≠ .error (.valueError msg) := by
              intro h; unfold onlyIf; split <;> simp [edgeSetLabel, modEdge]
            have va : ∀ h, (onlyIf (a.value ≠ .none) (edgeSetValue e a.value) h).1 ≠ .error (.valueError msg) := by
              intro h; unfold onlyIf; split
              · simp only [edgeSetValue, bind_apply, look_apply]; split <;> simp [modEdge]
              · simp
            simp only [edgeUpdate, bind_apply]
            cases h1 : onlyIf (a.style ≠ .none) (edgeSetStyle e a.style) h with
            | mk r1 k1 =>
              have := st h; rw [h1] at this
              cases r1 with
              | error err => exact this
              | ok u =>
                simp only
                cases h2 : onlyIf (a.label ≠ .none) (edgeSetLabel e a.label) k1 with
                | mk r2 k2 =>
                  have := lab k1; rw [h2] at this
                  cases r2 with
                  | error err => exact this
                  | ok u => exact va k2
          simp only [bind_apply]
          cases p with
          | ignore =>
            simp only [IfExists.check, pure_apply]
            have := @noVal h
            cases hu : edgeUpdate e a.label a.value a.style h with
            | mk r k => rw [hu] at this; cases r <;> simp_all
          | warn =>
            simp only [IfExists.check, M.warn]
            have := @noVal { h with warns := h.warns + 1 }
            cases hu : edgeUpdate e a.label a.value a.style { h with warns := h.warns + 1 } with
            | mk r k => rw [hu] at this; cases r <;> simp_all
          | error => simp only [IfExists.check, raise_apply]; simpa using Ne.symm hmsg
        · rw [R.connect_new hs ht hn hm a p hnew]
          cases styleResult none h.nStyle a.style <;> simp
  exact ⟨main _ (by decide), main _ (by decide)⟩

/-- What `connect` promises about the edge it returns. -/
def Connected (h' : Heap) (g : GRef) (n m : NRef) (raw : RawId) (e : ERef) : Prop :=
  edgeStart h' e = .ok n ∧ edgeEnd h' e = .ok m ∧ edgeId h' e = .ok ((h'.node n).id, (h'.node m).id, raw) ∧
  (h'.edge e).graph = some g ∧
  (∃ os, outwardEdges h' n = .ok os ∧ e ∈ os) ∧ (∃ is, inwardEdges h' m = .ok is ∧ e ∈ is)

theorem connected_of_rep {h' : Heap} {A : Spec} (R : Rep h' A) {g : GRef} {s t : Key} {n m : NRef} {raw : RawId} {e : ERef}
    (hn : (s, n) ∈ (A.graph g).nodes) (hm : (t, m) ∈ (A.graph g).nodes) (he : ((s, t, raw), e) ∈ (A.graph g).edges) :
    Connected h' g n m raw e := by
  obtain ⟨n', m', h1, h2, h3, -, -, h6, h7⟩ := R.live_edge he
  obtain rfl := val_unique (R.keysNodup g) hn h6
  obtain rfl := val_unique (R.keysNodup g) hm h7
  refine ⟨by simp [edgeStart, h1], by simp [edgeEnd, h2], ?_, R.edge_graph he, ⟨_, R.outwardEdges hn, ?_⟩,
    ⟨_, R.inwardEdges hm, ?_⟩⟩
  · rw [h3, (R.nodeOk g s n hn).2.1, (R.nodeOk g t m hm).2.1]
  · exact Rep.mem_out_handles.2 ⟨_, he, rfl⟩
  · exact Rep.mem_inn_handles.2 ⟨_, he, rfl⟩

/-- **C03.** `connect` between registered end points, with an acceptable style and a policy other than `'error'`,
succeeds, provided that the edge is new, or that no style is given and no value would be written to a frozen edge; the
returned edge then connects the two nodes under the given id. -/
theorem C03_connect_succeeds {h : Heap} (r : Reachable h) {g : GRef} {s t : NodeArg} {n m : NRef}
    (hs : getNode h g s = .ok n) (ht : getNode h g t = .ok m) (a : EdgeArgs) (p : IfExists) (hp : p ≠ .error)
    (hst : a.style.Valid)
    (hold : ∀ e, dget (h.node n).outE ((h.node n).id, (h.node m).id, a.raw) = some e →
      a.style = .none ∧ (a.value = .none ∨ (h.edge e).frozen = false)) :
    ∃ e h', connect g s t a p h = (.ok e, h') ∧ Connected h' g n m a.raw e := by
  obtain ⟨A, H⟩ := r.hist
  have R := H.rep
  obtain ⟨x, hx, hn⟩ := R.getNode_ok.1 hs
  obtain ⟨y, hy, hm⟩ := R.getNode_ok.1 ht
  have e1 := (R.nodeOk g x n hn).2.1
  have e2 := (R.nodeOk g y m hm).2.1
  by_cases hnew : (x, y, a.raw) ∈ (A.graph g).ids
  · obtain ⟨e, he⟩ := Rep.mem_ids.1 hnew
    obtain ⟨hs0, hv⟩ := hold e (by rw [e1, e2]; exact (R.dget_out hn y a.raw e).2 he)
    have R' := R.connect_step g s t a p
    have hrun : ∃ h', connect g s t a p h = (.ok e, h') := by
      rw [R.connect_old hs ht hn hm a p he]
      have hupd : ∀ k : Heap, (k.edge e).frozen = (h.edge e).frozen →
          ∃ k', edgeUpdate e a.label a.value a.style k = (.ok (), k') := by
        intro k hk
        have : ∃ k1, onlyIf (a.label ≠ .none) (edgeSetLabel e a.label) k = (.ok (), k1) ∧
            (k1.edge e).frozen = (h.edge e).frozen := by
          unfold onlyIf
          split
          · exact ⟨_, rfl, by simp [hk]⟩
          · exact ⟨_, rfl, hk⟩
        obtain ⟨k1, hk1, hf⟩ := this
        simp only [edgeUpdate, bind_apply, hs0, onlyIf, ne_eq, not_true_eq_false, ↓reduceIte, pure_apply]
        simp only [onlyIf, ne_eq] at hk1
        simp only [hk1]
        split
        · next hvn =>
          have hv := hv.resolve_left hvn
          simp [edgeSetValue, hf, hv, modEdge]
        · simp
      simp only [bind_apply]
      cases p with
      | ignore =>
        obtain ⟨k', hk'⟩ := hupd h rfl
        exact ⟨k', by simp [IfExists.check, hk']⟩
      | warn =>
        obtain ⟨k', hk'⟩ := hupd { h with warns := h.warns + 1 } rfl
        exact ⟨k', by simp [IfExists.check, M.warn, hk']⟩
      | error => exact absurd rfl hp
    obtain ⟨h', hrun⟩ := hrun
    rw [hrun] at R'
    refine ⟨e, h', hrun, ?_⟩
    have hA : A.connect g s t a.raw e = A := by
      rw [Rep.argName_eq] at hx hy
      simp only [Spec.connect, Spec.connectId, hx, hy]
      exact Rep.on_id (Rep.addEdge_old he)
    simp only [hA] at R'
    exact connected_of_rep R' hn hm he
  · obtain ⟨sr, hsr⟩ := styleResult_valid hst h.nStyle
    have hrun := R.connect_new hs ht hn hm a p hnew
    rw [hsr] at hrun
    refine ⟨_, _, hrun, ?_⟩
    have R' := R.newEdge (o := { graph := some g, start := some n, stop := some m, raw := a.raw, value := a.value,
                                 label := a.label, tooltip := a.tooltip, params := a.kwargs, style := sr })
      (styleCount h.nStyle a.style) hn hm (Rep.raw_ne_cleared a) hnew rfl rfl rfl rfl
    refine connected_of_rep R' (s := x) (t := y) ?_ ?_ ?_
    · simpa [SGraph.addEdge, hnew] using hn
    · simpa [SGraph.addEdge, hnew] using hm
    · simp [SGraph.addEdge, hnew]

/-- The hypotheses of `C03_connect_succeeds` are met by connecting `a` to itself in the demo graph. -/
example : ∃ e h', connect 0 (.key (.str "a")) (.node 0) {} .warn demo = (.ok e, h') ∧
    Connected h' 0 0 0 .none e :=
  C03_connect_succeeds demo_reachable (by decide) (by decide) {} .warn (by decide) trivial (by
    have : dget (demo.node 0).outE ((demo.node 0).id, (demo.node 0).id, EdgeArgs.raw {}) = none := by decide
    intro e he; rw [this] at he; cases he)

/-- **C04.** Connecting an existing `(start, end, id)` again returns the very same edge object. No graph and no node
object changes at all (so no edge is added or moved), no other edge changes; the edge's label and value become the
given ones if given, and otherwise stay; its id, graph, ends, tooltip, parameters and freezing stay. -/
theorem C04_connect_again {h h' : Heap} (r : Reachable h) {g : GRef} {s t : NodeArg} {n m : NRef} {e e' : ERef}
    (hs : getNode h g s = .ok n) (ht : getNode h g t = .ok m) (a : EdgeArgs) (p : IfExists)
    (hin : Connected h g n m a.raw e) (hrun : connect g s t a p h = (.ok e', h')) :
    e' = e ∧ h'.graph = h.graph ∧ h'.node = h.node ∧ (∀ f, f ≠ e → h'.edge f = h.edge f) ∧ h'.nE = h.nE ∧
    (h'.edge e).label = given a.label (h.edge e).label ∧ (h'.edge e).value = given a.value (h.edge e).value ∧
    (h'.edge e).graph = (h.edge e).graph ∧ (h'.edge e).raw = (h.edge e).raw ∧
    (h'.edge e).start = (h.edge e).start ∧ (h'.edge e).stop = (h.edge e).stop ∧
    (h'.edge e).tooltip = (h.edge e).tooltip ∧ (h'.edge e).params = (h.edge e).params ∧
    (h'.edge e).frozen = (h.edge e).frozen ∧ (a.style = .none → (h'.edge e).style = (h.edge e).style) := by
  obtain ⟨A, H⟩ := r.hist
  have R := H.rep
  obtain ⟨x, hx, hn⟩ := R.getNode_ok.1 hs
  obtain ⟨y, hy, hm⟩ := R.getNode_ok.1 ht
  obtain ⟨q1, q2, q3, -, ⟨os, q5, q6⟩, -⟩ := hin
  rw [R.outwardEdges hn] at q5
  cases q5
  obtain ⟨i, hi, -⟩ := Rep.mem_out_handles.1 q6
  have := R.edgeId_eq hi
  rw [q3, (R.nodeOk g x n hn).2.1, (R.nodeOk g y m hm).2.1] at this
  cases this
  rw [R.connect_old hs ht hn hm a p hi] at hrun
  -- split the run into the policy check and the update
  have hsplit : ∃ k, k.graph = h.graph ∧ k.node = h.node ∧ k.edge = h.edge ∧ k.nE = h.nE ∧
      (edgeUpdate e a.label a.value a.style >>= fun _ => (pure e : M ERef)) k = (.ok e', h') := by
    simp only [bind_apply] at hrun ⊢
    cases p with
    | ignore => exact ⟨h, rfl, rfl, rfl, rfl, hrun⟩
    | warn => exact ⟨{ h with warns := h.warns + 1 }, rfl, rfl, rfl, rfl, hrun⟩
    | error => simp [IfExists.check] at hrun
  obtain ⟨k, k1, k2, k3, k4, hk⟩ := hsplit
  simp only [bind_apply] at hk
  obtain ⟨o, c, w, hu, u1, u2, u3, u4, u5⟩ := OnlyEdge.edgeUpdate (n := e) a.label a.value a.style k
  cases hx : edgeUpdate e a.label a.value a.style k with
  | mk r2 h2 =>
    rw [hx] at hk hu
    cases r2 with
    | error err => simp at hk
    | ok u =>
      simp only [pure_apply, Prod.mk.injEq, Except.ok.injEq] at hk
      obtain ⟨rfl, rfl⟩ := hk
      obtain ⟨v1, v2, v3, v4, v5⟩ := edgeUpdate_ok hx
      simp only at hu
      rw [k3] at u1 u2 u3 u4 u5 v1 v2 v3 v4 v5
      have hedge : h2.edge = upd h.edge e o := by rw [hu, ← k3]
      refine ⟨rfl, by rw [hu, ← k1], by rw [hu, ← k2], ?_, by rw [hu, ← k4], v1, v2, ?_, ?_, ?_, ?_, ?_, v4, v3, v5⟩
      · intro f hf; rw [hedge, upd_ne _ _ hf]
      · rw [hedge]; simp [u1]
      · rw [hedge]; simp [u2]
      · rw [hedge]; simp [u3]
      · rw [hedge]; simp [u4]
      · rw [hedge]; simp [u5]

/-- In the demo graph `connect("a", "b", label="x")` finds edge 0 again. -/
example : (connect 0 (.key (.str "a")) (.key (.str "b")) { label := .str "x" } .ignore demo).1 = .ok 0 := by decide

/-- **C05.** An unknown start or end raises `KeyError` and nothing at all changes. -/
theorem C05_unknown {h : Heap} (g : GRef) (s t : Key) (a : EdgeArgs) (p : IfExists)
    (hu : s ∉ dkeys (h.graph g).nodes ∨ t ∉ dkeys (h.graph g).nodes) :
    connect g (.key s) (.key t) a p h = (.error .keyError, h) := by
  simp only [connect, bind_apply, ask_apply, getNode]
  cases hs : dget (h.graph g).nodes s with
  | none => rfl
  | some n =>
    have ht : dget (h.graph g).nodes t = none := by
      rcases hu with hu | hu
      · exact absurd (List.mem_map.2 ⟨_, mem_of_dget hs, rfl⟩) hu
      · exact dget_none.2 hu
    simp [ht]

/-- **C05.** With policy `'error'`, connecting an existing edge raises `ValueError` and nothing at all changes. -/
theorem C05_exists {h : Heap} (r : Reachable h) {g : GRef} {s t : NodeArg} {n m : NRef} {e : ERef}
    (hs : getNode h g s = .ok n) (ht : getNode h g t = .ok m) (a : EdgeArgs)
    (hin : Connected h g n m a.raw e) :
    connect g s t a .error h = (.error (.valueError "already exists"), h) := by
  obtain ⟨A, H⟩ := r.hist
  have R := H.rep
  obtain ⟨x, hx, hn⟩ := R.getNode_ok.1 hs
  obtain ⟨y, hy, hm⟩ := R.getNode_ok.1 ht
  obtain ⟨q1, q2, q3, -, ⟨os, q5, q6⟩, -⟩ := hin
  rw [R.outwardEdges hn] at q5
  cases q5
  obtain ⟨i, hi, -⟩ := Rep.mem_out_handles.1 q6
  have := R.edgeId_eq hi
  rw [q3, (R.nodeOk g x n hn).2.1, (R.nodeOk g y m hm).2.1] at this
  cases this
  rw [R.connect_old hs ht hn hm a .error hi]
  rfl

/-- **C05.** A rejected style on a new edge also changes nothing. -/
theorem C05_bad_style {h : Heap} (r : Reachable h) {g : GRef} {s t : NodeArg} {n m : NRef}
    (hs : getNode h g s = .ok n) (ht : getNode h g t = .ok m) (a : EdgeArgs) (p : IfExists) (hbad : ¬ a.style.Valid)
    (hnew : dget (h.node n).outE ((h.node n).id, (h.node m).id, a.raw) = none) :
    connect g s t a p h = (.error .typeError, h) := by
  obtain ⟨A, H⟩ := r.hist
  have R := H.rep
  obtain ⟨x, hx, hn⟩ := R.getNode_ok.1 hs
  obtain ⟨y, hy, hm⟩ := R.getNode_ok.1 ht
  have : (x, y, a.raw) ∉ (A.graph g).ids := by
    intro hc
    obtain ⟨e, he⟩ := Rep.mem_ids.1 hc
    rw [(R.nodeOk g x n hn).2.1, (R.nodeOk g y m hm).2.1, (R.dget_out hn y a.raw e).2 he] at hnew
    cases hnew
  rw [R.connect_new hs ht hn hm a p this]
  cases hsty : a.style with
  | dict v => cases v <;> simp_all [StyleArg.Valid, styleResult, styleCount]
  | _ => simp_all [StyleArg.Valid, styleResult, styleCount]

example : (connect 0 (.key (.str "a")) (.key (.str "nope")) {} .warn demo).1 = .error .keyError ∧
    (connect 0 (.key (.str "a")) (.key (.str "b")) {} .error demo).1 = .error (.valueError "already exists") := by decide

end Verif
