import Verif.Props.Connect
import Verif.Props.AddNode
import Verif.Lemmas.Alone
/-!
# C98: all or nothing

`connect` with the ends and the id of an edge that exists, and `add_node` with the name of a node that exists, change the style,
the label and the value, in this order. Here it is said exactly when they raise, and what has been changed by then.
-/
namespace Verif
open M

/-- What setting a style raises: `permission` is `style_overwrite_allowed` (`none` if there is no such attribute), `old` the style
there is, `s` the style given. -/
def styleRefusal (permission : Option Bool) (old : Option SRef) (s : StyleArg) : Option PyErr :=
  if s = .none then none
  else if old = none ∨ permission = some true then
    match s with
    | .dict false => some .typeError
    | .bad => some .typeError
    | _ => none
  else if permission = none then some .attributeError
  else some .runtimeError

theorem checkOverwrite_run (old : Option SRef) (gr : Option GRef) (h : Heap) :
    checkOverwrite old gr h = if old = none ∨ (gr.bind fun g => (h.graph g).overwrite) = some true then (.ok (), h)
      else if (gr.bind fun g => (h.graph g).overwrite) = none then (.error .attributeError, h) else (.error .runtimeError, h) := by
  cases old with
  | none => simp [checkOverwrite]
  | some s =>
    cases gr with
    | none => simp [checkOverwrite]
    | some g =>
      cases ho : (h.graph g).overwrite with
      | none => simp [checkOverwrite, ho]
      | some b => cases b <;> simp [checkOverwrite, ho]

/-- The style that results from an accepted argument: `old` if none was given, `fresh` for a new style object. -/
def styleTaken (old : Option SRef) (fresh : SRef) : StyleArg → Option SRef
  | .none => old
  | .obj s => some s
  | _ => some fresh

theorem setEdgeStyle_run (e : ERef) (s : StyleArg) (h : Heap) :
    (∀ err, styleRefusal ((h.edge e).graph.bind fun g => (h.graph g).overwrite) (h.edge e).style s = some err →
      onlyIf (s ≠ .none) (edgeSetStyle e s) h = (.error err, h)) ∧
    (styleRefusal ((h.edge e).graph.bind fun g => (h.graph g).overwrite) (h.edge e).style s = none →
      ∃ k, onlyIf (s ≠ .none) (edgeSetStyle e s) h =
        (.ok (), { h with edge := upd h.edge e { h.edge e with style := styleTaken (h.edge e).style h.nStyle s }, nStyle := k })) := by
  by_cases hn : s = .none
  · subst hn
    refine ⟨by simp [styleRefusal], fun _ => ⟨h.nStyle, ?_⟩⟩
    simp [onlyIf, styleTaken, upd_self]
  have h1 : onlyIf (s ≠ .none) (edgeSetStyle e s) h = edgeSetStyle e s h := by simp [onlyIf, hn]
  rw [h1]
  simp only [edgeSetStyle, bind_apply, look_apply, checkOverwrite_run, styleRefusal, if_neg hn]
  by_cases ho : (h.edge e).style = none ∨ ((h.edge e).graph.bind fun g => (h.graph g).overwrite) = some true
  · simp only [if_pos ho]
    cases s with
    | none => exact absurd rfl hn
    | bad => simp [resolveStyle]
    | obj s => exact ⟨by simp, fun _ => ⟨h.nStyle, by simp [resolveStyle, modEdge, styleTaken]⟩⟩
    | dict v =>
      cases v with
      | false => simp [resolveStyle]
      | true => exact ⟨by simp, fun _ => ⟨h.nStyle + 1, by simp [resolveStyle, modEdge, newStyle, styleTaken]⟩⟩
  · simp only [if_neg ho]
    by_cases hp : ((h.edge e).graph.bind fun g => (h.graph g).overwrite) = none
    · simp [hp]
    · simp [hp]

/-- `edge.style = ...; edge.label = ...; edge.value = ...`, as far as it gets. -/
theorem edgeUpdate_run (e : ERef) (label value : Val) (s : StyleArg) (h : Heap) :
    (∀ err, styleRefusal ((h.edge e).graph.bind fun g => (h.graph g).overwrite) (h.edge e).style s = some err →
      edgeUpdate e label value s h = (.error err, h)) ∧
    (styleRefusal ((h.edge e).graph.bind fun g => (h.graph g).overwrite) (h.edge e).style s = none → ∃ k,
      (value ≠ .none ∧ (h.edge e).frozen = true → edgeUpdate e label value s h = (.error .runtimeError, { h with
        edge := upd h.edge e { h.edge e with style := styleTaken (h.edge e).style h.nStyle s, label := given label (h.edge e).label },
        nStyle := k })) ∧
      (value = .none ∨ (h.edge e).frozen = false → edgeUpdate e label value s h = (.ok (), { h with
        edge := upd h.edge e { h.edge e with style := styleTaken (h.edge e).style h.nStyle s, label := given label (h.edge e).label,
                                             value := given value (h.edge e).value },
        nStyle := k }))) := by
  refine ⟨fun err he => ?_, fun hn => ?_⟩
  · simp only [edgeUpdate, bind_apply, (setEdgeStyle_run e s h).1 err he]
  obtain ⟨k, hk⟩ := (setEdgeStyle_run e s h).2 hn
  refine ⟨k, ?_, ?_⟩
  · rintro ⟨hv, hf⟩
    simp only [edgeUpdate, bind_apply, hk]
    by_cases hl : label = .none
    · simp [onlyIf, hl, hv, edgeSetValue, hf, given]
    · simp [onlyIf, hl, hv, edgeSetLabel, modEdge, edgeSetValue, hf, given, upd_upd]
  · intro hv
    simp only [edgeUpdate, bind_apply, hk]
    by_cases hl : label = .none <;> by_cases hx : value = .none
    · simp [onlyIf, hl, hx, given]
    · have hf := hv.resolve_left hx
      simp [onlyIf, hl, hx, edgeSetValue, modEdge, hf, given, upd_upd]
    · simp [onlyIf, hl, hx, edgeSetLabel, modEdge, given, upd_upd]
    · have hf := hv.resolve_left hx
      simp [onlyIf, hl, hx, edgeSetLabel, modEdge, edgeSetValue, hf, given, upd_upd]

theorem setNodeStyle_run (n : NRef) (s : StyleArg) (h : Heap) :
    (∀ err, styleRefusal ((h.node n).graph.bind fun g => (h.graph g).overwrite) (h.node n).style s = some err →
      onlyIf (s ≠ .none) (nodeSetStyle n s) h = (.error err, h)) ∧
    (styleRefusal ((h.node n).graph.bind fun g => (h.graph g).overwrite) (h.node n).style s = none →
      ∃ k, onlyIf (s ≠ .none) (nodeSetStyle n s) h =
        (.ok (), { h with node := upd h.node n { h.node n with style := styleTaken (h.node n).style h.nStyle s }, nStyle := k })) := by
  by_cases hn : s = .none
  · subst hn
    refine ⟨by simp [styleRefusal], fun _ => ⟨h.nStyle, ?_⟩⟩
    simp [onlyIf, styleTaken, upd_self]
  have h1 : onlyIf (s ≠ .none) (nodeSetStyle n s) h = nodeSetStyle n s h := by simp [onlyIf, hn]
  rw [h1]
  simp only [nodeSetStyle, bind_apply, look_apply, checkOverwrite_run, styleRefusal, if_neg hn]
  by_cases ho : (h.node n).style = none ∨ ((h.node n).graph.bind fun g => (h.graph g).overwrite) = some true
  · simp only [if_pos ho]
    cases s with
    | none => exact absurd rfl hn
    | bad => simp [resolveStyle]
    | obj s => exact ⟨by simp, fun _ => ⟨h.nStyle, by simp [resolveStyle, modNode, styleTaken]⟩⟩
    | dict v =>
      cases v with
      | false => simp [resolveStyle]
      | true => exact ⟨by simp, fun _ => ⟨h.nStyle + 1, by simp [resolveStyle, modNode, newStyle, styleTaken]⟩⟩
  · simp only [if_neg ho]
    by_cases hp : ((h.node n).graph.bind fun g => (h.graph g).overwrite) = none
    · simp [hp]
    · simp [hp]

/-- `node.style = ...; node.label = ...; node.value = ...`, as far as it gets. -/
theorem nodeUpdate_run (n : NRef) (label value : Val) (s : StyleArg) (h : Heap) :
    (∀ err, styleRefusal ((h.node n).graph.bind fun g => (h.graph g).overwrite) (h.node n).style s = some err →
      nodeUpdate n label value s h = (.error err, h)) ∧
    (styleRefusal ((h.node n).graph.bind fun g => (h.graph g).overwrite) (h.node n).style s = none → ∃ k,
      (value ≠ .none ∧ (h.node n).frozen = true → nodeUpdate n label value s h = (.error .runtimeError, { h with
        node := upd h.node n { h.node n with style := styleTaken (h.node n).style h.nStyle s, label := given label (h.node n).label },
        nStyle := k })) ∧
      (value = .none ∨ (h.node n).frozen = false → nodeUpdate n label value s h = (.ok (), { h with
        node := upd h.node n { h.node n with style := styleTaken (h.node n).style h.nStyle s, label := given label (h.node n).label,
                                             value := given value (h.node n).value },
        nStyle := k }))) := by
  refine ⟨fun err he => ?_, fun hn => ?_⟩
  · simp only [nodeUpdate, bind_apply, (setNodeStyle_run n s h).1 err he]
  obtain ⟨k, hk⟩ := (setNodeStyle_run n s h).2 hn
  refine ⟨k, ?_, ?_⟩
  · rintro ⟨hv, hf⟩
    simp only [nodeUpdate, bind_apply, hk]
    by_cases hl : label = .none
    · simp [onlyIf, hl, hv, nodeSetValue, hf, given]
    · simp [onlyIf, hl, hv, nodeSetLabel, modNode, nodeSetValue, hf, given, upd_upd]
  · intro hv
    simp only [nodeUpdate, bind_apply, hk]
    by_cases hl : label = .none <;> by_cases hx : value = .none
    · simp [onlyIf, hl, hx, given]
    · have hf := hv.resolve_left hx
      simp [onlyIf, hl, hx, nodeSetValue, modNode, hf, given, upd_upd]
    · simp [onlyIf, hl, hx, nodeSetLabel, modNode, given, upd_upd]
    · have hf := hv.resolve_left hx
      simp [onlyIf, hl, hx, nodeSetLabel, modNode, nodeSetValue, hf, given, upd_upd]

/-- **C98**, `connect` with the ends and the id of an edge of the graph (and a policy other than `'error'`, which is C05): exactly
when it raises, and what has changed by then. A style that is refused leaves everything as it was. A value that is refused, the
edge being frozen, does not: style and label are the new ones. -/
theorem C98_connect_partial {h : Heap} (r : Reachable h) {g : GRef} {s t : NodeArg} {n m : NRef} {e : ERef} (hs : getNode h g s = .ok n)
    (ht : getNode h g t = .ok m) (a : EdgeArgs) {p : IfExists} (hp : p ≠ .error) (hin : Connected h g n m a.raw e) :
    ∃ h', (connect g s t a p h).2 = h' ∧ h'.graph = h.graph ∧ h'.node = h.node ∧ h'.nE = h.nE ∧ (∀ f, f ≠ e → h'.edge f = h.edge f) ∧
    (∀ err, styleRefusal (h.graph g).overwrite (h.edge e).style a.style = some err →
      (connect g s t a p h).1 = .error err ∧ h'.edge e = h.edge e) ∧
    (styleRefusal (h.graph g).overwrite (h.edge e).style a.style = none →
      (a.value ≠ .none ∧ (h.edge e).frozen = true → (connect g s t a p h).1 = .error .runtimeError ∧
        h'.edge e = { h.edge e with style := styleTaken (h.edge e).style h.nStyle a.style, label := given a.label (h.edge e).label }) ∧
      (a.value = .none ∨ (h.edge e).frozen = false → (connect g s t a p h).1 = .ok e ∧
        h'.edge e = { h.edge e with style := styleTaken (h.edge e).style h.nStyle a.style, label := given a.label (h.edge e).label,
                                    value := given a.value (h.edge e).value })) := by
  obtain ⟨A, H⟩ := r.hist
  have R := H.rep
  obtain ⟨x, hx, hn⟩ := R.getNode_ok.1 hs
  obtain ⟨y, hy, hm⟩ := R.getNode_ok.1 ht
  obtain ⟨q1, q2, q3, -, ⟨os, q5, q6⟩, -⟩ := hin
  rw [R.outwardEdges hn] at q5
  cases q5
  obtain ⟨i, hi, -⟩ := Rep.mem_out_handles.1 q6
  have := R.edgeId_eq hi
  rw [q3, (R.nodeOk g x n hn).2.1, (R.nodeOk g y m hm).2.1] at this
  cases this
  have hgr : (h.edge e).graph = some g := (R.edgeOk g x y a.raw e hi).2.2.1
  have hrun : ∃ w, connect g s t a p h =
      (edgeUpdate e a.label a.value a.style >>= fun _ => (pure e : M ERef)) { h with warns := w } := by
    rw [R.connect_old hs ht hn hm a p hi]
    cases p with
    | ignore => exact ⟨h.warns, rfl⟩
    | warn => exact ⟨h.warns + 1, rfl⟩
    | error => exact absurd rfl hp
  obtain ⟨w, hw⟩ := hrun
  obtain ⟨u1, u2⟩ := edgeUpdate_run e a.label a.value a.style { h with warns := w }
  have hb : ((h.edge e).graph.bind fun g => (h.graph g).overwrite) = (h.graph g).overwrite := by rw [hgr]; rfl
  simp only [hb] at u1 u2
  rw [hw]
  simp only [bind_apply]
  refine ⟨_, rfl, ?_⟩
  cases hr : styleRefusal (h.graph g).overwrite (h.edge e).style a.style with
  | some err =>
    rw [u1 err hr]
    exact ⟨rfl, rfl, rfl, fun _ _ => rfl, fun err' h' => by cases h'; exact ⟨rfl, rfl⟩, fun h' => by cases h'⟩
  | none =>
    obtain ⟨k, k1, k2⟩ := u2 hr
    by_cases hv : a.value ≠ .none ∧ (h.edge e).frozen = true
    · rw [k1 hv]
      refine ⟨rfl, rfl, rfl, fun f hf => upd_ne _ _ hf, fun _ h' => (by cases h'), fun _ => ⟨fun _ => ⟨rfl, upd_same _ _ _⟩, fun h' => ?_⟩⟩
      grind
    · have hv' : a.value = .none ∨ (h.edge e).frozen = false := by grind
      rw [k2 hv']
      exact ⟨rfl, rfl, rfl, fun f hf => upd_ne _ _ hf, fun _ h' => (by cases h'), fun _ => ⟨fun h' => absurd h' hv, fun _ => ⟨rfl, upd_same _ _ _⟩⟩⟩

/-- **C98**, `add_node` with the name of a node of the graph, in the same way. `style_overwrite_allowed` is looked up through
the node: a node that was removed and added again knows no graph. -/
theorem C98_add_node_partial {h : Heap} {g : GRef} {x : String} {n : NRef} (hn : getNode h g (.key (.str x)) = .ok n)
    (a : NodeArgs) {p : IfExists} (hp : p ≠ .error) :
    ∃ h' permission, permission = ((h.node n).graph.bind fun g => (h.graph g).overwrite) ∧
    (addNode g (.str x) a p h).2 = h' ∧ h'.graph = h.graph ∧ h'.edge = h.edge ∧ h'.nN = h.nN ∧ (∀ f, f ≠ n → h'.node f = h.node f) ∧
    (∀ err, styleRefusal permission (h.node n).style a.style = some err →
      (addNode g (.str x) a p h).1 = .error err ∧ h'.node n = h.node n) ∧
    (styleRefusal permission (h.node n).style a.style = none →
      (a.value ≠ .none ∧ (h.node n).frozen = true → (addNode g (.str x) a p h).1 = .error .runtimeError ∧
        h'.node n = { h.node n with style := styleTaken (h.node n).style h.nStyle a.style, label := given a.label (h.node n).label }) ∧
      (a.value = .none ∨ (h.node n).frozen = false → (addNode g (.str x) a p h).1 = .ok n ∧
        h'.node n = { h.node n with style := styleTaken (h.node n).style h.nStyle a.style, label := given a.label (h.node n).label,
                                    value := given a.value (h.node n).value })) := by
  have hd : dget (h.graph g).nodes (.str x) = some n := by
    simp only [getNode] at hn
    cases hd : dget (h.graph g).nodes (.str x) with
    | none => rw [hd] at hn; cases hn
    | some m => rw [hd] at hn; cases hn; rfl
  have hrun : ∃ w, addNode g (.str x) a p h =
      (nodeUpdate n a.label a.value a.style >>= fun _ => (pure n : M NRef)) { h with warns := w } := by
    cases p with
    | ignore => exact ⟨h.warns, by simp [addNode, hd, IfExists.check, getNode]⟩
    | warn => exact ⟨h.warns + 1, by simp [addNode, hd, IfExists.check, getNode, M.warn]⟩
    | error => exact absurd rfl hp
  obtain ⟨w, hw⟩ := hrun
  obtain ⟨u1, u2⟩ := nodeUpdate_run n a.label a.value a.style { h with warns := w }
  simp only at u1 u2
  rw [hw]
  simp only [bind_apply]
  refine ⟨_, _, rfl, rfl, ?_⟩
  cases hr : styleRefusal ((h.node n).graph.bind fun g => (h.graph g).overwrite) (h.node n).style a.style with
  | some err =>
    rw [u1 err hr]
    exact ⟨rfl, rfl, rfl, fun _ _ => rfl, fun err' h' => by cases h'; exact ⟨rfl, rfl⟩, fun h' => by cases h'⟩
  | none =>
    obtain ⟨k, k1, k2⟩ := u2 hr
    by_cases hv : a.value ≠ .none ∧ (h.node n).frozen = true
    · rw [k1 hv]
      refine ⟨rfl, rfl, rfl, fun f hf => upd_ne _ _ hf, fun _ h' => (by cases h'), fun _ => ⟨fun _ => ⟨rfl, upd_same _ _ _⟩, fun h' => ?_⟩⟩
      grind
    · have hv' : a.value = .none ∨ (h.node n).frozen = false := by grind
      rw [k2 hv']
      exact ⟨rfl, rfl, rfl, fun f hf => upd_ne _ _ hf, fun _ h' => (by cases h'), fun _ => ⟨fun h' => absurd h' hv, fun _ => ⟨rfl, upd_same _ _ _⟩⟩⟩

/-- **C98 is violated**: whenever an edge is frozen, connecting its ends again with a new label and a value raises, and the edge has the
new label afterwards. -/
theorem C98_connect_violated {h : Heap} (r : Reachable h) {g : GRef} {s t : NodeArg} {n m : NRef} {e : ERef} (hs : getNode h g s = .ok n)
    (ht : getNode h g t = .ok m) (a : EdgeArgs) {p : IfExists} (hp : p ≠ .error) (hin : Connected h g n m a.raw e)
    (hf : (h.edge e).frozen = true) (hst : a.style = .none) (hv : a.value ≠ .none) (hl : a.label ≠ .none) (hnew : a.label ≠ (h.edge e).label) :
    (connect g s t a p h).1 = .error .runtimeError ∧ ((connect g s t a p h).2.edge e).label = a.label ∧
      (connect g s t a p h).2.edge e ≠ h.edge e := by
  obtain ⟨h', rfl, -, -, -, -, -, k⟩ := C98_connect_partial r hs ht a hp hin
  obtain ⟨k1, k2⟩ := (k (by simp [styleRefusal, hst])).1 ⟨hv, hf⟩
  refine ⟨k1, by rw [k2]; simp [given, hl], fun hc => hnew ?_⟩
  rw [← hc, k2]
  simp [given, hl]

/-- ... and the same for a frozen node. -/
theorem C98_add_node_violated {h : Heap} {g : GRef} {x : String} {n : NRef} (hn : getNode h g (.key (.str x)) = .ok n)
    (a : NodeArgs) {p : IfExists} (hp : p ≠ .error) (hf : (h.node n).frozen = true) (hst : a.style = .none) (hv : a.value ≠ .none)
    (hl : a.label ≠ .none) (hnew : a.label ≠ (h.node n).label) :
    (addNode g (.str x) a p h).1 = .error .runtimeError ∧ ((addNode g (.str x) a p h).2.node n).label = a.label ∧
      (addNode g (.str x) a p h).2.node n ≠ h.node n := by
  obtain ⟨h', q, -, rfl, -, -, -, -, -, k⟩ := C98_add_node_partial hn a hp
  obtain ⟨k1, k2⟩ := (k (by simp [styleRefusal, hst])).1 ⟨hv, hf⟩
  refine ⟨k1, by rw [k2]; simp [given, hl], fun hc => hnew ?_⟩
  rw [← hc, k2]
  simp [given, hl]

/-- **C05** for whatever is given as start or end: if the graph does not know it, that error is raised and nothing changes. -/
theorem C05_unknown_end {h : Heap} {g : GRef} {s t : NodeArg} (a : EdgeArgs) (p : IfExists) :
    (∀ err, getNode h g s = .error err → connect g s t a p h = (.error err, h)) ∧
    (∀ n err, getNode h g s = .ok n → getNode h g t = .error err → connect g s t a p h = (.error err, h)) := by
  refine ⟨fun err hs => ?_, fun n err hs ht => ?_⟩
  · simp [connect, hs]
  · simp [connect, hs, ht]

/-- **C98**, `append`: whether it returns or raises at some point, the nodes that were there come first and in their order, every edge
is still there, with its ends and its id, and no other graph is touched. -/
theorem C98_append_partial {h : Heap} (r : Reachable h) {g : GRef} (hg : g < h.nG) (x : Appendable) :
    graphNodes h g <+: graphNodes (append g x h).2 g ∧
    (∀ e, LiveEdge h g e → LiveEdge (append g x h).2 g e ∧ edgeStart (append g x h).2 e = edgeStart h e ∧
      edgeEnd (append g x h).2 e = edgeEnd h e ∧ edgeId (append g x h).2 e = edgeId h e) ∧
    ∀ g', g' < h.nG → g' ≠ g → Untouched h (append g x h).2 g' := by
  obtain ⟨A, H⟩ := r.hist
  obtain ⟨ks, is, P⟩ := Puts.append (g := g) x
  obtain ⟨B, H', -, w, -⟩ := P.puts h A H hg
  have R := H.rep
  have R' := H'.rep
  refine ⟨?_, fun e he => ?_, ((Alone.append x).alone h r hg).2.2.2⟩
  · unfold graphNodes dvals
    rw [R.nodes, R'.nodes]
    exact w.1.map _
  · obtain ⟨i, hi⟩ := (liveEdge_iff R).1 he
    have hi' := w.2.subset hi
    obtain ⟨n, m, a1, a2, a3, -, -, a4, a5⟩ := R.live_edge hi
    obtain ⟨n', m', b1, b2, b3, -, -, b4, b5⟩ := R'.live_edge hi'
    have hn : n' = n := Option.some.inj ((dget_of_mem (R'.keysNodup g) b4).symm.trans (dget_of_mem (R'.keysNodup g) (w.1.subset a4)))
    have hm : m' = m := Option.some.inj ((dget_of_mem (R'.keysNodup g) b5).symm.trans (dget_of_mem (R'.keysNodup g) (w.1.subset a5)))
    subst hn hm
    exact ⟨(liveEdge_iff R').2 ⟨_, hi'⟩, by simp [edgeStart, a1, b1], by simp [edgeEnd, a2, b2], a3.symm ▸ b3⟩

/-- **C98 is violated** by `append`: a dictionary with a new node and an edge to a node that is nowhere raises `KeyError`, and the node has been
added. -/
theorem C98_append_violated {h : Heap} (r : Reachable h) {g : GRef} (hg : g < h.nG) {x y : String}
    (hx : Key.str x ∉ dkeys (h.graph g).nodes) (hy : Key.str y ∉ dkeys (h.graph g).nodes) (hne : y ≠ x) :
    (append g (.dict { nodes := some (.list [.str x]), edges := some [.two (.str x) (.str y)] }) h).1 = .error .keyError ∧
    Key.str x ∈ dkeys ((append g (.dict { nodes := some (.list [.str x]), edges := some [.two (.str x) (.str y)] }) h).2.graph g).nodes := by
  have hopt : graphSetOptions g none none h = (.ok (), h) := by
    simp [graphSetOptions, modGraph, upd_self]
  obtain ⟨h', s, h1, -, -, h2, -⟩ := C08_new r hg hx {} .warn trivial
  have h3 := C05_unknown (h := h') g (.str x) (.str y) {} .warn (.inr (by rw [h2]; simp [hne, hy]))
  have : append g (.dict { nodes := some (.list [.str x]), edges := some [.two (.str x) (.str y)] }) h = (.error .keyError, h') := by
    simp [append, appendDict, bind_apply, hopt, labelCheck, appendNodes, appendNodeDict, h1, appendEdges, appendEdgeList, h3]
  rw [this]
  exact ⟨rfl, by rw [h2]; simp⟩

end Verif
