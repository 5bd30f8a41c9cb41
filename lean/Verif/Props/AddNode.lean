import Verif.Props.Remove
/-!
# C08: `add_node`
-/
namespace Verif
open M

/-- **C08.** `add_node(name)` with a new name and an acceptable style appends one node object with the given attributes,
no edges and the next index; no other node, no edge and no other graph changes. -/
theorem C08_new {h : Heap} (r : Reachable h) {g : GRef} (hg : g < h.nG) {x : String}
    (hnew : Key.str x ∉ dkeys (h.graph g).nodes) (a : NodeArgs) (p : IfExists) (hst : a.style.Valid) :
    ∃ h' s, addNode g (.str x) a p h = (.ok h.nN, h') ∧ h.nN ∉ graphNodes h g ∧
      graphNodes h' g = graphNodes h g ++ [h.nN] ∧
      dkeys (h'.graph g).nodes = dkeys (h.graph g).nodes ++ [Key.str x] ∧
      h'.node h.nN = { graph := some g, id := .str x, value := a.value, label := a.label, tooltip := a.tooltip,
                       params := a.kwargs, style := s, index := (h.graph g).counter } ∧
      (∀ n, n ≠ h.nN → h'.node n = h.node n) ∧ h'.edge = h.edge ∧ (∀ g', g' ≠ g → h'.graph g' = h.graph g') ∧
      (h'.graph g).counter = (h.graph g).counter + 1 := by
  obtain ⟨A, H⟩ := r.hist
  have R := H.rep
  have hk : Key.str x ∉ (A.graph g).names := by
    unfold dkeys at hnew; rw [R.nodes] at hnew; exact hnew
  obtain ⟨h', hrun, hR⟩ := R.addNode_new hg hk a p
  obtain ⟨sr, hsr⟩ := styleResult_valid hst h.nStyle
  rw [hsr] at hrun hR
  obtain ⟨R', hn, he, hgr, -⟩ := hR
  refine ⟨h', sr, hrun, ?_, ?_, ?_, by rw [hn]; simp, fun n hx => by rw [hn, upd_ne _ _ hx], he, ?_, ?_⟩
  · intro hc
    obtain ⟨k, hk⟩ := (mem_graphNodes R).1 hc
    exact Nat.lt_irrefl _ (R.nodeOk g k _ hk).1
  · simp only [graphNodes, dvals, R'.nodes, R.nodes]
    simp [Spec.register, hk, SGraph.addNode]
  · simp only [dkeys, R'.nodes, R.nodes]
    simp [Spec.register, hk, SGraph.addNode]
  · intro g' hg'
    rw [hgr, upd_ne _ _ hg']
  · rw [hgr]; simp

example : (addNode 0 (.str "e") { value := .int 3 } .error demo).1 = .ok 5 ∧
    graphNodes (addNode 0 (.str "e") { value := .int 3 } .error demo).2 0 = [0, 1, 2, 3, 5] := by decide

/-- **C08.** `add_node(name)` with a taken name returns the existing object. No graph, no edge and no other node
changes; label and value are the given ones if given; everything else about the node stays. -/
theorem C08_existing {h h' : Heap} (r : Reachable h) {g : GRef} {x : String} {n m : NRef}
    (hn : getNode h g (.key (.str x)) = .ok n) (a : NodeArgs) (p : IfExists)
    (hrun : addNode g (.str x) a p h = (.ok m, h')) :
    m = n ∧ h'.graph = h.graph ∧ h'.edge = h.edge ∧ (∀ n', n' ≠ n → h'.node n' = h.node n') ∧
    (h'.node n).label = given a.label (h.node n).label ∧ (h'.node n).value = given a.value (h.node n).value ∧
    (a.style = .none → (h'.node n).style = (h.node n).style) ∧
    (h'.node n).graph = (h.node n).graph ∧ (h'.node n).id = (h.node n).id ∧ (h'.node n).index = (h.node n).index ∧
    (h'.node n).outE = (h.node n).outE ∧ (h'.node n).inE = (h.node n).inE ∧
    (h'.node n).tooltip = (h.node n).tooltip ∧ (h'.node n).params = (h.node n).params ∧
    (h'.node n).frozen = (h.node n).frozen := by
  obtain ⟨A, H⟩ := r.hist
  have R := H.rep
  have hkn := R.getNode_key.1 hn
  rw [R.addNode_old hkn a p] at hrun
  have hsplit : ∃ k, k.graph = h.graph ∧ k.node = h.node ∧ k.edge = h.edge ∧
      (nodeUpdate n a.label a.value a.style >>= fun _ => (pure n : M NRef)) k = (.ok m, h') := by
    simp only [bind_apply] at hrun ⊢
    cases p with
    | ignore => exact ⟨h, rfl, rfl, rfl, hrun⟩
    | warn => exact ⟨{ h with warns := h.warns + 1 }, rfl, rfl, rfl, hrun⟩
    | error => simp [IfExists.check] at hrun
  obtain ⟨k, k1, k2, k3, hk⟩ := hsplit
  simp only [bind_apply] at hk
  obtain ⟨o, c, w, hu, u1, u2, u3, u4, u5, u6⟩ := OnlyNode.nodeUpdate (n := n) a.label a.value a.style k
  cases hx : nodeUpdate n a.label a.value a.style k with
  | mk r2 h2 =>
    rw [hx] at hk hu
    cases r2 with
    | error err => simp at hk
    | ok u =>
      simp only [pure_apply, Prod.mk.injEq, Except.ok.injEq] at hk
      obtain ⟨rfl, rfl⟩ := hk
      obtain ⟨v1, v2, v3, v4, v5⟩ := nodeUpdate_ok hx
      simp only at hu
      rw [k2] at u1 u2 u3 u4 u5 u6 v1 v2 v3 v4 v5
      have hnode : h2.node = upd h.node n o := by rw [hu, ← k2]
      refine ⟨rfl, by rw [hu, ← k1], by rw [hu, ← k3], ?_, v1, v2, v5, ?_, ?_, ?_, ?_, ?_, ?_, v4, v3⟩
      · intro f hf; rw [hnode, upd_ne _ _ hf]
      all_goals rw [hnode]; simp [*]

example : getNode demo 0 (.key (.str "b")) = .ok 1 ∧
    (addNode 0 (.str "b") { label := .str "B" } .warn demo).1 = .ok 1 := by decide

/-- **C08.** With policy `'error'` a taken name raises `KeyError` and nothing at all changes. -/
theorem C08_error {h : Heap} {g : GRef} {x : String} (hx : Key.str x ∈ dkeys (h.graph g).nodes) (a : NodeArgs) :
    addNode g (.str x) a .error h = (.error .keyError, h) := by
  have : ∃ n, dget (h.graph g).nodes (Key.str x) = some n := by
    cases hd : dget (h.graph g).nodes (Key.str x) with
    | some n => exact ⟨n, rfl⟩
    | none => exact absurd hx (dget_none.1 hd)
  obtain ⟨n, hn⟩ := this
  simp [addNode, hn, IfExists.check]

/-- A rejected style or a name that is not a string adds no node, but the former uses up an index. -/
theorem C08_rejected {h : Heap} {g : GRef} {x : String}
    (hnew : Key.str x ∉ dkeys (h.graph g).nodes) (a : NodeArgs) (p : IfExists) (hst : ¬ a.style.Valid) :
    (addNode g (.str x) a p h).1 = .error .typeError ∧
    (∀ g', ((addNode g (.str x) a p h).2.graph g').nodes = (h.graph g').nodes) ∧
    (addNode g (.str x) a p h).2.node = h.node ∧ (addNode g (.str x) a p h).2.edge = h.edge := by
  have hd := dget_none.2 hnew
  have hsr : styleResult none h.nStyle a.style = none := by
    cases hs : a.style with
    | dict v => cases v <;> simp_all [StyleArg.Valid, styleResult]
    | _ => simp_all [StyleArg.Valid, styleResult]
  have hrun : addNode g (.str x) a p h = (.error .typeError,
      { h with graph := upd h.graph g { h.graph g with counter := (h.graph g).counter + 1 },
               nStyle := styleCount h.nStyle a.style }) := by
    simp [addNode, hd, generateNodeIndex, modGraph, nodeInit, run_resolveStyle, hsr]
  rw [hrun]
  refine ⟨rfl, ?_, rfl, rfl⟩
  intro g'
  by_cases hg' : g' = g
  · subst hg'; simp
  · simp [upd_ne _ _ hg']

end Verif
