import Verif.Lemmas.RunGraph
import Verif.Lemmas.CopyRep
import Verif.Spec.SpecHistory
/-!
# Every history keeps the heap and the abstract multigraph related
-/
namespace Verif
open M

theorem Calm.rep {α : Type} {x : M α} (c : Calm x) {h : Heap} {A : Spec} (R : Rep h A) : Rep (x h).2 A := (c h).rep R

namespace Rep
variable {h : Heap} {A : Spec}

theorem argName_eq (A : Spec) (a : NodeArg) : argName A a = A.argName a := by cases a <;> rfl

theorem delEdge_everywhere (R : Rep h A) {g : GRef} {i : EdgeId} {e : ERef} (he : (i, e) ∈ (A.graph g).edges) :
    ({ A with graph := fun g => (A.graph g).delEdge e } : Spec) = A.on g (fun G => G.delEdge e) := by
  simp only [Spec.on]
  congr 1
  funext g'
  by_cases hg : g' = g
  · subst hg; simp
  · rw [upd_ne _ _ hg]
    unfold SGraph.delEdge
    rw [List.filter_eq_self.2]
    rintro ⟨j, f⟩ hj
    simp only [decide_eq_true_eq]
    rintro rfl
    exact hg (R.handle_unique hj he).1

theorem addEdge_old {G : SGraph} {i : EdgeId} {e e' : ERef} (he : (i, e) ∈ G.edges) : G.addEdge i e' = G := by
  have : i ∈ G.ids := List.mem_map.2 ⟨_, he, rfl⟩
  simp [SGraph.addEdge, this]

theorem on_id {g : GRef} {f : SGraph → SGraph} (hf : f (A.graph g) = A.graph g) : A.on g f = A := by
  simp only [Spec.on, hf]
  congr 1
  funext x
  by_cases hx : x = g
  · subst hx; simp
  · rw [upd_ne _ _ hx]

/-- `connect`, whatever happens. -/
theorem connect_step (R : Rep h A) (g : GRef) (s t : NodeArg) (a : EdgeArgs) (p : IfExists) :
    Rep (connect g s t a p h).2
      (match (connect g s t a p h).1 with
       | .error _ => A
       | .ok e => A.connect g s t a.raw e) := by
  cases hs : getNode h g s with
  | error err => simp only [connect, bind_apply, ask_apply, hs]; exact R
  | ok n =>
    cases ht : getNode h g t with
    | error err => simp only [connect, bind_apply, ask_apply, hs, ht]; exact R
    | ok m =>
      obtain ⟨x, hx, hn⟩ := R.getNode_ok.1 hs
      obtain ⟨y, hy, hm⟩ := R.getNode_ok.1 ht
      rw [argName_eq] at hx hy
      have hci : A.connectId s t a.raw = some (x, y, a.raw) := by simp [Spec.connectId, hx, hy]
      simp only [Spec.connect, hci]
      by_cases hnew : (x, y, a.raw) ∈ (A.graph g).ids
      · obtain ⟨e, he⟩ := mem_ids.1 hnew
        have hA : ∀ e', A.on g (fun G => G.addEdge (x, y, a.raw) e') = A := fun e' => on_id (addEdge_old he)
        simp only [hA]
        rw [R.connect_old hs ht hn hm a p he]
        have : Rep ((p.check (.valueError "already exists") >>= fun _ =>
            edgeUpdate e a.label a.value a.style >>= fun _ => (pure e : M ERef)) h).2 A :=
          ((Calm.check _ _).bind fun _ => (Calm.edgeUpdate _ _ _ _).bind fun _ => Calm.pure _).rep R
        split <;> exact this
      · rw [R.connect_new hs ht hn hm a p hnew]
        cases hsr : styleResult none h.nStyle a.style with
        | none => exact (SameStruct.ofStyle h _).rep R
        | some sr => exact R.newEdge _ hn hm (raw_ne_cleared a) hnew rfl rfl rfl rfl

theorem register_old {g : GRef} {k : Key} {n m : NRef} {hm : Option GRef} (hk : (k, n) ∈ (A.graph g).nodes) :
    A.register g k m hm = A := by
  have : k ∈ (A.graph g).names := List.mem_map.2 ⟨_, hk, rfl⟩
  simp [Spec.register, this]

/-- `add_node(name)`, whatever happens. -/
theorem addNode_step (R : Rep h A) (g : GRef) (hg : g < h.nG) (x : Key) (a : NodeArgs) (p : IfExists) :
    Rep (Verif.addNode g x a p h).2
      (match (Verif.addNode g x a p h).1 with
       | .error _ => A
       | .ok n => A.register g x n (some g)) := by
  cases x with
  | int i => exact R
  | str x =>
    by_cases hk : Key.str x ∈ (A.graph g).names
    · obtain ⟨⟨k, n⟩, hn, hkx⟩ := List.mem_map.1 hk
      simp only at hkx
      subst hkx
      simp only [register_old hn]
      rw [R.addNode_old hn a p]
      have : Rep ((p.check .keyError >>= fun _ =>
          nodeUpdate n a.label a.value a.style >>= fun _ => (pure n : M NRef)) h).2 A :=
        ((Calm.check _ _).bind fun _ => (Calm.nodeUpdate _ _ _ _).bind fun _ => Calm.pure _).rep R
      split <;> exact this
    · obtain ⟨h', hr, hR⟩ := R.addNode_new hg hk a p
      rw [hr]
      cases hsr : styleResult none h.nStyle a.style with
      | none => rw [hsr] at hR; exact hR.rep R
      | some sr => rw [hsr] at hR; exact hR.1

/-- `remove_node`, whatever happens. -/
theorem removeNode_step (R : Rep h A) (g : GRef) (a : NodeArg) :
    Rep (removeNode g a h).2
      (match (removeNode g a h).1 with
       | .error _ => A
       | .ok _ => match A.argName a with
          | some k => A.unregister g k
          | none => A) := by
  cases ha : getNode h g a with
  | error err => simp only [removeNode, bind_apply, ask_apply, ha]; exact R
  | ok n =>
    obtain ⟨k, hk, hn⟩ := R.getNode_ok.1 ha
    obtain ⟨h1, -, hr, R'⟩ := R.removeNode_live ha hn
    rw [argName_eq] at hk
    rw [hr, hk]
    exact R'

/-- `add_node(node)`, whatever happens. -/
theorem addNodeObj_step (R : Rep h A) (g : GRef) (n : NRef) (hg : g < h.nG) (hn : n < h.nN)
    (hfree : (h.node n).graph = none → ∀ g' k, (k, n) ∈ (h.graph g').nodes → g' = g) :
    Rep (addNodeObj g n h).2
      (match (addNodeObj g n h).1 with
       | .error _ => A
       | .ok _ => A.register g (A.name n) n (A.home n)) := by
  rw [R.name n, R.home n]
  simp only [addNodeObj, bind_apply, look_apply]
  cases hd : dget (h.graph g).nodes (h.node n).id with
  | some m =>
    have hm : ((h.node n).id, m) ∈ (A.graph g).nodes := by rw [← R.nodes g]; exact mem_of_dget hd
    simp only [register_old hm]
    by_cases hc : (h.node n).graph = some g ∧ m = n
    · rw [if_pos hc]; exact R
    · rw [if_neg hc]; exact R
  | none =>
    by_cases hc : (h.node n).graph ≠ none
    · simp only [if_pos hc]; exact R
    · simp only [if_neg hc]
      have hc' : (h.node n).graph = none := Decidable.byContradiction fun x => hc x
      have hdn := dget_none.1 hd
      have hnm : ∀ g' k, (k, n) ∉ (A.graph g').nodes := by
        intro g' k hk
        have hk' : (k, n) ∈ (h.graph g').nodes := by rw [R.nodes]; exact hk
        have e := hfree hc' g' k hk'
        subst e
        rw [← (R.nodeOk g' k n hk).2.1] at hk'
        exact hdn (List.mem_map.2 ⟨_, hk', rfl⟩)
      refine R.addNode hg hnm (by rw [SGraph.names, ← R.nodes g]; exact hdn) ?_ ?_ (fun _ _ => rfl) rfl (.inr hc')
        (fun _ _ => rfl) (R.stale n hnm) (fun _ _ => ⟨rfl, rfl⟩) (fun _ => ⟨rfl, rfl, rfl, rfl⟩)
        ⟨Nat.le_refl _, hn⟩ rfl rfl
      · intro g'
        by_cases hg' : g' = g
        · subst hg'; simp [modGraph, dset_of_not_mem hdn]
        · simp [modGraph, hg']
      · rfl

/-- `disconnect`, whatever happens. -/
theorem disconnect_step (R : Rep h A) (e : ERef) :
    Rep (Verif.disconnect e h).2
      (match (Verif.disconnect e h).1 with
       | .error _ => A
       | .ok _ => { A with graph := fun g => (A.graph g).delEdge e }) := by
  by_cases hl : ∃ g, e ∈ (A.graph g).handles
  · obtain ⟨g, hg⟩ := hl
    obtain ⟨i, hi⟩ := mem_handles.1 hg
    obtain ⟨n, m, -, -, hr, R'⟩ := R.disconnect_live hi
    rw [hr]
    simp only [R.delEdge_everywhere hi]
    exact R'
  · obtain ⟨err, hr⟩ := R.disconnect_dead (e := e) (fun g hg => hl ⟨g, hg⟩)
    rw [hr]; exact R

/-- `remove_self`, whatever happens. -/
theorem removeSelf_step (R : Rep h A) (e : ERef) :
    Rep (edgeRemoveSelf e h).2
      (match (edgeRemoveSelf e h).1 with
       | .error _ => A
       | .ok _ => { A with graph := fun g => (A.graph g).delEdge e }) := by
  by_cases hl : ∃ g, e ∈ (A.graph g).handles
  · obtain ⟨g, hg⟩ := hl
    obtain ⟨i, hi⟩ := mem_handles.1 hg
    obtain ⟨n, m, -, -, hr, R'⟩ := R.removeSelf_live hi
    rw [hr]
    simp only [R.delEdge_everywhere hi]
    exact R'
  · obtain ⟨err, hr⟩ := R.removeSelf_dead (e := e) (fun g hg => hl ⟨g, hg⟩)
    rw [hr]; exact R

end Rep

/-- One legal call. -/
theorem Rep.step {h : Heap} {A : Spec} (R : Rep h A) (op : Op) (ok : op.Ok h) :
    Rep (op.step h).2 (A.step op (op.step h).1) := by
  have calm : ∀ {α : Type} {x : M α} {f : α → M Out} (_ : Calm x) (_ : ∀ a, Calm (f a))
      (_ : ∀ r, A.step op r = A), Rep ((x >>= f) h).2 (A.step op ((x >>= f) h).1) := by
    intro α x f hx hf hA
    rw [hA]; exact (hx.bind hf).rep R
  have hA : ∀ r : Except PyErr Out, (match r with | .error _ => A | .ok _ => A) = A := by intro r; cases r <;> rfl
  cases op with
  | newGraph s o w =>
    have : Rep (graphInit s o w h).2 A := by
      refine R.newGraph rfl ?_ rfl rfl rfl rfl
      intro g'
      by_cases e : g' = h.nG
      · subst e; simp [graphInit, M.newGraph]
      · simp [graphInit, M.newGraph, e]
    exact this
  | addNode g x a p =>
    have := R.addNode_step g ok x a p
    simp only [Op.step, bind_apply]
    generalize Verif.addNode g x a p h = r at this
    obtain ⟨r, h'⟩ := r
    cases r <;> exact this
  | addNodeObj g n =>
    have := R.addNodeObj_step g n ok.1 ok.2.1 ok.2.2
    simp only [Op.step, bind_apply]
    generalize Verif.addNodeObj g n h = r at this
    obtain ⟨r, h'⟩ := r
    cases r with
    | error e => exact this
    | ok o => cases o <;> exact this
  | removeNode g a =>
    have := R.removeNode_step g a
    simp only [Op.step, bind_apply]
    generalize Verif.removeNode g a h = r at this
    obtain ⟨r, h'⟩ := r
    cases r <;> exact this
  | connect g s t a p =>
    have := R.connect_step g s t a p
    simp only [Op.step, bind_apply]
    generalize Verif.connect g s t a p h = r at this
    obtain ⟨r, h'⟩ := r
    cases r <;> exact this
  | connectTo n t a p =>
    simp only [Op.step, Verif.connectTo, bind_apply, ask_apply, nodeGraph]
    cases hg : (h.node n).graph with
    | none => exact R
    | some g =>
      have := R.connect_step g (.node n) t a p
      have hh : A.home n = some g := by rw [R.home]; exact hg
      simp only []
      generalize Verif.connect g (.node n) t a p h = r at this
      obtain ⟨r, h'⟩ := r
      cases r with
      | error e => exact this
      | ok e => simp only [Spec.step, pure_apply, hh]; exact this
  | connectFrom n t a p =>
    simp only [Op.step, Verif.connectFrom, bind_apply, ask_apply, nodeGraph]
    cases hg : (h.node n).graph with
    | none => exact R
    | some g =>
      have := R.connect_step g t (.node n) a p
      have hh : A.home n = some g := by rw [R.home]; exact hg
      simp only []
      generalize Verif.connect g t (.node n) a p h = r at this
      obtain ⟨r, h'⟩ := r
      cases r with
      | error e => exact this
      | ok e => simp only [Spec.step, pure_apply, hh]; exact this
  | disconnect e =>
    have := R.disconnect_step e
    simp only [Op.step, bind_apply]
    generalize Verif.disconnect e h = r at this
    obtain ⟨r, h'⟩ := r
    cases r <;> exact this
  | removeSelf e =>
    have := R.removeSelf_step e
    simp only [Op.step, bind_apply]
    generalize Verif.edgeRemoveSelf e h = r at this
    obtain ⟨r, h'⟩ := r
    cases r <;> exact this
  | nodeValue n v => exact calm (Calm.nodeSetValue n v) (fun _ => Calm.pure _) (fun r => by cases r <;> rfl)
  | nodeLabel n v => exact calm (Calm.nodeSetLabel n v) (fun _ => Calm.pure _) (fun r => by cases r <;> rfl)
  | nodeStyle n s => exact calm (Calm.nodeSetStyle n s) (fun _ => Calm.pure _) (fun r => by cases r <;> rfl)
  | nodeFreeze n b =>
    exact calm (x := Verif.nodeFreeze n b) (Calm.modNode (fun _ => rfl) (fun _ => rfl) (fun _ => rfl) (fun _ => rfl))
      (fun _ => Calm.pure _) (fun r => by cases r <;> rfl)
  | nodeParam n k v =>
    exact calm (x := nodeSetParam n k v) (Calm.modNode (fun _ => rfl) (fun _ => rfl) (fun _ => rfl) (fun _ => rfl))
      (fun _ => Calm.pure _) (fun r => by cases r <;> rfl)
  | edgeValue n v => exact calm (Calm.edgeSetValue n v) (fun _ => Calm.pure _) (fun r => by cases r <;> rfl)
  | edgeLabel n v => exact calm (Calm.edgeSetLabel n v) (fun _ => Calm.pure _) (fun r => by cases r <;> rfl)
  | edgeStyle n s => exact calm (Calm.edgeSetStyle n s) (fun _ => Calm.pure _) (fun r => by cases r <;> rfl)
  | edgeFreeze n b =>
    exact calm (x := Verif.edgeFreeze n b) (Calm.modEdge (fun _ => rfl) (fun _ => rfl) (fun _ => rfl) (fun _ => rfl))
      (fun _ => Calm.pure _) (fun r => by cases r <;> rfl)
  | edgeParam n k v =>
    exact calm (x := edgeSetParam n k v) (Calm.modEdge (fun _ => rfl) (fun _ => rfl) (fun _ => rfl) (fun _ => rfl))
      (fun _ => Calm.pure _) (fun r => by cases r <;> rfl)
  | setOptions g s o =>
    exact calm (x := graphSetOptions g s o) (fun h => SameStruct.ofGraph h g _ rfl) (fun _ => Calm.pure _)
      (fun r => by cases r <;> rfl)
  | copy g =>
    have := R.copy_step g ok
    simp only [Op.step, bind_apply]
    generalize graphCopy g h = r at this
    obtain ⟨r, h'⟩ := r
    cases r <;> exact this

/-- **Refinement**: after every history the heap represents the abstract multigraph. -/
theorem Hist.rep {h : Heap} {A : Spec} (H : Hist h A) : Rep h A := by
  induction H with
  | init => exact Rep.init
  | step op _ ok ih => exact ih.step op ok

theorem Reachable.rep {h : Heap} (r : Reachable h) : ∃ A, Rep h A := by
  obtain ⟨A, H⟩ := r.hist
  exact ⟨A, H.rep⟩

end Verif
