import Verif.Lemmas.HistRep
import Verif.Spec.Ledger
/-!
# Calls that only write on one node or on one edge
-/
namespace Verif
open M

/-- What the graph of node `n` says about overwriting styles. -/
def nodeMay (h : Heap) (n : NRef) : Option Bool :=
  match (h.node n).graph with
  | none => none
  | some g => (h.graph g).overwrite

def edgeMay (h : Heap) (e : ERef) : Option Bool :=
  match (h.edge e).graph with
  | none => none
  | some g => (h.graph g).overwrite

/-- Only what is written on node `n` may have changed. -/
structure NodeTouch (h h' : Heap) (n : NRef) : Prop where
  same : SameStruct h h'
  edge : h'.edge = h.edge
  node : ∀ x, x ≠ n → h'.node x = h.node x
  graph : h'.graph = h.graph

structure EdgeTouch (h h' : Heap) (e : ERef) : Prop where
  same : SameStruct h h'
  node : h'.node = h.node
  edge : ∀ x, x ≠ e → h'.edge x = h.edge x
  graph : h'.graph = h.graph

theorem NodeTouch.refl (h : Heap) (n : NRef) : NodeTouch h h n := ⟨.refl h, rfl, fun _ _ => rfl, rfl⟩

theorem EdgeTouch.refl (h : Heap) (n : NRef) : EdgeTouch h h n := ⟨.refl h, rfl, fun _ _ => rfl, rfl⟩

theorem NodeTouch.trans {h h' h'' : Heap} {n : NRef} (a : NodeTouch h h' n) (b : NodeTouch h' h'' n) : NodeTouch h h'' n :=
  ⟨a.same.trans b.same, b.edge.trans a.edge, fun x hx => (b.node x hx).trans (a.node x hx), b.graph.trans a.graph⟩

theorem EdgeTouch.trans {h h' h'' : Heap} {n : NRef} (a : EdgeTouch h h' n) (b : EdgeTouch h' h'' n) : EdgeTouch h h'' n :=
  ⟨a.same.trans b.same, b.node.trans a.node, fun x hx => (b.edge x hx).trans (a.edge x hx), b.graph.trans a.graph⟩

theorem NodeTouch.may {h h' : Heap} {n : NRef} (a : NodeTouch h h' n) : nodeMay h' n = nodeMay h n := by
  unfold nodeMay
  rw [a.same.ngraph, a.graph]

theorem EdgeTouch.may {h h' : Heap} {n : NRef} (a : EdgeTouch h h' n) : edgeMay h' n = edgeMay h n := by
  unfold edgeMay
  rw [(a.same.edge n).1, a.graph]

/-- `f` does to node `n` what `F` does to its notes. -/
def NodeDoes (n : NRef) (f : M Unit) (F : Option Bool → Notes → After1 Notes) : Prop :=
  ∀ h, (f h).1 = (F (nodeMay h n) (nodeNotes h n)).1 ∧ nodeNotes (f h).2 n = (F (nodeMay h n) (nodeNotes h n)).2 ∧
    NodeTouch h (f h).2 n

def EdgeDoes (n : ERef) (f : M Unit) (F : Option Bool → Notes → After1 Notes) : Prop :=
  ∀ h, (f h).1 = (F (edgeMay h n) (edgeNotes h n)).1 ∧ edgeNotes (f h).2 n = (F (edgeMay h n) (edgeNotes h n)).2 ∧
    EdgeTouch h (f h).2 n

theorem NodeDoes.value (n : NRef) (v : Val) : NodeDoes n (nodeSetValue n v) fun _ x => x.setValue v := by
  intro h
  by_cases hf : (h.node n).frozen
  · refine ⟨?_, ?_, (Calm.nodeSetValue n v) h, ?_, ?_, ?_⟩ <;>
      simp [nodeSetValue, hf, Notes.setValue, nodeNotes]
  · refine ⟨?_, ?_, (Calm.nodeSetValue n v) h, ?_, ?_, ?_⟩
    · simp [nodeSetValue, hf, Notes.setValue, nodeNotes, modNode]
    · simp [nodeSetValue, hf, Notes.setValue, nodeNotes, modNode]
    · simp [nodeSetValue, hf, modNode]
    · intro x hx; simp [nodeSetValue, hf, modNode, upd_ne _ _ hx]
    · simp [nodeSetValue, hf, modNode]

theorem NodeDoes.label (n : NRef) (v : Val) : NodeDoes n (nodeSetLabel n v) fun _ x => (.ok (), { x with label := v }) := by
  intro h
  refine ⟨rfl, ?_, (Calm.nodeSetLabel n v) h, rfl, ?_, rfl⟩
  · simp [nodeSetLabel, nodeNotes, modNode]
  · intro x hx; simp [nodeSetLabel, modNode, upd_ne _ _ hx]

theorem NodeDoes.freeze (n : NRef) (b : Bool) : NodeDoes n (nodeFreeze n b) fun _ x => (.ok (), { x with frozen := b }) := by
  intro h
  refine ⟨rfl, ?_, SameStruct.ofNode h n _ rfl rfl rfl rfl, rfl, ?_, rfl⟩
  · simp [nodeFreeze, nodeNotes, modNode]
  · intro x hx; simp [nodeFreeze, modNode, upd_ne _ _ hx]

theorem NodeDoes.param (n : NRef) (k : String) (v : Val) :
    NodeDoes n (nodeSetParam n k v) fun _ x => (.ok (), { x with params := dset x.params k v }) := by
  intro h
  refine ⟨rfl, ?_, SameStruct.ofNode h n _ rfl rfl rfl rfl, rfl, ?_, rfl⟩
  · simp [nodeSetParam, nodeNotes, modNode]
  · intro x hx; simp [nodeSetParam, modNode, upd_ne _ _ hx]

theorem NodeDoes.style (n : NRef) (s : StyleArg) : NodeDoes n (nodeSetStyle n s) fun may x => x.setStyle may s := by
  have take : ∀ h : Heap, ((do
        let st ← resolveStyle (h.node n).style s
        modNode n (fun o => { o with style := st })) h).1 = ((nodeNotes h n).takeStyle s).1 ∧
      nodeNotes ((do
        let st ← resolveStyle (h.node n).style s
        modNode n (fun o => { o with style := st })) h).2 n = ((nodeNotes h n).takeStyle s).2 ∧
      ((do
        let st ← resolveStyle (h.node n).style s
        modNode n (fun o => { o with style := st })) h).2.edge = h.edge ∧
      (∀ x, x ≠ n → ((do
        let st ← resolveStyle (h.node n).style s
        modNode n (fun o => { o with style := st })) h).2.node x = h.node x) ∧
      ((do
        let st ← resolveStyle (h.node n).style s
        modNode n (fun o => { o with style := st })) h).2.graph = h.graph := by
    intro h
    cases s with
    | none =>
      refine ⟨rfl, ?_, rfl, ?_, rfl⟩
      · simp [resolveStyle, Notes.takeStyle, nodeNotes, modNode]
      · intro x hx; simp [resolveStyle, modNode, upd_ne _ _ hx]
    | obj o =>
      refine ⟨rfl, ?_, rfl, ?_, rfl⟩
      · simp [resolveStyle, Notes.takeStyle, nodeNotes, modNode]
      · intro x hx; simp [resolveStyle, modNode, upd_ne _ _ hx]
    | dict b =>
      cases b with
      | true =>
        refine ⟨rfl, ?_, rfl, ?_, rfl⟩
        · simp [resolveStyle, Notes.takeStyle, nodeNotes, modNode, newStyle]
        · intro x hx; simp [resolveStyle, modNode, newStyle, upd_ne _ _ hx]
      | false => exact ⟨rfl, rfl, rfl, fun _ _ => rfl, rfl⟩
    | bad => exact ⟨rfl, rfl, rfl, fun _ _ => rfl, rfl⟩
  intro h
  have c := (Calm.nodeSetStyle n s) h
  obtain ⟨t1, t2, t3, t4, t5⟩ := take h
  cases hst : (h.node n).style with
  | none =>
    have e : nodeSetStyle n s h = (do
        let st ← resolveStyle (h.node n).style s
        modNode n (fun o => { o with style := st })) h := by
      simp only [nodeSetStyle, bind_apply, look_apply, checkOverwrite, hst, pure_apply]
    have e' : (nodeNotes h n).styled = false := by simp [nodeNotes, hst]
    simp only [Notes.setStyle, e', Bool.false_eq_true, ↓reduceIte]
    rw [e] at c ⊢
    exact ⟨t1, t2, c, t3, t4, t5⟩
  | some st =>
    have e' : (nodeNotes h n).styled = true := by simp [nodeNotes, hst]
    simp only [Notes.setStyle, e', ↓reduceIte]
    cases hg : (h.node n).graph with
    | none =>
      have m : nodeMay h n = none := by simp [nodeMay, hg]
      have e : nodeSetStyle n s h = (.error .attributeError, h) := by
        simp only [nodeSetStyle, bind_apply, look_apply, checkOverwrite, hst, hg, raise_apply]
      rw [m, e]
      exact ⟨rfl, rfl, .refl h n⟩
    | some g =>
      have m : nodeMay h n = (h.graph g).overwrite := by simp [nodeMay, hg]
      rw [m]
      cases ho : (h.graph g).overwrite with
      | none =>
        have e : nodeSetStyle n s h = (.error .attributeError, h) := by
          simp only [nodeSetStyle, bind_apply, look_apply, checkOverwrite, hst, hg, ho, raise_apply]
        rw [e]
        exact ⟨rfl, rfl, .refl h n⟩
      | some b =>
        cases b with
        | false =>
          have e : nodeSetStyle n s h = (.error .runtimeError, h) := by
            simp only [nodeSetStyle, bind_apply, look_apply, checkOverwrite, hst, hg, ho, raise_apply]
          rw [e]
          exact ⟨rfl, rfl, .refl h n⟩
        | true =>
          have e : nodeSetStyle n s h = (do
              let st ← resolveStyle (h.node n).style s
              modNode n (fun o => { o with style := st })) h := by
            simp only [nodeSetStyle, bind_apply, look_apply, checkOverwrite, hst, hg, ho, pure_apply]
          rw [e] at c ⊢
          exact ⟨t1, t2, c, t3, t4, t5⟩

theorem NodeDoes.bind {n : NRef} {f f' : M Unit} {F F' : Option Bool → Notes → After1 Notes} (a : NodeDoes n f F)
    (b : NodeDoes n f' F') : NodeDoes n (f >>= fun _ => f') fun may x =>
      match F may x with
      | (.error e, y) => (.error e, y)
      | (.ok _, y) => F' may y := by
  intro h
  obtain ⟨a1, a2, a3⟩ := a h
  obtain ⟨b1, b2, b3⟩ := b (f h).2
  rw [a3.may, a2] at b1 b2
  simp only [bind_apply]
  generalize hr : f h = r at *
  generalize hq : F (nodeMay h n) (nodeNotes h n) = q at *
  obtain ⟨r1, r2⟩ := r
  obtain ⟨q1, q2⟩ := q
  simp only at a1 a2
  subst a1
  cases r1 with
  | error e => exact ⟨rfl, a2, a3⟩
  | ok u => exact ⟨b1, b2, a3.trans b3⟩

theorem NodeDoes.skip (n : NRef) : NodeDoes n (pure ()) fun _ x => (.ok (), x) := fun h => ⟨rfl, rfl, .refl h n⟩

theorem NodeDoes.onlyIf {n : NRef} {c : Prop} [Decidable c] {f : M Unit} {F : Option Bool → Notes → After1 Notes}
    (a : NodeDoes n f F) : NodeDoes n (Verif.onlyIf c f) fun may x => if c then F may x else (.ok (), x) := by
  by_cases hc : c
  · simp only [Verif.onlyIf, hc, ↓reduceIte]; exact a
  · simp only [Verif.onlyIf, hc, ↓reduceIte]; exact .skip n

theorem NodeDoes.congr {n : NRef} {f : M Unit} {F F' : Option Bool → Notes → After1 Notes} (a : NodeDoes n f F)
    (e : ∀ may x, F may x = F' may x) : NodeDoes n f F' := by
  have : F = F' := funext fun m => funext fun x => e m x
  rwa [this] at a

theorem NodeDoes.update (n : NRef) (l v : Val) (s : StyleArg) :
    NodeDoes n (nodeUpdate n l v s) fun may x => x.update may l v s := by
  have := ((NodeDoes.style n s).onlyIf (c := s ≠ .none)).bind (((NodeDoes.label n l).onlyIf (c := l ≠ .none)).bind
    ((NodeDoes.value n v).onlyIf (c := v ≠ .none)))
  refine this.congr fun may x => ?_
  simp only [Notes.update, ite_not]
  generalize (if s = StyleArg.none then (Except.ok (), x) else x.setStyle may s) = r
  obtain ⟨r1, r2⟩ := r
  cases r1 with
  | error e => rfl
  | ok u =>
    by_cases hl : l = .none
    · simp [hl, given]
    · simp [hl, given]

theorem NodeDoes.warned {n : NRef} {f : M Unit} {F : Option Bool → Notes → After1 Notes} (a : NodeDoes n f F) (p : IfExists)
    (err : PyErr) : NodeDoes n (p.check err >>= fun _ => f) fun may x => if p = .error then (.error err, x) else F may x := by
  cases p with
  | ignore => intro h; exact a h
  | warn =>
    intro h
    obtain ⟨a1, a2, a3⟩ := a { h with warns := h.warns + 1 }
    exact ⟨a1, a2, (SameStruct.ofWarn h _).trans a3.same, a3.edge, a3.node, a3.graph⟩
  | error => intro h; exact ⟨rfl, rfl, .refl h n⟩

theorem EdgeDoes.value (n : ERef) (v : Val) : EdgeDoes n (edgeSetValue n v) fun _ x => x.setValue v := by
  intro h
  by_cases hf : (h.edge n).frozen
  · refine ⟨?_, ?_, (Calm.edgeSetValue n v) h, ?_, ?_, ?_⟩ <;>
      simp [edgeSetValue, hf, Notes.setValue, edgeNotes]
  · refine ⟨?_, ?_, (Calm.edgeSetValue n v) h, ?_, ?_, ?_⟩
    · simp [edgeSetValue, hf, Notes.setValue, edgeNotes, modEdge]
    · simp [edgeSetValue, hf, Notes.setValue, edgeNotes, modEdge]
    · simp [edgeSetValue, hf, modEdge]
    · intro x hx; simp [edgeSetValue, hf, modEdge, upd_ne _ _ hx]
    · simp [edgeSetValue, hf, modEdge]

theorem EdgeDoes.label (n : ERef) (v : Val) : EdgeDoes n (edgeSetLabel n v) fun _ x => (.ok (), { x with label := v }) := by
  intro h
  refine ⟨rfl, ?_, (Calm.edgeSetLabel n v) h, rfl, ?_, rfl⟩
  · simp [edgeSetLabel, edgeNotes, modEdge]
  · intro x hx; simp [edgeSetLabel, modEdge, upd_ne _ _ hx]

theorem EdgeDoes.freeze (n : ERef) (b : Bool) : EdgeDoes n (edgeFreeze n b) fun _ x => (.ok (), { x with frozen := b }) := by
  intro h
  refine ⟨rfl, ?_, SameStruct.ofEdge h n _ rfl rfl rfl rfl, rfl, ?_, rfl⟩
  · simp [edgeFreeze, edgeNotes, modEdge]
  · intro x hx; simp [edgeFreeze, modEdge, upd_ne _ _ hx]

theorem EdgeDoes.param (n : ERef) (k : String) (v : Val) :
    EdgeDoes n (edgeSetParam n k v) fun _ x => (.ok (), { x with params := dset x.params k v }) := by
  intro h
  refine ⟨rfl, ?_, SameStruct.ofEdge h n _ rfl rfl rfl rfl, rfl, ?_, rfl⟩
  · simp [edgeSetParam, edgeNotes, modEdge]
  · intro x hx; simp [edgeSetParam, modEdge, upd_ne _ _ hx]

theorem EdgeDoes.style (n : ERef) (s : StyleArg) : EdgeDoes n (edgeSetStyle n s) fun may x => x.setStyle may s := by
  have take : ∀ h : Heap, ((do
        let st ← resolveStyle (h.edge n).style s
        modEdge n (fun o => { o with style := st })) h).1 = ((edgeNotes h n).takeStyle s).1 ∧
      edgeNotes ((do
        let st ← resolveStyle (h.edge n).style s
        modEdge n (fun o => { o with style := st })) h).2 n = ((edgeNotes h n).takeStyle s).2 ∧
      ((do
        let st ← resolveStyle (h.edge n).style s
        modEdge n (fun o => { o with style := st })) h).2.node = h.node ∧
      (∀ x, x ≠ n → ((do
        let st ← resolveStyle (h.edge n).style s
        modEdge n (fun o => { o with style := st })) h).2.edge x = h.edge x) ∧
      ((do
        let st ← resolveStyle (h.edge n).style s
        modEdge n (fun o => { o with style := st })) h).2.graph = h.graph := by
    intro h
    cases s with
    | none =>
      refine ⟨rfl, ?_, rfl, ?_, rfl⟩
      · simp [resolveStyle, Notes.takeStyle, edgeNotes, modEdge]
      · intro x hx; simp [resolveStyle, modEdge, upd_ne _ _ hx]
    | obj o =>
      refine ⟨rfl, ?_, rfl, ?_, rfl⟩
      · simp [resolveStyle, Notes.takeStyle, edgeNotes, modEdge]
      · intro x hx; simp [resolveStyle, modEdge, upd_ne _ _ hx]
    | dict b =>
      cases b with
      | true =>
        refine ⟨rfl, ?_, rfl, ?_, rfl⟩
        · simp [resolveStyle, Notes.takeStyle, edgeNotes, modEdge, newStyle]
        · intro x hx; simp [resolveStyle, modEdge, newStyle, upd_ne _ _ hx]
      | false => exact ⟨rfl, rfl, rfl, fun _ _ => rfl, rfl⟩
    | bad => exact ⟨rfl, rfl, rfl, fun _ _ => rfl, rfl⟩
  intro h
  have c := (Calm.edgeSetStyle n s) h
  obtain ⟨t1, t2, t3, t4, t5⟩ := take h
  cases hst : (h.edge n).style with
  | none =>
    have e : edgeSetStyle n s h = (do
        let st ← resolveStyle (h.edge n).style s
        modEdge n (fun o => { o with style := st })) h := by
      simp only [edgeSetStyle, bind_apply, look_apply, checkOverwrite, hst, pure_apply]
    have e' : (edgeNotes h n).styled = false := by simp [edgeNotes, hst]
    simp only [Notes.setStyle, e', Bool.false_eq_true, ↓reduceIte]
    rw [e] at c ⊢
    exact ⟨t1, t2, c, t3, t4, t5⟩
  | some st =>
    have e' : (edgeNotes h n).styled = true := by simp [edgeNotes, hst]
    simp only [Notes.setStyle, e', ↓reduceIte]
    cases hg : (h.edge n).graph with
    | none =>
      have m : edgeMay h n = none := by simp [edgeMay, hg]
      have e : edgeSetStyle n s h = (.error .attributeError, h) := by
        simp only [edgeSetStyle, bind_apply, look_apply, checkOverwrite, hst, hg, raise_apply]
      rw [m, e]
      exact ⟨rfl, rfl, .refl h n⟩
    | some g =>
      have m : edgeMay h n = (h.graph g).overwrite := by simp [edgeMay, hg]
      rw [m]
      cases ho : (h.graph g).overwrite with
      | none =>
        have e : edgeSetStyle n s h = (.error .attributeError, h) := by
          simp only [edgeSetStyle, bind_apply, look_apply, checkOverwrite, hst, hg, ho, raise_apply]
        rw [e]
        exact ⟨rfl, rfl, .refl h n⟩
      | some b =>
        cases b with
        | false =>
          have e : edgeSetStyle n s h = (.error .runtimeError, h) := by
            simp only [edgeSetStyle, bind_apply, look_apply, checkOverwrite, hst, hg, ho, raise_apply]
          rw [e]
          exact ⟨rfl, rfl, .refl h n⟩
        | true =>
          have e : edgeSetStyle n s h = (do
              let st ← resolveStyle (h.edge n).style s
              modEdge n (fun o => { o with style := st })) h := by
            simp only [edgeSetStyle, bind_apply, look_apply, checkOverwrite, hst, hg, ho, pure_apply]
          rw [e] at c ⊢
          exact ⟨t1, t2, c, t3, t4, t5⟩

theorem EdgeDoes.bind {n : ERef} {f f' : M Unit} {F F' : Option Bool → Notes → After1 Notes} (a : EdgeDoes n f F)
    (b : EdgeDoes n f' F') : EdgeDoes n (f >>= fun _ => f') fun may x =>
      match F may x with
      | (.error e, y) => (.error e, y)
      | (.ok _, y) => F' may y := by
  intro h
  obtain ⟨a1, a2, a3⟩ := a h
  obtain ⟨b1, b2, b3⟩ := b (f h).2
  rw [a3.may, a2] at b1 b2
  simp only [bind_apply]
  generalize hr : f h = r at *
  generalize hq : F (edgeMay h n) (edgeNotes h n) = q at *
  obtain ⟨r1, r2⟩ := r
  obtain ⟨q1, q2⟩ := q
  simp only at a1 a2
  subst a1
  cases r1 with
  | error e => exact ⟨rfl, a2, a3⟩
  | ok u => exact ⟨b1, b2, a3.trans b3⟩

theorem EdgeDoes.skip (n : ERef) : EdgeDoes n (pure ()) fun _ x => (.ok (), x) := fun h => ⟨rfl, rfl, .refl h n⟩

theorem EdgeDoes.onlyIf {n : ERef} {c : Prop} [Decidable c] {f : M Unit} {F : Option Bool → Notes → After1 Notes}
    (a : EdgeDoes n f F) : EdgeDoes n (Verif.onlyIf c f) fun may x => if c then F may x else (.ok (), x) := by
  by_cases hc : c
  · simp only [Verif.onlyIf, hc, ↓reduceIte]; exact a
  · simp only [Verif.onlyIf, hc, ↓reduceIte]; exact .skip n

theorem EdgeDoes.congr {n : ERef} {f : M Unit} {F F' : Option Bool → Notes → After1 Notes} (a : EdgeDoes n f F)
    (e : ∀ may x, F may x = F' may x) : EdgeDoes n f F' := by
  have : F = F' := funext fun m => funext fun x => e m x
  rwa [this] at a

theorem EdgeDoes.update (n : ERef) (l v : Val) (s : StyleArg) :
    EdgeDoes n (edgeUpdate n l v s) fun may x => x.update may l v s := by
  have := ((EdgeDoes.style n s).onlyIf (c := s ≠ .none)).bind (((EdgeDoes.label n l).onlyIf (c := l ≠ .none)).bind
    ((EdgeDoes.value n v).onlyIf (c := v ≠ .none)))
  refine this.congr fun may x => ?_
  simp only [Notes.update, ite_not]
  generalize (if s = StyleArg.none then (Except.ok (), x) else x.setStyle may s) = r
  obtain ⟨r1, r2⟩ := r
  cases r1 with
  | error e => rfl
  | ok u =>
    by_cases hl : l = .none
    · simp [hl, given]
    · simp [hl, given]

theorem EdgeDoes.warned {n : ERef} {f : M Unit} {F : Option Bool → Notes → After1 Notes} (a : EdgeDoes n f F) (p : IfExists)
    (err : PyErr) : EdgeDoes n (p.check err >>= fun _ => f) fun may x => if p = .error then (.error err, x) else F may x := by
  cases p with
  | ignore => intro h; exact a h
  | warn =>
    intro h
    obtain ⟨a1, a2, a3⟩ := a { h with warns := h.warns + 1 }
    exact ⟨a1, a2, (SameStruct.ofWarn h _).trans a3.same, a3.node, a3.edge, a3.graph⟩
  | error => intro h; exact ⟨rfl, rfl, .refl h n⟩

end Verif
