import Verif.Lemmas.CopyStyle
import Verif.Lemmas.Quiet
import Verif.Spec.SpecHistory
/-!
# Unless style objects are passed around, no two nodes share one
-/
namespace Verif
open M

/-- Styles in use exist and are not shared. -/
structure Neat (h : Heap) : Prop where
  made : Made h
  apart : Apart h

/-- The argument is no style object. -/
def StyleArg.NoObj : StyleArg → Prop
  | .obj _ => False
  | _ => True

/-- The call passes no style object. -/
def Op.NoObj : Op → Prop
  | .addNode _ _ a _ => a.style.NoObj
  | .connect _ _ _ a _ => a.style.NoObj
  | .connectTo _ _ a _ => a.style.NoObj
  | .connectFrom _ _ a _ => a.style.NoObj
  | .nodeStyle _ s => s.NoObj
  | .edgeStyle _ s => s.NoObj
  | _ => True

/-- However it ends, the call keeps styles private. -/
def Neatly {α : Type} (x : M α) : Prop := ∀ h, Neat h → Neat (x h).2

namespace Neatly
variable {α β : Type}

theorem still {x : M α} (hx : ∀ h, (x h).2 = h) : Neatly x := fun h N => by rw [hx h]; exact N
theorem pure (a : α) : Neatly (Pure.pure a : M α) := still fun _ => rfl
theorem raise (e : PyErr) : Neatly (M.raise e : M α) := still fun _ => rfl
theorem ask (q : Q α) : Neatly (M.ask q) := still fun _ => rfl
theorem look (q : Heap → α) : Neatly (M.look q) := still fun _ => rfl

theorem bind {x : M α} {f : α → M β} (hx : Neatly x) (hf : ∀ a, Neatly (f a)) : Neatly (x >>= f) := by
  intro h N
  have h1 := hx h N
  rw [bind_apply]
  cases hw : x h with
  | mk o w1 =>
    rw [hw] at h1
    cases o with
    | error e => exact h1
    | ok a => exact hf a w1 h1

/-- Styles stay as they are, though there may be more of them. -/
theorem _root_.Verif.Neat.same {h h' : Heap} (N : Neat h) (hn : ∀ n, (h'.node n).style = (h.node n).style)
    (he : ∀ n, (h'.edge n).style = (h.edge n).style) (hs : h.nStyle ≤ h'.nStyle) : Neat h' where
  made := ⟨fun n s h => Nat.lt_of_lt_of_le (N.made.node n s (by rw [← hn]; exact h)) hs,
    fun n s h => Nat.lt_of_lt_of_le (N.made.edge n s (by rw [← he]; exact h)) hs⟩
  apart := ⟨fun n m s h1 h2 => N.apart.node n m s (by rw [← hn]; exact h1) (by rw [← hn]; exact h2),
    fun n m s h1 h2 => N.apart.edge n m s (by rw [← he]; exact h1) (by rw [← he]; exact h2)⟩

/-- One node gets a new style. -/
theorem _root_.Verif.Neat.nodeNew {h : Heap} (N : Neat h) (n : NRef) (o : NodeObj) (ho : o.style = some h.nStyle) {k : Nat} :
    Neat { h with node := upd h.node n o, nStyle := h.nStyle + 1, nN := k } where
  made := by
    refine ⟨fun m s hs => ?_, fun m s hs => Nat.lt_succ_of_lt (N.made.edge m s hs)⟩
    by_cases e : m = n
    · subst e
      simp only [upd_same, ho, Option.some.injEq] at hs
      exact hs ▸ Nat.lt_succ_self _
    · simp only [upd_ne _ _ e] at hs
      exact Nat.lt_succ_of_lt (N.made.node m s hs)
  apart := by
    refine ⟨fun m m' s hs hs' => ?_, N.apart.edge⟩
    by_cases e : m = n <;> by_cases e' : m' = n
    · rw [e, e']
    · subst e
      simp only [upd_same, ho, Option.some.injEq, upd_ne _ _ e'] at hs hs'
      exact absurd (N.made.node m' s hs') (by rw [← hs]; exact Nat.lt_irrefl _)
    · subst e'
      simp only [upd_same, ho, Option.some.injEq, upd_ne _ _ e] at hs hs'
      exact absurd (N.made.node m s hs) (by rw [← hs']; exact Nat.lt_irrefl _)
    · simp only [upd_ne _ _ e, upd_ne _ _ e'] at hs hs'
      exact N.apart.node m m' s hs hs'

theorem _root_.Verif.Neat.edgeNew {h : Heap} (N : Neat h) (n : ERef) (o : EdgeObj) (ho : o.style = some h.nStyle) {k : Nat} :
    Neat { h with edge := upd h.edge n o, nStyle := h.nStyle + 1, nE := k } where
  made := by
    refine ⟨fun m s hs => Nat.lt_succ_of_lt (N.made.node m s hs), fun m s hs => ?_⟩
    by_cases e : m = n
    · subst e
      simp only [upd_same, ho, Option.some.injEq] at hs
      exact hs ▸ Nat.lt_succ_self _
    · simp only [upd_ne _ _ e] at hs
      exact Nat.lt_succ_of_lt (N.made.edge m s hs)
  apart := by
    refine ⟨N.apart.node, fun m m' s hs hs' => ?_⟩
    by_cases e : m = n <;> by_cases e' : m' = n
    · rw [e, e']
    · subst e
      simp only [upd_same, ho, Option.some.injEq, upd_ne _ _ e'] at hs hs'
      exact absurd (N.made.edge m' s hs') (by rw [← hs]; exact Nat.lt_irrefl _)
    · subst e'
      simp only [upd_same, ho, Option.some.injEq, upd_ne _ _ e] at hs hs'
      exact absurd (N.made.edge m s hs) (by rw [← hs']; exact Nat.lt_irrefl _)
    · simp only [upd_ne _ _ e, upd_ne _ _ e'] at hs hs'
      exact N.apart.edge m m' s hs hs'

/-- One node loses its style. -/
theorem _root_.Verif.Neat.nodeBare {h : Heap} (N : Neat h) (n : NRef) (o : NodeObj) (ho : o.style = none) {k : Nat} :
    Neat { h with node := upd h.node n o, nN := k } := by
  have hk : ∀ m s, ((upd h.node n o) m).style = some s → (h.node m).style = some s := by
    intro m s hs
    by_cases e : m = n
    · subst e; simp [ho] at hs
    · simpa only [upd_ne _ _ e] using hs
  exact ⟨⟨fun m s hs => N.made.node m s (hk m s hs), N.made.edge⟩,
    ⟨fun m m' s h1 h2 => N.apart.node m m' s (hk m s h1) (hk m' s h2), N.apart.edge⟩⟩

theorem _root_.Verif.Neat.edgeBare {h : Heap} (N : Neat h) (n : ERef) (o : EdgeObj) (ho : o.style = none) {k : Nat} :
    Neat { h with edge := upd h.edge n o, nE := k } := by
  have hk : ∀ m s, ((upd h.edge n o) m).style = some s → (h.edge m).style = some s := by
    intro m s hs
    by_cases e : m = n
    · subst e; simp [ho] at hs
    · simpa only [upd_ne _ _ e] using hs
  exact ⟨⟨N.made.node, fun m s hs => N.made.edge m s (hk m s hs)⟩,
    ⟨N.apart.node, fun m m' s h1 h2 => N.apart.edge m m' s (hk m s h1) (hk m' s h2)⟩⟩

theorem warn : Neatly M.warn := fun _ N => N.same (fun _ => rfl) (fun _ => rfl) (Nat.le_refl _)

theorem modNode {n : NRef} {f : NodeObj → NodeObj} (hf : ∀ o, (f o).style = o.style) : Neatly (M.modNode n f) := by
  refine fun h N => N.same (fun m => ?_) (fun _ => rfl) (Nat.le_refl _)
  by_cases e : m = n
  · subst e; simp [M.modNode, hf]
  · simp only [M.modNode, upd_ne _ _ e]

theorem modEdge {n : ERef} {f : EdgeObj → EdgeObj} (hf : ∀ o, (f o).style = o.style) : Neatly (M.modEdge n f) := by
  refine fun h N => N.same (fun _ => rfl) (fun m => ?_) (Nat.le_refl _)
  by_cases e : m = n
  · subst e; simp [M.modEdge, hf]
  · simp only [M.modEdge, upd_ne _ _ e]

theorem modGraph {g : GRef} {f : GraphObj → GraphObj} : Neatly (M.modGraph g f) :=
  fun _ N => N.same (fun _ => rfl) (fun _ => rfl) (Nat.le_refl _)

theorem newGraph {o : GraphObj} : Neatly (M.newGraph o) := fun _ N => N.same (fun _ => rfl) (fun _ => rfl) (Nat.le_refl _)

theorem onlyIf {c : Prop} [Decidable c] {x : M Unit} (hx : Neatly x) : Neatly (Verif.onlyIf c x) := by
  unfold Verif.onlyIf
  split
  · exact hx
  · exact .pure _

theorem check (p : IfExists) (e : PyErr) : Neatly (p.check e) := by
  cases p
  · exact .pure _
  · exact .warn
  · exact .raise _

theorem nodeSetStyle (n : NRef) {s : StyleArg} (hs : s.NoObj) : Neatly (Verif.nodeSetStyle n s) := by
  intro h N
  rcases checkOverwrite_cases h (h.node n).style (h.node n).graph with hf | ⟨e, he⟩
  · cases s with
    | obj s => exact absurd hs (by simp [StyleArg.NoObj])
    | bad => simpa [Verif.nodeSetStyle, checkOverwrite_free hf, resolveStyle] using N
    | none =>
      simp only [Verif.nodeSetStyle, bind_apply, look_apply, checkOverwrite_free hf, resolveStyle, pure_apply, M.modNode]
      refine N.same (fun m => ?_) (fun _ => rfl) (Nat.le_refl _)
      by_cases e : m = n
      · subst e; simp
      · simp only [upd_ne _ _ e]
    | dict v =>
      cases v with
      | false => simpa [Verif.nodeSetStyle, checkOverwrite_free hf, resolveStyle] using N
      | true =>
        simp only [Verif.nodeSetStyle, bind_apply, look_apply, checkOverwrite_free hf, resolveStyle, newStyle, pure_apply, M.modNode]
        exact N.nodeNew n _ rfl
  · simpa [Verif.nodeSetStyle, he] using N

theorem edgeSetStyle (n : ERef) {s : StyleArg} (hs : s.NoObj) : Neatly (Verif.edgeSetStyle n s) := by
  intro h N
  rcases checkOverwrite_cases h (h.edge n).style (h.edge n).graph with hf | ⟨e, he⟩
  · cases s with
    | obj s => exact absurd hs (by simp [StyleArg.NoObj])
    | bad => simpa [Verif.edgeSetStyle, checkOverwrite_free hf, resolveStyle] using N
    | none =>
      simp only [Verif.edgeSetStyle, bind_apply, look_apply, checkOverwrite_free hf, resolveStyle, pure_apply, M.modEdge]
      refine N.same (fun _ => rfl) (fun m => ?_) (Nat.le_refl _)
      by_cases e : m = n
      · subst e; simp
      · simp only [upd_ne _ _ e]
    | dict v =>
      cases v with
      | false => simpa [Verif.edgeSetStyle, checkOverwrite_free hf, resolveStyle] using N
      | true =>
        simp only [Verif.edgeSetStyle, bind_apply, look_apply, checkOverwrite_free hf, resolveStyle, newStyle, pure_apply, M.modEdge]
        exact N.edgeNew n _ rfl
  · simpa [Verif.edgeSetStyle, he] using N

theorem nodeSetValue (n : NRef) (v : Val) : Neatly (Verif.nodeSetValue n v) := by
  refine (look _).bind fun o => ?_
  split
  · exact .raise _
  · exact .modNode fun _ => rfl

theorem edgeSetValue (n : ERef) (v : Val) : Neatly (Verif.edgeSetValue n v) := by
  refine (look _).bind fun o => ?_
  split
  · exact .raise _
  · exact .modEdge fun _ => rfl

theorem nodeUpdate (n : NRef) (l v : Val) {s : StyleArg} (hs : s.NoObj) : Neatly (Verif.nodeUpdate n l v s) :=
  (onlyIf (nodeSetStyle n hs)).bind fun _ => (onlyIf (x := Verif.nodeSetLabel n l) (.modNode (by intro _; rfl))).bind fun _ => onlyIf (nodeSetValue n v)

theorem edgeUpdate (n : ERef) (l v : Val) {s : StyleArg} (hs : s.NoObj) : Neatly (Verif.edgeUpdate n l v s) :=
  (onlyIf (edgeSetStyle n hs)).bind fun _ => (onlyIf (x := Verif.edgeSetLabel n l) (.modEdge (by intro _; rfl))).bind fun _ => onlyIf (edgeSetValue n v)

theorem nodeInit (g : GRef) (x : Key) (a b c : Val) {s : StyleArg} (hs : s.NoObj) (i : Nat) (kw : Dict String Val) :
    Neatly (Verif.nodeInit g x a b c s i kw) := by
  intro h N
  cases s with
  | obj s => exact absurd hs (by simp [StyleArg.NoObj])
  | bad => simpa [Verif.nodeInit, resolveStyle] using N
  | none =>
    simp only [Verif.nodeInit, bind_apply, resolveStyle, pure_apply, M.newNode, M.modGraph]
    exact (N.nodeBare h.nN _ rfl (k := h.nN + 1)).same (fun _ => rfl) (fun _ => rfl) (Nat.le_refl _)
  | dict v =>
    cases v with
    | false => simpa [Verif.nodeInit, resolveStyle] using N
    | true =>
      simp only [Verif.nodeInit, bind_apply, resolveStyle, newStyle, pure_apply, M.newNode, M.modGraph]
      exact (N.nodeNew h.nN _ rfl (k := h.nN + 1)).same (fun _ => rfl) (fun _ => rfl) (Nat.le_refl _)

/-- `newEdge` with a style that has just been resolved. -/
theorem newEdge {s : StyleArg} (hs : s.NoObj) {o : Option SRef → EdgeObj} (ho : ∀ st, (o st).style = st) {f : ERef → M α}
    (hf : ∀ e, Neatly (f e)) : Neatly (resolveStyle none s >>= fun st => M.newEdge (o st) >>= f) := by
  intro h N
  cases s with
  | obj s => exact absurd hs (by simp [StyleArg.NoObj])
  | bad => simpa [resolveStyle] using N
  | none =>
    simp only [bind_apply, resolveStyle, pure_apply, M.newEdge]
    exact hf _ _ (N.edgeBare h.nE _ (ho _) (k := h.nE + 1))
  | dict v =>
    cases v with
    | false => simpa [resolveStyle] using N
    | true =>
      simp only [bind_apply, resolveStyle, newStyle, pure_apply, M.newEdge]
      exact hf _ _ (N.edgeNew h.nE _ (ho _) (k := h.nE + 1))

theorem addNode (g : GRef) (x : Key) {a : NodeArgs} (p : IfExists) (hs : a.style.NoObj) : Neatly (Verif.addNode g x a p) := by
  cases x with
  | int _ => exact .raise _
  | str x =>
    refine (look _).bind fun d => ?_
    split
    · exact (check p _).bind fun _ => (ask _).bind fun n => (nodeUpdate n _ _ hs).bind fun _ => .pure _
    · exact Neatly.bind (x := generateNodeIndex g) ((look _).bind fun _ => modGraph.bind fun _ => .pure _) fun i =>
        (nodeInit _ _ _ _ _ hs _ _).bind fun n => modGraph.bind fun _ => .pure _

theorem addNodeObj (g : GRef) (n : NRef) : Neatly (Verif.addNodeObj g n) := by
  refine (look _).bind fun o => (look _).bind fun d => ?_
  split
  · split
    · exact .pure _
    · exact .raise _
  · split
    · exact .raise _
    · exact modGraph.bind fun _ => .pure _

theorem removeOutwardEdge (n : NRef) (i : EdgeId) : Neatly (Verif.removeOutwardEdge n i) := by
  refine (look _).bind fun o => ?_
  split
  · exact .raise _
  · exact .modNode fun _ => rfl

theorem removeInwardEdge (n : NRef) (i : EdgeId) : Neatly (Verif.removeInwardEdge n i) := by
  refine (look _).bind fun o => ?_
  split
  · exact .raise _
  · exact .modNode fun _ => rfl

theorem edgeRemoveSelf (e : ERef) : Neatly (Verif.edgeRemoveSelf e) := by
  refine (look _).bind fun o => ?_
  split
  · exact .raise _
  · exact (ask _).bind fun _ => (ask _).bind fun _ => (removeOutwardEdge _ _).bind fun _ => (ask _).bind fun _ => (ask _).bind fun _ =>
      (removeInwardEdge _ _).bind fun _ => .modEdge fun _ => rfl

theorem disconnect (e : ERef) : Neatly (Verif.disconnect e) :=
  (ask _).bind fun _ => (ask _).bind fun _ => (removeOutwardEdge _ _).bind fun _ => (ask _).bind fun _ => (ask _).bind fun _ =>
    (removeInwardEdge _ _).bind fun _ => .modEdge fun _ => rfl

theorem removeAll (es : List ERef) : Neatly (Verif.removeAll es) := by
  induction es with
  | nil => exact .pure _
  | cons e es ih => exact (edgeRemoveSelf e).bind fun _ => ih

theorem removeNode (g : GRef) (a : NodeArg) : Neatly (Verif.removeNode g a) := by
  refine (ask _).bind fun n => Neatly.bind (x := Verif.removeEdges n) ((ask _).bind fun es => removeAll es) fun _ => ?_
  refine (modNode (by intro _; rfl)).bind fun _ => (look _).bind fun o => (look _).bind fun d => ?_
  split
  · exact .raise _
  · exact .modGraph

theorem connect (g : GRef) (s t : NodeArg) {a : EdgeArgs} (p : IfExists) (hs : a.style.NoObj) : Neatly (Verif.connect g s t a p) := by
  refine (ask _).bind fun s' => (ask _).bind fun t' => (look _).bind fun so => (look _).bind fun to_ => ?_
  try dsimp only
  split
  · exact newEdge hs (by intro _; rfl) fun e => (ask _).bind fun _ => (modNode (by intro _; rfl)).bind fun _ => (ask _).bind fun _ =>
      (modNode (by intro _; rfl)).bind fun _ => .pure _
  · split
    · refine (check p _).bind fun _ => ?_
      split
      · exact .raise _
      · exact (edgeUpdate _ _ _ hs).bind fun _ => .pure _
    · refine (ask _).bind fun _ => (ask _).bind fun _ => ?_
      split
      · exact (ask _).bind fun _ => (ask _).bind fun _ => .raise _
      · exact .raise _

end Neatly

/-- A copy shares no style with anything. -/
theorem Neat.graphCopy {h : Heap} {A : Spec} (R : Rep h A) (N : Neat h) {g : GRef} (hg : g < h.nG) : Neat (graphCopy g h).2 := by
  by_cases hst : ∀ n ∈ graphNodes h g, (h.node n).style = none
  · obtain ⟨m, h', hr, P⟩ := run_graphCopy R hg hst
    have D := graphCopy_dye R hr
    have M' := (Keeps.graphCopy (k := 0) g h (Nat.zero_le _) N.made).2.1
    rw [hr] at M' ⊢
    refine ⟨M', ⟨?_, ?_⟩⟩
    · have bare : ∀ x, h.nN ≤ x → x < h'.nN → (h'.node x).style = none := by
        intro x h1 h2
        obtain ⟨n, hn, rfl⟩ := P.nodeAll x h1 h2
        rw [(P.nodeNew n hn).2.2]
        obtain ⟨k, hk⟩ := (P.nodeKeys n).1 hn
        rw [← R.nodes] at hk
        exact hst n (List.mem_map.2 ⟨_, hk, rfl⟩)
      have old : ∀ x s, (h'.node x).style = some s → (h.node x).style = some s := by
        intro x s hs
        rcases Nat.lt_or_ge x h.nN with h1 | h1
        · rwa [P.nodeOld x h1] at hs
        · rcases Nat.lt_or_ge x h'.nN with h2 | h2
          · rw [bare x h1 h2] at hs; cases hs
          · rwa [P.nodeFar x h2] at hs
      exact fun n k s h1 h2 => N.apart.node n k s (old n s h1) (old k s h2)
    · have cases' : ∀ x s, (h'.edge x).style = some s → ((h.edge x).style = some s) ∨
          (h.nStyle ≤ s ∧ ∃ e t, e ∈ dkeys m.edges ∧ m.edge e = x ∧ (h.edge e).style = some t ∧ dget m.styles t = some s) := by
        intro x s hs
        rcases Nat.lt_or_ge x h.nE with h1 | h1
        · rw [P.edgeOld x h1] at hs; exact .inl hs
        · rcases Nat.lt_or_ge x h'.nE with h2 | h2
          · obtain ⟨e, he, hx⟩ := P.edgeAll x h1 h2
            obtain ⟨e', he'⟩ := Option.isSome_iff_exists.1 (dget_isSome.2 he)
            have : e' = x := by rw [← hx, Memo.edge, he']; rfl
            subst this
            rcases D.edge e e' he' with ⟨-, h3⟩ | ⟨t, t', h3, h4, h5⟩
            · rw [h3] at hs; cases hs
            · rw [h5] at hs
              cases hs
              exact .inr ⟨(D.style t s h4).1, e, t, he, hx, h3, h4⟩
          · rw [P.edgeFar x h2] at hs; exact .inl hs
      intro x y s hx hy
      rcases cases' x s hx with h1 | ⟨k1, e, t, he, h1, h2, h3⟩ <;> rcases cases' y s hy with h1' | ⟨k1', e', t', he', h1', h2', h3'⟩
      · exact N.apart.edge x y s h1 h1'
      · exact absurd (N.made.edge x s h1) (Nat.not_lt.2 k1')
      · exact absurd (N.made.edge y s h1') (Nat.not_lt.2 k1)
      · have := D.inj t t' s h3 h3'
        subst this
        have := N.apart.edge e e' t h2 h2'
        subst this
        rw [← h1, ← h1']
  · have : ((dvals (h.graph g).nodes).any fun n => (h.node n).style.isSome) = true := by
      simp only [graphNodes, not_forall] at hst
      obtain ⟨n, hn, hs⟩ := hst
      rw [List.any_eq_true]
      refine ⟨n, hn, ?_⟩
      cases hs' : (h.node n).style with
      | none => exact absurd hs' hs
      | some _ => rfl
    simp only [Verif.graphCopy, bind_apply, look_apply, this, if_true, raise_apply]
    exact N

/-- No call that passes no style object makes two nodes, or two edges, share one. -/
theorem Neat.step {h : Heap} (r : Reachable h) (N : Neat h) (op : Op) (ok : op.Ok h) (no : op.NoObj) : Neat (op.step h).2 := by
  have fin : ∀ {α : Type} {x : M α} {f : α → Out}, Neatly x → Neat ((x >>= fun a => Pure.pure (f a) : M Out) h).2 :=
    fun hx => (Neatly.bind hx fun a => .pure _) h N
  cases op with
  | newGraph => exact fin .newGraph
  | addNode g x a p => exact fin (.addNode g x p no)
  | addNodeObj g n =>
    exact ((Neatly.addNodeObj g n).bind fun o => by cases o <;> exact .pure _) h N
  | removeNode g a => exact fin (.removeNode g a)
  | connect g s t a p => exact fin (.connect g s t p no)
  | connectTo n t a p => exact fin (x := Verif.connectTo n t a p) ((Neatly.ask _).bind fun _ => .connect _ _ _ _ no)
  | connectFrom n t a p => exact fin (x := Verif.connectFrom n t a p) ((Neatly.ask _).bind fun _ => .connect _ _ _ _ no)
  | disconnect e => exact fin (.disconnect e)
  | removeSelf e => exact fin (.edgeRemoveSelf e)
  | nodeValue n v => exact fin (.nodeSetValue n v)
  | nodeLabel n v => exact fin (x := nodeSetLabel n v) (.modNode (by intro _; rfl))
  | nodeStyle n s => exact fin (.nodeSetStyle n no)
  | nodeFreeze n b => exact fin (x := Verif.nodeFreeze n b) (.modNode (by intro _; rfl))
  | nodeParam n a v => exact fin (x := nodeSetParam n a v) (.modNode (by intro _; rfl))
  | edgeValue n v => exact fin (.edgeSetValue n v)
  | edgeLabel n v => exact fin (x := edgeSetLabel n v) (.modEdge (by intro _; rfl))
  | edgeStyle n s => exact fin (.edgeSetStyle n no)
  | edgeFreeze n b => exact fin (x := Verif.edgeFreeze n b) (.modEdge (by intro _; rfl))
  | edgeParam n a v => exact fin (x := edgeSetParam n a v) (.modEdge (by intro _; rfl))
  | copy g =>
    obtain ⟨A, H⟩ := r.hist
    have := Neat.graphCopy H.rep N ok
    simp only [Op.step, bind_apply]
    cases hr : Verif.graphCopy g h with
    | mk a b =>
      rw [hr] at this
      cases a <;> exact this
  | setOptions g s o => exact fin (x := graphSetOptions g s o) .modGraph

theorem Neat.init : Neat Heap.init := ⟨.init, by constructor <;> simp [Heap.init]⟩

end Verif
