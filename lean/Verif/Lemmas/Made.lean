import Verif.Model.World
import Verif.Lemmas.Dict
import Verif.Model.History
/-!
# The style objects in use exist

`nStyle` counts the style objects made so far; no call makes a node or an edge use any other.
-/
namespace Verif
open M

/-- Every style in use is one of the style objects made so far. -/
structure Made (h : Heap) : Prop where
  node : ∀ n s, (h.node n).style = some s → s < h.nStyle
  edge : ∀ e s, (h.edge e).style = some s → s < h.nStyle

/-- If a style object is given, it is one made so far. -/
def StyleArg.Below (k : Nat) : StyleArg → Prop
  | .obj s => s < k
  | _ => True

/-- The style objects that a call mentions exist. -/
def Op.StylesOk (h : Heap) : Op → Prop
  | .addNode _ _ a _ => a.style.Below h.nStyle
  | .connect _ _ _ a _ => a.style.Below h.nStyle
  | .connectTo _ _ a _ => a.style.Below h.nStyle
  | .connectFrom _ _ a _ => a.style.Below h.nStyle
  | .nodeStyle _ s => s.Below h.nStyle
  | .edgeStyle _ s => s.Below h.nStyle
  | _ => True

/-- From `k` style objects on, the call keeps `Made`, and what it returns satisfies `Q`. -/
def Keeps {α : Type} (k : Nat) (x : M α) (Q : α → Nat → Prop) : Prop :=
  ∀ h, k ≤ h.nStyle → Made h → h.nStyle ≤ (x h).2.nStyle ∧ Made (x h).2 ∧ ∀ a, (x h).1 = .ok a → Q a (x h).2.nStyle

/-- `Keeps` without a claim about the result. -/
abbrev Keep {α : Type} (k : Nat) (x : M α) : Prop := Keeps k x (fun _ _ => True)

namespace Keeps
variable {α β : Type} {k : Nat}

theorem bind {x : M α} {f : α → M β} {Q : α → Nat → Prop} {Q' : β → Nat → Prop} (hx : Keeps k x Q)
    (hf : ∀ a k', k ≤ k' → Q a k' → Keeps k' (f a) Q') : Keeps k (x >>= f) Q' := by
  intro h hk m
  obtain ⟨h1, h2, h3⟩ := hx h hk m
  simp only [bind_apply]
  cases hxx : x h with
  | mk a h' =>
    rw [hxx] at h1 h2 h3
    cases a with
    | error e => exact ⟨h1, h2, by simp⟩
    | ok a =>
      obtain ⟨q1, q2, q3⟩ := hf a h'.nStyle (Nat.le_trans hk h1) (h3 a rfl) h' (Nat.le_refl _) h2
      exact ⟨Nat.le_trans h1 q1, q2, q3⟩

theorem seq {x : M α} {f : α → M β} {Q' : β → Nat → Prop} (hx : Keep k x) (hf : ∀ a k', k ≤ k' → Keeps k' (f a) Q') :
    Keeps k (x >>= f) Q' := hx.bind fun a k' hk _ => hf a k' hk

theorem weaken {x : M α} {Q Q' : α → Nat → Prop} (hx : Keeps k x Q) (H : ∀ a j, Q a j → Q' a j) : Keeps k x Q' := by
  intro h hk m
  obtain ⟨h1, h2, h3⟩ := hx h hk m
  exact ⟨h1, h2, fun a ha => H a _ (h3 a ha)⟩

theorem pure {Q : α → Nat → Prop} {a : α} (H : ∀ j, k ≤ j → Q a j) : Keeps k (Pure.pure a : M α) Q := by
  intro h hk m
  exact ⟨Nat.le_refl _, m, fun b hb => by cases hb; exact H _ hk⟩

theorem raise {Q : α → Nat → Prop} (e : PyErr) : Keeps k (M.raise e : M α) Q := by
  intro h hk m
  exact ⟨Nat.le_refl _, m, fun b hb => by cases hb⟩

theorem ask {q : Q α} : Keep k (M.ask q) := fun _ _ m => ⟨Nat.le_refl _, m, fun _ _ => trivial⟩

theorem look {f : Heap → α} : Keep k (M.look f) := fun _ _ m => ⟨Nat.le_refl _, m, fun _ _ => trivial⟩

/-- Read a style in use. -/
theorem lookNode {n : NRef} : Keeps k (M.look fun h => h.node n) (fun o j => ∀ s, o.style = some s → s < j) :=
  fun h _ m => ⟨Nat.le_refl _, m, fun o ho s hs => by cases ho; exact m.node n s hs⟩

theorem lookEdge {n : ERef} : Keeps k (M.look fun h => h.edge n) (fun o j => ∀ s, o.style = some s → s < j) :=
  fun h _ m => ⟨Nat.le_refl _, m, fun o ho s hs => by cases ho; exact m.edge n s hs⟩

theorem warn : Keep k M.warn := fun _ _ m => ⟨Nat.le_refl _, ⟨m.node, m.edge⟩, fun _ _ => trivial⟩

theorem newStyle : Keeps k M.newStyle (fun s j => s < j) := by
  intro h _ m
  refine ⟨Nat.le_succ _, ⟨fun n s hs => Nat.lt_succ_of_lt (m.node n s hs), fun n s hs => Nat.lt_succ_of_lt (m.edge n s hs)⟩, ?_⟩
  intro a ha
  cases ha
  exact Nat.lt_succ_self _

theorem modNode {n : NRef} {f : NodeObj → NodeObj} (H : ∀ o, (f o).style = o.style ∨ ∀ s, (f o).style = some s → s < k) :
    Keep k (M.modNode n f) := by
  intro h hk m
  refine ⟨Nat.le_refl _, ⟨fun x s hs => ?_, m.edge⟩, fun _ _ => trivial⟩
  by_cases e : x = n
  · subst e
    simp only [M.modNode, upd_same] at hs
    rcases H (h.node x) with h1 | h1
    · rw [h1] at hs; exact m.node x s hs
    · exact Nat.lt_of_lt_of_le (h1 s hs) hk
  · simp only [M.modNode, upd_ne _ _ e] at hs; exact m.node x s hs

theorem modEdge {n : ERef} {f : EdgeObj → EdgeObj} (H : ∀ o, (f o).style = o.style ∨ ∀ s, (f o).style = some s → s < k) :
    Keep k (M.modEdge n f) := by
  intro h hk m
  refine ⟨Nat.le_refl _, ⟨m.node, fun x s hs => ?_⟩, fun _ _ => trivial⟩
  by_cases e : x = n
  · subst e
    simp only [M.modEdge, upd_same] at hs
    rcases H (h.edge x) with h1 | h1
    · rw [h1] at hs; exact m.edge x s hs
    · exact Nat.lt_of_lt_of_le (h1 s hs) hk
  · simp only [M.modEdge, upd_ne _ _ e] at hs; exact m.edge x s hs

theorem modGraph {g : GRef} {f : GraphObj → GraphObj} : Keep k (M.modGraph g f) :=
  fun _ _ m => ⟨Nat.le_refl _, ⟨m.node, m.edge⟩, fun _ _ => trivial⟩

theorem newNode {o : NodeObj} (H : ∀ s, o.style = some s → s < k) : Keep k (M.newNode o) := by
  intro h hk m
  refine ⟨Nat.le_refl _, ⟨fun x s hs => ?_, m.edge⟩, fun _ _ => trivial⟩
  by_cases e : x = h.nN
  · subst e; simp only [M.newNode, upd_same] at hs; exact Nat.lt_of_lt_of_le (H s hs) hk
  · simp only [M.newNode, upd_ne _ _ e] at hs; exact m.node x s hs

theorem newEdge {o : EdgeObj} (H : ∀ s, o.style = some s → s < k) : Keep k (M.newEdge o) := by
  intro h hk m
  refine ⟨Nat.le_refl _, ⟨m.node, fun x s hs => ?_⟩, fun _ _ => trivial⟩
  by_cases e : x = h.nE
  · subst e; simp only [M.newEdge, upd_same] at hs; exact Nat.lt_of_lt_of_le (H s hs) hk
  · simp only [M.newEdge, upd_ne _ _ e] at hs; exact m.edge x s hs

theorem newGraph {o : GraphObj} : Keep k (M.newGraph o) := fun _ _ m => ⟨Nat.le_refl _, ⟨m.node, m.edge⟩, fun _ _ => trivial⟩

theorem onlyIf {c : Prop} [Decidable c] {x : M Unit} (hx : Keep k x) : Keep k (Verif.onlyIf c x) := by
  unfold Verif.onlyIf
  split
  · exact hx
  · exact .pure fun _ _ => trivial

theorem check (p : IfExists) (e : PyErr) : Keep k (p.check e) := by
  cases p
  · exact .pure fun _ _ => trivial
  · exact .warn
  · exact .raise _

theorem resolveStyle {o : Option SRef} {s : StyleArg} (ho : ∀ x, o = some x → x < k) (hs : s.Below k) :
    Keeps k (Verif.resolveStyle o s) (fun r j => ∀ x, r = some x → x < j) := by
  cases s with
  | none => exact .pure fun j hj x hx => Nat.lt_of_lt_of_le (ho x hx) hj
  | obj s => exact .pure fun j hj x hx => by cases hx; exact Nat.lt_of_lt_of_le hs hj
  | dict v =>
    cases v
    · exact .raise _
    · exact newStyle.bind fun s k' _ hs => .pure fun j hj x hx => by cases hx; exact Nat.lt_of_lt_of_le hs hj
  | bad => exact .raise _

theorem checkOverwrite (s : Option SRef) (g : Option GRef) : Keep k (Verif.checkOverwrite s g) := by
  unfold Verif.checkOverwrite
  split
  · exact .pure fun _ _ => trivial
  · split
    · exact .raise _
    · refine look.seq fun o k' _ => ?_
      split
      · exact .raise _
      · exact .raise _
      · exact .pure fun _ _ => trivial

theorem below {s : StyleArg} {k k' : Nat} (hs : s.Below k) (hk : k ≤ k') : s.Below k' := by
  cases s <;> try trivial
  exact Nat.lt_of_lt_of_le hs hk

theorem nodeSetStyle (n : NRef) {s : StyleArg} (hs : s.Below k) : Keep k (Verif.nodeSetStyle n s) := by
  refine lookNode.bind fun o k1 h1 q1 => (checkOverwrite _ _).seq fun _ k2 h2 => ?_
  refine (resolveStyle (fun x hx => Nat.lt_of_lt_of_le (q1 x hx) h2) (below hs (Nat.le_trans h1 h2))).bind fun st k3 h3 q3 => ?_
  exact .modNode fun o => .inr fun x hx => q3 x hx

theorem edgeSetStyle (n : ERef) {s : StyleArg} (hs : s.Below k) : Keep k (Verif.edgeSetStyle n s) := by
  refine lookEdge.bind fun o k1 h1 q1 => (checkOverwrite _ _).seq fun _ k2 h2 => ?_
  refine (resolveStyle (fun x hx => Nat.lt_of_lt_of_le (q1 x hx) h2) (below hs (Nat.le_trans h1 h2))).bind fun st k3 h3 q3 => ?_
  exact .modEdge fun o => .inr fun x hx => q3 x hx

theorem nodeSetValue (n : NRef) (v : Val) : Keep k (Verif.nodeSetValue n v) := by
  refine look.seq fun o k1 _ => ?_
  try dsimp only
  split
  · exact .raise _
  · exact .modNode fun _ => .inl rfl

theorem edgeSetValue (n : ERef) (v : Val) : Keep k (Verif.edgeSetValue n v) := by
  refine look.seq fun o k1 _ => ?_
  try dsimp only
  split
  · exact .raise _
  · exact .modEdge fun _ => .inl rfl

theorem nodeUpdate (n : NRef) (l v : Val) {s : StyleArg} (hs : s.Below k) : Keep k (Verif.nodeUpdate n l v s) :=
  (onlyIf (nodeSetStyle n hs)).seq fun _ _ _ => (Keeps.onlyIf (x := Verif.nodeSetLabel n l) (.modNode (by intro _; exact .inl rfl))).seq fun _ _ _ => onlyIf (nodeSetValue n v)

theorem edgeUpdate (n : ERef) (l v : Val) {s : StyleArg} (hs : s.Below k) : Keep k (Verif.edgeUpdate n l v s) :=
  (onlyIf (edgeSetStyle n hs)).seq fun _ _ _ => (Keeps.onlyIf (x := Verif.edgeSetLabel n l) (.modEdge (by intro _; exact .inl rfl))).seq fun _ _ _ => onlyIf (edgeSetValue n v)

theorem addNode (g : GRef) (x : Key) {a : NodeArgs} (p : IfExists) (hs : a.style.Below k) : Keep k (Verif.addNode g x a p) := by
  cases x with
  | int _ => exact .raise _
  | str x =>
    refine look.seq fun d k1 h1 => ?_
    try dsimp only
    split
    · refine (check p _).seq fun _ k2 h2 => ask.seq fun n k3 h3 => ?_
      exact (nodeUpdate n _ _ (below hs (Nat.le_trans h1 (Nat.le_trans h2 h3)))).seq fun _ _ _ => .pure fun _ _ => trivial
    · refine Keeps.seq (x := generateNodeIndex g) ?_ fun i k2 h2 => Keeps.seq (x := nodeInit _ _ _ _ _ _ _ _) ?_ fun n k3 h3 => ?_
      · exact look.seq fun _ _ _ => modGraph.seq fun _ _ _ => .pure fun _ _ => trivial
      · refine (resolveStyle (by simp) (below hs (Nat.le_trans h1 h2))).bind fun st k3 h3 q3 => ?_
        exact (newNode q3).seq fun n k4 h4 => modGraph.seq fun _ _ _ => .pure fun _ _ => trivial
      · exact modGraph.seq fun _ _ _ => .pure fun _ _ => trivial

theorem addNodeObj (g : GRef) (n : NRef) : Keep k (Verif.addNodeObj g n) := by
  refine look.seq fun o k1 h1 => look.seq fun d k2 h2 => ?_
  try dsimp only
  split
  · split
    · exact .pure fun _ _ => trivial
    · exact .raise _
  · split
    · exact .raise _
    · exact modGraph.seq fun _ _ _ => .pure fun _ _ => trivial

theorem removeOutwardEdge (n : NRef) (i : EdgeId) : Keep k (Verif.removeOutwardEdge n i) := by
  refine look.seq fun o k1 h1 => ?_
  try dsimp only
  split
  · exact .raise _
  · exact .modNode fun _ => .inl rfl

theorem removeInwardEdge (n : NRef) (i : EdgeId) : Keep k (Verif.removeInwardEdge n i) := by
  refine look.seq fun o k1 h1 => ?_
  try dsimp only
  split
  · exact .raise _
  · exact .modNode fun _ => .inl rfl

theorem edgeRemoveSelf (e : ERef) : Keep k (Verif.edgeRemoveSelf e) := by
  refine look.seq fun o k1 h1 => ?_
  try dsimp only
  split
  · exact .raise _
  · exact ask.seq fun _ _ _ => ask.seq fun _ _ _ => (removeOutwardEdge _ _).seq fun _ _ _ => ask.seq fun _ _ _ => ask.seq fun _ _ _ =>
      (removeInwardEdge _ _).seq fun _ _ _ => .modEdge fun _ => .inl rfl

theorem disconnect (e : ERef) : Keep k (Verif.disconnect e) :=
  ask.seq fun _ _ _ => ask.seq fun _ _ _ => (removeOutwardEdge _ _).seq fun _ _ _ => ask.seq fun _ _ _ => ask.seq fun _ _ _ =>
    (removeInwardEdge _ _).seq fun _ _ _ => .modEdge fun _ => .inl rfl

theorem removeAll (es : List ERef) : Keep k (Verif.removeAll es) := by
  induction es generalizing k with
  | nil => exact .pure fun _ _ => trivial
  | cons e es ih => exact (edgeRemoveSelf e).seq fun _ _ _ => ih

theorem removeNode (g : GRef) (a : NodeArg) : Keep k (Verif.removeNode g a) := by
  refine ask.seq fun n k1 h1 => Keeps.seq (x := Verif.removeEdges n) (ask.seq fun es _ _ => removeAll es) fun _ k2 h2 => ?_
  refine (Keeps.modNode (by intro _; exact .inl rfl)).seq fun _ k3 h3 => look.seq fun o k4 h4 => look.seq fun d k5 h5 => ?_
  try dsimp only
  split
  · exact .raise _
  · exact .modGraph

theorem connect (g : GRef) (s t : NodeArg) {a : EdgeArgs} (p : IfExists) (hs : a.style.Below k) : Keep k (Verif.connect g s t a p) := by
  refine ask.seq fun s' k1 h1 => ask.seq fun t' k2 h2 => look.seq fun so k3 h3 => look.seq fun to_ k4 h4 => ?_
  have hb : ∀ k', k4 ≤ k' → a.style.Below k' := fun k' hk => below hs (Nat.le_trans h1 (Nat.le_trans h2 (Nat.le_trans h3 (Nat.le_trans h4 hk))))
  try dsimp only
  split
  · refine (resolveStyle (by simp) (hb _ (Nat.le_refl _))).bind fun st k5 h5 q5 => (newEdge q5).seq fun e k6 h6 => ?_
    exact ask.seq fun _ _ _ => (modNode (by intro _; exact .inl rfl)).seq fun _ _ _ => ask.seq fun _ _ _ => (modNode (by intro _; exact .inl rfl)).seq fun _ _ _ =>
      .pure fun _ _ => trivial
  · split
    · refine (check p _).seq fun _ k5 h5 => ?_
      split
      · exact .raise _
      · exact (edgeUpdate _ _ _ (hb _ h5)).seq fun _ _ _ => .pure fun _ _ => trivial
    · refine ask.seq fun _ _ _ => ask.seq fun _ _ _ => ?_
      split
      · exact ask.seq fun _ _ _ => ask.seq fun _ _ _ => .raise _
      · exact .raise _

/-- The styles in a memo. -/
def MemoMade (m : Memo) (k : Nat) : Prop := ∀ s s', dget m.styles s = some s' → s' < k

theorem copyStyle {m : Memo} (hm : MemoMade m k) (o : Option SRef) :
    Keeps k (Verif.copyStyle m o) (fun r j => (∀ s, r.1 = some s → s < j) ∧ MemoMade r.2 j) := by
  cases o with
  | none => exact .pure fun j hj => ⟨by simp, fun s s' h => Nat.lt_of_lt_of_le (hm s s' h) hj⟩
  | some s =>
    cases hd : dget m.styles s with
    | some s' =>
      simp only [Verif.copyStyle, hd]
      exact .pure fun j hj => ⟨fun x hx => by cases hx; exact Nat.lt_of_lt_of_le (hm s s' hd) hj, fun s s' h => Nat.lt_of_lt_of_le (hm s s' h) hj⟩
    | none =>
      simp only [Verif.copyStyle, hd]
      refine newStyle.bind fun s' k1 h1 q1 => .pure fun j hj => ⟨fun x hx => by cases hx; exact Nat.lt_of_lt_of_le q1 hj, fun x x' h => ?_⟩
      by_cases e : x = s
      · subst e
        simp only [dget_dset, if_true, Option.some.injEq] at h
        subst h
        exact Nat.lt_of_lt_of_le q1 hj
      · rw [dget_dset, if_neg (Ne.symm e)] at h
        exact Nat.lt_of_lt_of_le (hm x x' h) (Nat.le_trans h1 hj)

theorem memoMade_le {m : Memo} {j j' : Nat} (h : MemoMade m j) (hj : j ≤ j') : MemoMade m j' :=
  fun s s' hs => Nat.lt_of_lt_of_le (h s s' hs) hj

theorem copyEdge {m : Memo} (hm : MemoMade m k) (e : ERef) : Keeps k (Verif.copyEdge m e) (fun r j => MemoMade r.2 j) := by
  unfold Verif.copyEdge
  split
  · exact .pure fun j hj => memoMade_le hm hj
  · refine look.seq fun o k1 h1 => (copyStyle (memoMade_le hm h1) _).bind fun r k2 h2 q2 => (newEdge q2.1).seq fun e' k3 h3 => ?_
    exact .pure fun j hj => memoMade_le q2.2 (Nat.le_trans h3 hj)

theorem copyEdgeDict (d : Dict EdgeId ERef) {m : Memo} (hm : MemoMade m k) :
    Keeps k (Verif.copyEdgeDict m d) (fun r j => MemoMade r.2 j) := by
  induction d generalizing m k with
  | nil => exact .pure fun j hj => memoMade_le hm hj
  | cons p d ih =>
    exact (copyEdge hm p.2).bind fun r k1 h1 q1 => (ih q1).bind fun r' k2 h2 q2 => .pure fun j hj => memoMade_le q2 hj

theorem copyNode {m : Memo} (hm : MemoMade m k) (n : NRef) : Keeps k (Verif.copyNode m n) (fun r j => MemoMade r.2 j) := by
  unfold Verif.copyNode
  split
  · exact .pure fun j hj => memoMade_le hm hj
  · refine lookNode.bind fun o k1 h1 q1 => (copyEdgeDict _ (memoMade_le hm h1)).bind fun out k2 h2 q2 =>
      (copyEdgeDict _ q2).bind fun inn k3 h3 q3 => (newNode ?_).seq fun n' k4 h4 => .pure fun j hj => memoMade_le q3 (Nat.le_trans h4 hj)
    intro s hs
    exact Nat.lt_of_lt_of_le (q1 s hs) (Nat.le_trans h2 h3)

theorem copyNodeDict (d : Dict Key NRef) {m : Memo} (hm : MemoMade m k) :
    Keeps k (Verif.copyNodeDict m d) (fun r j => MemoMade r.2 j) := by
  induction d generalizing m k with
  | nil => exact .pure fun j hj => memoMade_le hm hj
  | cons p d ih =>
    exact (copyNode hm p.2).bind fun r k1 h1 q1 => (ih q1).bind fun r' k2 h2 q2 => .pure fun j hj => memoMade_le q2 hj

theorem setStarts (n : NRef) (g : Option GRef) (es : List ERef) : Keep k (Verif.setStarts n g es) := by
  induction es generalizing k with
  | nil => exact .pure fun _ _ => trivial
  | cons e es ih => exact (modEdge (by intro _; exact .inl rfl)).seq fun _ _ _ => ih

theorem setEnds (n : NRef) (g : Option GRef) (es : List ERef) : Keep k (Verif.setEnds n g es) := by
  induction es generalizing k with
  | nil => exact .pure fun _ _ => trivial
  | cons e es ih => exact (modEdge (by intro _; exact .inl rfl)).seq fun _ _ _ => ih

theorem setGraphs (g : GRef) (ns : List NRef) : Keep k (Verif.setGraphs g ns) := by
  induction ns generalizing k with
  | nil => exact .pure fun _ _ => trivial
  | cons e es ih => exact (modNode (by intro _; exact .inl rfl)).seq fun _ _ _ => ih

theorem updateEdges (n : NRef) : Keep k (Verif.updateEdges n) :=
  look.seq fun _ _ _ => (onlyIf (setStarts _ _ _)).seq fun _ _ _ => (modNode (by intro _; exact .inl rfl)).seq fun _ _ _ =>
    (onlyIf (setEnds _ _ _)).seq fun _ _ _ => modNode fun _ => .inl rfl

theorem updateNodesLoop (g : GRef) (ns : List NRef) : Keep k (Verif.updateNodesLoop g ns) := by
  induction ns generalizing k with
  | nil => exact .pure fun _ _ => trivial
  | cons e es ih => exact (modNode (by intro _; exact .inl rfl)).seq fun _ _ _ => (updateEdges e).seq fun _ _ _ => ih

theorem graphCopy (g : GRef) : Keep k (Verif.graphCopy g) := by
  refine look.seq fun o k1 h1 => look.seq fun b k2 h2 => ?_
  try dsimp only
  split
  · exact .raise _
  · refine (copyNodeDict o.nodes (m := {}) (by intro s s' h; simp [dget] at h)).bind fun r k3 h3 _ => newGraph.seq fun g' k4 h4 => ?_
    refine (setGraphs _ _).seq fun _ _ _ => modGraph.seq fun _ _ _ => Keeps.seq (x := updateNodes g') ?_ fun _ _ _ => .pure fun _ _ => trivial
    exact look.seq fun _ _ _ => (onlyIf (updateNodesLoop _ _)).seq fun _ _ _ => modGraph

theorem step (op : Op) {h : Heap} (hs : op.StylesOk h) : Keep h.nStyle op.step := by
  cases op with
  | newGraph => exact newGraph.seq fun _ _ _ => .pure fun _ _ => trivial
  | addNode g x a p => exact (addNode g x p hs).seq fun _ _ _ => .pure fun _ _ => trivial
  | addNodeObj g n =>
    refine (addNodeObj g n).seq fun o _ _ => ?_
    cases o <;> exact .pure fun _ _ => trivial
  | removeNode g a => exact (removeNode g a).seq fun _ _ _ => .pure fun _ _ => trivial
  | connect g s t a p => exact (connect g s t p hs).seq fun _ _ _ => .pure fun _ _ => trivial
  | connectTo n t a p =>
    exact Keeps.seq (x := Verif.connectTo n t a p) (ask.seq fun _ _ hk => connect _ _ _ _ (below hs hk)) fun _ _ _ => .pure fun _ _ => trivial
  | connectFrom n t a p =>
    exact Keeps.seq (x := Verif.connectFrom n t a p) (ask.seq fun _ _ hk => connect _ _ _ _ (below hs hk)) fun _ _ _ => .pure fun _ _ => trivial
  | disconnect e => exact (disconnect e).seq fun _ _ _ => .pure fun _ _ => trivial
  | removeSelf e => exact (edgeRemoveSelf e).seq fun _ _ _ => .pure fun _ _ => trivial
  | nodeValue n v => exact (nodeSetValue n v).seq fun _ _ _ => .pure fun _ _ => trivial
  | nodeLabel n v => exact Keeps.seq (x := nodeSetLabel n v) (modNode (by intro _; exact .inl rfl)) fun _ _ _ => .pure fun _ _ => trivial
  | nodeStyle n s => exact (nodeSetStyle n hs).seq fun _ _ _ => .pure fun _ _ => trivial
  | nodeFreeze n b => exact Keeps.seq (x := Verif.nodeFreeze n b) (modNode (by intro _; exact .inl rfl)) fun _ _ _ => .pure fun _ _ => trivial
  | nodeParam n a v => exact Keeps.seq (x := nodeSetParam n a v) (modNode (by intro _; exact .inl rfl)) fun _ _ _ => .pure fun _ _ => trivial
  | edgeValue n v => exact (edgeSetValue n v).seq fun _ _ _ => .pure fun _ _ => trivial
  | edgeLabel n v => exact Keeps.seq (x := edgeSetLabel n v) (modEdge (by intro _; exact .inl rfl)) fun _ _ _ => .pure fun _ _ => trivial
  | edgeStyle n s => exact (edgeSetStyle n hs).seq fun _ _ _ => .pure fun _ _ => trivial
  | edgeFreeze n b => exact Keeps.seq (x := Verif.edgeFreeze n b) (modEdge (by intro _; exact .inl rfl)) fun _ _ _ => .pure fun _ _ => trivial
  | edgeParam n a v => exact Keeps.seq (x := edgeSetParam n a v) (modEdge (by intro _; exact .inl rfl)) fun _ _ _ => .pure fun _ _ => trivial
  | copy g => exact (graphCopy g).seq fun _ _ _ => .pure fun _ _ => trivial
  | setOptions g s o => exact Keeps.seq (x := graphSetOptions g s o) modGraph fun _ _ _ => .pure fun _ _ => trivial

end Keeps

/-- Every call of the list mentions only existing style objects when its turn comes. -/
def AllStylesOk : List Op → Heap → Prop
  | [], _ => True
  | op :: ops, h => op.StylesOk h ∧ AllStylesOk ops (op.step h).2

/-- No history of calls makes a node or an edge use a style object that does not exist. -/
theorem Made.runOps {h : Heap} (m : Made h) (ops : List Op) (ok : AllStylesOk ops h) : Made (Verif.runOps ops h) := by
  induction ops generalizing h with
  | nil => exact m
  | cons op ops ih => exact ih (Keeps.step op ok.1 h (Nat.le_refl _) m).2.1 ok.2

theorem Made.init : Made Heap.init := by constructor <;> simp [Heap.init]

end Verif
