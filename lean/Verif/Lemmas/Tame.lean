import Verif.Lemmas.Repeat
/-!
# Styling once more: the phases of `stylize`
-/
namespace Verif
open Palette W
variable {C : Type}

/-- What the call does to the style of a node or an edge is a function of that style alone, of a kind. -/
def Tame (h : Heap) (x : W C Unit) (P : NRef → (Option (NodeStyle C) → Option (NodeStyle C)) → Prop)
    (Q : ERef → (Option (EdgeStyle C) → Option (EdgeStyle C)) → Prop) : Prop :=
  ∃ Φ Ψ, Paints h x Φ Ψ ∧ (∀ n, P n (Φ n)) ∧ ∀ e, Q e (Ψ e)

theorem Tame.seq {h : Heap} {x y : W C Unit} {P P' P'' Q Q' Q''} (sx : Silent x) (tx : Tame h x P Q) (ty : Tame h y P' Q')
    (hP : ∀ n f f', P n f → P' n f' → P'' n (fun o => f' (f o))) (hQ : ∀ n f f', Q n f → Q' n f' → Q'' n (fun o => f' (f o))) :
    Tame h (x >>= fun _ => y) P'' Q'' := by
  obtain ⟨Φ, Ψ, a, b, c⟩ := tx
  obtain ⟨Φ', Ψ', a', b', c'⟩ := ty
  exact ⟨_, _, a.seq sx a', fun n => hP n _ _ (b n) (b' n), fun n => hQ n _ _ (c n) (c' n)⟩

theorem Tame.nothing {h : Heap} {P Q} (hP : ∀ n, P n (fun o => o)) (hQ : ∀ n, Q n (fun o => o)) :
    Tame h (pure () : W C Unit) P Q := ⟨_, _, .nothing, hP, hQ⟩

theorem Tame.weaken {h : Heap} {x : W C Unit} {P P' Q Q'} (t : Tame h x P Q) (hP : ∀ n f, P n f → P' n f) (hQ : ∀ n f, Q n f → Q' n f) :
    Tame h x P' Q' := by
  obtain ⟨Φ, Ψ, a, b, c⟩ := t
  exact ⟨Φ, Ψ, a, fun n => hP n _ (b n), fun n => hQ n _ (c n)⟩

theorem Tame.forEach {α : Type} {h : Heap} {f : α → W C Unit} {l : List α} {P Q} (sf : ∀ a, Silent (f a)) (tf : ∀ a ∈ l, Tame h (f a) P Q)
    (iP : ∀ n, P n (fun o => o)) (iQ : ∀ n, Q n (fun o => o))
    (hP : ∀ n f f', P n f → P n f' → P n (fun o => f' (f o))) (hQ : ∀ n f f', Q n f → Q n f' → Q n (fun o => f' (f o))) :
    Tame h (Verif.forEach f l) P Q := by
  induction l with
  | nil => exact .nothing iP iQ
  | cons a l ih => exact .seq (sf a) (tf a (by simp)) (ih fun x hx => tf x (by simp [hx])) hP hQ

theorem Tame.ask {α : Type} {h : Heap} {q : World C → Except PyErr α} {V : Except PyErr α} (hq : ∀ w : World C, SameBody h w.heap → q w = V)
    {f : α → W C Unit} {P Q} (iP : ∀ n, P n (fun o => o)) (iQ : ∀ n, Q n (fun o => o)) (hf : ∀ a, V = .ok a → Tame h (f a) P Q) :
    Tame h (W.ask q >>= f) P Q := by
  cases hV : V with
  | error e =>
    exact ⟨_, _, .ask (Φ := fun _ o => o) (Ψ := fun _ o => o) hq (by intro a ha; rw [hV] at ha; cases ha), iP, iQ⟩
  | ok a =>
    obtain ⟨Φ, Ψ, t1, t2, t3⟩ := hf a hV
    refine ⟨Φ, Ψ, .ask hq ?_, t2, t3⟩
    intro b hb
    rw [hV] at hb
    cases hb
    exact t1

/-- Nothing happens. -/
def Same {S : Type} (_ : Nat) (f : Option S → Option S) : Prop := f = fun o => o

theorem same_id {S : Type} (n : Nat) : Same (S := S) n (fun o => o) := rfl
theorem same_comp {S : Type} (n : Nat) (f f' : Option S → Option S) (h : Same n f) (h' : Same n f') : Same n (fun o => f' (f o)) := by
  simp only [Same] at *; subst h; subst h'; rfl

section
variable [Palette C] {h : Heap} {g : GRef}

/-! ## The global styles -/

/-- Nodes of the list get a style, others keep theirs. -/
def SetOn {S : Type} (G : S → Prop) (l : List Nat) (n : Nat) (f : Option S → Option S) : Prop :=
  (n ∉ l ∧ ∀ o, f o = o) ∨ ∃ s, G s ∧ ∀ o, f o = some s

omit [Palette C] in
theorem setOn_id {S : Type} (G : S → Prop) (n : Nat) : SetOn G [] n (fun o => o) := .inl ⟨by simp, fun _ => rfl⟩

omit [Palette C] in
theorem setOn_cons {S : Type} {G : S → Prop} {l : List Nat} {a n : Nat} {f : Option S → Option S} {s : S} (hs : G s) (hf : SetOn G l n f) :
    SetOn G (a :: l) n (fun o => f (onlyAt a (fun _ => some s) n o)) := by
  rcases hf with ⟨h1, h2⟩ | ⟨t, h1, h2⟩
  · by_cases e : n = a
    · subst e; exact .inr ⟨s, hs, fun o => by simp only [h2]; simp⟩
    · exact .inl ⟨by simp [e, h1], fun o => by simp only [h2]; rw [onlyAt_ne e]⟩
  · exact .inr ⟨t, h1, fun o => by simp only [h2]⟩

theorem assignNodes_tame (l : List (NodeItem C)) (ns : List NRef) : Tame h (assignNodes l ns) (SetOn NodeStyle.Complete ns) Same := by
  cases hst : NodeStyle.ofItems l with
  | error e =>
    cases ns with
    | nil => exact .nothing (setOn_id _) same_id
    | cons n ns =>
      refine ⟨fun _ _ => some (.make { colour := none }), fun _ o => o, fun w w' O hok => ?_, fun n => .inr ⟨_, full_make _, fun _ => rfl⟩, same_id⟩
      unfold assignNodes at hok
      obtain ⟨w1, h1, h2⟩ := seq_ok hok
      rw [bind_apply, ask_apply, hst] at h2
      cases h2
  | ok st =>
    have := full_ofItems hst
    induction ns with
    | nil => exact .nothing (setOn_id _) same_id
    | cons n ns ih =>
      obtain ⟨Φ, Ψ, t1, t2, t3⟩ := ih
      refine ⟨_, _, .seq (.checkNode n) checkNode_effect (.ask (fun _ _ => hst) (Φ := fun m o => Φ m (onlyAt n (fun _ => some st) m o)) (Ψ := Ψ) ?_), ?_, t3⟩
      · intro a ha
        cases ha
        exact .seq (.assignNode n this) assignNode_effect t1
      · intro m
        exact setOn_cons this (t2 m)

theorem assignEdges_tame (l : List (EdgeItemStyle C)) (ns : List ERef) : Tame h (assignEdges l ns) Same (SetOn (fun _ => True) ns) := by
  cases hst : EdgeStyle.ofItems l with
  | error e =>
    cases ns with
    | nil => exact .nothing same_id (setOn_id _)
    | cons n ns =>
      refine ⟨fun _ o => o, fun _ _ => some (.make { colour := none }), fun w w' O hok => ?_, same_id, fun n => .inr ⟨_, trivial, fun _ => rfl⟩⟩
      unfold assignEdges at hok
      obtain ⟨w1, h1, h2⟩ := seq_ok hok
      rw [bind_apply, ask_apply, hst] at h2
      cases h2
  | ok st =>
    induction ns with
    | nil => exact .nothing same_id (setOn_id _)
    | cons n ns ih =>
      obtain ⟨Φ, Ψ, t1, t2, t3⟩ := ih
      refine ⟨_, _, .seq (.checkEdge n) checkEdge_effect (.ask (fun _ _ => hst) (Φ := Φ) (Ψ := fun m o => Ψ m (onlyAt n (fun _ => some st) m o)) ?_), t2, ?_⟩
      · intro a ha
        cases ha
        exact .seq (.assignEdge n (whole_ofItems hst)) assignEdge_effect t1
      · intro m
        exact setOn_cons trivial (t3 m)

omit [Palette C] in
theorem smartStyle_same {h h' : Heap} (S : SameBody h h') (g : GRef) (l : List (NodeItem C)) : smartStyle h' g l = smartStyle h g l := by
  unfold smartStyle
  rw [S.graphNodes g]
  simp only [S.nodeId]

theorem globalNodeAssign_tame (o : Option (List (NodeItem C))) :
    Tame h (globalNodeAssign g o) (fun _ => IdOrConst NodeStyle.Complete) Same := by
  cases o with
  | none => exact .nothing (fun _ => .id fun _ => rfl) same_id
  | some l =>
    refine .ask (V := smartStyle h g l) (fun w S => smartStyle_same S g l) (fun _ => .id fun _ => rfl) same_id fun l' hl => ?_
    refine .ask (q := fun w => .ok (graphNodes w.heap g)) (V := .ok (graphNodes h g)) (fun w S => by rw [S.graphNodes]) (fun _ => .id fun _ => rfl) same_id fun ns _ => ?_
    refine (assignNodes_tame l' ns).weaken ?_ (fun _ _ h => h)
    rintro n f (⟨-, h2⟩ | ⟨s, h1, h2⟩)
    · exact .id h2
    · exact .const s h1 h2

/-- Nothing happens, or `e` is an edge of the graph, there is a global style, and the style is set. -/
def EdgeBase (h : Heap) (g : GRef) (o : Option (List (EdgeItemStyle C))) (e : ERef) (f : Option (EdgeStyle C) → Option (EdgeStyle C)) : Prop :=
  ((∀ x, f x = x) ∧ (o = none ∨ ∀ es, graphEdges h g = .ok es → e ∉ es)) ∨ ∃ s, ∀ x, f x = some s

theorem globalEdgeAssign_tame (o : Option (List (EdgeItemStyle C))) : Tame h (globalEdgeAssign g o) Same (EdgeBase h g o) := by
  cases o with
  | none => exact .nothing same_id (fun _ => .inl ⟨fun _ => rfl, .inl rfl⟩)
  | some l =>
    cases hes : graphEdges h g with
    | error err =>
      refine ⟨fun _ o => o, fun _ o => o, .ask (fun w S => by rw [← S.graphEdges, hes]) ?_, same_id, fun e => .inl ⟨fun _ => rfl, .inr ?_⟩⟩
      · intro a ha; cases ha
      · intro es hes'; rw [hes] at hes'; cases hes'
    | ok es =>
      obtain ⟨Φ, Ψ, t1, t2, t3⟩ := assignEdges_tame (h := h) l es
      refine ⟨Φ, Ψ, .ask (fun w S => by rw [← S.graphEdges, hes]) ?_, t2, fun e => ?_⟩
      · intro a ha; cases ha; exact t1
      · rcases t3 e with ⟨h1, h2⟩ | ⟨s, -, h2⟩
        · exact .inl ⟨h2, .inr fun es' hes' => by rw [hes] at hes'; cases hes'; exact h1⟩
        · exact .inr ⟨s, h2⟩

/-! ## The overwrites -/

theorem nodeStyleOverwrite_tame (p : Key × List (NodeItem C)) : Tame h (nodeStyleOverwrite g p) (fun _ => NodeFn) Same :=
  .ask (V := getNode h g (.key p.1)) (fun w S => (S.getNode _ _).symm) (fun _ => .id) same_id fun n _ =>
    ⟨_, _, complementNode_effect, fun m => (NodeFn.complement p.2).only n m, same_id⟩

omit [Palette C] in
theorem edgeById_same {h h' : Heap} (S : SameBody h h') (g : GRef) (i : EdgeId) : edgeById h' g i = edgeById h g i := by
  unfold edgeById; rw [S.edgesDict g]

theorem edgeStyleOverwrite_tame (p : EdgeId × List (EdgeItemStyle C)) : Tame h (edgeStyleOverwrite g p) Same (fun _ => EdgeFn) := by
  refine .ask (V := edgeById h g p.1) (fun _ S => edgeById_same S _ _) same_id (fun _ => .id fun _ => rfl) fun n _ => ?_
  refine (assignEdges_tame p.2 [n]).weaken (fun _ _ h => h) ?_
  rintro n f (⟨-, h2⟩ | ⟨s, -, h2⟩)
  · exact .id h2
  · exact .const s h2

/-- `node.style = node.style` recoloured. -/
def recolourNode (c : C) (n : NRef) : W C Unit := do
  match ← W.look (fun w => (w.heap.node n).style) with
  | none => W.raise .attributeError
  | some s => do
    let st ← W.look (fun w => w.ns s)
    assignNode n (st.recolour c)

/-- `edge.style = edge.style` recoloured. -/
def redyeEdge (c : C) (e : ERef) : W C Unit := do
  match ← W.look (fun w => (w.heap.edge e).style) with
  | none => W.raise .attributeError
  | some s => do
    let st ← W.ask (fun w => (w.es s).copy)
    assignEdge e (st.resetColours.setColour c)

theorem recolourNode_effect (c : C) (n : NRef) : Paints h (recolourNode c n) (onlyAt n (Option.map (·.recolour c))) (fun _ o => o) := by
  intro w w' O hok
  simp only [recolourNode, W.bind_apply, look_apply] at hok
  cases hs : (w.heap.node n).style with
  | none => rw [hs] at hok; cases hok
  | some s =>
    rw [hs] at hok
    simp only [W.bind_apply, look_apply] at hok
    obtain ⟨a, b⟩ := assignNode_effect w w' O hok
    refine ⟨fun m => ?_, b⟩
    rw [a]
    by_cases hm : m = n
    · subst hm; simp [nodeLook, hs]
    · rw [onlyAt_ne hm, onlyAt_ne hm]

theorem redyeEdge_effect (c : C) (n : ERef) : Paints h (redyeEdge c n) (fun _ o => o) (onlyAt n (Option.map (·.redye c))) := by
  intro w w' O hok
  simp only [redyeEdge, W.bind_apply, look_apply] at hok
  cases hs : (w.heap.edge n).style with
  | none => rw [hs] at hok; cases hok
  | some s =>
    rw [hs] at hok
    simp only [W.bind_apply, ask_apply] at hok
    cases hc : (w.es s).copy with
    | error e => rw [hc] at hok; cases hok
    | ok st =>
    rw [hc] at hok
    obtain rfl := copy_ok hc
    obtain ⟨a, b⟩ := assignEdge_effect w w' O hok
    refine ⟨a, fun m => ?_⟩
    rw [b]
    by_cases hm : m = n
    · subst hm; simp [edgeLook, hs, EdgeStyle.redye]
    · rw [onlyAt_ne hm, onlyAt_ne hm]

theorem nodeColourOverwrite_tame (p : Key × C) : Tame h (nodeColourOverwrite g p) (fun _ => NodeFn) Same :=
  .ask (V := getNode h g (.key p.1)) (fun w S => (S.getNode _ _).symm) (fun _ => .id) same_id fun n _ =>
    ⟨_, _, recolourNode_effect p.2 n, fun m => (NodeFn.recolour p.2).only n m, same_id⟩

theorem edgeColourOverwrite_tame (p : EdgeId × C) : Tame h (edgeColourOverwrite g p) Same (fun _ => EdgeFn) :=
  .ask (V := edgeById h g p.1) (fun _ S => edgeById_same S _ _) same_id (fun _ => .id fun _ => rfl) fun n _ =>
    ⟨_, _, redyeEdge_effect p.2 n, same_id, fun m => EdgeFn.only (.redye p.2 fun _ => rfl) n m⟩

theorem globalNodeComplement_tame (o : Option (List (NodeItem C))) : Tame h (globalNodeComplement g o) (fun _ => NodeFn) Same := by
  cases o with
  | none => exact .nothing (fun _ => .id) same_id
  | some l =>
    refine .ask (V := smartStyle h g l) (fun w S => smartStyle_same S g l) (fun _ => .id) same_id fun l' hl => ?_
    refine .ask (q := fun w => .ok (graphNodes w.heap g)) (V := .ok (graphNodes h g)) (fun w S => by rw [S.graphNodes]) (fun _ => .id) same_id fun ns _ => ?_
    exact .forEach (.complementNode _) (fun n _ => ⟨_, _, complementNode_effect, fun m => (NodeFn.complement l').only n m, same_id⟩)
      (fun _ => .id) same_id (fun _ _ _ a b => a.comp b) same_comp

/-- Nothing happens to what is no edge of the graph, or if there is no global style. -/
def EdgeTop (h : Heap) (g : GRef) (o : Option (List (EdgeItemStyle C))) (e : ERef) (f : Option (EdgeStyle C) → Option (EdgeStyle C)) : Prop :=
  (o = none ∨ ∀ es, graphEdges h g = .ok es → e ∉ es) → f = fun x => x

omit [Palette C] in
theorem globalEdgeComplement_tame (o : Option (List (EdgeItemStyle C))) : Tame h (globalEdgeComplement g o) Same (EdgeTop h g o) := by
  cases o with
  | none => exact .nothing same_id (fun _ _ => rfl)
  | some l =>
    refine .ask (V := graphEdges h g) (fun w S => by rw [← S.graphEdges]) same_id (fun _ _ => rfl) fun es hes => ?_
    refine .forEach (.complementEdge _) (fun n hn => ⟨_, _, complementEdge_effect, same_id, fun m => ?_⟩) same_id (fun _ _ => rfl) same_comp ?_
    · rintro (h1 | h1)
      · cases h1
      · have : m ≠ n := by rintro rfl; exact h1 es hes hn
        funext o; rw [onlyAt_ne this]
    · intro e f f' a b c
      rw [a c, b c]

end
end Verif
