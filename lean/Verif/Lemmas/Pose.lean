import Verif.Lemmas.Twin
import Verif.Lemmas.Strip
import Verif.Lemmas.Made
import Verif.Model.Render
import Verif.Spec.Paint
/-!
# Two graphs that look alike are painted and drawn alike

`Pose`: two worlds in which two graphs look alike, styles included. Every step of `stylize` leads from such worlds to such worlds, and
the Graphviz sources are equal.
-/
namespace Verif
open List (Forall₂)

/-- The part of the worlds that styling does not change: two heaps without styles. -/
structure Frame (h : Heap) (g : GRef) (h' : Heap) (g' : GRef) (T : NRef → NRef → Prop) (E : ERef → ERef → Prop) : Prop where
  twin : Twin h g h' g' T E
  homes : Twin.Homes h g h' g' T
  one : ∀ {n n' m m'}, T n n' → T m m' → (n = m ↔ n' = m')
  edgeHome : ∀ {e e'}, E e e' → (h.edge e).graph = some g ∧ (h'.edge e').graph = some g'
  notes : ∀ {e e'}, E e e' → edgeNotes h e = edgeNotes h' e'
  strict : (h.graph g).strict = (h'.graph g').strict
  ordering : (h.graph g).ordering = (h'.graph g').ordering

section
variable {C : Type}

/-- Styles included, what is seen of the two graphs is the same. -/
structure Look (h : Heap) (g : GRef) (h' : Heap) (g' : GRef) (T : NRef → NRef → Prop) (E : ERef → ERef → Prop) (w w' : World C) : Prop where
  body : strip w.heap = h
  body' : strip w'.heap = h'
  display : w.display g = w'.display g'
  node : ∀ {n n'}, T n n' → nodeLook w n = nodeLook w' n'
  edge : ∀ {e e'}, E e e' → edgeLook w e = edgeLook w' e'

/-- Besides, style objects are shared alike, nodes compare alike, and styles may be overwritten alike. -/
structure Pose (h : Heap) (g : GRef) (h' : Heap) (g' : GRef) (T : NRef → NRef → Prop) (E : ERef → ERef → Prop) (w w' : World C) : Prop
    extends Look h g h' g' T E w w' where
  made : Made w.heap
  made' : Made w'.heap
  may : (h.graph g).overwrite = (h'.graph g').overwrite
  less : ∀ {n n' m m'}, T n n' → T m m' → nodeLt h n m = nodeLt h' n' m'
  shareN : ∀ {n n' m m'}, T n n' → T m m' → ((w.heap.node n).style = (w.heap.node m).style ↔ (w'.heap.node n').style = (w'.heap.node m').style)
  shareE : ∀ {e e' f f'}, E e e' → E f f' → ((w.heap.edge e).style = (w.heap.edge f).style ↔ (w'.heap.edge e').style = (w'.heap.edge f').style)

/-- Both calls return related results or raise the same, and `P` holds again. -/
def RelW {α β : Type} (P : World C → World C → Prop) (R : α → β → Prop) (x : W C α) (y : W C β) : Prop :=
  ∀ w w', P w w' → RelE R (x w).1 (y w').1 ∧ P (x w).2 (y w').2

namespace RelW
variable {α β γ δ : Type} {P : World C → World C → Prop} {R : α → β → Prop} {S : γ → δ → Prop}

theorem bind {x : W C α} {y : W C β} {f : α → W C γ} {k : β → W C δ} (h : RelW P R x y) (hf : ∀ a b, R a b → RelW P S (f a) (k b)) :
    RelW P S (x >>= f) (y >>= k) := by
  intro w w' p
  obtain ⟨h1, h2⟩ := h w w' p
  simp only [W.bind_apply]
  rcases hx : x w with ⟨a, v⟩
  rcases hy : y w' with ⟨b, v'⟩
  simp only [hx, hy] at h1 h2
  cases a <;> cases b
  · exact ⟨h1, h2⟩
  · exact absurd h1 id
  · exact absurd h1 id
  · exact hf _ _ h1 _ _ h2

theorem pure {a : α} {b : β} (h : R a b) : RelW P R (Pure.pure a : W C α) (Pure.pure b : W C β) := fun _ _ p => ⟨h, p⟩

theorem raise (e : PyErr) : RelW P R (W.raise e : W C α) (W.raise e : W C β) := fun _ _ p => ⟨rfl, p⟩

theorem ask {q : World C → Except PyErr α} {q' : World C → Except PyErr β} (h : ∀ w w', P w w' → RelE R (q w) (q' w')) :
    RelW P R (W.ask q) (W.ask q') := fun w w' p => ⟨h w w' p, p⟩

theorem askEq {q q' : World C → Except PyErr α} (h : ∀ w w', P w w' → q w = q' w') :
    RelW P (fun a b => a = b) (W.ask q) (W.ask q') := fun w w' p => ⟨RelE.of_eq (h w w' p), p⟩

theorem look {q : World C → α} {q' : World C → β} (h : ∀ w w', P w w' → R (q w) (q' w')) :
    RelW P R (W.look q) (W.look q') := fun w w' p => ⟨h w w' p, p⟩

theorem forEach {f : α → W C Unit} {k : β → W C Unit} {l : List α} {l' : List β} (h : Forall₂ R l l')
    (hf : ∀ a b, R a b → RelW P (fun _ _ => True) (f a) (k b)) : RelW P (fun _ _ => True) (Verif.forEach f l) (Verif.forEach k l') := by
  induction h with
  | nil => exact pure trivial
  | cons h1 _ ih => exact (hf _ _ h1).bind fun _ _ _ => ih

end RelW

theorem forall₂_eq {α : Type} (l : List α) : Forall₂ (fun a b => a = b) l l := by
  induction l with
  | nil => exact .nil
  | cons a l ih => exact .cons rfl ih

theorem RelE.mapE {α β γ δ : Type} {R : α → β → Prop} {S : γ → δ → Prop} {l : List α} {l' : List β} {f : α → Except PyErr γ}
    {k : β → Except PyErr δ} (h : Forall₂ R l l') (hf : ∀ a b, R a b → RelE S (f a) (k b)) :
    RelE (Forall₂ S) (Verif.mapE f l) (Verif.mapE k l') := by
  induction h with
  | nil => exact .nil
  | cons h1 _ ih => exact (hf _ _ h1).bind fun _ _ hy => ih.bind fun _ _ hys => .cons hy hys

end

/-! ## What is asked of the heap -/

namespace Frame
variable {h h' : Heap} {g g' : GRef} {T : NRef → NRef → Prop} {E : ERef → ERef → Prop} (F : Frame h g h' g' T E)
include F

theorem nodeIsInLoop {lim : Nat} {n n' : NRef} (hn : T n n') : Verif.nodeIsInLoop lim h n = Verif.nodeIsInLoop lim h' n' :=
  RelE.eq ((F.homes hn).bind fun a b hab => by rw [hab.1, hab.2]; exact RelE.of_eq (F.twin.isNodeInLoop (.node hn)))

theorem nodeIsInLoopWith {lim : Nat} {n n' m m' : NRef} (hn : T n n') (hm : T m m') :
    Verif.nodeIsInLoopWith lim h n m = Verif.nodeIsInLoopWith lim h' n' m' :=
  RelE.eq ((F.homes hn).bind fun a b hab => by
    rw [hab.1, hab.2]; exact RelE.of_eq (F.twin.areNodesInSameLoop (.node hn) (.node hm)))

theorem isRootOrParentsInLoop {lim : Nat} {n n' : NRef} (hn : T n n') :
    Verif.isRootOrParentsInLoop lim h n = Verif.isRootOrParentsInLoop lim h' n' := by
  refine RelE.eq ((F.twin.nodeParents F.homes hn).bind fun ps ps' hp => ?_)
  refine RelE.bind (RelE.filterE hp fun a b hab => by rw [F.nodeIsInLoop hab]; exact RelE.of_eq rfl) fun o o' ho => ?_
  show decide _ = decide _
  rw [ho.length_eq]

theorem insertNode (le : ∀ {n n' m m'}, T n n' → T m m' → nodeLt h n m = nodeLt h' n' m') {x x' : NRef} {l l' : List NRef} (hx : T x x') (hl : Forall₂ T l l') :
    RelE (Forall₂ T) (Verif.insertNode h x l) (Verif.insertNode h' x' l') := by
  induction hl with
  | nil => exact .cons hx .nil
  | cons h1 h2 ih =>
    simp only [Verif.insertNode]
    refine (RelE.of_eq (le hx h1)).bind fun b b' hb => ?_
    subst hb
    cases b
    · exact ih.bind fun r r' hr => .cons h1 hr
    · exact .cons hx (.cons h1 h2)

theorem sortNodes (le : ∀ {n n' m m'}, T n n' → T m m' → nodeLt h n m = nodeLt h' n' m') {l l' : List NRef} (hl : Forall₂ T l l') : RelE (Forall₂ T) (Verif.sortNodes h l) (Verif.sortNodes h' l') :=
  RelE.foldlM hl .nil fun _ _ _ _ ha hx => F.insertNode le hx ha

theorem findIdx {n n' : NRef} (hn : T n n') {l l' : List NRef} (hl : Forall₂ T l l') :
    l.findIdx (fun y => decide (y = n) || nodeEq h y n) = l'.findIdx (fun y => decide (y = n') || nodeEq h' y n') := by
  induction hl with
  | nil => rfl
  | cons h1 _ ih => simp only [List.findIdx_cons, F.twin.same h1 hn, ih]

theorem getChildRank (le : ∀ {n n' m m'}, T n n' → T m m' → nodeLt h n m = nodeLt h' n' m') {n n' p p' : NRef} (hn : T n n') (hp : T p p') : Verif.getChildRank h n p = Verif.getChildRank h' n' p' := by
  refine RelE.eq ((F.twin.nodeChildren F.homes hp).bind fun cs cs' hc => ?_)
  rw [F.twin.memNode hn hc]
  split
  · exact (F.sortNodes le hc).bind fun s s' hs => F.findIdx hn hs
  · exact rfl

end Frame

namespace Look
variable {C : Type} {h h' : Heap} {g g' : GRef} {T : NRef → NRef → Prop} {E : ERef → ERef → Prop}

section
variable {w w' : World C} (F : Frame h g h' g' T E) (P : Look h g h' g' T E w w')
include F P

omit F in
theorem via {α β : Type} {R : α → β → Prop} {q : Heap → α} {q' : Heap → β} (s : ∀ h, q (strip h) = q h) (s' : ∀ h, q' (strip h) = q' h)
    (r : R (q h) (q' h')) : R (q w.heap) (q' w'.heap) := by
  rw [← s, ← s', P.body, P.body']
  exact r

theorem graphNodes : Forall₂ T (graphNodes w.heap g) (Verif.graphNodes w'.heap g') :=
  P.via (R := Forall₂ T) (q := (Verif.graphNodes · g)) (q' := (Verif.graphNodes · g')) (fun _ => rfl) (fun _ => rfl) F.twin.nodes

theorem graphEdges : RelE (Forall₂ E) (graphEdges w.heap g) (Verif.graphEdges w'.heap g') :=
  P.via (R := RelE (Forall₂ E)) (q := (Verif.graphEdges · g)) (q' := (Verif.graphEdges · g')) (fun h => Strip.graphEdges h g)
    (fun h => Strip.graphEdges h g') F.twin.graphEdges

theorem edgesDict : RelE (DictRel E) (edgesDict w.heap g) (Verif.edgesDict w'.heap g') :=
  P.via (R := RelE (DictRel E)) (q := (Verif.edgesDict · g)) (q' := (Verif.edgesDict · g')) (fun h => Strip.edgesDict h g)
    (fun h => Strip.edgesDict h g') F.twin.edgesDict

theorem getNode (k : Key) : RelE T (getNode w.heap g (.key k)) (Verif.getNode w'.heap g' (.key k)) :=
  P.via (R := RelE T) (q := (Verif.getNode · g (.key k))) (q' := (Verif.getNode · g' (.key k))) (fun _ => rfl) (fun _ => rfl)
    (F.twin.find k)

theorem nodeParents {n n' : NRef} (hn : T n n') : RelE (Forall₂ T) (nodeParents w.heap n) (Verif.nodeParents w'.heap n') :=
  P.via (R := RelE (Forall₂ T)) (q := (Verif.nodeParents · n)) (q' := (Verif.nodeParents · n')) (fun h => Strip.nodeParents h n)
    (fun h => Strip.nodeParents h n') (F.twin.nodeParents F.homes hn)

theorem nodeChildren {n n' : NRef} (hn : T n n') : RelE (Forall₂ T) (nodeChildren w.heap n) (Verif.nodeChildren w'.heap n') :=
  P.via (R := RelE (Forall₂ T)) (q := (Verif.nodeChildren · n)) (q' := (Verif.nodeChildren · n')) (fun h => Strip.nodeChildren h n)
    (fun h => Strip.nodeChildren h n') (F.twin.nodeChildren F.homes hn)

theorem isRootOrParentsInLoop {lim : Nat} {n n' : NRef} (hn : T n n') :
    isRootOrParentsInLoop lim w.heap n = Verif.isRootOrParentsInLoop lim w'.heap n' :=
  P.via (R := fun a b => a = b) (q := (Verif.isRootOrParentsInLoop lim · n)) (q' := (Verif.isRootOrParentsInLoop lim · n'))
    (fun h => Strip.isRootOrParentsInLoop h lim n) (fun h => Strip.isRootOrParentsInLoop h lim n') (F.isRootOrParentsInLoop hn)

theorem nodeIsInLoop {lim : Nat} {n n' : NRef} (hn : T n n') : nodeIsInLoop lim w.heap n = Verif.nodeIsInLoop lim w'.heap n' :=
  P.via (R := fun a b => a = b) (q := (Verif.nodeIsInLoop lim · n)) (q' := (Verif.nodeIsInLoop lim · n'))
    (fun h => Strip.nodeIsInLoop h lim n) (fun h => Strip.nodeIsInLoop h lim n') (F.nodeIsInLoop hn)

theorem nodeIsInLoopWith {lim : Nat} {n n' m m' : NRef} (hn : T n n') (hm : T m m') :
    nodeIsInLoopWith lim w.heap n m = Verif.nodeIsInLoopWith lim w'.heap n' m' :=
  P.via (R := fun a b => a = b) (q := (Verif.nodeIsInLoopWith lim · n m)) (q' := (Verif.nodeIsInLoopWith lim · n' m'))
    (fun h => Strip.nodeIsInLoopWith h lim n m) (fun h => Strip.nodeIsInLoopWith h lim n' m') (F.nodeIsInLoopWith hn hm)

theorem edgeStart {e e' : ERef} (he : E e e') : RelE T (edgeStart w.heap e) (Verif.edgeStart w'.heap e') :=
  P.via (R := RelE T) (q := (Verif.edgeStart · e)) (q' := (Verif.edgeStart · e')) (fun _ => rfl) (fun _ => rfl) (F.twin.start he)

theorem edgeEnd {e e' : ERef} (he : E e e') : RelE T (edgeEnd w.heap e) (Verif.edgeEnd w'.heap e') :=
  P.via (R := RelE T) (q := (Verif.edgeEnd · e)) (q' := (Verif.edgeEnd · e')) (fun _ => rfl) (fun _ => rfl) (F.twin.stop he)

theorem nodeGraph {n n' : NRef} (hn : T n n') :
    ((w.heap.node n).graph = none ∧ (w'.heap.node n').graph = none) ∨ ((w.heap.node n).graph = some g ∧ (w'.heap.node n').graph = some g') := by
  have h1 : RelE (fun a b => a = g ∧ b = g') (Verif.nodeGraph w.heap n) (Verif.nodeGraph w'.heap n') :=
    P.via (R := RelE (fun a b => a = g ∧ b = g')) (q := (Verif.nodeGraph · n)) (q' := (Verif.nodeGraph · n')) (fun _ => rfl) (fun _ => rfl)
      (F.homes hn)
  unfold Verif.nodeGraph at h1
  cases h2 : (w.heap.node n).graph <;> cases h3 : (w'.heap.node n').graph <;> simp only [h2, h3] at h1
  · exact .inl ⟨rfl, rfl⟩
  · exact absurd h1 id
  · exact absurd h1 id
  · exact .inr ⟨by rw [h1.1], by rw [h1.2]⟩

theorem edgeGraph {e e' : ERef} (he : E e e') : (w.heap.edge e).graph = some g ∧ (w'.heap.edge e').graph = some g' :=
  P.via (R := fun a b => a = some g ∧ b = some g') (q := fun h => (h.edge e).graph) (q' := fun h => (h.edge e').graph) (fun _ => rfl)
    (fun _ => rfl) (F.edgeHome he)

theorem nodeNotes {n n' : NRef} (hn : T n n') :
    (w.heap.node n).id = (w'.heap.node n').id ∧ (w.heap.node n).tooltip = (w'.heap.node n').tooltip ∧
      Verif.nodeLabel w.heap n = Verif.nodeLabel w'.heap n' := by
  refine ⟨?_, ?_, P.via (R := fun a b => a = b) (q := (Verif.nodeLabel · n)) (q' := (Verif.nodeLabel · n')) (fun _ => rfl) (fun _ => rfl)
    (F.twin.nodeLabel hn)⟩
  · exact P.via (R := fun a b => a = b) (q := fun h => (h.node n).id) (q' := fun h => (h.node n').id) (fun _ => rfl) (fun _ => rfl)
      (congrArg Prod.fst (F.twin.text hn))
  · exact P.via (R := fun a b => a = b) (q := fun h => (h.node n).tooltip) (q' := fun h => (h.node n').tooltip) (fun _ => rfl) (fun _ => rfl)
      (congrArg (fun p => p.2.tooltip) (F.twin.text hn))

theorem edgeNotes {e e' : ERef} (he : E e e') :
    (w.heap.edge e).value = (w'.heap.edge e').value ∧ (w.heap.edge e).label = (w'.heap.edge e').label ∧
      (w.heap.edge e).tooltip = (w'.heap.edge e').tooltip := by
  have h1 := F.notes he
  exact ⟨P.via (R := fun a b => a = b) (q := fun h => (h.edge e).value) (q' := fun h => (h.edge e').value) (fun _ => rfl) (fun _ => rfl)
      (congrArg Notes.value h1),
    P.via (R := fun a b => a = b) (q := fun h => (h.edge e).label) (q' := fun h => (h.edge e').label) (fun _ => rfl) (fun _ => rfl)
      (congrArg Notes.label h1),
    P.via (R := fun a b => a = b) (q := fun h => (h.edge e).tooltip) (q' := fun h => (h.edge e').tooltip) (fun _ => rfl) (fun _ => rfl)
      (congrArg Notes.tooltip h1)⟩

omit F in
theorem nodeStyle {n n' : NRef} (hn : T n n') : ((w.heap.node n).style = none ∧ (w'.heap.node n').style = none) ∨
    ∃ s s', (w.heap.node n).style = some s ∧ (w'.heap.node n').style = some s' ∧ w.ns s = w'.ns s' := by
  have h1 := P.node hn
  simp only [nodeLook] at h1
  cases h2 : (w.heap.node n).style <;> cases h3 : (w'.heap.node n').style <;> simp only [h2, h3, Option.map_none, Option.map_some] at h1
  · exact .inl ⟨rfl, rfl⟩
  · cases h1
  · cases h1
  · exact .inr ⟨_, _, rfl, rfl, Option.some.inj h1⟩

omit F in
theorem edgeStyle {n n' : ERef} (hn : E n n') : ((w.heap.edge n).style = none ∧ (w'.heap.edge n').style = none) ∨
    ∃ s s', (w.heap.edge n).style = some s ∧ (w'.heap.edge n').style = some s' ∧ w.es s = w'.es s' := by
  have h1 := P.edge hn
  simp only [edgeLook] at h1
  cases h2 : (w.heap.edge n).style <;> cases h3 : (w'.heap.edge n').style <;> simp only [h2, h3, Option.map_none, Option.map_some] at h1
  · exact .inl ⟨rfl, rfl⟩
  · cases h1
  · cases h1
  · exact .inr ⟨_, _, rfl, rfl, Option.some.inj h1⟩

end
end Look

namespace Pose
variable {C : Type} {h h' : Heap} {g g' : GRef} {T : NRef → NRef → Prop} {E : ERef → ERef → Prop}

section
variable {w w' : World C} (F : Frame h g h' g' T E) (P : Pose h g h' g' T E w w')
include F P

theorem getChildRank {n n' p p' : NRef} (hn : T n n') (hp : T p p') : getChildRank w.heap n p = Verif.getChildRank w'.heap n' p' :=
  P.toLook.via (R := fun a b => a = b) (q := (Verif.getChildRank · n p)) (q' := (Verif.getChildRank · n' p'))
    (fun h => Strip.getChildRank h n p) (fun h => Strip.getChildRank h n' p') (F.getChildRank P.less hn hp)

omit F in
theorem overwrite : (w.heap.graph g).overwrite = (w'.heap.graph g').overwrite :=
  P.via (R := fun a b => a = b) (q := fun h => (h.graph g).overwrite) (q' := fun h => (h.graph g').overwrite) (fun _ => rfl) (fun _ => rfl)
    P.may

theorem checkNode {n n' : NRef} (hn : T n n') :
    (checkOverwrite (w.heap.node n).style (w.heap.node n).graph w.heap).1 =
      (checkOverwrite (w'.heap.node n').style (w'.heap.node n').graph w'.heap).1 := by
  have ho := P.overwrite
  rcases P.nodeStyle hn with ⟨e, e'⟩ | ⟨s, s', e, e', -⟩ <;> rcases P.nodeGraph F hn with ⟨f, f'⟩ | ⟨f, f'⟩ <;>
    simp only [e, e', f, f', checkOverwrite]
  all_goals try rfl
  simp only [M.bind_apply, M.look_apply, ho]
  cases (w'.heap.graph g').overwrite with
  | none => rfl
  | some b => cases b <;> rfl

theorem checkEdge {n n' : ERef} (hn : E n n') :
    (checkOverwrite (w.heap.edge n).style (w.heap.edge n).graph w.heap).1 =
      (checkOverwrite (w'.heap.edge n').style (w'.heap.edge n').graph w'.heap).1 := by
  have ho := P.overwrite
  obtain ⟨f, f'⟩ := P.edgeGraph F hn
  rcases P.edgeStyle hn with ⟨e, e'⟩ | ⟨s, s', e, e', -⟩ <;> simp only [e, e', f, f', checkOverwrite]
  · rfl
  simp only [M.bind_apply, M.look_apply, ho]
  cases (w'.heap.graph g').overwrite with
  | none => rfl
  | some b => cases b <;> rfl

end
end Pose

section
variable {C : Type}

/-- What assigning a new style does. -/
theorem assignNode_eq (n : NRef) (st : NodeStyle C) (w : World C) :
    assignNode n st w = match (checkOverwrite (w.heap.node n).style (w.heap.node n).graph w.heap).1 with
      | .error e => (.error e, w)
      | .ok _ => (.ok (), { w with heap := { w.heap with node := upd w.heap.node n { w.heap.node n with style := some w.heap.nStyle }, nStyle := w.heap.nStyle + 1 }, ns := upd w.ns w.heap.nStyle st }) := by
  have h1 := checkOverwrite_heap (w.heap.node n).style (w.heap.node n).graph w.heap
  simp only [assignNode, W.bind_apply, W.look_apply, W.lift, nodeSetStyle, M.bind_apply, M.look_apply]
  rcases hc : checkOverwrite (w.heap.node n).style (w.heap.node n).graph w.heap with ⟨r, h'⟩
  rw [hc] at h1
  simp only at h1
  subst h1
  cases r with
  | error e => rfl
  | ok u => simp [resolveStyle, M.newStyle, M.modNode, W.setNs]

theorem assignEdge_eq (n : ERef) (st : EdgeStyle C) (w : World C) :
    assignEdge n st w = match (checkOverwrite (w.heap.edge n).style (w.heap.edge n).graph w.heap).1 with
      | .error e => (.error e, w)
      | .ok _ => (.ok (), { w with heap := { w.heap with edge := upd w.heap.edge n { w.heap.edge n with style := some w.heap.nStyle }, nStyle := w.heap.nStyle + 1 }, es := upd w.es w.heap.nStyle st }) := by
  have h1 := checkOverwrite_heap (w.heap.edge n).style (w.heap.edge n).graph w.heap
  simp only [assignEdge, W.bind_apply, W.look_apply, W.lift, edgeSetStyle, M.bind_apply, M.look_apply]
  rcases hc : checkOverwrite (w.heap.edge n).style (w.heap.edge n).graph w.heap with ⟨r, h'⟩
  rw [hc] at h1
  simp only at h1
  subst h1
  cases r with
  | error e => rfl
  | ok u => simp [resolveStyle, M.newStyle, M.modEdge, W.setEs]

end

namespace Pose
variable {C : Type} {h h' : Heap} {g g' : GRef} {T : NRef → NRef → Prop} {E : ERef → ERef → Prop} (F : Frame h g h' g' T E)
include F

/-- Two nodes that correspond get a new style each, with the same contents. -/
theorem newNode {w w' : World C} (P : Pose h g h' g' T E w w') {n n' : NRef} (hn : T n n') (st : NodeStyle C) :
    Pose h g h' g' T E
      { w with heap := { w.heap with node := upd w.heap.node n { w.heap.node n with style := some w.heap.nStyle }, nStyle := w.heap.nStyle + 1 }, ns := upd w.ns w.heap.nStyle st }
      { w' with heap := { w'.heap with node := upd w'.heap.node n' { w'.heap.node n' with style := some w'.heap.nStyle }, nStyle := w'.heap.nStyle + 1 }, ns := upd w'.ns w'.heap.nStyle st } := by
  have body : ∀ (w : World C) n, strip { w.heap with node := upd w.heap.node n { w.heap.node n with style := some w.heap.nStyle }, nStyle := w.heap.nStyle + 1 } = strip w.heap := by
    intro w n
    simp only [strip, Heap.mk.injEq, true_and, and_true]
    funext m
    by_cases hm : m = n
    · subst hm; simp
    · simp [upd_ne _ _ hm]
  have made : ∀ {w : World C} (_ : Made w.heap) n, Made { w.heap with node := upd w.heap.node n { w.heap.node n with style := some w.heap.nStyle }, nStyle := w.heap.nStyle + 1 } := by
    intro w M n
    refine ⟨fun m s hm => ?_, fun e s he => Nat.lt_succ_of_lt (M.edge e s he)⟩
    simp only at hm ⊢
    by_cases e : m = n
    · subst e; simp at hm; rw [← hm]; exact Nat.lt_succ_self _
    · rw [upd_ne _ _ e] at hm; exact Nat.lt_succ_of_lt (M.node m s hm)
  have old : ∀ {w : World C} (_ : Made w.heap) m, ¬ (w.heap.node m).style = some w.heap.nStyle :=
    fun M m e => Nat.lt_irrefl _ (M.node m _ e)
  refine ⟨⟨(body w n).trans P.body, (body w' n').trans P.body', P.display, ?_, P.edge⟩, made P.made n, made P.made' n', P.may, P.less, ?_, P.shareE⟩
  · intro m m' hm
    simp only [nodeLook]
    by_cases e : m = n
    · have e' := (F.one hm hn).1 e
      subst e; subst e'
      simp
    · have e' : ¬ m' = n' := fun x => e ((F.one hm hn).2 x)
      rw [upd_ne _ _ e, upd_ne _ _ e']
      rcases P.nodeStyle hm with ⟨f, f'⟩ | ⟨s, s', f, f', c⟩
      · simp [f, f']
      · have h1 : s ≠ w.heap.nStyle := fun x => old P.made m (by rw [f, x])
        have h2 : s' ≠ w'.heap.nStyle := fun x => old P.made' m' (by rw [f', x])
        simp [f, f', upd_ne _ _ h1, upd_ne _ _ h2, c]
  · intro m m' k k' hm hk
    simp only
    have e1 := F.one hm hn
    have e2 := F.one hk hn
    have e3 := P.shareN hm hk
    have o1 := old P.made m
    have o2 := old P.made k
    have o3 := old P.made' m'
    have o4 := old P.made' k'
    by_cases x : m = n <;> by_cases y : k = n
    · have x' := e1.1 x
      have y' := e2.1 y
      rw [x, y, x', y']; simp
    · have x' := e1.1 x
      have y' : ¬ k' = n' := fun z => y (e2.2 z)
      rw [x, x', upd_ne _ _ y, upd_ne _ _ y', upd_same, upd_same]
      exact ⟨fun z => absurd z.symm o2, fun z => absurd z.symm o4⟩
    · have x' : ¬ m' = n' := fun z => x (e1.2 z)
      have y' := e2.1 y
      rw [y, y', upd_ne _ _ x, upd_ne _ _ x', upd_same, upd_same]
      exact ⟨fun z => absurd z o1, fun z => absurd z o3⟩
    · have x' : ¬ m' = n' := fun z => x (e1.2 z)
      have y' : ¬ k' = n' := fun z => y (e2.2 z)
      rw [upd_ne _ _ x, upd_ne _ _ x', upd_ne _ _ y, upd_ne _ _ y']
      exact e3

/-- The same for edges. -/
theorem newEdge {w w' : World C} (P : Pose h g h' g' T E w w') {n n' : ERef} (hn : E n n') (st : EdgeStyle C) :
    Pose h g h' g' T E
      { w with heap := { w.heap with edge := upd w.heap.edge n { w.heap.edge n with style := some w.heap.nStyle }, nStyle := w.heap.nStyle + 1 }, es := upd w.es w.heap.nStyle st }
      { w' with heap := { w'.heap with edge := upd w'.heap.edge n' { w'.heap.edge n' with style := some w'.heap.nStyle }, nStyle := w'.heap.nStyle + 1 }, es := upd w'.es w'.heap.nStyle st } := by
  have body : ∀ (w : World C) n, strip { w.heap with edge := upd w.heap.edge n { w.heap.edge n with style := some w.heap.nStyle }, nStyle := w.heap.nStyle + 1 } = strip w.heap := by
    intro w n
    simp only [strip, Heap.mk.injEq, true_and, and_true]
    funext m
    by_cases hm : m = n
    · subst hm; simp
    · simp [upd_ne _ _ hm]
  have made : ∀ {w : World C} (_ : Made w.heap) n, Made { w.heap with edge := upd w.heap.edge n { w.heap.edge n with style := some w.heap.nStyle }, nStyle := w.heap.nStyle + 1 } := by
    intro w M n
    refine ⟨fun e s he => Nat.lt_succ_of_lt (M.node e s he), fun m s hm => ?_⟩
    simp only at hm ⊢
    by_cases e : m = n
    · subst e; simp at hm; rw [← hm]; exact Nat.lt_succ_self _
    · rw [upd_ne _ _ e] at hm; exact Nat.lt_succ_of_lt (M.edge m s hm)
  have old : ∀ {w : World C} (_ : Made w.heap) m, ¬ (w.heap.edge m).style = some w.heap.nStyle :=
    fun M m e => Nat.lt_irrefl _ (M.edge m _ e)
  have one : ∀ {n n' m m'}, E n n' → E m m' → (n = m ↔ n' = m') := fun a b => (F.twin.sameE a b).1
  refine ⟨⟨(body w n).trans P.body, (body w' n').trans P.body', P.display, P.node, ?_⟩, made P.made n, made P.made' n', P.may, P.less, P.shareN, ?_⟩
  · intro m m' hm
    simp only [edgeLook]
    by_cases e : m = n
    · have e' := (one hm hn).1 e
      subst e; subst e'
      simp
    · have e' : ¬ m' = n' := fun x => e ((one hm hn).2 x)
      rw [upd_ne _ _ e, upd_ne _ _ e']
      rcases P.edgeStyle hm with ⟨f, f'⟩ | ⟨s, s', f, f', c⟩
      · simp [f, f']
      · have h1 : s ≠ w.heap.nStyle := fun x => old P.made m (by rw [f, x])
        have h2 : s' ≠ w'.heap.nStyle := fun x => old P.made' m' (by rw [f', x])
        simp [f, f', upd_ne _ _ h1, upd_ne _ _ h2, c]
  · intro m m' k k' hm hk
    simp only
    have e1 := one hm hn
    have e2 := one hk hn
    have e3 := P.shareE hm hk
    have o1 := old P.made m
    have o2 := old P.made k
    have o3 := old P.made' m'
    have o4 := old P.made' k'
    by_cases x : m = n <;> by_cases y : k = n
    · have x' := e1.1 x
      have y' := e2.1 y
      rw [x, y, x', y']; simp
    · have x' := e1.1 x
      have y' : ¬ k' = n' := fun z => y (e2.2 z)
      rw [x, x', upd_ne _ _ y, upd_ne _ _ y', upd_same, upd_same]
      exact ⟨fun z => absurd z.symm o2, fun z => absurd z.symm o4⟩
    · have x' : ¬ m' = n' := fun z => x (e1.2 z)
      have y' := e2.1 y
      rw [y, y', upd_ne _ _ x, upd_ne _ _ x', upd_same, upd_same]
      exact ⟨fun z => absurd z o1, fun z => absurd z o3⟩
    · have x' : ¬ m' = n' := fun z => x (e1.2 z)
      have y' : ¬ k' = n' := fun z => y (e2.2 z)
      rw [upd_ne _ _ x, upd_ne _ _ x', upd_ne _ _ y, upd_ne _ _ y']
      exact e3

theorem assignNode {n n' : NRef} (hn : T n n') (st : NodeStyle C) :
    RelW (Pose h g h' g' T E) (fun _ _ => True) (Verif.assignNode n st) (Verif.assignNode n' st) := by
  intro w w' P
  rw [assignNode_eq, assignNode_eq, P.checkNode F hn]
  cases (checkOverwrite (w'.heap.node n').style (w'.heap.node n').graph w'.heap).1 with
  | error e => exact ⟨rfl, P⟩
  | ok u => exact ⟨trivial, P.newNode F hn st⟩

theorem assignEdge {n n' : ERef} (hn : E n n') (st : EdgeStyle C) :
    RelW (Pose h g h' g' T E) (fun _ _ => True) (Verif.assignEdge n st) (Verif.assignEdge n' st) := by
  intro w w' P
  rw [assignEdge_eq, assignEdge_eq, P.checkEdge F hn]
  cases (checkOverwrite (w'.heap.edge n').style (w'.heap.edge n').graph w'.heap).1 with
  | error e => exact ⟨rfl, P⟩
  | ok u => exact ⟨trivial, P.newEdge F hn st⟩

end Pose
end Verif
