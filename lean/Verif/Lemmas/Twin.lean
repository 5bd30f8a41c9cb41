import Mathlib.Data.List.Forall2
import Verif.Lemmas.BookedRun
import Verif.Spec.Answers
import Verif.Model.Half
/-!
# Two graphs that look alike answer alike

`Twin`: a relation between the nodes of two graphs, and one between their edges, that everything a query looks at respects.
-/
namespace Verif
open List (Forall₂)

/-- Both return related results, or both raise the same. -/
def RelE {α β : Type} (R : α → β → Prop) : Except PyErr α → Except PyErr β → Prop
  | .ok a, .ok b => R a b
  | .error e, .error e' => e = e'
  | _, _ => False

namespace RelE
variable {α β γ δ : Type} {R : α → β → Prop} {S : γ → δ → Prop}

theorem ok {a : α} {b : β} (h : R a b) : RelE R (.ok a) (.ok b) := h

theorem error (e : PyErr) : RelE R (.error e) (.error e) := rfl

theorem bind {x : Except PyErr α} {y : Except PyErr β} {f : α → Except PyErr γ} {k : β → Except PyErr δ} (h : RelE R x y)
    (hf : ∀ a b, R a b → RelE S (f a) (k b)) : RelE S (x >>= f) (y >>= k) := by
  cases x <;> cases y
  · exact h
  · exact absurd h id
  · exact absurd h id
  · exact hf _ _ h

theorem map {x : Except PyErr α} {y : Except PyErr β} {f : α → γ} {k : β → δ} (h : RelE R x y)
    (hf : ∀ a b, R a b → S (f a) (k b)) : RelE S (x.map f) (y.map k) := by
  cases x <;> cases y
  · exact h
  · exact absurd h id
  · exact absurd h id
  · exact hf _ _ h

theorem to_eq {x : Except PyErr α} {y : Except PyErr β} {f : α → γ} {k : β → γ} (h : RelE R x y)
    (hf : ∀ a b, R a b → f a = k b) : x.map f = y.map k := by
  cases x <;> cases y
  · exact congrArg Except.error h
  · exact absurd h id
  · exact absurd h id
  · exact congrArg Except.ok (hf _ _ h)

theorem eq {x y : Except PyErr α} (h : RelE (fun a b : α => a = b) x y) : x = y := by
  cases x <;> cases y
  · exact congrArg Except.error h
  · exact absurd h id
  · exact absurd h id
  · exact congrArg Except.ok h

theorem of_eq {x y : Except PyErr α} (h : x = y) : RelE (fun a b : α => a = b) x y := by
  subst h; cases x <;> exact rfl

theorem mono {T : α → β → Prop} {x : Except PyErr α} {y : Except PyErr β} (h : RelE R x y) (hf : ∀ a b, R a b → T a b) : RelE T x y := by
  cases x <;> cases y
  · exact h
  · exact absurd h id
  · exact absurd h id
  · exact hf _ _ h

theorem mapM {l : List α} {l' : List β} {f : α → Except PyErr γ} {k : β → Except PyErr δ} (h : Forall₂ R l l')
    (hf : ∀ a b, R a b → RelE S (f a) (k b)) : RelE (Forall₂ S) (l.mapM f) (l'.mapM k) := by
  induction h with
  | nil => exact .nil
  | cons h1 _ ih =>
    simp only [List.mapM_cons]
    exact (hf _ _ h1).bind fun a b hab => ih.bind fun as bs hs => .cons hab hs

theorem foldlM {l : List α} {l' : List β} {f : γ → α → Except PyErr γ} {k : δ → β → Except PyErr δ} {a : γ} {b : δ} (h : Forall₂ R l l')
    (hab : S a b) (hf : ∀ a b x y, S a b → R x y → RelE S (f a x) (k b y)) : RelE S (l.foldlM f a) (l'.foldlM k b) := by
  induction h generalizing a b with
  | nil => exact hab
  | cons h1 _ ih =>
    simp only [List.foldlM_cons]
    exact (hf _ _ _ _ hab h1).bind fun _ _ h2 => ih h2

theorem filterE {l : List α} {l' : List β} {f : α → Except PyErr Bool} {k : β → Except PyErr Bool} (h : Forall₂ R l l')
    (hf : ∀ a b, R a b → RelE (fun x y => x = y) (f a) (k b)) : RelE (Forall₂ R) (Verif.filterE f l) (Verif.filterE k l') := by
  induction h with
  | nil => exact .nil
  | cons h1 _ ih =>
    simp only [Verif.filterE]
    refine (hf _ _ h1).bind fun x y hxy => ih.bind fun as bs hs => ?_
    subst hxy
    cases x
    · exact hs
    · exact .cons h1 hs

end RelE

theorem Forall₂.foldl {α β γ δ : Type} {R : α → β → Prop} {S : γ → δ → Prop} {l : List α} {l' : List β} {f : γ → α → γ} {k : δ → β → δ}
    {a : γ} {b : δ} (h : Forall₂ R l l') (hab : S a b) (hf : ∀ a b x y, S a b → R x y → S (f a x) (k b y)) :
    S (l.foldl f a) (l'.foldl k b) := by
  induction h generalizing a b with
  | nil => exact hab
  | cons h1 _ ih => exact ih (hf _ _ _ _ hab h1)

theorem Forall₂.snoc {α β : Type} {R : α → β → Prop} {l : List α} {l' : List β} {a : α} {b : β} (h : Forall₂ R l l') (hab : R a b) :
    Forall₂ R (l ++ [a]) (l' ++ [b]) := by
  induction h with
  | nil => exact .cons hab .nil
  | cons h1 _ ih => exact .cons h1 ih

theorem Forall₂.append {α β : Type} {R : α → β → Prop} {l m : List α} {l' m' : List β} (h : Forall₂ R l l') (hm : Forall₂ R m m') :
    Forall₂ R (l ++ m) (l' ++ m') := by
  induction h with
  | nil => exact hm
  | cons h1 _ ih => exact .cons h1 ih

theorem Forall₂.map_eq {α β γ : Type} {R : α → β → Prop} {l : List α} {l' : List β} {f : α → γ} {k : β → γ} (h : Forall₂ R l l')
    (hf : ∀ a b, R a b → f a = k b) : l.map f = l'.map k := by
  induction h with
  | nil => rfl
  | cons h1 _ ih => simp only [List.map_cons, hf _ _ h1, ih]

/-- Dictionaries with the same keys and related values. -/
def DictRel {κ α β : Type} (R : α → β → Prop) (d : Dict κ α) (d' : Dict κ β) : Prop := Forall₂ (fun p q => p.1 = q.1 ∧ R p.2 q.2) d d'

namespace DictRel
variable {κ α β : Type} [DecidableEq κ] {R : α → β → Prop} {d : Dict κ α} {d' : Dict κ β}

theorem get (h : DictRel R d d') (k : κ) : (dget d k = none ∧ dget d' k = none) ∨ ∃ a b, dget d k = some a ∧ dget d' k = some b ∧ R a b := by
  induction h with
  | nil => exact .inl ⟨rfl, rfl⟩
  | @cons p q _ _ h1 _ ih =>
    obtain ⟨p1, p2⟩ := p
    obtain ⟨q1, q2⟩ := q
    obtain ⟨h1, h2⟩ := h1
    simp only at h1 h2
    subst h1
    by_cases hp : p1 = k
    · subst hp
      refine .inr ⟨p2, q2, ?_, ?_, h2⟩ <;> simp [dget]
    · simpa [dget, hp] using ih

theorem set (h : DictRel R d d') (k : κ) {a : α} {b : β} (hab : R a b) : DictRel R (dset d k a) (dset d' k b) := by
  induction h with
  | nil => exact .cons ⟨rfl, hab⟩ .nil
  | @cons p q _ _ h1 h3 ih =>
    obtain ⟨p1, p2⟩ := p
    obtain ⟨q1, q2⟩ := q
    obtain ⟨h1, h2⟩ := h1
    simp only at h1 h2
    subst h1
    by_cases hp : p1 = k
    · subst hp
      simp only [dset, if_true]
      exact .cons ⟨rfl, hab⟩ h3
    · simp only [dset, hp, if_false]
      exact .cons ⟨rfl, h2⟩ ih

omit [DecidableEq κ] in
theorem vals (h : DictRel R d d') : Forall₂ R (dvals d) (dvals d') := by
  induction h with
  | nil => exact .nil
  | cons h1 _ ih => exact .cons h1.2 ih

end DictRel

/-- Everything a query looks at. -/
structure Twin (h : Heap) (g : GRef) (h' : Heap) (g' : GRef) (T : NRef → NRef → Prop) (E : ERef → ERef → Prop) : Prop where
  find : ∀ k, RelE T (getNode h g (.key k)) (getNode h' g' (.key k))
  self : ∀ {n n'}, T n n' → getNode h g (.node n) = .ok n ∧ getNode h' g' (.node n') = .ok n'
  nodes : Forall₂ T (graphNodes h g) (graphNodes h' g')
  outs : ∀ {n n'}, T n n' → DictRel E (h.node n).outE (h'.node n').outE
  inns : ∀ {n n'}, T n n' → DictRel E (h.node n).inE (h'.node n').inE
  start : ∀ {e e'}, E e e' → RelE T (edgeStart h e) (edgeStart h' e')
  stop : ∀ {e e'}, E e e' → RelE T (edgeEnd h e) (edgeEnd h' e')
  eid : ∀ {e e'}, E e e' → edgeId h e = edgeId h' e'
  entry : ∀ {e e'}, E e e' → edgeEntry h e = edgeEntry h' e'
  text : ∀ {n n'}, T n n' → nodeText h n = nodeText h' n'
  same : ∀ {n n' m m'}, T n n' → T m m' → (decide (n = m) || nodeEq h n m) = (decide (n' = m') || nodeEq h' n' m')
  differ : ∀ {n n' m m'}, T n n' → T m m' → nodeNe h n m = nodeNe h' n' m'
  sameE : ∀ {e e' f f'}, E e e' → E f f' → (e = f ↔ e' = f') ∧ edgeEq h e f = edgeEq h' e' f'

/-- Nodes know their graphs alike. -/
def Twin.Homes (h : Heap) (g : GRef) (h' : Heap) (g' : GRef) (T : NRef → NRef → Prop) : Prop :=
  ∀ {n n'}, T n n' → RelE (fun a b => a = g ∧ b = g') (nodeGraph h n) (nodeGraph h' n')

namespace Twin
variable {h h' : Heap} {g g' : GRef} {T : NRef → NRef → Prop} {E : ERef → ERef → Prop} (W : Twin h g h' g' T E)
include W

/-- Arguments that name the same node. -/
inductive Arg (T : NRef → NRef → Prop) : NodeArg → NodeArg → Prop
  | key (k : Key) : Arg T (.key k) (.key k)
  | node {n n' : NRef} (h : T n n') : Arg T (.node n) (.node n')
  | other : Arg T .other .other

theorem getNode {a a' : NodeArg} (ha : Arg T a a') : RelE T (Verif.getNode h g a) (Verif.getNode h' g' a') := by
  cases ha with
  | key k => exact W.find k
  | node ht => rw [(W.self ht).1, (W.self ht).2]; exact ht
  | other => exact rfl

theorem memNode {x x' : NRef} {l l' : List NRef} (hx : T x x') (hl : Forall₂ T l l') : Verif.memNode h x l = Verif.memNode h' x' l' := by
  unfold Verif.memNode
  induction hl with
  | nil => rfl
  | cons h1 _ ih => simp only [List.any_cons, W.same h1 hx, ih]

theorem memEdge {x x' : ERef} {l l' : List ERef} (hx : E x x') (hl : Forall₂ E l l') : Verif.memEdge h x l = Verif.memEdge h' x' l' := by
  induction hl with
  | nil => rfl
  | cons h1 _ ih =>
    obtain ⟨h2, h3⟩ := W.sameE h1 hx
    simp only [Verif.memEdge, h2, h3, ih]

theorem dedupEdges {l l' r r' : List ERef} (hl : Forall₂ E l l') (hr : Forall₂ E r r') :
    RelE (Forall₂ E) (Verif.dedupEdges h l r) (Verif.dedupEdges h' l' r') := by
  induction hl generalizing r r' with
  | nil => exact hr
  | cons h1 _ ih =>
    simp only [Verif.dedupEdges]
    refine (RelE.of_eq (W.memEdge h1 hr)).bind fun x y hxy => ?_
    subst hxy
    cases x
    · exact ih (Forall₂.snoc hr h1)
    · exact ih hr

theorem outwardEdges {n n' : NRef} (hn : T n n') : RelE (Forall₂ E) (Verif.outwardEdges h n) (Verif.outwardEdges h' n') :=
  W.dedupEdges (W.outs hn).vals .nil

theorem inwardEdges {n n' : NRef} (hn : T n n') : RelE (Forall₂ E) (Verif.inwardEdges h n) (Verif.inwardEdges h' n') :=
  W.dedupEdges (W.inns hn).vals .nil

theorem nodeEdges {n n' : NRef} (hn : T n n') : RelE (Forall₂ E) (Verif.nodeEdges h n) (Verif.nodeEdges h' n') :=
  (W.dedupEdges (W.outs hn).vals .nil).bind fun _ _ hr => W.dedupEdges (W.inns hn).vals hr

theorem graphEdges : RelE (Forall₂ E) (Verif.graphEdges h g) (Verif.graphEdges h' g') :=
  RelE.foldlM W.nodes .nil fun _ _ _ _ hr hn => (W.nodeEdges hn).bind fun _ _ hs => W.dedupEdges hs hr

theorem edgesDict : RelE (DictRel E) (Verif.edgesDict h g) (Verif.edgesDict h' g') :=
  RelE.foldlM W.nodes .nil fun _ _ _ _ hr hn => (W.outwardEdges hn).bind fun _ _ hs =>
    RelE.foldlM hs hr fun _ _ _ _ hd he => (RelE.of_eq (W.eid he)).bind fun i j hij => by
      subst hij; exact hd.set i he

theorem getOutwardEdges {a a' : NodeArg} (ha : Arg T a a') : RelE (Forall₂ E) (Verif.getOutwardEdges h g a) (Verif.getOutwardEdges h' g' a') :=
  (W.getNode ha).bind fun _ _ hn => W.outwardEdges hn

theorem getInwardEdges {a a' : NodeArg} (ha : Arg T a a') : RelE (Forall₂ E) (Verif.getInwardEdges h g a) (Verif.getInwardEdges h' g' a') :=
  (W.getNode ha).bind fun _ _ hn => W.inwardEdges hn

theorem getEdges {a a' : NodeArg} (ha : Arg T a a') : RelE (Forall₂ E) (Verif.getEdges h g a) (Verif.getEdges h' g' a') :=
  (W.getOutwardEdges ha).bind fun _ _ h1 => (W.getInwardEdges ha).bind fun _ _ h2 => Forall₂.append h1 h2

theorem getParents {a a' : NodeArg} (ha : Arg T a a') : RelE (Forall₂ T) (Verif.getParents h g a) (Verif.getParents h' g' a') :=
  (W.getInwardEdges ha).bind fun _ _ h1 => RelE.mapM h1 fun _ _ he => W.start he

theorem getChildren {a a' : NodeArg} (ha : Arg T a a') : RelE (Forall₂ T) (Verif.getChildren h g a) (Verif.getChildren h' g' a') :=
  (W.getOutwardEdges ha).bind fun _ _ h1 => RelE.mapM h1 fun _ _ he => W.stop he

theorem collectOthers {x x' : NRef} (hx : T x x') {down down' : NRef → Except PyErr (List NRef)}
    (hd : ∀ {n n'}, T n n' → RelE (Forall₂ T) (down n) (down' n')) {l l' acc acc' : List NRef} (hl : Forall₂ T l l')
    (hacc : Forall₂ T acc acc') :
    RelE (Forall₂ T) (Verif.collectOthers h x down l acc) (Verif.collectOthers h' x' down' l' acc') := by
  induction hl generalizing acc acc' with
  | nil => exact hacc
  | cons h1 _ ih =>
    simp only [Verif.collectOthers]
    refine (hd h1).bind fun cs cs' hcs => ih (Forall₂.foldl hcs hacc fun a b c c' hab hc => ?_)
    rw [W.memNode hc hab, W.differ hc hx]
    split
    · exact Forall₂.snoc hab hc
    · exact hab

theorem getSiblings {a a' : NodeArg} (ha : Arg T a a') : RelE (Forall₂ T) (Verif.getSiblings h g a) (Verif.getSiblings h' g' a') :=
  (W.getNode ha).bind fun _ _ hn => (W.getParents (.node hn)).bind fun _ _ hp =>
    W.collectOthers hn (fun hm => W.getChildren (.node hm)) hp .nil

theorem getSpouses {a a' : NodeArg} (ha : Arg T a a') : RelE (Forall₂ T) (Verif.getSpouses h g a) (Verif.getSpouses h' g' a') :=
  (W.getNode ha).bind fun _ _ hn => (W.getChildren (.node hn)).bind fun _ _ hp =>
    W.collectOthers hn (fun hm => W.getParents (.node hm)) hp .nil

/-- Lists and dictionaries by distance. -/
def AccRel (T : NRef → NRef → Prop) (a a' : List NRef × Dict Nat (List NRef)) : Prop := Forall₂ T a.1 a'.1 ∧ DictRel (Forall₂ T) a.2 a'.2

theorem addDirect {x x' : NRef} (hx : T x x') {a a' : List NRef × Dict Nat (List NRef)} (ha : AccRel T a a') :
    AccRel T (Verif.addDirect (Verif.memNode h) x a) (Verif.addDirect (Verif.memNode h') x' a') := by
  unfold Verif.addDirect
  rw [W.memNode hx ha.1]
  split
  · exact ha
  · refine ⟨Forall₂.snoc ha.1 hx, ha.2.set 1 (Forall₂.snoc ?_ hx)⟩
    rcases ha.2.get 1 with ⟨h1, h2⟩ | ⟨u, v, h1, h2, h3⟩
    · rw [h1, h2]; exact .nil
    · rw [h1, h2]; exact h3

theorem absorb {sub sub' : List NRef} (hs : Forall₂ T sub sub') {d d' : Dict Nat (List NRef)} (hd : DictRel (Forall₂ T) d d')
    {a a' : List NRef × Dict Nat (List NRef)} (ha : AccRel T a a') :
    AccRel T (Verif.absorb (Verif.memNode h) sub d a) (Verif.absorb (Verif.memNode h') sub' d' a') := by
  unfold Verif.absorb
  refine Forall₂.foldl hs ha fun b b' y y' hb hy => ?_
  rw [W.memNode hy hb.1]
  split
  · exact hb
  · refine ⟨Forall₂.snoc hb.1 hy, Forall₂.foldl (R := fun (p q : Nat × List NRef) => p.1 = q.1 ∧ Forall₂ T p.2 q.2) hd hb.2 fun u v p q huv hpq => ?_⟩
    rw [hpq.1]
    exact huv.set _ hpq.2

/-- The three results of the recursive functions. -/
def RecRel (T : NRef → NRef → Prop) (a a' : List NRef × Dict Nat (List NRef) × List NRef) : Prop :=
  Forall₂ T a.1 a'.1 ∧ DictRel (Forall₂ T) a.2.1 a'.2.1 ∧ Forall₂ T a.2.2 a'.2.2

theorem ancestorsRec {lim : Nat} {a a' : NodeArg} (ha : Arg T a a') {t t' : List NRef} (ht : Forall₂ T t t') :
    RelE (RecRel T) (Verif.ancestorsRec h g lim a t) (Verif.ancestorsRec h' g' lim a' t') := by
  induction lim generalizing a a' t t' with
  | zero => exact rfl
  | succ lim ih =>
    simp only [Verif.ancestorsRec]
    refine (W.getNode ha).bind fun n n' hn => (W.getParents (.node hn)).bind fun ps ps' hp => ?_
    rw [hp.length_eq]
    split
    · exact ⟨.nil, .nil, Forall₂.snoc ht hn⟩
    · refine RelE.foldlM hp ⟨.nil, .cons ⟨rfl, .nil⟩ .nil, Forall₂.snoc ht hn⟩ fun s s' p p' hs hpp => ?_
      have hacc := W.addDirect hpp (a := (s.1, s.2.1)) (a' := (s'.1, s'.2.1)) ⟨hs.1, hs.2.1⟩
      rw [W.memNode hpp hs.2.2]
      split
      · exact ⟨hacc.1, hacc.2, hs.2.2⟩
      · refine (ih (.node hpp) hs.2.2).bind fun u u' hu => ?_
        have := W.absorb hu.1 hu.2.1 hacc
        exact ⟨this.1, this.2, hu.2.2⟩

theorem descendantsRec {lim : Nat} {a a' : NodeArg} (ha : Arg T a a') {t t' : List NRef} (ht : Forall₂ T t t') :
    RelE (RecRel T) (Verif.descendantsRec h g lim a t) (Verif.descendantsRec h' g' lim a' t') := by
  induction lim generalizing a a' t t' with
  | zero => exact rfl
  | succ lim ih =>
    simp only [Verif.descendantsRec]
    refine (W.getNode ha).bind fun n n' hn => (W.getChildren (.node hn)).bind fun ps ps' hp => ?_
    rw [hp.length_eq]
    split
    · exact ⟨.nil, .nil, Forall₂.snoc ht hn⟩
    · refine RelE.foldlM hp ⟨.nil, .cons ⟨rfl, .nil⟩ .nil, Forall₂.snoc ht hn⟩ fun s s' p p' hs hpp => ?_
      have hacc := W.addDirect hpp (a := (s.1, s.2.1)) (a' := (s'.1, s'.2.1)) ⟨hs.1, hs.2.1⟩
      rw [W.memNode hpp hs.2.2]
      split
      · exact hs
      · refine (ih (.node hpp) hs.2.2).bind fun u u' hu => ?_
        have := W.absorb hu.1 hu.2.1 hacc
        exact ⟨this.1, this.2, hu.2.2⟩

theorem getAncestors {lim : Nat} {a a' : NodeArg} (ha : Arg T a a') :
    RelE (Forall₂ T) (Verif.getAncestors lim h g a) (Verif.getAncestors lim h' g' a') :=
  (W.ancestorsRec ha .nil).map fun _ _ hr => hr.1

theorem getAncestorsDict {lim : Nat} {a a' : NodeArg} (ha : Arg T a a') :
    RelE (DictRel (Forall₂ T)) (Verif.getAncestorsDict lim h g a) (Verif.getAncestorsDict lim h' g' a') :=
  (W.ancestorsRec ha .nil).map fun _ _ hr => hr.2.1

theorem getDescendants {lim : Nat} {a a' : NodeArg} (ha : Arg T a a') :
    RelE (Forall₂ T) (Verif.getDescendants lim h g a) (Verif.getDescendants lim h' g' a') :=
  (W.descendantsRec ha .nil).map fun _ _ hr => hr.1

theorem getDescendantsDict {lim : Nat} {a a' : NodeArg} (ha : Arg T a a') :
    RelE (DictRel (Forall₂ T)) (Verif.getDescendantsDict lim h g a) (Verif.getDescendantsDict lim h' g' a') :=
  (W.descendantsRec ha .nil).map fun _ _ hr => hr.2.1

theorem isNodeInLoop {lim : Nat} {a a' : NodeArg} (ha : Arg T a a') : Verif.isNodeInLoop lim h g a = Verif.isNodeInLoop lim h' g' a' :=
  RelE.eq ((W.getNode ha).bind fun _ _ hn => (W.getAncestors (.node hn)).bind fun _ _ hl => W.memNode hn hl)

theorem areNodesInSameLoop {lim : Nat} {a a' b b' : NodeArg} (ha : Arg T a a') (hb : Arg T b b') :
    Verif.areNodesInSameLoop lim h g a b = Verif.areNodesInSameLoop lim h' g' a' b' :=
  RelE.eq ((W.getNode ha).bind fun _ _ hn => (W.getNode hb).bind fun _ _ hm => (W.getAncestors (.node hm)).bind fun _ _ h2 =>
    (W.getAncestors (.node hn)).bind fun _ _ h1 => by
      show (_ && _) = (_ && _)
      rw [W.memNode hn h2, W.memNode hm h1])

theorem removeFirst {x x' : NRef} (hx : T x x') {l l' : List NRef} (hl : Forall₂ T l l') :
    Forall₂ T (Verif.removeFirst h x l) (Verif.removeFirst h' x' l') := by
  unfold Verif.removeFirst
  induction hl with
  | nil => exact .nil
  | cons h1 h2 ih =>
    simp only [List.eraseP_cons, W.same h1 hx]
    cases decide (_ = x') || nodeEq h' _ x'
    · exact .cons h1 ih
    · exact h2

theorem rootsLoop {lim : Nat} {l l' p p' : List NRef} (hl : Forall₂ T l l') (hp : Forall₂ T p p') :
    RelE (Forall₂ T) (Verif.rootsLoop lim h g l p) (Verif.rootsLoop lim h' g' l' p') := by
  induction hl generalizing p p' with
  | nil => exact hp
  | cons h1 _ ih =>
    simp only [Verif.rootsLoop]
    rw [W.memNode h1 hp]
    split
    · refine (W.getDescendants (.node h1)).bind fun ds ds' hds => ih (Forall₂.foldl hds hp fun u v d d' huv hd => ?_)
      rw [W.memNode hd huv]
      split
      · exact W.removeFirst hd huv
      · exact huv
    · exact ih hp

theorem roots {lim : Nat} : RelE (Forall₂ T) (Verif.roots lim h g) (Verif.roots lim h' g') := W.rootsLoop W.nodes W.nodes

theorem nodeLabel {n n' : NRef} (hn : T n n') : Verif.nodeLabel h n = Verif.nodeLabel h' n' := by
  have h1 := W.text hn
  simp only [nodeText, nodeNotes, Prod.mk.injEq, Notes.mk.injEq] at h1
  simp only [Verif.nodeLabel, h1.1, h1.2.2.1]

variable (O : Twin.Homes h g h' g' T)
include O

theorem nodeParents {n n' : NRef} (hn : T n n') : RelE (Forall₂ T) (Verif.nodeParents h n) (Verif.nodeParents h' n') :=
  (O hn).bind fun a b hab => by rw [hab.1, hab.2]; exact W.getParents (.node hn)

theorem nodeChildren {n n' : NRef} (hn : T n n') : RelE (Forall₂ T) (Verif.nodeChildren h n) (Verif.nodeChildren h' n') :=
  (O hn).bind fun a b hab => by rw [hab.1, hab.2]; exact W.getChildren (.node hn)

theorem absoluteRoots : RelE (Forall₂ T) (Verif.absoluteRoots h g) (Verif.absoluteRoots h' g') :=
  RelE.filterE W.nodes fun a b hab => by
    unfold Verif.nodeHasParents
    refine RelE.bind (R := fun x y => x = y) ((W.nodeParents O hab).bind fun ps ps' hp => ?_) fun x y hxy => by subst hxy; exact rfl
    cases hp <;> exact rfl

theorem leaves : RelE (Forall₂ T) (Verif.leaves h g) (Verif.leaves h' g') :=
  RelE.filterE W.nodes fun a b hab => by
    refine RelE.bind (R := fun x y => x = y) ((O hab).bind fun u v huv => ?_) fun x y hxy => by subst hxy; exact rfl
    rw [huv.1, huv.2]
    unfold Verif.hasChildren Verif.numChildren
    refine RelE.bind (R := fun x y => x = y) ((W.getChildren (.node hab)).bind fun ps ps' hp => ?_) fun x y hxy => by subst hxy; exact rfl
    exact hp.length_eq

theorem loopNodes {lim : Nat} : RelE (Forall₂ T) (Verif.loopNodes lim h g) (Verif.loopNodes lim h' g') :=
  RelE.filterE W.nodes fun a b hab => (O hab).bind fun u v huv => by
    rw [huv.1, huv.2]; exact RelE.of_eq (W.isNodeInLoop (.node hab))

theorem treeStrRec {lim : Nat} {n n' : NRef} (hn : T n n') (ind : String) {t t' : List NRef} (ht : Forall₂ T t t') :
    RelE (fun a a' => a.1 = a'.1 ∧ Forall₂ T a.2 a'.2) (Verif.treeStrRec h lim n ind t) (Verif.treeStrRec h' lim n' ind t') := by
  induction lim generalizing n n' ind t t' with
  | zero => exact rfl
  | succ lim ih =>
    simp only [Verif.treeStrRec]
    rw [W.memNode hn ht, W.nodeLabel hn]
    split
    · exact ⟨rfl, ht⟩
    · refine (W.nodeChildren O hn).bind fun cs cs' hcs => ?_
      refine RelE.bind (R := fun (a b : String × List NRef × Nat) => a.1 = b.1 ∧ Forall₂ T a.2.1 b.2.1 ∧ a.2.2 = b.2.2) ?_
        fun a b hab => ⟨hab.1, hab.2.1⟩
      refine RelE.foldlM hcs ⟨rfl, ht, rfl⟩ fun s s' c c' hs hc => ?_
      rw [hs.2.2, hcs.length_eq, hs.1]
      refine (ih hc _ (Forall₂.snoc hs.2.1 hn)).bind fun u u' hu => ?_
      rw [hu.1]
      exact ⟨rfl, hu.2, rfl⟩

theorem treeStrings {lim : Nat} {l l' t t' : List NRef} (hl : Forall₂ T l l') (ht : Forall₂ T t t') :
    Verif.treeStrings lim h l t = Verif.treeStrings lim h' l' t' := by
  refine RelE.eq ?_
  induction hl generalizing t t' with
  | nil => exact rfl
  | cons h1 _ ih =>
    simp only [Verif.treeStrings]
    refine (W.treeStrRec O h1 "" ht).bind fun a b hab => (ih hab.2).bind fun u v huv => ?_
    subst huv
    rw [hab.1]
    exact rfl

theorem getTreeStr {lim : Nat} : Verif.getTreeStr lim h g = Verif.getTreeStr lim h' g' :=
  RelE.eq (W.roots.bind fun a b hab => by rw [W.treeStrings O hab .nil]; exact RelE.of_eq rfl)

end Twin

end Verif
