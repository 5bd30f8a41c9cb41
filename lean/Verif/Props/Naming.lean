import Verif.Spec.Question
import Verif.Model.Filter
import Verif.Props.Attributes
import Verif.Props.Traverse
import Verif.Props.Siblings
import Mathlib.Data.List.Forall2
/-!
# C126: a node can be given by its name or as an object
-/
namespace Verif
open M

/-- **C126**: what an argument stands for. A name, and a node object, whatever graph it comes from, stand for the node of the
graph that has this name, and for nothing (`KeyError`) if there is none. Anything else is refused with `TypeError`. -/
theorem C126_stands_for {h : Heap} (r : Reachable h) (g : GRef) (k : Key) :
    (∀ x, getNode h g (.key k) = .ok x ↔ x ∈ graphNodes h g ∧ (h.node x).id = k) ∧
    (∀ err, getNode h g (.key k) = .error err ↔ err = .keyError ∧ ∀ x ∈ graphNodes h g, (h.node x).id ≠ k) ∧
    (∀ n, (h.node n).id = k → getNode h g (.node n) = getNode h g (.key k)) ∧
    (∀ n, n ∈ graphNodes h g → getNode h g (.node n) = .ok n) ∧
    getNode h g .other = .error .typeError := by
  obtain ⟨A, H⟩ := r.hist
  have R := H.rep
  have one : ∀ x, getNode h g (.key k) = .ok x ↔ x ∈ graphNodes h g ∧ (h.node x).id = k := by
    intro x
    constructor
    · intro e
      refine ⟨getNode_mem r e, ?_⟩
      obtain ⟨k', e1, e2⟩ := R.getNode_ok.1 e
      rw [(R.nodeOk g _ _ e2).2.1]
      cases e1
      rfl
    · rintro ⟨hx, rfl⟩
      have := getNode_self r hx
      simpa [getNode] using this
  refine ⟨one, ?_, ?_, fun n hn => getNode_self r hn, rfl⟩
  · intro err
    cases hk : getNode h g (.key k) with
    | ok x =>
      have := (one x).1 hk
      constructor
      · intro c; cases c
      · rintro ⟨-, c⟩; exact absurd this.2 (c x this.1)
    | error e =>
      have he : e = .keyError := by
        simp only [getNode] at hk
        cases hd : dget (h.graph g).nodes k with
        | none => rw [hd] at hk; cases hk; rfl
        | some x => rw [hd] at hk; cases hk
      subst he
      constructor
      · rintro ⟨⟩
        refine ⟨rfl, fun x hx c => ?_⟩
        rw [(one x).2 ⟨hx, c⟩] at hk
        cases hk
      · rintro ⟨rfl, -⟩; rfl
  · rintro n rfl
    rfl

/-- **C126** for questions: two arguments that stand for the same node, or fail in the same way, get the same answers, and
the same exceptions, from every method that takes a node. This needs no assumption on the state. -/
theorem C126_same {h : Heap} {g : GRef} {a b : NodeArg} (e : getNode h g a = getNode h g b) (q : Question) :
    q.ask h g a = q.ask h g b := by
  have e1 : getOutwardEdges h g a = getOutwardEdges h g b := by unfold getOutwardEdges; rw [e]
  have e2 : getInwardEdges h g a = getInwardEdges h g b := by unfold getInwardEdges; rw [e]
  have e3 : ∀ lim, ancestorsRec h g lim a [] = ancestorsRec h g lim b [] := by
    intro lim; cases lim <;> simp only [ancestorsRec]; rw [e]
  have e4 : ∀ lim, descendantsRec h g lim a [] = descendantsRec h g lim b [] := by
    intro lim; cases lim <;> simp only [descendantsRec]; rw [e]
  cases q <;>
    simp only [Question.ask, getEdges, getParents, getChildren, numParents, hasParents, numChildren, hasChildren, getSiblings,
      numSiblings, hasSiblings, getSpouses, numSpouses, hasSpouses, getAncestors, getAncestorsDict, getDescendants,
      getDescendantsDict, isNodeInLoop, e, e1, e2, e3, e4]

/-- **C126** for questions: an argument that stands for nothing gets the exception of `get_node` from every method. -/
theorem C126_unknown {h : Heap} {g : GRef} {a : NodeArg} {err : PyErr} (e : getNode h g a = .error err) (q : Question)
    (hq : ∀ lim, q.frames = some lim → 0 < lim) : q.ask h g a = .error err := by
  have e1 : getOutwardEdges h g a = .error err := by unfold getOutwardEdges; rw [e]; rfl
  have e2 : getInwardEdges h g a = .error err := by unfold getInwardEdges; rw [e]; rfl
  have e3 : ∀ lim, 0 < lim → ancestorsRec h g lim a [] = .error err := by
    intro lim hl; cases lim with
    | zero => cases hl
    | succ lim => simp only [ancestorsRec]; rw [e]; rfl
  have e4 : ∀ lim, 0 < lim → descendantsRec h g lim a [] = .error err := by
    intro lim hl; cases lim with
    | zero => cases hl
    | succ lim => simp only [descendantsRec]; rw [e]; rfl
  cases q <;>
    first
    | (simp only [Question.ask, getEdges, getParents, getChildren, numParents, hasParents, numChildren, hasChildren, getSiblings,
      numSiblings, hasSiblings, getSpouses, numSpouses, hasSpouses, isNodeInLoop, e, e1, e2]; rfl)
    | (simp only [Question.ask, getAncestors, getAncestorsDict, getDescendants, getDescendantsDict]
       first
       | (rw [e3 _ (hq _ rfl)]; rfl)
       | (rw [e4 _ (hq _ rfl)]; rfl))

/-- **C126** for questions: after any history of calls, an argument that stands for a node gets an answer from every method,
if there are as many stack frames as nodes. -/
theorem C126_known {h : Heap} (r : Reachable h) {g : GRef} {a : NodeArg} {x : NRef} (e : getNode h g a = .ok x) (q : Question)
    (hq : ∀ lim, q.frames = some lim → (graphNodes h g).length ≤ lim) : ∃ v, q.ask h g a = .ok v := by
  obtain ⟨os, is, h1, h2, h3, -⟩ := C57_get_edges r e
  obtain ⟨_, cs, b, -, h4, -, h5, h6, -⟩ := C57_children r e
  obtain ⟨_, ps, b', -, h7, -, h8, h9, -⟩ := C57_parents r e
  obtain ⟨⟨sl, h10, -⟩, pl, h11, -⟩ := C27_exact r e
  cases q <;> simp only [Question.ask]
  case node => rw [e]; exact ⟨_, rfl⟩
  case outwardEdges => simp only [getOutwardEdges, e]; exact ⟨_, by rw [show (Except.ok x >>= outwardEdges h) = outwardEdges h x from rfl, h1]; rfl⟩
  case inwardEdges => simp only [getInwardEdges, e]; exact ⟨_, by rw [show (Except.ok x >>= inwardEdges h) = inwardEdges h x from rfl, h2]; rfl⟩
  case edges => rw [h3]; exact ⟨_, rfl⟩
  case parents => rw [h7]; exact ⟨_, rfl⟩
  case numParents => rw [h8]; exact ⟨_, rfl⟩
  case hasParents => rw [h9]; exact ⟨_, rfl⟩
  case children => rw [h4]; exact ⟨_, rfl⟩
  case numChildren => rw [h5]; exact ⟨_, rfl⟩
  case hasChildren => rw [h6]; exact ⟨_, rfl⟩
  case siblings => rw [h10]; exact ⟨_, rfl⟩
  case numSiblings => simp only [numSiblings, h10]; exact ⟨_, rfl⟩
  case hasSiblings => simp only [hasSiblings, numSiblings, h10]; exact ⟨_, rfl⟩
  case spouses => rw [h11]; exact ⟨_, rfl⟩
  case numSpouses => simp only [numSpouses, h11]; exact ⟨_, rfl⟩
  case hasSpouses => simp only [hasSpouses, numSpouses, h11]; exact ⟨_, rfl⟩
  case inLoop lim => obtain ⟨b, hb⟩ := C22_in_loop_total r e (hq lim rfl); rw [hb]; exact ⟨_, rfl⟩
  case ancestors lim => obtain ⟨⟨l, d, -, -, t1, t2, -⟩, -⟩ := C21_terminates r e (hq lim rfl); rw [t1]; exact ⟨_, rfl⟩
  case ancestorsByDistance lim => obtain ⟨⟨l, d, -, -, t1, t2, -⟩, -⟩ := C21_terminates r e (hq lim rfl); rw [t2]; exact ⟨_, rfl⟩
  case descendants lim => obtain ⟨-, l, d, -, -, t1, t2, -⟩ := C21_terminates r e (hq lim rfl); rw [t1]; exact ⟨_, rfl⟩
  case descendantsByDistance lim => obtain ⟨-, l, d, -, -, t1, t2, -⟩ := C21_terminates r e (hq lim rfl); rw [t2]; exact ⟨_, rfl⟩

/-- **C126** for two nodes at once: `are_nodes_in_same_loop`. -/
theorem C126_same_loop {h : Heap} {g : GRef} {a b a' b' : NodeArg} (ea : getNode h g a = getNode h g a')
    (eb : getNode h g b = getNode h g b') (lim : Nat) : areNodesInSameLoop lim h g a b = areNodesInSameLoop lim h g a' b' := by
  simp only [areNodesInSameLoop, ea, eb]

/-- **C126** for calls that change the graph: `connect`, `remove_node` and `filter` do the same, whichever way the nodes are
given, in every state. -/
theorem C126_calls {h : Heap} {g : GRef} {a b a' b' : NodeArg} (ea : getNode h g a = getNode h g a')
    (eb : getNode h g b = getNode h g b') (args : EdgeArgs) (p : IfExists) :
    connect g a b args p h = connect g a' b' args p h ∧ removeNode g a h = removeNode g a' h := by
  constructor
  · simp only [connect, bind_apply, ask, ea]
    cases getNode h g a' with
    | error err => rfl
    | ok x => simp only [eb]
  · simp only [removeNode, bind_apply, ask, ea]

/-- **C126** for `filter`. -/
theorem C126_filter {h : Heap} {g : GRef} {as bs : List NodeArg} (e : List.Forall₂ (fun a b => getNode h g a = getNode h g b) as bs)
    (lim : Nat) (direction filterType : String) :
    graphFilter lim g as direction filterType h = graphFilter lim g bs direction filterType h := by
  have : ∀ d, as.foldlM (filterRound lim h g direction) d = bs.foldlM (filterRound lim h g direction) d := by
    induction e with
    | nil => intro d; rfl
    | cons e1 _ ih =>
      intro d
      simp only [List.foldlM_cons, filterRound, e1]
      congr 1
      funext d'
      exact ih d'
  simp only [graphFilter, bind_apply, ask, filterRelatives, this]

/-- **C126** for calls that change the graph: if an argument stands for nothing they raise what `get_node` raises, and the
state is as before. -/
theorem C126_calls_unknown {h : Heap} {g : GRef} {a b : NodeArg} {err : PyErr} (e : getNode h g a = .error err) :
    removeNode g a h = (.error err, h) ∧ (∀ args p, connect g a b args p h = (.error err, h)) ∧
    (∀ x args p, getNode h g b = .ok x → connect g b a args p h = (.error err, h)) ∧
    ∀ lim direction filterType, graphFilter lim g [a] direction filterType h = (.error err, h) := by
  refine ⟨?_, ?_, ?_, ?_⟩
  · simp only [removeNode, bind_apply, ask, e]
  · intro args p; simp only [connect, bind_apply, ask, e]
  · intro x args p eb; simp only [connect, bind_apply, ask, e, eb]
  · intro lim direction filterType
    simp only [graphFilter, bind_apply, ask, filterRelatives, List.foldlM_cons, filterRound, e]
    rfl

/-- **C126**: `get_node_name` is the exception. It returns the name of any node object, whether the graph has such a node or
not. -/
theorem C126_node_name {h : Heap} (r : Reachable h) (g : GRef) :
    (∀ n, getNodeName h g (.node n) = .ok (h.node n).id) ∧
    (∀ k, (∃ x ∈ graphNodes h g, (h.node x).id = k) → getNodeName h g (.key k) = .ok k) ∧
    (∀ k, (∀ x ∈ graphNodes h g, (h.node x).id ≠ k) → getNodeName h g (.key k) = .error .keyError) ∧
    getNodeName h g .other = .error .typeError := by
  have key : ∀ k, getNodeName h g (.key k) = (getNode h g (.key k)).map fun n => (h.node n).id := by
    intro k
    simp only [getNodeName, getNode]
    cases dget (h.graph g).nodes k <;> rfl
  refine ⟨fun _ => rfl, ?_, ?_, rfl⟩
  · rintro k ⟨x, hx, e⟩
    rw [key, ((C126_stands_for r g k).1 x).2 ⟨hx, e⟩, ← e]
    rfl
  · intro k hk
    rw [key, ((C126_stands_for r g k).2.1 .keyError).2 ⟨rfl, hk⟩]
    rfl

/-- A name and an object that stand for the same node; a name and an object that stand for nothing, in graph 0 of `demo`. -/
example : getNode demo 0 (.key (.str "b")) = getNode demo 0 (.node 1) ∧ getNode demo 0 (.key (.str "b")) = .ok 1 ∧
    getNode demo 0 (.key (.str "nobody")) = .error .keyError ∧ getNode demo 0 .other = .error .typeError := by decide +kernel

end Verif
