import Verif.Lemmas.OneParent
import Verif.Props.Demo
/-!
# C18 - C24: ancestors, descendants, loops, distances

`Arrow h g n m` is "graph `g` has an edge from `n` to `m`" and `Path h g` is its transitive closure. `lim` is the number of
stack frames Python has left; the results hold whenever the call does not overflow the stack, and C21 says how many frames
suffice.
-/
namespace Verif

/-- **C18.** `get_ancestors(x)` lists, without repetition, exactly the nodes from which a non-empty path leads to `x`. -/
theorem C18_ancestors {h : Heap} (r : Reachable h) {g : GRef} {a : NodeArg} {x : NRef} (ha : getNode h g a = .ok x)
    {lim : Nat} {l : List NRef} (hl : getAncestors lim h g a = .ok l) :
    l.Nodup ∧ ∀ y, y ∈ l ↔ Path h g y x := by
  obtain ⟨anc, d, sub, ht, -, hu⟩ := ancestors_ok r ha
  unfold getAncestors at hl
  cases hq : ancestorsRec h g lim a [] with
  | error e => rw [hq] at hl; cases hl
  | ok q =>
    rw [hq] at hl
    rw [hu lim q hq] at hl
    cases hl
    exact ⟨ht.nodup, ht.mem_iff r (getNode_mem r ha)⟩

/-- **C18** through the property `node.ancestors`. -/
theorem C18_node_ancestors {h : Heap} (r : Reachable h) {g : GRef} {x : NRef} (hx : x ∈ graphNodes h g)
    (hg : (h.node x).graph = some g) {lim : Nat} {l : List NRef} (hl : nodeAncestors lim h x = .ok l) :
    l.Nodup ∧ ∀ y, y ∈ l ↔ Path h g y x := by
  have : nodeAncestors lim h x = getAncestors lim h g (.node x) := by simp [nodeAncestors, nodeGraph, hg, bind, Except.bind]
  rw [this] at hl
  exact C18_ancestors r (getNode_self r hx) hl

/-- `a` lies on the cycle `a b c`, `d` on a self-loop: both are their own ancestors. -/
example : getAncestors 10 demo 0 (.key (.str "a")) = .ok [2, 1, 0] ∧ nodeAncestors 10 demo 3 = .ok [3] := by decide +kernel

/-- **C19.** `get_descendants(x)` lists, without repetition, exactly the other nodes that `x` has a path to, in depth-first
preorder following the order of the children. -/
theorem C19_descendants {h : Heap} (r : Reachable h) {g : GRef} {a : NodeArg} {x : NRef} (ha : getNode h g a = .ok x)
    {lim : Nat} {l : List NRef} (hl : getDescendants lim h g a = .ok l) :
    l.Nodup ∧ (∀ y, y ∈ l ↔ y ≠ x ∧ Path h g x y) ∧
    ∃ children : NRef → List NRef, (∀ n ∈ graphNodes h g, getChildren h g (.node n) = .ok (children n)) ∧
      Pre children [x] (children x) l := by
  obtain ⟨out, d, ht, -, hu⟩ := descendants_ok r ha
  unfold getDescendants at hl
  cases hq : descendantsRec h g lim a [] with
  | error e => rw [hq] at hl; cases hl
  | ok q =>
    rw [hq] at hl
    rw [hu lim q hq] at hl
    cases hl
    exact ⟨ht.pre.nodup, ht.mem_iff r (getNode_mem r ha), kids h, fun n hn => getChildren_eq r (getNode_self r hn),
      by simpa using ht.pre⟩

/-- **C19** through the property `node.descendants`. -/
theorem C19_node_descendants {h : Heap} (r : Reachable h) {g : GRef} {x : NRef} (hx : x ∈ graphNodes h g)
    (hg : (h.node x).graph = some g) {lim : Nat} {l : List NRef} (hl : nodeDescendants lim h x = .ok l) :
    l.Nodup ∧ ∀ y, y ∈ l ↔ y ≠ x ∧ Path h g x y := by
  have : nodeDescendants lim h x = getDescendants lim h g (.node x) := by simp [nodeDescendants, nodeGraph, hg, bind, Except.bind]
  rw [this] at hl
  have := C19_descendants r (getNode_self r hx) hl
  exact ⟨this.1, this.2.1⟩

example : getDescendants 10 demo 0 (.key (.str "b")) = .ok [2, 0] ∧ nodeDescendants 10 demo 3 = .ok [] := by decide +kernel

/-- **C20.** For two different nodes `a` and `b`: `a` is among the ancestors of `b` exactly when `b` is among the
descendants of `a`; and `num_descendants` counts those `b`. -/
theorem C20_dual {h : Heap} (r : Reachable h) {g : GRef} {p q : NodeArg} {a b : NRef} (hp : getNode h g p = .ok a)
    (hq : getNode h g q = .ok b) (hne : a ≠ b) {lim lim' : Nat} {anc desc : List NRef}
    (h1 : getAncestors lim h g q = .ok anc) (h2 : getDescendants lim' h g p = .ok desc) : a ∈ anc ↔ b ∈ desc := by
  rw [(C18_ancestors r hq h1).2, (C19_descendants r hp h2).2.1]
  exact ⟨fun x => ⟨hne.symm, x⟩, fun x => x.2⟩

/-- **C20**, counting: any list of the nodes that have `x` as an ancestor (without repetition and without `x`) has
`x.num_descendants` elements. -/
theorem C20_count {h : Heap} (r : Reachable h) {g : GRef} {x : NRef} (hx : x ∈ graphNodes h g)
    (hg : (h.node x).graph = some g) {lim : Nat} {n : Nat} (hn : nodeNumDescendants lim h x = .ok n) (l : List NRef)
    (hl : l.Nodup) (hm : ∀ y, y ∈ l ↔ y ≠ x ∧ Path h g x y) : l.length = n := by
  unfold nodeNumDescendants at hn
  cases hd : nodeDescendants lim h x with
  | error e => rw [hd] at hn; cases hn
  | ok ds =>
    rw [hd] at hn
    cases hn
    obtain ⟨h1, h2⟩ := C19_node_descendants r hx hg hd
    exact ((List.perm_ext_iff_of_nodup hl h1).2 fun y => by rw [hm, h2]).length_eq

example : (0 : NRef) ≠ 2 ∧ getAncestors 10 demo 0 (.node 2) = .ok [1, 0, 2] ∧ getDescendants 10 demo 0 (.node 0) = .ok [1, 2] ∧
    nodeNumDescendants 10 demo 0 = .ok 2 := by decide +kernel

/-- **C21.** As many stack frames as the graph has nodes are enough for `get_ancestors` and `get_descendants`, and no node is
entered twice: the list of entered nodes has no repetition (every call enters exactly one node). -/
theorem C21_terminates {h : Heap} (r : Reachable h) {g : GRef} {a : NodeArg} {x : NRef} (ha : getNode h g a = .ok x)
    {lim : Nat} (hlim : (graphNodes h g).length ≤ lim) :
    (∃ l d entered, ancestorsRec h g lim a [] = .ok (l, d, entered) ∧ getAncestors lim h g a = .ok l ∧
      getAncestorsDict lim h g a = .ok d ∧ entered.Nodup ∧ ∀ y ∈ entered, y ∈ graphNodes h g) ∧
    (∃ l d entered, descendantsRec h g lim a [] = .ok (l, d, entered) ∧ getDescendants lim h g a = .ok l ∧
      getDescendantsDict lim h g a = .ok d ∧ entered.Nodup ∧ ∀ y ∈ entered, y ∈ graphNodes h g) := by
  have hx := getNode_mem r ha
  constructor
  · obtain ⟨anc, d, sub, ht, hok, -⟩ := ancestors_ok r ha
    have hp : Pre (pars h) [x] (pars h x) sub := by simpa using ht.pre
    refine ⟨anc, d, x :: sub, hok lim hlim, by simp [getAncestors, hok lim hlim, Except.map],
      by simp [getAncestorsDict, hok lim hlim, Except.map], List.nodup_cons.2 ⟨fun hc => (hp.mem_iff.1 hc).1 rfl, hp.nodup⟩, ?_⟩
    intro y hy
    rcases List.mem_cons.1 hy with rfl | hy
    · exact hx
    · exact (((reach_pars r hx).1 (hp.mem_iff.1 hy).2).mem r).1
  · obtain ⟨out, d, ht, hok, -⟩ := descendants_ok r ha
    have hp : Pre (kids h) [x] (kids h x) out := by simpa using ht.pre
    refine ⟨out, d, x :: out, hok lim hlim, by simp [getDescendants, hok lim hlim, Except.map],
      by simp [getDescendantsDict, hok lim hlim, Except.map], List.nodup_cons.2 ⟨fun hc => (hp.mem_iff.1 hc).1 rfl, hp.nodup⟩, ?_⟩
    intro y hy
    rcases List.mem_cons.1 hy with rfl | hy
    · exact hx
    · exact (((reach_kids r hx).1 (hp.mem_iff.1 hy).2).mem r).2

/-- **C21**, the other half: an argument that is not a node of the graph raises at once (no traversal). -/
theorem C21_unknown {h : Heap} {g : GRef} {a : NodeArg} {e : PyErr} (ha : getNode h g a = .error e) (lim : Nat) :
    getAncestors (lim + 1) h g a = .error e ∧ getDescendants (lim + 1) h g a = .error e := by
  simp [getAncestors, ancestorsRec, getDescendants, descendantsRec, ha, bind, Except.bind, Except.map]

/-- **C21**, **C18**, **C19**: asking the node, asking the graph about the node and asking the graph about its name give the same. -/
theorem C21_node {h : Heap} (r : Reachable h) {g : GRef} {x : NRef} (hx : x ∈ graphNodes h g) (hg : (h.node x).graph = some g)
    (lim : Nat) :
    (nodeAncestors lim h x = getAncestors lim h g (.node x) ∧ getAncestors lim h g (.node x) = getAncestors lim h g (.key (h.node x).id)) ∧
    (nodeDescendants lim h x = getDescendants lim h g (.node x) ∧
      getDescendants lim h g (.node x) = getDescendants lim h g (.key (h.node x).id)) ∧
    ((graphNodes h g).length ≤ lim → ∃ l l', nodeAncestors lim h x = .ok l ∧ nodeDescendants lim h x = .ok l') := by
  have h1 : nodeAncestors lim h x = getAncestors lim h g (.node x) := by simp [nodeAncestors, nodeGraph, hg, bind, Except.bind]
  have h2 : nodeDescendants lim h x = getDescendants lim h g (.node x) := by simp [nodeDescendants, nodeGraph, hg, bind, Except.bind]
  have h3 : getNode h g (.key (h.node x).id) = getNode h g (.node x) := rfl
  refine ⟨⟨h1, ?_⟩, ⟨h2, ?_⟩, fun hlim => ?_⟩
  · cases lim <;> simp [getAncestors, ancestorsRec, h3]
  · cases lim <;> simp [getDescendants, descendantsRec, h3]
  · obtain ⟨⟨l, -, -, -, q1, -⟩, ⟨l', -, -, -, q2, -⟩⟩ := C21_terminates r (getNode_self r hx) hlim
    exact ⟨l, l', h1.trans q1, h2.trans q2⟩

example : getNode demo 0 (.key (.str "b")) = .ok 1 ∧ (graphNodes demo 0).length ≤ 4 ∧
    getNode demo 0 (.key (.str "zzz")) = .error .keyError := by decide +kernel

/-! ## Loops -/

theorem memNode_ancestors {h : Heap} (r : Reachable h) {g : GRef} {a : NodeArg} {x : NRef} (ha : getNode h g a = .ok x)
    {lim : Nat} {l : List NRef} (hl : getAncestors lim h g a = .ok l) {y : NRef} (hy : y ∈ graphNodes h g) :
    memNode h y l = true ↔ Path h g y x := by
  have h18 := C18_ancestors r ha hl
  rw [memNode_eq r hy (fun z hz => (((h18.2 z).1 hz).mem r).1)]
  simp only [inList, decide_eq_true_eq]
  exact h18.2 y

/-- **C22.** `is_node_in_loop(x)` is `True` exactly when a non-empty path leads from `x` back to `x`. -/
theorem C22_in_loop {h : Heap} (r : Reachable h) {g : GRef} {a : NodeArg} {x : NRef} (ha : getNode h g a = .ok x)
    {lim : Nat} {b : Bool} (hb : isNodeInLoop lim h g a = .ok b) : b = true ↔ Path h g x x := by
  have hx := getNode_mem r ha
  unfold isNodeInLoop at hb
  rw [ha] at hb
  cases hl : getAncestors lim h g (.node x) with
  | error e => simp [hl, bind, Except.bind] at hb
  | ok l =>
    simp only [hl, bind, Except.bind, Except.ok.injEq] at hb
    rw [← hb]
    exact memNode_ancestors r (getNode_self r hx) hl hx

/-- **C22**: it answers with as many stack frames as there are nodes. -/
theorem C22_in_loop_total {h : Heap} (r : Reachable h) {g : GRef} {a : NodeArg} {x : NRef} (ha : getNode h g a = .ok x)
    {lim : Nat} (hlim : (graphNodes h g).length ≤ lim) : ∃ b, isNodeInLoop lim h g a = .ok b := by
  obtain ⟨l, _, _, -, hl, -⟩ := (C21_terminates r (getNode_self r (getNode_mem r ha)) hlim).1
  exact ⟨memNode h x l, by simp [isNodeInLoop, ha, hl, bind, Except.bind]⟩

theorem filterE_ok {α : Type} {p : α → Except PyErr Bool} {q : α → Bool} {l : List α} (h : ∀ x ∈ l, p x = .ok (q x)) :
    filterE p l = .ok (l.filter q) := by
  induction l with
  | nil => rfl
  | cons a l ih =>
    unfold filterE
    rw [h a (by simp), ih fun x hx => h x (by simp [hx])]
    cases hq : q a <;> simp [bind, Except.bind, pure, Except.pure, hq]

/-- **C22.** `loop_nodes` is the list of the nodes on cycles, in graph order. -/
theorem C22_loop_nodes {h : Heap} (r : Reachable h) {g : GRef} (hown : ∀ n ∈ graphNodes h g, (h.node n).graph = some g)
    {lim : Nat} (hlim : (graphNodes h g).length ≤ lim) :
    ∃ l, loopNodes lim h g = .ok l ∧ l.Sublist (graphNodes h g) ∧ ∀ x, x ∈ l ↔ Path h g x x := by
  have hb : ∀ x ∈ graphNodes h g, ∃ b, nodeIsInLoop lim h x = .ok b ∧ (b = true ↔ Path h g x x) := by
    intro x hx
    have ha := getNode_self r hx
    obtain ⟨b, hb⟩ := C22_in_loop_total r ha hlim
    exact ⟨b, by simp [nodeIsInLoop, nodeGraph, hown x hx, hb, bind, Except.bind], C22_in_loop r ha hb⟩
  let q : NRef → Bool := fun x => match nodeIsInLoop lim h x with
    | .ok b => b
    | .error _ => false
  have hq : ∀ x ∈ graphNodes h g, nodeIsInLoop lim h x = .ok (q x) := by
    intro x hx
    obtain ⟨b, hb, -⟩ := hb x hx
    simp [q, hb]
  refine ⟨_, filterE_ok hq, List.filter_sublist, ?_⟩
  intro x
  rw [List.mem_filter]
  constructor
  · rintro ⟨hx, hqx⟩
    obtain ⟨b, hbx, hiff⟩ := hb x hx
    rw [hq x hx] at hbx
    cases hbx
    exact hiff.1 hqx
  · intro p
    have hx := (p.mem r).1
    obtain ⟨b, hbx, hiff⟩ := hb x hx
    rw [hq x hx] at hbx
    cases hbx
    exact ⟨hx, hiff.2 p⟩

example : (∀ n ∈ graphNodes demo 0, (demo.node n).graph = some 0) ∧ loopNodes 4 demo 0 = .ok [0, 1, 2, 3] := by decide +kernel

/-- **C22**, the README's definition: `x` is in a loop exactly when some descendant of it is also an ancestor of it, or it
has an edge to itself. (The README leaves out the self-loop.) -/
theorem C22_readme {h : Heap} (r : Reachable h) {g : GRef} {a : NodeArg} {x : NRef} (ha : getNode h g a = .ok x)
    {lim lim' : Nat} {anc desc : List NRef} (h1 : getAncestors lim h g a = .ok anc) (h2 : getDescendants lim' h g a = .ok desc) :
    Path h g x x ↔ (∃ y ∈ desc, y ∈ anc) ∨ Arrow h g x x := by
  constructor
  · intro p
    obtain ⟨z, hz, hr⟩ := Relation.TransGen.head'_iff.1 p
    by_cases hzx : z = x
    · subst hzx; exact .inr hz
    · refine .inl ⟨z, ((C19_descendants r ha h2).2.1 z).2 ⟨hzx, .single hz⟩, ((C18_ancestors r ha h1).2 z).2 ?_⟩
      rcases Relation.reflTransGen_iff_eq_or_transGen.1 hr with e | hr
      · exact absurd e.symm hzx
      · exact hr
  · rintro (⟨y, hy1, hy2⟩ | hx)
    · exact (((C19_descendants r ha h2).2.1 y).1 hy1).2.trans (((C18_ancestors r ha h1).2 y).1 hy2)
    · exact .single hx

/-- **C23.** `are_nodes_in_same_loop(x, y)` is `True` exactly when each is reachable from the other. -/
theorem C23_same_loop {h : Heap} (r : Reachable h) {g : GRef} {p q : NodeArg} {x y : NRef} (hp : getNode h g p = .ok x)
    (hq : getNode h g q = .ok y) {lim : Nat} {b : Bool} (hb : areNodesInSameLoop lim h g p q = .ok b) :
    b = true ↔ Path h g x y ∧ Path h g y x := by
  have hx := getNode_mem r hp
  have hy := getNode_mem r hq
  unfold areNodesInSameLoop at hb
  rw [hp, hq] at hb
  cases h2 : getAncestors lim h g (.node y) with
  | error e => simp [h2, bind, Except.bind] at hb
  | ok l2 =>
    cases h1 : getAncestors lim h g (.node x) with
    | error e => simp [h1, h2, bind, Except.bind] at hb
    | ok l1 =>
      simp only [h1, h2, bind, Except.bind, Except.ok.injEq] at hb
      rw [← hb, Bool.and_eq_true, memNode_ancestors r (getNode_self r hy) h2 hx, memNode_ancestors r (getNode_self r hx) h1 hy]

/-- **C23**: it answers with as many stack frames as there are nodes. -/
theorem C23_same_loop_total {h : Heap} (r : Reachable h) {g : GRef} {p q : NodeArg} {x y : NRef}
    (hp : getNode h g p = .ok x) (hq : getNode h g q = .ok y) {lim : Nat} (hlim : (graphNodes h g).length ≤ lim) :
    ∃ b, areNodesInSameLoop lim h g p q = .ok b := by
  obtain ⟨l, _, _, -, hl, -⟩ := (C21_terminates r (getNode_self r (getNode_mem r hp)) hlim).1
  obtain ⟨l', _, _, -, hl', -⟩ := (C21_terminates r (getNode_self r (getNode_mem r hq)) hlim).1
  exact ⟨memNode h x l' && memNode h y l, by simp only [areNodesInSameLoop, hp, hq, hl, hl', bind, Except.bind]⟩

/-- **C23.** `x.is_in_loop_with(y)`, on the nodes of a graph, is symmetric, transitive, and reflexive exactly on the nodes
that are in a loop. -/
theorem C23_equivalence {h : Heap} (r : Reachable h) {g : GRef} (hown : ∀ n ∈ graphNodes h g, (h.node n).graph = some g)
    {lim : Nat} (hlim : (graphNodes h g).length ≤ lim) {x y z : NRef} (hx : x ∈ graphNodes h g) (hy : y ∈ graphNodes h g)
    (hz : z ∈ graphNodes h g) :
    nodeIsInLoopWith lim h x y = nodeIsInLoopWith lim h y x ∧
    (nodeIsInLoopWith lim h x y = .ok true → nodeIsInLoopWith lim h y z = .ok true → nodeIsInLoopWith lim h x z = .ok true) ∧
    nodeIsInLoopWith lim h x x = nodeIsInLoop lim h x := by
  have key : ∀ {x y}, x ∈ graphNodes h g → y ∈ graphNodes h g →
      ∃ b, nodeIsInLoopWith lim h x y = .ok b ∧ (b = true ↔ Path h g x y ∧ Path h g y x) := by
    intro x y hx hy
    obtain ⟨b, hb⟩ := C23_same_loop_total r (getNode_self r hx) (getNode_self r hy) hlim
    refine ⟨b, ?_, C23_same_loop r (getNode_self r hx) (getNode_self r hy) hb⟩
    simp only [nodeIsInLoopWith, nodeGraph, hown x hx, bind, Except.bind]
    exact hb
  obtain ⟨b1, e1, i1⟩ := key hx hy
  obtain ⟨b2, e2, i2⟩ := key hy hx
  obtain ⟨b3, e3, i3⟩ := key hy hz
  obtain ⟨b4, e4, i4⟩ := key hx hz
  obtain ⟨b5, e5, i5⟩ := key hx hx
  refine ⟨?_, ?_, ?_⟩
  · rw [e1, e2]
    congr 1
    rw [Bool.eq_iff_iff, i1, i2]
    exact and_comm
  · rw [e1, e3, e4]
    intro h1 h3
    cases h1; cases h3
    rw [Except.ok.injEq, i4]
    exact ⟨(i1.1 rfl).1.trans (i3.1 rfl).1, (i3.1 rfl).2.trans (i1.1 rfl).2⟩
  · obtain ⟨b6, e6⟩ := C22_in_loop_total r (getNode_self r hx) hlim
    have i6 := C22_in_loop r (getNode_self r hx) e6
    have : nodeIsInLoop lim h x = .ok b6 := by simp only [nodeIsInLoop, nodeGraph, hown x hx, bind, Except.bind]; exact e6
    rw [e5, this]
    congr 1
    rw [Bool.eq_iff_iff, i5, i6]
    exact and_self_iff

/-- **C23.** `edge.is_in_loop()` is `True` exactly when some cycle uses the edge: a path (possibly empty) leads from its end
back to its start. -/
theorem C23_edge {h : Heap} (r : Reachable h) {g : GRef} (hown : ∀ n ∈ graphNodes h g, (h.node n).graph = some g)
    {lim : Nat} (hlim : (graphNodes h g).length ≤ lim) {e : ERef} {s t : NRef} (he : LiveEdge h g e)
    (hs : edgeStart h e = .ok s) (ht : edgeEnd h e = .ok t) :
    ∃ b, edgeIsInLoop lim h e = .ok b ∧ (b = true ↔ Relation.ReflTransGen (Arrow h g) t s) := by
  have harr : Arrow h g s t := ⟨e, he, hs, ht⟩
  obtain ⟨hsm, htm⟩ := arrow_mem r harr
  obtain ⟨b, hb⟩ := C23_same_loop_total r (getNode_self r hsm) (getNode_self r htm) hlim
  refine ⟨b, ?_, ?_⟩
  · simp only [edgeIsInLoop, hs, ht, nodeIsInLoopWith, nodeGraph, hown s hsm, bind, Except.bind]
    exact hb
  · rw [C23_same_loop r (getNode_self r hsm) (getNode_self r htm) hb]
    constructor
    · intro p; exact p.2.to_reflTransGen
    · intro p
      refine ⟨.single harr, ?_⟩
      rcases Relation.reflTransGen_iff_eq_or_transGen.1 p with e | p
      · subst e; exact .single harr
      · exact p

example : nodeIsInLoopWith 4 demo 0 2 = .ok true ∧ nodeIsInLoopWith 4 demo 0 3 = .ok false ∧
    edgeIsInLoop 4 demo 4 = .ok true ∧ edgeIsInLoop 4 demo 1 = .ok true := by decide +kernel

/-! ## Distances -/

/-- `x` with parents `p` and `q`, whose parents are `r` and `s`. -/
def forkOps : List Op :=
  [.newGraph false true false, .add 0 "x", .add 0 "p", .add 0 "q", .add 0 "r", .add 0 "s",
   .link 0 "p" "x", .link 0 "q" "x", .link 0 "r" "p", .link 0 "s" "q"]

theorem forkOps_ok : AllOk forkOps Heap.init := by simp only [AllOk, forkOps, Op.Ok, Op.add, Op.link]; decide

/-- `b` is a child of `a` and also a grandchild, through the child `c` that comes first. -/
def shortcutOps : List Op :=
  [.newGraph false true false, .add 0 "a", .add 0 "b", .add 0 "c", .link 0 "a" "c", .link 0 "c" "b", .link 0 "a" "b"]

theorem shortcutOps_ok : AllOk shortcutOps Heap.init := by simp only [AllOk, shortcutOps, Op.Ok, Op.add, Op.link]; decide

/-- **C24 fails**: `r` is an ancestor of `x` but is listed at no distance, because the entries of the second parent replace
those of the first; dually for descendants. -/
theorem C24_lost_ancestor : ∃ h, Reachable h ∧ getAncestors 5 h 0 (.key (.str "x")) = .ok [1, 3, 2, 4] ∧
    getAncestorsDict 5 h 0 (.key (.str "x")) = .ok [(1, [1, 2]), (2, [4])] :=
  ⟨runOps forkOps Heap.init, Reachable.runOps .init _ forkOps_ok, by decide +kernel, by decide +kernel⟩

/-- **C24 fails**: entry 1 does not list all children: `b` is a child of `a`, but is listed at distance 2 only. -/
theorem C24_lost_child : ∃ h, Reachable h ∧ getChildren h 0 (.key (.str "a")) = .ok [2, 1] ∧
    getDescendantsDict 5 h 0 (.key (.str "a")) = .ok [(1, [2]), (2, [1])] :=
  ⟨runOps shortcutOps Heap.init, Reachable.runOps .init _ shortcutOps_ok, by decide +kernel, by decide +kernel⟩

/-- **C24 fails**: entry 1 of the ancestors does not list all parents either. -/
theorem C24_lost_parent : ∃ h, Reachable h ∧ getParents h 0 (.key (.str "b")) = .ok [2, 0] ∧
    getAncestorsDict 5 h 0 (.key (.str "b")) = .ok [(1, [2]), (2, [0])] :=
  ⟨runOps shortcutOps Heap.init, Reachable.runOps .init _ shortcutOps_ok, by decide +kernel, by decide +kernel⟩

/-- **C24**, what holds of `get_ancestors(x, distance=True)`: distances are positive and distinct; a node listed at `k` has a
walk of exactly `k` edges to `x` (and is one of `get_ancestors(x, distance=False)`); and if no node of the graph has two
different parents, every ancestor is listed. Missing: completeness for other graphs (`C24_lost_ancestor`,
`C24_lost_parent`). -/
theorem C24_ancestors_partial {h : Heap} (r : Reachable h) {g : GRef} {a : NodeArg} {x : NRef} (ha : getNode h g a = .ok x)
    {lim : Nat} {d : Dict Nat (List NRef)} (hd : getAncestorsDict lim h g a = .ok d) :
    (dkeys d).Nodup ∧
    (∀ k l, (k, l) ∈ d → 1 ≤ k ∧ ∀ y ∈ l, Walk (Arrow h g) k y x ∧ Path h g y x) ∧
    ((∀ m p q, Arrow h g p m → Arrow h g q m → p = q) → ∀ y, Path h g y x → ∃ k l, (k, l) ∈ d ∧ y ∈ l) := by
  have hx := getNode_mem r ha
  obtain ⟨anc, d', sub, ht, hok, hu⟩ := ancestors_ok r ha
  unfold getAncestorsDict at hd
  cases hq : ancestorsRec h g lim a [] with
  | error e => rw [hq] at hd; cases hd
  | ok q =>
    rw [hq, hu lim q hq] at hd
    cases hd
    refine ⟨ht.dict.nodup, ?_, ?_⟩
    · intro k l hkl
      refine ⟨ht.dict.pos k l hkl, fun y hy => ⟨(walk_pars r hx).1 (ht.dict.walk k l y hkl hy), ?_⟩⟩
      exact (ht.mem_iff r hx y).1 (ht.dict.sub k l y hkl hy)
    · intro hfun y hy
      have e := hok _ (Nat.le_refl _)
      rw [ancestorsRec_arg r ha, ancestorsRec_eq r _ hx (by simp)] at e
      refine ancTraverse_chain (V := []) (pars_closed r) ?_ _ hx (by simp) (List.length_filter_le _ _) e y ((ht.mem_iff r hx y).2 hy)
      intro m hm p hp q hq
      exact hfun m p q ((mem_pars r hm).1 hp) ((mem_pars r hm).1 hq)

/-- **C24**, what holds of `get_descendants(x, distance=True)`. Missing: completeness for graphs in which some node has two
different children (`C24_lost_child`). -/
theorem C24_descendants_partial {h : Heap} (r : Reachable h) {g : GRef} {a : NodeArg} {x : NRef} (ha : getNode h g a = .ok x)
    {lim : Nat} {d : Dict Nat (List NRef)} (hd : getDescendantsDict lim h g a = .ok d) :
    (dkeys d).Nodup ∧
    (∀ k l, (k, l) ∈ d → 1 ≤ k ∧ ∀ y ∈ l, y ≠ x ∧ Walk (Arrow h g) k x y ∧ Path h g x y) ∧
    ((∀ m p q, Arrow h g m p → Arrow h g m q → p = q) → ∀ y, y ≠ x → Path h g x y → ∃ k l, (k, l) ∈ d ∧ y ∈ l) := by
  have hx := getNode_mem r ha
  obtain ⟨out, d', ht, hok, hu⟩ := descendants_ok r ha
  unfold getDescendantsDict at hd
  cases hq : descendantsRec h g lim a [] with
  | error e => rw [hq] at hd; cases hd
  | ok q =>
    rw [hq, hu lim q hq] at hd
    cases hd
    refine ⟨ht.dict.nodup, ?_, ?_⟩
    · intro k l hkl
      refine ⟨ht.dict.pos k l hkl, fun y hy => ?_⟩
      have hm := (ht.mem_iff r hx y).1 (ht.dict.sub k l y hkl hy)
      exact ⟨hm.1, (walk_kids r hx).1 (ht.dict.walk k l y hkl hy), hm.2⟩
    · intro hfun y hyx hy
      have e := hok _ (Nat.le_refl _)
      rw [descendantsRec_arg r ha, descendantsRec_eq r _ hx (by simp)] at e
      refine objTraverse_chain (V := []) (kids_closed r) ?_ _ hx (by simp) (List.length_filter_le _ _) e y
        ((ht.mem_iff r hx y).2 ⟨hyx, hy⟩)
      intro m hm p hp q hq
      exact hfun m p q ((mem_kids r hm).1 hp) ((mem_kids r hm).1 hq)

example : ∀ m p q, Arrow demo 0 p m → Arrow demo 0 q m → p = q := by
  intro m p q hp hq
  have hm := (arrow_mem demo_reachable hp).2
  rw [← mem_pars demo_reachable hm] at hp hq
  have key : ∀ m ∈ graphNodes demo 0, ∀ p ∈ pars demo m, ∀ q ∈ pars demo m, p = q := by decide +kernel
  exact key m hm p hp q hq

/-- In the demo graph no node has two different parents or children, and it has a cycle. -/
example : getAncestorsDict 4 demo 0 (.key (.str "a")) = .ok [(1, [2]), (2, [1]), (3, [0])] ∧
    getDescendantsDict 4 demo 0 (.key (.str "a")) = .ok [(1, [1]), (2, [2])] := by decide +kernel

/-- **C24**: entry `k` of `get_ancestors(x, distance=True)` lists parents of a single node only, whatever the graph. -/
theorem C24_ancestors_one_partial {h : Heap} (r : Reachable h) {g : GRef} {a : NodeArg} {x : NRef} (ha : getNode h g a = .ok x)
    {lim : Nat} {d : Dict Nat (List NRef)} (hd : getAncestorsDict lim h g a = .ok d) :
    ∀ k l, (k, l) ∈ d → ∃ p, Walk (Arrow h g) (k - 1) p x ∧ ∀ y ∈ l, Arrow h g y p := by
  have hx := getNode_mem r ha
  unfold getAncestorsDict at hd
  cases hq : ancestorsRec h g lim a [] with
  | error e => rw [hq] at hd; cases hd
  | ok q =>
    rw [hq] at hd
    cases hd
    rw [ancestorsRec_arg r ha, ancestorsRec_eq r _ hx (by simp)] at hq
    intro k l hkl
    obtain ⟨-, p, hw, hp⟩ := ancTraverse_one lim (t := q.2.2) hq k l hkl
    have hw := (walk_pars r hx).1 hw
    exact ⟨p, hw, fun y hy => (mem_pars r (walk_start_mem r hx hw)).1 (hp y hy)⟩

/-- **C24**: entry `k` of `get_descendants(x, distance=True)` lists children of a single node only. -/
theorem C24_descendants_one_partial {h : Heap} (r : Reachable h) {g : GRef} {a : NodeArg} {x : NRef} (ha : getNode h g a = .ok x)
    {lim : Nat} {d : Dict Nat (List NRef)} (hd : getDescendantsDict lim h g a = .ok d) :
    ∀ k l, (k, l) ∈ d → ∃ p, Walk (Arrow h g) (k - 1) x p ∧ ∀ y ∈ l, Arrow h g p y := by
  have hx := getNode_mem r ha
  unfold getDescendantsDict at hd
  cases hq : descendantsRec h g lim a [] with
  | error e => rw [hq] at hd; cases hd
  | ok q =>
    rw [hq] at hd
    cases hd
    rw [descendantsRec_arg r ha, descendantsRec_eq r _ hx (by simp)] at hq
    intro k l hkl
    obtain ⟨-, p, hw, hp⟩ := objTraverse_one lim (t := q.2.2) hq k l hkl
    have hw := (walk_kids r hx).1 hw
    exact ⟨p, hw, fun y hy => (mem_kids r (walk_end_mem r hx hw)).1 (hp y hy)⟩

/-- **C24 is violated** in every graph with two ancestors `y` and `z` of `x` that are both exactly `k` edges away and have no child in
common: one of them is listed at no distance. -/
theorem C24_ancestors_violated {h : Heap} (r : Reachable h) {g : GRef} {a : NodeArg} {x : NRef} (ha : getNode h g a = .ok x)
    {lim : Nat} {d : Dict Nat (List NRef)} (hd : getAncestorsDict lim h g a = .ok d) {y z : NRef} {k : Nat}
    (hy : ∀ j, Walk (Arrow h g) j y x → j = k) (hz : ∀ j, Walk (Arrow h g) j z x → j = k)
    (hno : ∀ p, Arrow h g y p → ¬ Arrow h g z p) :
    (∀ j l, (j, l) ∈ d → y ∉ l) ∨ (∀ j l, (j, l) ∈ d → z ∉ l) := by
  obtain ⟨hn, hs, -⟩ := C24_ancestors_partial r ha hd
  refine Classical.byContradiction fun hc => ?_
  simp only [not_or, Classical.not_forall, Classical.not_not] at hc
  obtain ⟨⟨j, l, hj, hyl⟩, i, m, hi, hzm⟩ := hc
  obtain rfl := hy j ((hs j l hj).2 y hyl).1
  obtain rfl := hz i ((hs i m hi).2 z hzm).1
  obtain rfl := val_unique hn hj hi
  obtain ⟨p, -, hp⟩ := C24_ancestors_one_partial r ha hd _ l hj
  exact hno p (hp y hyl) (hp z hzm)

/-- **C24 is violated** in every graph with two descendants `y` and `z` of `x` that are both exactly `k` edges away and have no parent
in common: one of them is listed at no distance. -/
theorem C24_descendants_violated {h : Heap} (r : Reachable h) {g : GRef} {a : NodeArg} {x : NRef} (ha : getNode h g a = .ok x)
    {lim : Nat} {d : Dict Nat (List NRef)} (hd : getDescendantsDict lim h g a = .ok d) {y z : NRef} {k : Nat}
    (hy : ∀ j, Walk (Arrow h g) j x y → j = k) (hz : ∀ j, Walk (Arrow h g) j x z → j = k)
    (hno : ∀ p, Arrow h g p y → ¬ Arrow h g p z) :
    (∀ j l, (j, l) ∈ d → y ∉ l) ∨ (∀ j l, (j, l) ∈ d → z ∉ l) := by
  obtain ⟨hn, hs, -⟩ := C24_descendants_partial r ha hd
  refine Classical.byContradiction fun hc => ?_
  simp only [not_or, Classical.not_forall, Classical.not_not] at hc
  obtain ⟨⟨j, l, hj, hyl⟩, i, m, hi, hzm⟩ := hc
  obtain rfl := hy j ((hs j l hj).2 y hyl).2.1
  obtain rfl := hz i ((hs i m hi).2 z hzm).2.1
  obtain rfl := val_unique hn hj hi
  obtain ⟨p, -, hp⟩ := C24_descendants_one_partial r ha hd _ l hj
  exact hno p (hp y hyl) (hp z hzm)

/-- The fork as a state. -/
def fork : Heap := runOps forkOps Heap.init

theorem fork_reachable : Reachable fork := Reachable.runOps .init _ forkOps_ok

theorem fork_levels : ∀ a b, Arrow fork 0 a b →
    (fun n => [2, 1, 1, 0, 0].getD n 0) b = (fun n : NRef => [2, 1, 1, 0, 0].getD n 0) a + 1 := by
  intro a b hab
  have ha := (arrow_mem fork_reachable hab).1
  rw [← mem_kids fork_reachable ha] at hab
  have key : ∀ a ∈ graphNodes fork 0, ∀ b ∈ kids fork a, [2, 1, 1, 0, 0].getD b 0 = [2, 1, 1, 0, 0].getD a 0 + 1 := by decide +kernel
  exact key a ha b hab

theorem fork_apart : ∀ p, Arrow fork 0 3 p → ¬ Arrow fork 0 4 p := by
  intro p h3 h4
  rw [← mem_kids fork_reachable (arrow_mem fork_reachable h3).1] at h3
  rw [← mem_kids fork_reachable (arrow_mem fork_reachable h4).1] at h4
  have key : ∀ p ∈ kids fork 3, p ∉ kids fork 4 := by decide +kernel
  exact key p h3 h4

/-- `r` and `s` in the fork: two steps from `x` and without a common child. -/
example := C24_ancestors_violated fork_reachable (g := 0) (a := .key (.str "x")) (x := 0) (by decide +kernel) (lim := 5)
  (d := [(1, [1, 2]), (2, [4])]) (by decide +kernel) (y := 3) (z := 4) (k := 2)
  (fun j w => by have := walk_level fork_levels w; simp at this; omega)
  (fun j w => by have := walk_level fork_levels w; simp at this; omega) fork_apart

/-- `x` with children `p` and `q`, whose children are `r` and `s`. -/
def branchOps : List Op :=
  [.newGraph false true false, .add 0 "x", .add 0 "p", .add 0 "q", .add 0 "r", .add 0 "s",
   .link 0 "x" "p", .link 0 "x" "q", .link 0 "p" "r", .link 0 "q" "s"]

/-- The state after these calls. -/
def branch : Heap := runOps branchOps Heap.init

theorem branch_reachable : Reachable branch :=
  Reachable.runOps .init _ (by simp only [AllOk, branchOps, Op.Ok, Op.add, Op.link]; decide)

theorem branch_levels : ∀ a b, Arrow branch 0 a b →
    (fun n => [0, 1, 1, 2, 2].getD n 0) b = (fun n : NRef => [0, 1, 1, 2, 2].getD n 0) a + 1 := by
  intro a b hab
  have ha := (arrow_mem branch_reachable hab).1
  rw [← mem_kids branch_reachable ha] at hab
  have key : ∀ a ∈ graphNodes branch 0, ∀ b ∈ kids branch a, [0, 1, 1, 2, 2].getD b 0 = [0, 1, 1, 2, 2].getD a 0 + 1 := by
    decide +kernel
  exact key a ha b hab

theorem branch_apart : ∀ p, Arrow branch 0 p 3 → ¬ Arrow branch 0 p 4 := by
  intro p h3 h4
  have hp := (arrow_mem branch_reachable h3).1
  rw [← mem_kids branch_reachable hp] at h3 h4
  have key : ∀ p ∈ graphNodes branch 0, 3 ∈ kids branch p → 4 ∉ kids branch p := by decide +kernel
  exact key p hp h3 h4

example := C24_descendants_violated branch_reachable (g := 0) (a := .key (.str "x")) (x := 0) (by decide +kernel) (lim := 5)
  (d := [(1, [1, 2]), (2, [4])]) (by decide +kernel) (y := 3) (z := 4) (k := 2)
  (fun j w => by have := walk_level branch_levels w; simp at this; omega)
  (fun j w => by have := walk_level branch_levels w; simp at this; omega) branch_apart

end Verif
