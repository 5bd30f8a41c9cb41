import Verif.Model.Print
import Verif.Lemmas.DraftGraph
import Verif.Props.Order
import Verif.Props.Structure
import Verif.Props.Remove
import Verif.Props.Demo
/-!
# C131: what printing a node or an edge shows
-/
namespace Verif
open M

/-- A piece of text that starts with `m` where nothing before it contains `m` is found at one place only, if the first
character of `m` does not come again in `m`. -/
theorem append_sep_inj {a : Char} {m : List Char} (ha : a ∉ m) :
    ∀ {l l' r r' : List Char}, ¬ (a :: m) <:+: l → ¬ (a :: m) <:+: l' → l ++ a :: m ++ r = l' ++ a :: m ++ r' → l = l' ∧ r = r' := by
  have start : ∀ (m p : List Char) (r x r' : List Char), a ∉ m → p ++ m ++ r = x ++ a :: r' → ∀ p', p' = p ++ m →
      x.length < p'.length → p.length ≤ x.length → False := by
    intro m p r x r' ham e p' hp hlt hle
    subst hp
    have h1 : (p ++ m ++ r)[x.length]? = some a := by rw [e]; simp
    rw [List.getElem?_append_left hlt, List.getElem?_append_right hle] at h1
    exact ham (List.mem_of_getElem? h1)
  intro l
  induction l with
  | nil =>
    intro l' r r' _ h2 e
    cases l' with
    | nil => exact ⟨rfl, by simpa using e⟩
    | cons c l' =>
      exfalso
      simp only [List.nil_append, List.cons_append, List.cons.injEq] at e
      obtain ⟨rfl, e⟩ := e
      by_cases hlen : m.length ≤ l'.length
      · apply h2
        have : m = l'.take m.length := by
          have := congrArg (List.take m.length) e
          simpa [List.take_append_of_le_length, hlen] using this
        exact ⟨[], l'.drop m.length, by simp only [List.nil_append, List.cons_append]; rw (occs := [1]) [this]; simp⟩
      · exact start m [] r l' (m ++ r') ha (by simpa using e) m rfl (by omega) (by simp)
  | cons b l ih =>
    intro l' r r' h1 h2 e
    cases l' with
    | nil =>
      exfalso
      simp only [List.nil_append, List.cons_append, List.cons.injEq] at e
      obtain ⟨rfl, e⟩ := e
      by_cases hlen : m.length ≤ l.length
      · apply h1
        have : m = l.take m.length := by
          have := congrArg (List.take m.length) e.symm
          simpa [List.take_append_of_le_length, hlen] using this
        exact ⟨[], l.drop m.length, by simp only [List.nil_append, List.cons_append]; rw (occs := [1]) [this]; simp⟩
      · exact start m [] r' l (m ++ r) ha (by simpa using e.symm) m rfl (by omega) (by simp)
    | cons c l' =>
      simp only [List.cons_append, List.cons.injEq] at e
      obtain ⟨rfl, e⟩ := e
      have up : ∀ {l : List Char}, ¬ (a :: m) <:+: b :: l → ¬ (a :: m) <:+: l := fun h c => h (c.trans (List.suffix_cons b _).isInfix)
      obtain ⟨rfl, rfl⟩ := ih (up h1) (up h2) (by simpa using e)
      exact ⟨rfl, rfl⟩

/-- The ends of an edge of a graph. -/
theorem live_ends {h : Heap} (r : Reachable h) {g : GRef} {e : ERef} (he : LiveEdge h g e) :
    ∃ s t, edgeStart h e = .ok s ∧ edgeEnd h e = .ok t ∧ s ∈ graphNodes h g ∧ t ∈ graphNodes h g := by
  obtain ⟨A, H⟩ := r.hist
  have R := H.rep
  obtain ⟨⟨x, y, i⟩, hi⟩ := (liveEdge_iff R).1 he
  obtain ⟨-, -, -, -, n, m, h1, h2, h3, h4⟩ := R.edgeOk g x y i e hi
  exact ⟨n, m, by simp [edgeStart, h3], by simp [edgeEnd, h4], (mem_graphNodes R).2 ⟨_, h1⟩, (mem_graphNodes R).2 ⟨_, h2⟩⟩

theorem edgeStr_of {h : Heap} {e : ERef} {s t : NRef} {x y : String} (hs : edgeStart h e = .ok s) (ht : edgeEnd h e = .ok t)
    (hx : (h.node s).id = .str x) (hy : (h.node t).id = .str y) : edgeStr h e = .ok ("Edge:Node:" ++ x ++ "-Node:" ++ y) := by
  have : edgeStr h e = .ok ("Edge:" ++ nodeStr h s ++ "-" ++ nodeStr h t) := by
    simp only [edgeStr, hs, ht]; rfl
  rw [this]
  congr 1
  apply String.toList_inj.1
  simp [nodeStr, hx, hy, Key.toStr]

/-- **C131** for nodes: `str(node)` and `repr(node)` are `Node:` and the name. Two node objects print the same exactly if they
have the same name, two nodes of one graph exactly if they are one node. Whatever is called afterwards, even if the node is
removed, it prints the same. -/
theorem C131_node {h : Heap} (r : Reachable h) (n : NRef) :
    (∃ x, (h.node n).id = .str x ∧ nodeStr h n = "Node:" ++ x) ∧ nodeRepr h n = nodeStr h n ∧
    (∀ m, nodeStr h n = nodeStr h m ↔ (h.node n).id = (h.node m).id) ∧
    (∀ g m, n ∈ graphNodes h g → m ∈ graphNodes h g → (nodeStr h n = nodeStr h m ↔ n = m)) ∧
    (n < h.nN → ∀ ops, nodeStr (runOps ops h) n = nodeStr h n) := by
  have key : ∀ m, nodeStr h n = nodeStr h m ↔ (h.node n).id = (h.node m).id := by
    intro m
    obtain ⟨x, hx⟩ := r.idStr n
    obtain ⟨y, hy⟩ := r.idStr m
    simp only [nodeStr, hx, hy, Key.toStr, Key.str.injEq]
    constructor
    · intro e
      have := congrArg String.toList e
      simp only [String.toList_append, List.append_cancel_left_eq] at this
      exact String.toList_inj.1 this
    · rintro rfl; rfl
  refine ⟨?_, rfl, key, fun g m hn hm => ?_, fun hn ops => ?_⟩
  · obtain ⟨x, hx⟩ := r.idStr n
    exact ⟨x, hx, by simp [nodeStr, hx, Key.toStr]⟩
  · rw [key]
    exact ⟨node_eq_of_name r hn hm, fun e => by rw [e]⟩
  · simp only [nodeStr, ((Later.runOps ops h).node n hn).id]

/-- Nodes 0 and 4 of `demo` are both called `a`, in two graphs. -/
example : nodeStr demo 0 = "Node:a" ∧ nodeStr demo 4 = "Node:a" ∧ nodeStr demo 1 = "Node:b" := by decide +kernel

/-- **C131** for the edges of a graph: `str(edge)` and `repr(edge)` show the names of the two ends. -/
theorem C131_edge {h : Heap} (r : Reachable h) {g : GRef} {e : ERef} (he : LiveEdge h g e) :
    ∃ s t x y, edgeStart h e = .ok s ∧ edgeEnd h e = .ok t ∧ (h.node s).id = .str x ∧ (h.node t).id = .str y ∧
      edgeStr h e = .ok ("Edge:Node:" ++ x ++ "-Node:" ++ y) ∧ edgeRepr h e = edgeStr h e := by
  obtain ⟨s, t, hs, ht, -, -⟩ := live_ends r he
  obtain ⟨x, hx⟩ := r.idStr s
  obtain ⟨y, hy⟩ := r.idStr t
  exact ⟨s, t, x, y, hs, ht, hx, hy, edgeStr_of hs ht hx hy, rfl⟩

/-- **C131** for edges at two times: whatever is called in between, an edge that is still in a graph prints as it did before. -/
theorem C131_edge_lasts {h : Heap} (r : Reachable h) {g g' : GRef} {e : ERef} (he : LiveEdge h g e) {ops : List Op}
    (ok : AllOk ops h) (he' : LiveEdge (runOps ops h) g' e) : edgeStr (runOps ops h) e = edgeStr h e := by
  obtain ⟨A, H⟩ := r.hist
  have R := H.rep
  obtain ⟨⟨x, y, i⟩, hi⟩ := (liveEdge_iff R).1 he
  obtain ⟨hlt, -, -, -, n, m, h1, h2, h3, h4⟩ := R.edgeOk g x y i e hi
  obtain ⟨s, t, hs, ht, -, -⟩ := live_ends (r.runOps ops ok) he'
  have L := Later.runOps ops h
  obtain ⟨a, b⟩ := (L.edge e hlt).ends
  have a : ((runOps ops h).edge e).start = some n := by
    rcases a with a | a
    · rw [a, h3]
    · simp [edgeStart, a] at hs
  have b : ((runOps ops h).edge e).stop = some m := by
    rcases b with b | b
    · rw [b, h4]
    · simp [edgeEnd, b] at ht
  have i1 := (L.node n (R.nodeOk g x n h1).1).id
  have i2 := (L.node m (R.nodeOk g y m h2).1).id
  simp only [edgeStr, edgeStart, edgeEnd, a, b, h3, h4, nodeStr, bind, Except.bind, i1, i2]

/-- Edge 1 of `demo` survives the removal of `d` and of edge 0. -/
example : AllOk [.removeNode 0 (.key (.str "d")), .disconnect 0] demo ∧
    outwardEdges (runOps [.removeNode 0 (.key (.str "d")), .disconnect 0] demo) 1 = .ok [1] ∧
    edgeStr (runOps [.removeNode 0 (.key (.str "d")), .disconnect 0] demo) 1 = .ok "Edge:Node:b-Node:c" := by
  refine ⟨?_, by decide +kernel, by decide +kernel⟩
  simp only [AllOk, Op.Ok]
  decide

/-- **C131**, the part that holds: two edges, of one graph or of two, that print the same have ends of the same names, provided
that the names of the nodes they start at do not contain `-Node:`. In one graph they then have the same ends. -/
theorem C131_ends_partial {h : Heap} (r : Reachable h) {g g' : GRef} {e f : ERef} (he : LiveEdge h g e) (hf : LiveEdge h g' f)
    {s t s' t' : NRef} (hs : edgeStart h e = .ok s) (ht : edgeEnd h e = .ok t) (hs' : edgeStart h f = .ok s')
    (ht' : edgeEnd h f = .ok t') (plain : ∀ n x, n = s ∨ n = s' → (h.node n).id = .str x → ¬ "-Node:".toList <:+: x.toList) :
    (edgeStr h e = edgeStr h f ↔ (h.node s).id = (h.node s').id ∧ (h.node t).id = (h.node t').id) ∧
    (g = g' → (edgeStr h e = edgeStr h f ↔ s = s' ∧ t = t')) := by
  obtain ⟨x, hx⟩ := r.idStr s
  obtain ⟨y, hy⟩ := r.idStr t
  obtain ⟨x', hx'⟩ := r.idStr s'
  obtain ⟨y', hy'⟩ := r.idStr t'
  have key : edgeStr h e = edgeStr h f ↔ (h.node s).id = (h.node s').id ∧ (h.node t).id = (h.node t').id := by
    rw [edgeStr_of hs ht hx hy, edgeStr_of hs' ht' hx' hy', hx, hy, hx', hy']
    simp only [Except.ok.injEq, Key.str.injEq]
    constructor
    · intro e
      have := congrArg String.toList e
      simp only [String.toList_append, List.append_assoc, List.append_cancel_left_eq] at this
      have hN : "-Node:".toList = '-' :: "Node:".toList := by decide
      obtain ⟨h1, h2⟩ := append_sep_inj (a := '-') (m := "Node:".toList) (by decide) (hN ▸ plain s x (.inl rfl) hx)
        (hN ▸ plain s' x' (.inr rfl) hx') (r := y.toList) (r' := y'.toList) (by rw [hN] at this; simpa using this)
      exact ⟨String.toList_inj.1 h1, String.toList_inj.1 h2⟩
    · rintro ⟨rfl, rfl⟩; rfl
  refine ⟨key, ?_⟩
  rintro rfl
  rw [key]
  obtain ⟨s1, t1, e1, e2, m1, m2⟩ := live_ends r he
  obtain ⟨s2, t2, e3, e4, m3, m4⟩ := live_ends r hf
  rw [hs] at e1; rw [ht] at e2; rw [hs'] at e3; rw [ht'] at e4
  cases e1; cases e2; cases e3; cases e4
  exact ⟨fun c => ⟨node_eq_of_name r m1 m3 c.1, node_eq_of_name r m2 m4 c.2⟩, by rintro ⟨rfl, rfl⟩; exact ⟨rfl, rfl⟩⟩

/-- Edges 0 (from `a` to `b`) and 1 (from `b` to `c`) of `demo` meet the hypotheses. -/
example : edgeStr demo 0 ≠ edgeStr demo 1 := by
  have live : LiveEdge demo 0 0 ∧ LiveEdge demo 0 1 :=
    ⟨⟨0, by decide, [0, 3], by decide, by decide⟩, ⟨1, by decide, [1], by decide, by decide⟩⟩
  have plain : ∀ n x, n = 0 ∨ n = 1 → (demo.node n).id = .str x → ¬ "-Node:".toList <:+: x.toList := by
    rintro n x (rfl | rfl) e
    · have : x = "a" := by have : (demo.node 0).id = .str "a" := by decide
                           rw [this] at e; cases e; rfl
      subst this; decide
    · have : x = "b" := by have : (demo.node 1).id = .str "b" := by decide
                           rw [this] at e; cases e; rfl
      subst this; decide
  rw [ne_eq, (C131_ends_partial demo_reachable live.1 live.2 (s := 0) (t := 1) (s' := 1) (t' := 2) (by decide) (by decide) (by decide)
    (by decide) plain).2 rfl]
  decide

/-- **C131** is false of parallel edges: they always print the same, whatever their ids. -/
theorem C131_parallel_violated {h : Heap} {e f : ERef} (hs : edgeStart h e = edgeStart h f) (ht : edgeEnd h e = edgeEnd h f) :
    edgeStr h e = edgeStr h f := by
  simp only [edgeStr, hs, ht]

/-- **C131** is false of names that contain `-Node:`: an edge from `x` to `y-Node:z` prints like one from `x-Node:y` to `z`. -/
theorem C131_dash_violated {h : Heap} {e f : ERef} {s t s' t' : NRef} {x y z : String} (hs : edgeStart h e = .ok s)
    (ht : edgeEnd h e = .ok t) (hs' : edgeStart h f = .ok s') (ht' : edgeEnd h f = .ok t') (hx : (h.node s).id = .str x)
    (hy : (h.node t).id = .str (y ++ "-Node:" ++ z)) (hx' : (h.node s').id = .str (x ++ "-Node:" ++ y))
    (hy' : (h.node t').id = .str z) : edgeStr h e = edgeStr h f := by
  rw [edgeStr_of hs ht hx hy, edgeStr_of hs' ht' hx' hy']
  congr 1
  apply String.toList_inj.1
  simp

/-- **C131** is false of removed edges. After `remove_self`, and after `remove_node` of one of its ends, an edge cannot be
printed: `print(edge)` raises `ValueError`. After `disconnect` it prints as before. -/
theorem C131_removed_violated {h : Heap} (r : Reachable h) {g : GRef} {e : ERef} (he : LiveEdge h g e) :
    (∃ h', edgeRemoveSelf e h = (.ok (), h') ∧ edgeStr h' e = .error (.valueError "Edge does not have a start!")) ∧
    (∀ a n, getNode h g a = .ok n → edgeStart h e = .ok n ∨ edgeEnd h e = .ok n →
      ∃ h', removeNode g a h = (.ok (), h') ∧ edgeStr h' e = .error (.valueError "Edge does not have a start!")) ∧
    ∃ h', disconnect e h = (.ok (), h') ∧ edgeStr h' e = edgeStr h e := by
  have gone : ∀ {h' : Heap} {o : EdgeObj}, h'.edge e = { o with start := none, stop := none, graph := none } →
      edgeStr h' e = .error (.valueError "Edge does not have a start!") := by
    intro h' o e'
    simp [edgeStr, edgeStart, e', bind, Except.bind]
  refine ⟨?_, fun a n hn hend => ?_, ?_⟩
  · obtain ⟨h', h1, -, h2⟩ := C07_remove_self r he
    exact ⟨h', h1, gone h2⟩
  · obtain ⟨h', h1, -, -, -, ⟨os, is, h2, h3, h4, -⟩, -⟩ := C06_remove_node r hn
    refine ⟨h', h1, gone (h4 e ?_)⟩
    obtain ⟨n0, hn0, os0, ho0, he0⟩ := he
    obtain ⟨os1, e1, -, h5⟩ := C01_outward r hn0
    rw [ho0] at e1
    cases e1
    obtain ⟨m, -, is1, hs, ht, -, -, hin, hmem, -⟩ := h5 e he0
    rcases hend with hend | hend
    · rw [hs] at hend; cases hend
      rw [h2] at ho0; cases ho0
      exact .inl he0
    · rw [ht] at hend; cases hend
      rw [h3] at hin; cases hin
      exact .inr hmem
  · obtain ⟨A, H⟩ := r.hist
    have R := H.rep
    obtain ⟨i, hi⟩ := (liveEdge_iff R).1 he
    obtain ⟨n, m, h1, h2, hrun, R'⟩ := R.disconnect_live hi
    refine ⟨_, hrun, ?_⟩
    have ids : ∀ x, ((disconnectHeap h n m i e).node x).id = (h.node x).id := fun _ => rfl
    simp only [edgeStr, nodeStr, ids]
    simp [edgeStart, edgeEnd, disconnectHeap]

/-- In `demo`, edges 0 and 3 are parallel; edge 1 goes from `b` to `c`. -/
example : edgeStr demo 0 = .ok "Edge:Node:a-Node:b" ∧ edgeStr demo 3 = .ok "Edge:Node:a-Node:b" ∧ edgeStr demo 1 = .ok "Edge:Node:b-Node:c" ∧
    edgeStr (edgeRemoveSelf 1 demo).2 1 = .error (.valueError "Edge does not have a start!") ∧
    edgeStr (removeNode 0 (.key (.str "b")) demo).2 1 = .error (.valueError "Edge does not have a start!") ∧
    edgeStr (disconnect 1 demo).2 1 = .ok "Edge:Node:b-Node:c" := by decide +kernel

def dashOps : List Op :=
  [.newGraph false true false, .add 0 "x", .add 0 "y-Node:z", .add 0 "x-Node:y", .add 0 "z", .link 0 "x" "y-Node:z", .link 0 "x-Node:y" "z"]

/-- Two edges between four different nodes that print the same. -/
example : Reachable (runOps dashOps Heap.init) ∧
    edgeStr (runOps dashOps Heap.init) 0 = .ok "Edge:Node:x-Node:y-Node:z" ∧ edgeStr (runOps dashOps Heap.init) 1 = .ok "Edge:Node:x-Node:y-Node:z" ∧
    edgeStart (runOps dashOps Heap.init) 0 = .ok 0 ∧ edgeStart (runOps dashOps Heap.init) 1 = .ok 2 := by
  refine ⟨Reachable.runOps .init dashOps ?_, ?_⟩
  · refine ⟨trivial, ?_⟩
    simp only [AllOk, Op.Ok, Op.add, Op.link]
    decide
  · decide +kernel

end Verif
