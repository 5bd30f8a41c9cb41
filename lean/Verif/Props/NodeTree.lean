import Verif.Model.TreeOf
import Verif.Lemmas.SketchRun
import Verif.Props.StackDepth
import Verif.Props.Tree
/-!
# C127: the tree string of one node

`node.get_tree_str()` draws the node and its descendants, in the order in which `get_descendants` finds them, and needs one stack frame more
than its deepest line is indented.
-/
namespace Verif
open Outline

/-- The drawing below one node, with what is needed about it. -/
theorem sketch_node {h : Heap} (r : Reachable h) {g : GRef} {n : NRef} (hn : n ∈ graphNodes h g) :
    ∃ out T e, Pre (kids h) [n] (kids h n) out ∧ Drawing (kids h) [] [n] [T] e ∧ ((occ T).map Prod.fst).eraseDups = n :: out ∧
      (occ T).length = 1 + ((n :: out).map fun m => (kids h m).length).sum := by
  obtain ⟨out, d, ok, -⟩ := descendants_ok r (getNode_self r hn)
  have p : Pre (kids h) [n] (kids h n) out := by simpa using ok.pre
  obtain ⟨F, e, s, -, h3, h4⟩ := (Pre.visit (V := []) (by simp) (by simpa using p) (.nil _)).sketch [] (by simp)
  obtain ⟨T, F', b, rfl, s1, s2⟩ := s.uncons
  cases s2
  rw [news_eraseDups] at h3
  simp only [List.not_mem_nil, not_false_eq_true, decide_true, List.filter_true, occAll, List.append_nil] at h3 h4
  exact ⟨out, T, _, p, s1, h3, by simpa using h4⟩

theorem nodeTreeStr_sketch {h : Heap} (r : Reachable h) {g : GRef} (hown : ∀ n ∈ graphNodes h g, (h.node n).graph = some g)
    {n : NRef} (hn : n ∈ graphNodes h g) {T : Outline} {e : List NRef} (s : Drawing (kids h) [] [n] [T] e) (lim : Nat) :
    ((∀ q ∈ depths 0 T, q.1 < lim) → nodeTreeStr lim h n = .ok (T.draw (nodeLabel h) "")) ∧
      ((¬ ∀ q ∈ depths 0 T, q.1 < lim) → nodeTreeStr lim h n = .error .recursionError) := by
  have k := treeStrRec_sketch r hown s lim "" hn (add := []) (by simp) (by simp)
  constructor
  · intro c
    obtain ⟨add', q, -⟩ := k.1 c
    rw [nodeTreeStr, q]
    rfl
  · intro c
    rw [nodeTreeStr, k.2 c]
    rfl

/-- **C127.** `node.get_tree_str()` draws the outline one gets by drawing the node, depth first and with its children in order, where a node
that was expanded before is marked and not expanded again. It returns exactly if the stack has more frames than the deepest line is deep,
and else it raises RecursionError. -/
theorem C127_node {h : Heap} (r : Reachable h) {g : GRef} (hown : ∀ n ∈ graphNodes h g, (h.node n).graph = some g)
    {n : NRef} (hn : n ∈ graphNodes h g) :
    ∃ children : NRef → List NRef, (∀ m ∈ graphNodes h g, getChildren h g (.node m) = .ok (children m)) ∧
      ∃ T e, Drawing children [] [n] [T] e ∧ ∀ lim,
        ((∀ q ∈ depths 0 T, q.1 < lim) → nodeTreeStr lim h n = .ok (T.draw (nodeLabel h) "")) ∧
          ((¬ ∀ q ∈ depths 0 T, q.1 < lim) → nodeTreeStr lim h n = .error .recursionError) := by
  obtain ⟨out, T, e, -, s, -⟩ := sketch_node r hn
  exact ⟨kids h, fun m hm => getChildren_eq r (getNode_self r hm), T, e, s, nodeTreeStr_sketch r hown hn s⟩

/-- **C127**, the order of the lines. Whenever `node.get_tree_str()` and `get_descendants(node)` return, the first shows an outline whose
lines, leaving out what was shown before, are the node and then its descendants in the order of the second. There is one line for the node,
and one for every child of every one of these nodes. -/
theorem C127_order {h : Heap} (r : Reachable h) {g : GRef} (hown : ∀ n ∈ graphNodes h g, (h.node n).graph = some g)
    {n : NRef} (hn : n ∈ graphNodes h g) {lim lim' : Nat} {s : String} {l : List NRef} (hs : nodeTreeStr lim h n = .ok s)
    (hl : getDescendants lim' h g (.node n) = .ok l) :
    ∃ T : Outline, s = T.draw (nodeLabel h) "" ∧ ((occ T).map Prod.fst).eraseDups = n :: l ∧
      ∃ css : List (List NRef), List.Forall₂ (fun m cs => getChildren h g (.node m) = .ok cs) (n :: l) css ∧
        (occ T).length = 1 + (css.map List.length).sum := by
  obtain ⟨out, T, e, p, sk, h3, h4⟩ := sketch_node r hn
  obtain ⟨children, c1, t, tr, c2⟩ := C123_descendants r (getNode_self r hn)
  obtain ⟨out', d, ok, -, hu⟩ := descendants_ok r (getNode_self r hn)
  have hl' : l = out := by
    have p' : Pre (kids h) [n] (kids h n) out' := by simpa using ok.pre
    rw [p.unique p']
    unfold getDescendants at hl
    cases hq : descendantsRec h g lim' (.node n) [] with
    | error e => rw [hq] at hl; cases hl
    | ok q =>
      rw [hq] at hl
      rw [hu lim' q hq] at hl
      exact (Except.ok.inj hl).symm
  subst hl'
  have hT := nodeTreeStr_sketch r hown hn sk lim
  refine ⟨T, ?_, h3, (n :: l).map (kids h), ?_, ?_⟩
  · by_cases c : ∀ q ∈ depths 0 T, q.1 < lim
    · rw [hT.1 c] at hs
      exact (Except.ok.inj hs).symm
    · rw [hT.2 c] at hs
      cases hs
  · rw [List.forall₂_map_right_iff, List.forall₂_same]
    intro m hm
    refine getChildren_eq r (getNode_self r ?_)
    rcases List.mem_cons.1 hm with rfl | hm
    · exact hn
    · exact p.subset_of_closed (kids_closed r) (kids_closed r n hn) m hm
  · rw [h4, List.map_map]
    rfl

/-- **C127**, enough: a stack with more frames than the graph has nodes is enough. -/
theorem C127_enough {h : Heap} (r : Reachable h) {g : GRef} (hown : ∀ n ∈ graphNodes h g, (h.node n).graph = some g)
    {n : NRef} (hn : n ∈ graphNodes h g) {lim : Nat} (hlim : (graphNodes h g).length < lim) : ∃ s, nodeTreeStr lim h n = .ok s := by
  obtain ⟨T, a', q, -⟩ := treeStrRec_ok r hown lim (ind := "") (added := []) hn (by simp) (Nat.lt_of_le_of_lt (List.length_filter_le _ _) hlim)
  exact ⟨_, by rw [nodeTreeStr, q]; rfl⟩

/-- **C127**, compared with a traversal: where drawing a node does not overflow the stack, looking for its descendants does not either. -/
theorem C127_frames {h : Heap} (r : Reachable h) {g : GRef} (hown : ∀ n ∈ graphNodes h g, (h.node n).graph = some g)
    {n : NRef} (hn : n ∈ graphNodes h g) {lim : Nat} {s : String} (hs : nodeTreeStr lim h n = .ok s) :
    ∃ l, getDescendants lim h g (.node n) = .ok l := by
  obtain ⟨out, T, e, p, sk, -⟩ := sketch_node r hn
  have hT := nodeTreeStr_sketch r hown hn sk lim
  have c : ∀ q ∈ depths 0 T, q.1 < lim := by
    refine Classical.byContradiction fun c => ?_
    rw [hT.2 c] at hs
    cases hs
  obtain ⟨t, tr, -⟩ := Trace.of_pre (Pre.visit (V := []) (by simp) (by simpa using p) (.nil _)) n 0
  have hd := tr.drawn (a := []) (by simp) sk
  have eq : getDescendants lim h g (.node n) = objRelatives (kids h) lim n none := by
    rw [getDescendants, descendantsRec_arg r (getNode_self r hn), descendantsRec_eq r lim hn (by simp), objRelatives]
  cases tr with
  | skip hx => cases hx
  | @visit _ _ _ _ _ sub rest hx t1 t2 =>
    have t1 : Trace (kids h) [n] n 1 (kids h n) sub := by simpa using t1
    rw [eq]
    refine ⟨_, (C123_objects t1 lim).1 ⟨?_, fun f hf => ?_⟩⟩
    · have := c _ (by simpa [depthsAll] using hd ⟨n, 0, n⟩ (by simp))
      exact Nat.lt_of_le_of_lt (Nat.zero_le _) this
    · exact c _ (by simpa [depthsAll] using hd f (by simp [hf]))

/-- **C127**, for a graph: if the roots are found then `graph.get_tree_str()` draws them one after another as one outline, and returns
exactly if the stack has more frames than the deepest line is deep. -/
theorem C127_graph {h : Heap} (r : Reachable h) {g : GRef} (hown : ∀ n ∈ graphNodes h g, (h.node n).graph = some g)
    {lim : Nat} {rs : List NRef} (hr : roots lim h g = .ok rs) :
    ∃ children : NRef → List NRef, (∀ m ∈ graphNodes h g, getChildren h g (.node m) = .ok (children m)) ∧
      ∃ F e out, Drawing children [] rs F e ∧ Pre children [] rs out ∧ ((occAll F).map Prod.fst).eraseDups = out ∧
        ((∀ q ∈ depthsAll 0 F, q.1 < lim) → getTreeStr lim h g = .ok (String.intercalate "\n" (F.map (draw (nodeLabel h) "")))) ∧
          ((¬ ∀ q ∈ depthsAll 0 F, q.1 < lim) → getTreeStr lim h g = .error .recursionError) := by
  have hrs : ∀ y ∈ rs, y ∈ graphNodes h g := rootsLoop_subset hr
  obtain ⟨out, p⟩ := Pre.total (kids_closed r) _ [] rs (Nat.le_refl _) hrs
  obtain ⟨F, e, s, -, h3, -⟩ := p.sketch [] (by simp)
  have k := treeStrings_sketch r hown lim s hrs (add := []) (by simp) (by simp)
  rw [news_eraseDups] at h3
  simp only [List.not_mem_nil, not_false_eq_true, decide_true, List.filter_true] at h3
  refine ⟨kids h, fun m hm => getChildren_eq r (getNode_self r hm), F, e, out, s, p, h3, fun c => ?_, fun c => ?_⟩
  · simp [getTreeStr, hr, k.1 c, bind, Except.bind]
  · simp [getTreeStr, hr, k.2 c, bind, Except.bind]

theorem demo_owned : ∀ n ∈ graphNodes demo 0, (demo.node n).graph = some 0 := by decide +kernel

example := C127_node demo_reachable demo_owned (n := 1) (by decide +kernel)

/-- In the demo graph: `b` needs four frames, for the marked line; its descendants need three. The order is that of the lines. -/
example : nodeTreeStr 4 demo 1 = .ok "b\n└ c\n  └ a\n    ├ b*\n    └ b*\n" ∧ nodeTreeStr 3 demo 1 = .error .recursionError ∧
    getDescendants 3 demo 0 (.node 1) = .ok [2, 0] ∧ getDescendants 2 demo 0 (.node 1) = .error .recursionError := by decide +kernel

example : ∃ T : Outline, "b\n└ c\n  └ a\n    ├ b*\n    └ b*\n" = T.draw (nodeLabel demo) "" ∧
    ((occ T).map Prod.fst).eraseDups = [1, 2, 0] := by
  obtain ⟨T, h1, h2, -⟩ := C127_order demo_reachable demo_owned (n := 1) (by decide +kernel) (lim := 4) (lim' := 3)
    (s := "b\n└ c\n  └ a\n    ├ b*\n    └ b*\n") (l := [2, 0]) (by decide +kernel) (by decide +kernel)
  exact ⟨T, h1, h2⟩

example := C127_enough demo_reachable demo_owned (n := 1) (by decide +kernel) (lim := 5) (by decide +kernel)

example := C127_frames demo_reachable demo_owned (n := 1) (by decide +kernel) (lim := 4) (s := "b\n└ c\n  └ a\n    ├ b*\n    └ b*\n")
  (by decide +kernel)

example := C127_graph demo_reachable demo_owned (lim := 4) (rs := [0, 3]) (by decide +kernel)

/-- The roots of the demo graph need three frames, its tree string four. -/
example : roots 3 demo 0 = .ok [0, 3] ∧ getTreeStr 3 demo 0 = .error .recursionError ∧
    getTreeStr 4 demo 0 = .ok "a\n├ b\n│ └ c\n│   └ a*\n└ b*\n\nd\n└ d*\n" := by decide +kernel

end Verif
