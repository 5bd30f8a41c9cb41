import Verif.Lemmas.ReadOutline
import Verif.Props.Tree
import Verif.Props.Shape
/-!
# C122: the tree string tells what the graph is
-/
namespace Verif
open Outline

/-- The node is shown under its name: it has no label of its own, and its name has no line break and no star at the end. -/
structure ByName (h : Heap) (n : NRef) : Prop where
  label : (h.node n).label.truthy = false
  line : '\n' ∉ (h.node n).id.toStr.toList
  star : (h.node n).id.toStr.toList.getLast? ≠ some '*'

def escape (l : List Char) : List Char := l.flatMap fun c => if c = '"' then ['\\', '"'] else [c]

theorem escape_cons (c : Char) (l : List Char) : escape (c :: l) = (if c = '"' then ['\\', '"'] else [c]) ++ escape l := rfl

theorem escape_inj {a b : List Char} (e : escape a = escape b) : a = b := by
  have quote : ∀ l : List Char, (escape l).head? ≠ some '"' := by
    intro l
    cases l with
    | nil => simp [escape]
    | cons c l => rw [escape_cons]; split <;> simp_all
  induction a generalizing b with
  | nil =>
    cases b with
    | nil => rfl
    | cons d b => rw [escape_cons] at e; split at e <;> simp [escape] at e
  | cons c a ih =>
    cases b with
    | nil => rw [escape_cons] at e; split at e <;> simp [escape] at e
    | cons d b =>
      rw [escape_cons, escape_cons] at e
      by_cases hc : c = '"' <;> by_cases hd : d = '"'
      · simp only [hc, hd, if_true, List.cons_append, List.nil_append, List.cons.injEq, true_and] at e
        rw [hc, hd, ih e]
      · simp only [hc, hd, if_true, if_false, List.cons_append, List.nil_append, List.cons.injEq] at e
        have := quote b
        rw [← e.2] at this
        simp at this
      · simp only [hc, hd, if_true, if_false, List.cons_append, List.nil_append, List.cons.injEq] at e
        have := quote a
        rw [e.2] at this
        simp at this
      · simp only [hc, hd, if_false, List.cons_append, List.nil_append, List.cons.injEq] at e
        rw [e.1, ih e.2]

theorem ByName.tame {h : Heap} {n : NRef} (b : ByName h n) : nodeLabel h n = escapeQuotes (h.node n).id.toStr ∧ Tame (nodeLabel h n) := by
  have e : nodeLabel h n = escapeQuotes (h.node n).id.toStr := by simp [nodeLabel, b.label]
  refine ⟨e, ?_, ?_⟩
  · rw [e]
    have := b.line
    simp only [escapeQuotes, String.toList_ofList, List.mem_flatMap, not_exists, not_and]
    intro c hc hm
    split at hm
    · simp at hm
    · rw [List.mem_singleton] at hm; exact this (hm ▸ hc)
  · rw [e]
    have := b.star
    simp only [escapeQuotes, String.toList_ofList]
    rcases List.eq_nil_or_concat (h.node n).id.toStr.toList with q | ⟨l, c, q⟩
    · rw [q]; simp
    · rw [q] at this ⊢
      simp only [List.concat_eq_append, List.getLast?_append, List.getLast?_singleton, ne_eq] at this
      simp only [List.concat_eq_append, List.flatMap_append, List.flatMap_cons, List.flatMap_nil, List.append_nil]
      split <;> simp_all [List.getLast?_append]

theorem name_of_label {h h' : Heap} (r : Reachable h) (r' : Reachable h') {n n' : NRef} (b : ByName h n) (b' : ByName h' n')
    (e : nodeLabel h n = nodeLabel h' n') : (h.node n).id = (h'.node n').id := by
  rw [b.tame.1, b'.tame.1] at e
  have := escape_inj (a := (h.node n).id.toStr.toList) (b := (h'.node n').id.toStr.toList) (String.ofList_injective e)
  obtain ⟨s, hs⟩ := r.idStr n
  obtain ⟨t, ht⟩ := r'.idStr n'
  rw [hs, ht] at this ⊢
  exact congrArg Key.str (String.toList_inj.1 this)

/-- What the tree string of a graph shows, from C28. -/
theorem tree_shows {h : Heap} (r : Reachable h) {g : GRef} (hown : ∀ n ∈ graphNodes h g, (h.node n).graph = some g)
    {lim : Nat} (hlim : (graphNodes h g).length < lim) {s : String} (hs : getTreeStr lim h g = .ok s) :
    ∃ rs forest, roots lim h g = .ok rs ∧ s = String.intercalate "\n" (forest.map (draw (nodeLabel h) "")) ∧ forest.map top = rs ∧
      (∀ o ∈ occAll forest, o.1 ∈ graphNodes h g ∧ (o.2.1 = false → getChildren h g (.node o.1) = .ok o.2.2)) ∧
      ∀ n ∈ graphNodes h g, ∃ below, (n, false, below) ∈ occAll forest := by
  obtain ⟨rs, es, F, h1, -, h2, h3, h4, h5, h6, h7, -⟩ := C28_tree r hown hlim
  rw [hs] at h2
  refine ⟨rs, F, h1, Except.ok.inj h2, h3, ?_, ?_⟩
  · rintro ⟨n, b, below⟩ ho
    cases b with
    | false => exact ⟨(h4 n below ho).1, fun _ => (h4 n below ho).2⟩
    | true => exact ⟨(h5 n below ho).1, fun q => by cases q⟩
  · intro n hn
    by_cases hc : getChildren h g (.node n) = .ok []
    · obtain ⟨b, below, ho⟩ := h7 n hn
      cases b with
      | false => exact ⟨below, ho⟩
      | true =>
        obtain ⟨-, -, c, cs, q⟩ := h5 n below ho
        rw [hc] at q; cases q
    · have := h6 n hn hc
      obtain ⟨⟨n', s', b'⟩, ho', hp⟩ := List.countP_pos_iff.1 (by rw [this]; exact Nat.one_pos)
      simp only [decide_eq_true_eq] at hp
      obtain ⟨rfl, rfl⟩ := hp
      exact ⟨b', ho'⟩

theorem names_of_labels {h h' : Heap} (r : Reachable h) (r' : Reachable h') {l l' : List NRef} (hb : ∀ n ∈ l, ByName h n)
    (hb' : ∀ n ∈ l', ByName h' n) (e : l.map (nodeLabel h) = l'.map (nodeLabel h')) :
    l.map (fun n => (h.node n).id) = l'.map (fun n => (h'.node n).id) := by
  induction l generalizing l' with
  | nil => cases l' with
    | nil => rfl
    | cons y l' => cases e
  | cons x l ih => cases l' with
    | nil => cases e
    | cons y l' =>
      simp only [List.map_cons, List.cons.injEq] at e ⊢
      exact ⟨name_of_label r r' (hb x (by simp)) (hb' y (by simp)) e.1, ih (fun n hn => hb n (by simp [hn])) (fun n hn => hb' n (by simp [hn])) e.2⟩

theorem children_mem {h : Heap} (r : Reachable h) {g : GRef} {n : NRef} (hn : n ∈ graphNodes h g) {cs : List NRef}
    (hc : getChildren h g (.node n) = .ok cs) : ∀ c, c ∈ cs ↔ Arrow h g n c := by
  rw [getChildren_eq r (getNode_self r hn)] at hc
  cases hc
  exact fun c => mem_kids r hn

/-- **C122**, for graphs whose nodes are shown under their names. If the tree strings are equal, then the roots have the same names in
the same order; every node of one graph has a namesake in the other, whose children have the same names in the same order; and so the
same names lead to the same names. -/
theorem C122_same_partial {h h' : Heap} (r : Reachable h) (r' : Reachable h') {g g' : GRef}
    (hown : ∀ n ∈ graphNodes h g, (h.node n).graph = some g) (hown' : ∀ n ∈ graphNodes h' g', (h'.node n).graph = some g')
    (hb : ∀ n ∈ graphNodes h g, ByName h n) (hb' : ∀ n ∈ graphNodes h' g', ByName h' n)
    {lim lim' : Nat} (hlim : (graphNodes h g).length < lim) (hlim' : (graphNodes h' g').length < lim') {s : String}
    (hs : getTreeStr lim h g = .ok s) (hs' : getTreeStr lim' h' g' = .ok s) :
    (∃ rs rs', roots lim h g = .ok rs ∧ roots lim' h' g' = .ok rs' ∧
      rs.map (fun n => (h.node n).id) = rs'.map (fun n => (h'.node n).id)) ∧
    (∀ n ∈ graphNodes h g, ∃ n' ∈ graphNodes h' g', (h'.node n').id = (h.node n).id ∧
      ∃ cs cs', getChildren h g (.node n) = .ok cs ∧ getChildren h' g' (.node n') = .ok cs' ∧
        cs.map (fun n => (h.node n).id) = cs'.map (fun n => (h'.node n).id)) ∧
    OneShape h g h' g' := by
  obtain ⟨rs, F, a1, a2, a3, a4, a5⟩ := tree_shows r hown hlim hs
  obtain ⟨rs', F', b1, b2, b3, b4, b5⟩ := tree_shows r' hown' hlim' hs'
  obtain ⟨q1, q2⟩ := forest_inj (lab := nodeLabel h) (lab' := nodeLabel h') F (fun o ho => (hb _ (a4 o ho).1).tame.2) F'
    (fun o ho => (hb' _ (b4 o ho).1).tame.2) (a2.symm.trans b2)
  have mem : ∀ {h : Heap} (r : Reachable h) {g n cs}, n ∈ graphNodes h g → getChildren h g (.node n) = .ok cs → ∀ c ∈ cs, c ∈ graphNodes h g :=
    fun r _ _ _ hn hc c hm => (arrow_mem r ((children_mem r hn hc c).1 hm)).2
  have half : ∀ {h h' : Heap} (r : Reachable h) (r' : Reachable h') {g g' : GRef} (hb : ∀ n ∈ graphNodes h g, ByName h n)
      (hb' : ∀ n ∈ graphNodes h' g', ByName h' n) {F F' : List Outline}
      (a4 : ∀ o ∈ occAll F, o.1 ∈ graphNodes h g ∧ (o.2.1 = false → getChildren h g (.node o.1) = .ok o.2.2))
      (a5 : ∀ n ∈ graphNodes h g, ∃ below, (n, false, below) ∈ occAll F)
      (b4 : ∀ o ∈ occAll F', o.1 ∈ graphNodes h' g' ∧ (o.2.1 = false → getChildren h' g' (.node o.1) = .ok o.2.2))
      (q1 : (occAll F).map (labelled (nodeLabel h)) = (occAll F').map (labelled (nodeLabel h'))),
      ∀ n ∈ graphNodes h g, ∃ n' ∈ graphNodes h' g', (h'.node n').id = (h.node n).id ∧
        ∃ cs cs', getChildren h g (.node n) = .ok cs ∧ getChildren h' g' (.node n') = .ok cs' ∧
          cs.map (fun n => (h.node n).id) = cs'.map (fun n => (h'.node n).id) := by
    intro h h' r r' g g' hb hb' F F' a4 a5 b4 q1 n hn
    obtain ⟨below, ho⟩ := a5 n hn
    have hm := List.mem_map_of_mem (f := labelled (nodeLabel h)) ho
    rw [q1] at hm
    obtain ⟨⟨n', s', below'⟩, ho', e⟩ := List.mem_map.1 hm
    simp only [labelled, Prod.mk.injEq] at e
    obtain ⟨e1, rfl, e3⟩ := e
    obtain ⟨c1, c2⟩ := a4 _ ho
    obtain ⟨d1, d2⟩ := b4 _ ho'
    have c2 := c2 rfl
    have d2 := d2 rfl
    exact ⟨n', d1, name_of_label r' r (hb' n' d1) (hb n hn) e1, below, below', c2, d2,
      names_of_labels r r' (fun x hx => hb x (mem r hn c2 x hx)) (fun x hx => hb' x (mem r' d1 d2 x hx)) e3.symm⟩
  have one := half r r' hb hb' a4 a5 b4 q1
  have two := half r' r hb' hb b4 b5 a4 q1.symm
  have arrows : ∀ {h h' : Heap} (r : Reachable h) (r' : Reachable h') {g g' : GRef},
      (∀ n ∈ graphNodes h g, ∃ n' ∈ graphNodes h' g', (h'.node n').id = (h.node n).id ∧
        ∃ cs cs', getChildren h g (.node n) = .ok cs ∧ getChildren h' g' (.node n') = .ok cs' ∧
          cs.map (fun n => (h.node n).id) = cs'.map (fun n => (h'.node n).id)) → ∀ s t, Joined h g s t → Joined h' g' s t := by
    intro h h' r r' g g' one s t j
    obtain ⟨n, m, a, rfl, rfl⟩ := joined_iff.1 j
    obtain ⟨n', hn', e, cs, cs', c1, c2, c3⟩ := one n (arrow_mem r a).1
    have hm : (h.node m).id ∈ cs.map fun n => (h.node n).id :=
      List.mem_map.2 ⟨m, (children_mem r (arrow_mem r a).1 c1 m).2 a, rfl⟩
    rw [c3] at hm
    obtain ⟨m', hm', e'⟩ := List.mem_map.1 hm
    exact joined_iff.2 ⟨n', m', (children_mem r' hn' c2 m').1 hm', e, e'⟩
  refine ⟨⟨rs, rs', a1, b1, ?_⟩, one, ?_, fun s t => ⟨arrows r r' one s t, arrows r' r two s t⟩⟩
  · have sub := (C25_roots r g (Nat.le_of_lt hlim))
    have sub' := (C25_roots r' g' (Nat.le_of_lt hlim'))
    obtain ⟨k, k1, k2, -⟩ := sub
    obtain ⟨k', k1', k2', -⟩ := sub'
    rw [a1] at k1; cases k1
    rw [b1] at k1'; cases k1'
    refine names_of_labels r r' (fun n hn => hb n (k2.subset hn)) (fun n hn => hb' n (k2'.subset hn)) ?_
    rw [← a3, ← b3, List.map_map, List.map_map]
    exact q2
  · intro k
    constructor
    · rintro ⟨n, hn, rfl⟩
      obtain ⟨n', hn', e, -⟩ := one n hn
      exact ⟨n', hn', e⟩
    · rintro ⟨n, hn, rfl⟩
      obtain ⟨n', hn', e, -⟩ := two n hn
      exact ⟨n', hn', e⟩

/-! ## Graphs that look the same -/

/-- `a` with the children `b` and `c`, twice; the nodes are added in another order. -/
def twofold : Heap := runOps [.newGraph false true false, .newGraph false true false, .add 0 "a", .add 0 "b", .add 0 "c", .add 1 "c", .add 1 "a",
  .add 1 "b", .link 0 "a" "b", .link 0 "a" "c", .link 0 "c" "a", .link 1 "c" "a", .link 1 "a" "b", .link 1 "a" "c", .add 1 "d",
  .removeNode 1 (.key (.str "c")), .add 1 "c", .link 1 "a" "c", .link 1 "c" "a", .removeNode 1 (.key (.str "d"))] Heap.init

theorem twofold_reachable : Reachable twofold := by
  refine Reachable.runOps .init _ ?_
  simp only [AllOk, Op.Ok, Op.add, Op.link]
  decide +kernel

example : getTreeStr 5 twofold 0 = .ok "a\n├ b\n└ c\n  └ a*\n" := by decide +kernel

theorem twofold_byName (g : GRef) (hg : g = 0 ∨ g = 1) : ∀ n ∈ graphNodes twofold g, ByName twofold n := by
  have key : ∀ n ∈ graphNodes twofold g, (twofold.node n).label.truthy = false ∧ '\n' ∉ (twofold.node n).id.toStr.toList ∧
      (twofold.node n).id.toStr.toList.getLast? ≠ some '*' := by rcases hg with rfl | rfl <;> decide +kernel
  exact fun n hn => ⟨(key n hn).1, (key n hn).2.1, (key n hn).2.2⟩

example := C122_same_partial twofold_reachable twofold_reachable (g := 0) (g' := 1) (by decide +kernel) (by decide +kernel)
  (twofold_byName 0 (.inl rfl)) (twofold_byName 1 (.inr rfl)) (lim := 5) (lim' := 5) (by decide +kernel) (by decide +kernel)
  (s := "a\n├ b\n└ c\n  └ a*\n") (by decide +kernel) (by decide +kernel)

/-- One node, with a line break in its name. -/
def folded : Heap := runOps [.newGraph false true false, .add 0 "a\n└ b"] Heap.init

/-- Two nodes and an edge. -/
def unfolded : Heap := runOps [.newGraph false true false, .add 0 "a", .add 0 "b", .link 0 "a" "b"] Heap.init

/-- One node, with a label that is the name of another. -/
def disguised : Heap := runOps [.newGraph false true false, .add 0 "x", .nodeLabel 0 (.str "y")] Heap.init

def undisguised : Heap := runOps [.newGraph false true false, .add 0 "y"] Heap.init

/-- **C122 as stated is violated** by names with line breaks: a graph with one node has the tree string of a graph with two. -/
theorem C122_violated : Reachable folded ∧ Reachable unfolded ∧ (graphNodes folded 0).length = 1 ∧ (graphNodes unfolded 0).length = 2 ∧
    getTreeStr 5 folded 0 = .ok "a\n└ b\n" ∧ getTreeStr 5 unfolded 0 = .ok "a\n└ b\n" := by
  refine ⟨Reachable.runOps .init _ ?_, Reachable.runOps .init _ ?_, by decide +kernel, by decide +kernel, by decide +kernel, by decide +kernel⟩
  all_goals
    simp only [AllOk, Op.Ok, Op.add, Op.link]
    decide +kernel

/-- **C122 as stated is violated** by labels: the tree string shows these and not the names. -/
theorem C122_label_violated : Reachable disguised ∧ Reachable undisguised ∧ ¬ OneShape disguised 0 undisguised 0 ∧
    getTreeStr 5 disguised 0 = getTreeStr 5 undisguised 0 := by
  refine ⟨Reachable.runOps .init _ ?_, Reachable.runOps .init _ ?_, fun S => ?_, by decide +kernel⟩
  · simp only [AllOk, Op.Ok, Op.add]
    decide +kernel
  · simp only [AllOk, Op.Ok, Op.add]
    decide +kernel
  · have h1 : ∃ n ∈ graphNodes disguised 0, (disguised.node n).id = .str "x" := by decide +kernel
    have h2 : ¬ ∃ n ∈ graphNodes undisguised 0, (undisguised.node n).id = .str "x" := by decide +kernel
    exact h2 ((S.names _).1 h1)

end Verif
