import Verif.Lemmas.DraftGraph
import Verif.Model.Builders
import Verif.Props.Parse
import Std.Data.String.ToNat
/-!
# C40, C61: `from_indented_text`
-/
namespace Verif
open M

/-- The name of the node of a line, or of the root. -/
def lineName : Option Nat → Key
  | some i => .str (Nat.repr i)
  | none => .str "root"

/-- The root and one node per line. -/
def textNodes (root : String) (items : List Item) : List NodeD :=
  { name := .str "root", label := .str root } ::
    items.map fun it => { name := lineName (some it.index), label := .str ("line " ++ Nat.repr it.index) }

/-- One edge per line, from the node of its parent, or from the root. -/
def textEdges (items : List Item) : List EdgeD :=
  items.map fun it => { id := (lineName it.parent, lineName (some it.index), .none) }

theorem root_toNat? : ("root" : String).toNat? = none := by
  simp only [String.toNat?_eq_none_iff]
  cases h : String.isNat "root" with
  | false => rfl
  | true => exact absurd ((String.isNat_iff.1 h).2.1 'r' (by decide)) (by decide)

theorem repr_ne_root (i : Nat) : Nat.repr i ≠ "root" := by
  intro e
  have h := Nat.toNat?_repr i
  rw [e, root_toNat?] at h
  exact absurd h (by simp)

theorem lineName_inj {a b : Option Nat} : lineName a = lineName b ↔ a = b := by
  constructor
  · intro h
    cases a <;> cases b <;> simp only [lineName, Key.str.injEq] at h
    · rfl
    · exact absurd h.symm (repr_ne_root _)
    · exact absurd h (repr_ne_root _)
    · rw [Nat.repr_injective h]
  · rintro rfl; rfl

theorem textNames (st o : Bool) (root : String) (items : List Item) (es : List EdgeD) :
    Draft.names { strict := st, ordering := o, nodes := textNodes root items, edges := es } =
      lineName none :: items.map fun it => lineName (some it.index) := by
  simp [Draft.names, textNodes, Function.comp_def, lineName]

theorem fromItems_run {h0 h : Heap} {A : Spec} {g : GRef} {root : String} (items done : List Item)
    (D : Drawn h0 h A g { strict := true, nodes := textNodes root done, edges := textEdges done })
    (hi : ∀ (i : Nat) (it : Item), (done ++ items)[i]? = some it → it.index = i ∧ ∀ p, it.parent = some p → p < i) :
    ∃ h' A', fromItems g items h = (.ok (), h') ∧
      Drawn h0 h' A' g { strict := true, nodes := textNodes root (done ++ items), edges := textEdges (done ++ items) } := by
  induction items generalizing h A done with
  | nil => exact ⟨h, A, rfl, by simpa using D⟩
  | cons it items ih =>
    obtain ⟨hidx, hpar⟩ := hi done.length it (by simp)
    have hold : ∀ x ∈ done, x.index < done.length := by
      intro x hx
      obtain ⟨j, hj, e⟩ := List.mem_iff_getElem.1 hx
      have := (hi j x (by rw [List.getElem?_append_left hj, List.getElem?_eq_getElem hj, e])).1
      omega
    have hnew : lineName (some it.index) ∉ Draft.names
        { strict := true, ordering := true, nodes := textNodes root done, edges := textEdges done } := by
      rw [textNames]
      simp only [List.mem_cons, lineName_inj, reduceCtorEq, List.mem_map, Option.some.injEq, false_or, not_exists, not_and]
      intro x hx e
      have := hold x hx
      omega
    obtain ⟨n, h1, A1, e1, D1, m1, -, -⟩ := D.addNode (x := Nat.repr it.index)
      (a := { label := .str ("line " ++ Nat.repr it.index) }) (p := .warn) (by
        unfold Draft.NodeFits; rw [if_neg (by exact hnew)]; trivial)
    rw [Draft.addNode, if_neg (by exact hnew)] at D1
    have D1 : Drawn h0 h1 A1 g { strict := true, nodes := textNodes root (done ++ [it]), edges := textEdges done } := by
      simpa [textNodes, lineName] using D1
    have hpm : lineName it.parent ∈ Draft.names
        { strict := true, ordering := true, nodes := textNodes root (done ++ [it]), edges := textEdges done } := by
      rw [textNames]
      cases hp : it.parent with
      | none => simp
      | some p =>
        have hlt := hpar p hp
        have hx := (hi p done[p] (by rw [List.getElem?_append_left hlt, List.getElem?_eq_getElem hlt])).1
        simp only [List.map_append, List.mem_cons, List.mem_append, List.mem_map]
        exact .inr (.inl ⟨done[p], List.getElem_mem hlt, by rw [hx]⟩)
    have hne : (lineName it.parent, lineName (some it.index), RawId.none) ∉ Draft.ids
        { strict := true, ordering := true, nodes := textNodes root (done ++ [it]), edges := textEdges done } := by
      simp only [Draft.ids, textEdges, List.map_map, List.mem_map, not_exists, not_and, Function.comp_apply, Prod.mk.injEq,
        lineName_inj, Option.some.injEq]
      intro x hx _ e
      have := hold x hx
      omega
    have conn : ∃ e h2 A2, Verif.connect g (.key (lineName it.parent)) (.key (lineName (some it.index))) {} .warn h1 = (.ok e, h2) ∧
        Drawn h0 h2 A2 g { strict := true, nodes := textNodes root (done ++ [it]), edges := textEdges (done ++ [it]) } := by
      obtain ⟨e, h2, A2, e2, D2, -⟩ := D1.connect (s := lineName it.parent) (t := lineName (some it.index))
        (sa := .key (lineName it.parent)) (ta := .key (lineName (some it.index))) (a := {}) (p := .warn) rfl rfl (by
          refine ⟨hpm, ?_, ?_⟩
          · rw [textNames]; simp
          · rw [if_neg (by exact hne)]; trivial)
      rw [Draft.connect, if_neg (by exact hne)] at D2
      refine ⟨e, h2, A2, e2, ?_⟩
      simpa [textEdges, EdgeArgs.raw] using D2
    obtain ⟨e, h2, A2, e2, D2⟩ := conn
    obtain ⟨h3, A3, e3, D3⟩ := ih (done ++ [it]) D2 (by simpa using hi)
    refine ⟨h3, A3, ?_, by simpa using D3⟩
    simp only [fromItems, bind_apply, e1]
    cases hp : it.parent with
    | none => rw [hp] at e2; simp only [lineName] at e2; simp only [bind_apply, e2, e3]
    | some p => rw [hp] at e2; simp only [lineName] at e2; simp only [bind_apply, e2, e3]

theorem items_ok (lines : List Line) (indent : Option Line) (i : Nat) (it : Item)
    (h : ([] ++ (parseIndentations lines indent).1)[i]? = some it) :
    it.index = i ∧ ∀ p, it.parent = some p → p < i :=
  ⟨(C40_parent lines indent i it h).1, fun p hp => C40_earlier lines indent i it p h hp⟩

theorem fromText_start {h : Heap} (r : Reachable h) (root : String) (lines : List Line) (indent : Option Line) :
    ∃ h' A', (do
        let g ← graphInit true true false
        let _ ← addNode g (.str "root") { label := .str root } .warn
        fromItems g (parseIndentations lines indent).1
        return g : M GRef) h = (.ok h.nG, h') ∧
      Drawn h h' A' h.nG { strict := true, nodes := textNodes root (parseIndentations lines indent).1,
                           edges := textEdges (parseIndentations lines indent).1 } := by
  obtain ⟨h1, A1, e1, n1, D1⟩ := Drawn.new r true true false
  obtain ⟨n, h2, A2, e2, D2, -⟩ := D1.addNode (x := "root") (a := { label := .str root }) (p := .warn) (by
    simp [Draft.NodeFits, Draft.names, StyleArg.Valid])
  have D2 : Drawn h h2 A2 h.nG { strict := true, nodes := textNodes root [], edges := textEdges [] } := by
    simpa [Draft.addNode, Draft.names, textNodes, textEdges] using D2
  obtain ⟨h3, A3, e3, D3⟩ := fromItems_run _ [] D2 (items_ok lines indent)
  refine ⟨h3, A3, ?_, D3⟩
  simp only [bind_apply, e1, e2, e3, pure_apply]

/-- **C40**: when the parser accepts all lines, `from_indented_text` returns a new graph whose nodes are `root` and one per
line, in order, and whose edges are one per line, from the node of its parent (from `root` if it has none). -/
theorem C40_text {h : Heap} (r : Reachable h) (root : String) (lines : List Line) (indent : Option Line)
    (hp : (parseIndentations lines indent).2 = none) :
    ∃ h', fromIndentedText root lines indent h = (.ok h.nG, h') ∧ Reachable h' ∧
      Draws h' h.nG { strict := true, ordering := true, nodes := textNodes root (parseIndentations lines indent).1,
                      edges := textEdges (parseIndentations lines indent).1 } ∧
      ∀ g, g < h.nG → Untouched h h' g := by
  obtain ⟨h', A', e, D⟩ := fromText_start r root lines indent
  refine ⟨h', ?_, D.reachable, D.draws, fun g hg => D.others g hg (Nat.ne_of_lt hg)⟩
  rw [← e]
  unfold fromIndentedText
  rw [hp]

/-- **C40**: an exception of the parser is what `from_indented_text` raises; the graphs there were are untouched. -/
theorem C40_text_raises {h : Heap} (r : Reachable h) (root : String) (lines : List Line) (indent : Option Line) (err : PyErr)
    (hp : (parseIndentations lines indent).2 = some err) :
    ∃ h', fromIndentedText root lines indent h = (.error err, h') ∧ Reachable h' ∧ ∀ g, g < h.nG → Untouched h h' g := by
  obtain ⟨h', A', e, D⟩ := fromText_start r root lines indent
  refine ⟨h', ?_, D.reachable, fun g hg => D.others g hg (Nat.ne_of_lt hg)⟩
  unfold fromIndentedText
  rw [hp]
  simp only [bind_apply] at e ⊢
  repeat' split at e
  all_goals simp_all [raise]

/-- **C40**: the graph is a tree with root `root`. Nothing enters the root, exactly one edge enters any other node, every
other node can be reached from the root, and there is no loop. -/
theorem C40_tree {h : Heap} (r : Reachable h) (root : String) (lines : List Line) (indent : Option Line) (g : GRef) (h' : Heap)
    (ok : fromIndentedText root lines indent h = (.ok g, h')) :
    ∃ top ∈ graphNodes h' g, (h'.node top).id = .str "root" ∧ (graphNodes h' g).length = lines.length + 1 ∧
      inwardEdges h' top = .ok [] ∧
      (∀ n ∈ graphNodes h' g, n ≠ top → (∃ e, inwardEdges h' n = .ok [e]) ∧ Path h' g top n) ∧
      ∀ n, ¬ Path h' g n n := by
  have hp : (parseIndentations lines indent).2 = none := by
    cases hp : (parseIndentations lines indent).2 with
    | none => rfl
    | some err =>
      obtain ⟨h2, e, -⟩ := C40_text_raises r root lines indent err hp
      rw [ok] at e
      exact absurd (congrArg Prod.fst e) (by simp)
  obtain ⟨h2, e, r', D, -⟩ := C40_text r root lines indent hp
  rw [ok] at e
  simp only [Prod.mk.injEq, Except.ok.injEq] at e
  obtain ⟨rfl, rfl⟩ := e
  have hlen := (C40_all_lines lines indent).1 hp
  have hidx := items_ok lines indent
  simp only [List.nil_append] at hidx
  generalize (parseIndentations lines indent).1 = items at *
  obtain ⟨top, ht, et⟩ := D.node_of_name (k := lineName none) (by rw [textNames]; simp)
  have hold : ∀ x ∈ items, ∃ hj : x.index < items.length, items[x.index] = x := by
    intro x hx
    obtain ⟨j, hj, e⟩ := List.mem_iff_getElem.1 hx
    have e' := (hidx j x (by rw [List.getElem?_eq_getElem hj, e])).1
    subst e'
    exact ⟨hj, e⟩
  have hnode : ∀ n ∈ graphNodes h' h.nG, n ≠ top → ∃ it ∈ items, (h'.node n).id = lineName (some it.index) := by
    intro n hn hne
    have := D.name_mem hn
    rw [textNames] at this
    rcases List.mem_cons.1 this with e | hm
    · exact absurd (node_eq_of_name r' hn ht (by rw [e, et])) hne
    · obtain ⟨it, hit, e⟩ := List.mem_map.1 hm
      exact ⟨it, hit, e.symm⟩
  refine ⟨top, ht, et, ?_, ?_, ?_, ?_⟩
  · have := congrArg List.length D.nodes
    simp only [List.length_map, textNodes, List.length_cons] at this
    omega
  · obtain ⟨es, he, hs⟩ := D.inward r' ht
    have : (textEdges items).filter (fun v => decide (v.id.2.1 = (h'.node top).id)) = [] := by
      rw [List.filter_eq_nil_iff]
      intro v hv
      obtain ⟨it, -, rfl⟩ := List.mem_map.1 hv
      simp [et, lineName_inj]
    rw [this] at hs
    simp only [List.map_nil, List.map_eq_nil_iff] at hs
    rw [he, hs]
  · intro n hn hne
    obtain ⟨it, hit, ei⟩ := hnode n hn hne
    constructor
    · obtain ⟨es, he, hs⟩ := D.inward r' hn
      have : (textEdges items).filter (fun v => decide (v.id.2.1 = (h'.node n).id)) =
          [{ id := (lineName it.parent, lineName (some it.index), .none) }] := by
        rw [ei, textEdges, List.filter_map]
        obtain ⟨hj, ej⟩ := hold it hit
        have : items.filter ((fun v : EdgeD => decide (v.id.2.1 = lineName (some it.index))) ∘
            fun it : Item => ({ id := (lineName it.parent, lineName (some it.index), .none) } : EdgeD)) = [it] := by
          have hsplit : items = items.take it.index ++ it :: items.drop (it.index + 1) := by
            conv => lhs; rw [← List.take_append_drop it.index items, List.drop_eq_getElem_cons hj, ej]
          rw [hsplit, List.filter_append, List.filter_cons]
          simp only [Function.comp_apply, decide_true, ↓reduceIte]
          rw [List.filter_eq_nil_iff.2, List.filter_eq_nil_iff.2]
          · rfl
          · intro x hx
            obtain ⟨j, hj', e'⟩ := List.mem_iff_getElem.1 hx
            simp only [List.getElem_drop, List.length_drop] at e' hj'
            have := (hidx (it.index + 1 + j) x (by rw [List.getElem?_eq_getElem (by omega), e'])).1
            simp [lineName_inj]; omega
          · intro x hx
            obtain ⟨j, hj', e'⟩ := List.mem_iff_getElem.1 hx
            simp only [List.getElem_take, List.length_take] at e' hj'
            have := (hidx j x (by rw [List.getElem?_eq_getElem (by omega), e'])).1
            simp [lineName_inj]; omega
        rw [this]; rfl
      rw [this] at hs
      cases es with
      | nil => simp at hs
      | cons e es =>
        cases es with
        | nil => exact ⟨e, he⟩
        | cons e' es => simp at hs
    · -- reachable from the root
      suffices key : ∀ i, ∀ n ∈ graphNodes h' h.nG, (h'.node n).id = lineName (some i) → (∃ it ∈ items, it.index = i) → Path h' h.nG top n from
        key _ n hn ei ⟨it, hit, rfl⟩
      clear n hn hne ei hit it
      intro i
      induction i using Nat.strongRecOn with
      | ind i ih =>
        rintro n hn ei ⟨it, hit, rfl⟩
        obtain ⟨hj, ej⟩ := hold it hit
        have hpar := (hidx it.index it (by rw [List.getElem?_eq_getElem hj, ej])).2
        have hedge : ({ id := (lineName it.parent, lineName (some it.index), .none) } : EdgeD) ∈ textEdges items :=
          List.mem_map.2 ⟨it, hit, rfl⟩
        cases hc : it.parent with
        | none =>
          refine .single ((D.arrow r').2 ⟨ht, hn, _, hedge, ?_, ?_⟩)
          · rw [et, hc]
          · rw [ei]
        | some p =>
          have hlt := hpar p hc
          have hpl : p < items.length := Nat.lt_trans hlt hj
          have hpi := (hidx p items[p] (List.getElem?_eq_getElem hpl)).1
          obtain ⟨m, hm, em⟩ := D.node_of_name (k := lineName (some p)) (by
            rw [textNames]; exact List.mem_cons.2 (.inr (List.mem_map.2 ⟨items[p], List.getElem_mem _, by rw [hpi]⟩)))
          refine .tail (ih p hlt m hm em ⟨items[p], List.getElem_mem _, hpi⟩) ((D.arrow r').2 ⟨hm, hn, _, hedge, ?_, ?_⟩)
          · rw [em, hc]
          · rw [ei]
  · refine D.acyclic r' (fun k => match k with | .str s => (s.toNat?.map Int.ofNat).getD (-1) | _ => 0) ?_
    intro v hv
    obtain ⟨it, hit, rfl⟩ := List.mem_map.1 hv
    obtain ⟨hj, ej⟩ := hold it hit
    have hpar := (hidx it.index it (by rw [List.getElem?_eq_getElem hj, ej])).2
    cases hc : it.parent with
    | none => simp [lineName, root_toNat?, Nat.toNat?_repr]; omega
    | some p =>
      have := hpar p hc
      simp [lineName, Nat.toNat?_repr]; omega

/-- The hypothesis of `C40_text` is met by a text with two levels, and its conclusion by the graph of that text. -/
example : (parseIndentations ["a".toList, "  b".toList, "  c".toList, "d".toList] none).2 = none ∧
    (textEdges (parseIndentations ["a".toList, "  b".toList, "  c".toList, "d".toList] none).1).map EdgeD.id =
      [(.str "root", .str "0", .none), (.str "0", .str "1", .none), (.str "0", .str "2", .none),
        (.str "root", .str "3", .none)] := by decide +kernel

/-- The hypothesis of `C40_text_raises` is met by an indented first line. -/
example : (parseIndentations ["  a".toList] none).2 = some (.valueError "Indentation too deep") := by decide +kernel

/-- The hypothesis of `C40_tree` is met. -/
example : ∃ h', fromIndentedText "top" ["a".toList, "  b".toList, "  c".toList, "d".toList] none demo = (.ok demo.nG, h') := by
  obtain ⟨h', e, -⟩ := C40_text demo_reachable "top" ["a".toList, "  b".toList, "  c".toList, "d".toList] none (by decide +kernel)
  exact ⟨h', e⟩

/-! ## C61 -/

/-- **C61** is violated: the text of a line appears nowhere in the graph. The node of line `i` has the label `line i`
and no value, tooltip or parameter, whatever the text. -/
theorem C61_violated {h : Heap} (r : Reachable h) (root : String) (lines : List Line) (indent : Option Line) (g : GRef) (h' : Heap)
    (ok : fromIndentedText root lines indent h = (.ok g, h')) :
    (graphNodes h' g).map (seenNode h') = { name := .str "root", label := .str root } ::
      (List.range lines.length).map fun i => { name := .str (Nat.repr i), label := .str ("line " ++ Nat.repr i) } := by
  have hp : (parseIndentations lines indent).2 = none := by
    cases hp : (parseIndentations lines indent).2 with
    | none => rfl
    | some err =>
      obtain ⟨h2, e, -⟩ := C40_text_raises r root lines indent err hp
      rw [ok] at e
      exact absurd (congrArg Prod.fst e) (by simp)
  obtain ⟨h2, e, r', D, -⟩ := C40_text r root lines indent hp
  rw [ok] at e
  simp only [Prod.mk.injEq, Except.ok.injEq] at e
  obtain ⟨rfl, rfl⟩ := e
  rw [D.nodes, textNodes]
  refine congrArg (List.cons _) ?_
  have hlen := (C40_all_lines lines indent).1 hp
  apply List.ext_getElem
  · simp [hlen]
  · intro i h1 h2
    simp only [List.length_map] at h1
    have := (items_ok lines indent i _ (List.getElem?_eq_getElem h1)).1
    simp [lineName, this]

/-- **C61**, what does hold: the graph shows the number of every line. -/
theorem C61_number_partial {h : Heap} (r : Reachable h) (root : String) (lines : List Line) (indent : Option Line) (g : GRef) (h' : Heap)
    (ok : fromIndentedText root lines indent h = (.ok g, h')) (i : Nat) (hi : i < lines.length) :
    ∃ n ∈ graphNodes h' g, (h'.node n).id = .str (Nat.repr i) ∧ (h'.node n).label = .str ("line " ++ Nat.repr i) := by
  have hm := C61_violated r root lines indent g h' ok
  have : ({ name := .str (Nat.repr i), label := .str ("line " ++ Nat.repr i) } : NodeD) ∈ (graphNodes h' g).map (seenNode h') := by
    rw [hm]
    exact List.mem_cons.2 (.inr (List.mem_map.2 ⟨i, List.mem_range.2 hi, rfl⟩))
  obtain ⟨n, hn, e⟩ := List.mem_map.1 this
  exact ⟨n, hn, congrArg NodeD.name e, congrArg NodeD.label e⟩

end Verif
