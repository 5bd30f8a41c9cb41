import Verif.Lemmas.DrawHeader
import Verif.Model.CopyWorld
import Verif.Props.Stylize
import Verif.Props.Copy
import Verif.Props.Order
/-!
# The Graphviz source
-/
namespace Verif
open Palette
variable {C : Type} [Palette C]

/-! ## The source as a whole -/

/-- **C44**, the whole source. If the texts in the graph may stand in quotes (`Drawable`), the source is a graph of the DOT
language, and it says what `pictureOf` says. -/
theorem C44_source_partial {w : World C} (r : Reachable w.heap) {g : GRef} {d : Display C} (hd : w.display g = some d)
    (hown : ∀ n ∈ graphNodes w.heap g, (w.heap.node n).graph = some g) {a : DrawArgs} (D : Drawable w g d a) :
    ∃ src es, graphvizStr w g a = .ok src ∧ graphEdges w.heap g = .ok es ∧ readDot src = some (pictureOf w g d a es) := by
  obtain ⟨A, H⟩ := r.hist
  have R := H.rep
  obtain ⟨es, he, -, hes, -⟩ := C11_edges r g
  have hn : ∀ n ∈ graphNodes w.heap g, ∃ s, nodeGraphvizStr w n = .ok s ∧ WritesItem s.toList (nodeItem w d n) :=
    fun n hn => nodeStr_writes (hown n hn) hd (D.names n hn) (D.labels n hn) (D.tooltips n hn) (D.looks n hn)
  have hee : ∀ e ∈ es, ∃ s, edgeGraphvizStr w e = .ok s ∧ WritesItem s.toList (edgeItem w d e) := by
    intro e hm
    obtain ⟨⟨k, l, i⟩, hi⟩ := (liveEdge_iff R).1 ((hes e).1 hm)
    obtain ⟨-, -, q1, -, n, m, q2, q3, q4, q5⟩ := R.edgeOk g k l i e hi
    obtain ⟨p1, p2, p3⟩ := D.edges es he e hm
    exact edgeStr_writes q1 hd q4 q5 (D.names n ((mem_graphNodes R).2 ⟨_, q2⟩)) (D.names m ((mem_graphNodes R).2 ⟨_, q3⟩)) p1 p2 p3
  have ⟨F, hF⟩ : ∃ F : NRef → String, ∀ n ∈ graphNodes w.heap g,
      nodeGraphvizStr w n = .ok (F n) ∧ WritesItem (F n).toList (nodeItem w d n) := by
    classical
    refine ⟨fun n => if h : n ∈ graphNodes w.heap g then (hn n h).choose else "", fun n h => ?_⟩
    simp only [h, dif_pos]
    exact (hn n h).choose_spec
  have ⟨G, hG⟩ : ∃ G : ERef → String, ∀ e ∈ es, edgeGraphvizStr w e = .ok (G e) ∧ WritesItem (G e).toList (edgeItem w d e) := by
    classical
    refine ⟨fun e => if h : e ∈ es then (hee e h).choose else "", fun e h => ?_⟩
    simp only [h, dif_pos]
    exact (hee e h).choose_spec
  have b1 : WritesBody 0 ['\n'] [] := WritesBody.nil.space rfl
  have b2 := WritesBody.items (sep := "\n\t") (es.map fun e => (G e, edgeItem w d e)) (by decide +kernel)
    (by
      intro p hp
      obtain ⟨e, h1, rfl⟩ := List.mem_map.1 hp
      exact (hG e h1).2) b1
  have b3 := ((b2.space (c := '\t') rfl).space (c := '\n') rfl).closing.spaces (sp := ['\n', '\t']) (by decide)
  have b4 := WritesBody.items (sep := "\n\t\t") ((graphNodes w.heap g).map fun n => (F n, nodeItem w d n)) (by decide +kernel)
    (by
      intro p hp
      obtain ⟨e, h1, rfl⟩ := List.mem_map.1 hp
      exact (hF e h1).2) b3
  have b5 := (b4.spaces (sp := ['\n', '\t', '\t']) (by decide)).opening.space (c := '\t') rfl
  obtain ⟨s, cs, h1, h2, h3⟩ := header_writes hd D.header b5
  have hread := h3.read (strict := (w.heap.graph g).strict)
    (s ++ ("\t{\n\t\t" ++ String.intercalate "\n\t\t" ((graphNodes w.heap g).map F) ++ "\n\t}\n") ++
      ("\t" ++ String.intercalate "\n\t" (es.map G) ++ "\n") ++ "}") (by
      simp only [String.toList_append, h2, List.map_map, Function.comp_def]
      simp)
  refine ⟨_, es, ?_, he, hread.trans ?_⟩
  · simp only [graphvizStr, mapE_ok fun n hn => (hF n hn).1, mapE_ok fun e h => (hG e h).1, he, h1, bind, Except.bind]
  · simp [pictureOf, Function.comp_def]

theorem headerItems_kind (w : World C) (g : GRef) (d : Display C) (a : DrawArgs) :
    ∀ i ∈ headerItems w g d a, (∃ k v, i = .assign k v) ∨ ∃ x, i = .defaults "graph" x := by
  intro i hi
  unfold headerItems sizeItems at hi
  grind

theorem pictureOf_nodeNames (w : World C) (g : GRef) (d : Display C) (a : DrawArgs) (es : List ERef) :
    (pictureOf w g d a es).nodeNames = (graphNodes w.heap g).map fun n => (w.heap.node n).id.toStr := by
  have h1 : (headerItems w g d a).filterMap DotItem.nodeName = [] := by
    rw [List.filterMap_eq_nil_iff]
    intro i hi
    rcases headerItems_kind w g d a i hi with ⟨k, v, rfl⟩ | ⟨x, rfl⟩ <;> rfl
  have h2 : ∀ l : List NRef, (l.map (nodeItem w d)).filterMap DotItem.nodeName =
      l.map fun n => (w.heap.node n).id.toStr := by
    intro l
    induction l with
    | nil => rfl
    | cons x l ih => rw [List.map_cons, List.filterMap_cons_some (f := DotItem.nodeName) (a := nodeItem w d x) (b := (w.heap.node x).id.toStr) rfl, ih, List.map_cons]
  have h3 : ∀ l : List ERef, (l.map (edgeItem w d)).filterMap DotItem.nodeName = [] := by
    intro l
    induction l with
    | nil => rfl
    | cons x l ih => rw [List.map_cons, List.filterMap_cons_none rfl, ih]
  unfold DotGraph.nodeNames pictureOf
  simp only [List.filterMap_append, h1, h2, h3]
  simp only [List.filterMap_cons_none (show DotItem.nodeName .opening = none from rfl), List.filterMap_cons_none (show DotItem.nodeName .closing = none from rfl)]
  simp

theorem pictureOf_arrows (w : World C) (g : GRef) (d : Display C) (a : DrawArgs) (es : List ERef) :
    (pictureOf w g d a es).arrows = es.map fun e => (endName w.heap (w.heap.edge e).start, endName w.heap (w.heap.edge e).stop) := by
  have h1 : (headerItems w g d a).filterMap DotItem.ends = [] := by
    rw [List.filterMap_eq_nil_iff]
    intro i hi
    rcases headerItems_kind w g d a i hi with ⟨k, v, rfl⟩ | ⟨x, rfl⟩ <;> rfl
  have h2 : ∀ l : List NRef, (l.map (nodeItem w d)).filterMap DotItem.ends = [] := by
    intro l
    induction l with
    | nil => rfl
    | cons x l ih => rw [List.map_cons, List.filterMap_cons_none rfl, ih]
  have h3 : ∀ l : List ERef, (l.map (edgeItem w d)).filterMap DotItem.ends =
      l.map fun e => (endName w.heap (w.heap.edge e).start, endName w.heap (w.heap.edge e).stop) := by
    intro l
    induction l with
    | nil => rfl
    | cons x l ih => rw [List.map_cons, List.filterMap_cons_some (f := DotItem.ends) (a := edgeItem w d x) (b := (endName w.heap (w.heap.edge x).start, endName w.heap (w.heap.edge x).stop)) rfl, ih, List.map_cons]
  unfold DotGraph.arrows pictureOf
  simp only [List.filterMap_append, h1, h2, h3]
  simp only [List.filterMap_cons_none (show DotItem.ends .opening = none from rfl), List.filterMap_cons_none (show DotItem.ends .closing = none from rfl)]
  simp

/-- **C44**. One node statement for each node, in the order of `graph.nodes`, under its name; the names differ. One edge
statement for each edge, with the names of its ends. -/
theorem C44_statements_partial {w : World C} (r : Reachable w.heap) {g : GRef} {d : Display C} (hd : w.display g = some d)
    (hown : ∀ n ∈ graphNodes w.heap g, (w.heap.node n).graph = some g) {a : DrawArgs} (D : Drawable w g d a) :
    ∃ (src : String) (p : DotGraph) (es : List ERef), graphvizStr w g a = .ok src ∧ readDot src = some p ∧
      p.strict = (w.heap.graph g).strict ∧
      p.nodeNames.map Key.str = (graphNodes w.heap g).map (fun n => (w.heap.node n).id) ∧ p.nodeNames.Nodup ∧
      es.Nodup ∧ (∀ e, e ∈ es ↔ LiveEdge w.heap g e) ∧
      List.Forall₂ (fun e q => ∃ n m, edgeStart w.heap e = .ok n ∧ edgeEnd w.heap e = .ok m ∧
        (w.heap.node n).id = .str q.1 ∧ (w.heap.node m).id = .str q.2) es p.arrows := by
  obtain ⟨src, es, h1, h2, h3⟩ := C44_source_partial r hd hown D
  obtain ⟨es', h4, h5, h6, -⟩ := C11_edges r g
  rw [h2] at h4
  cases h4
  obtain ⟨A, H⟩ := r.hist
  have R := H.rep
  have hkey : ((graphNodes w.heap g).map fun n => (w.heap.node n).id.toStr).map Key.str =
      (graphNodes w.heap g).map (fun n => (w.heap.node n).id) := by
    rw [List.map_map]
    refine List.map_congr_left fun n _ => ?_
    obtain ⟨s, hs⟩ := r.idStr n
    simp only [Function.comp_def, hs]
    rfl
  refine ⟨src, _, es, h1, h3, rfl, ?_, ?_, h5, h6, ?_⟩
  · rw [pictureOf_nodeNames, hkey]
  · rw [pictureOf_nodeNames]
    refine List.Nodup.of_map Key.str ?_
    rw [hkey]
    have : (graphNodes w.heap g).map (fun n => (w.heap.node n).id) = (A.graph g).nodes.map Prod.fst := by
      unfold graphNodes dvals
      rw [R.nodes, List.map_map]
      refine List.map_congr_left fun p hp => ?_
      exact (R.nodeOk g p.1 p.2 hp).2.1
    rw [this]
    exact R.keysNodup g
  · rw [pictureOf_arrows, List.forall₂_map_right_iff, List.forall₂_same]
    intro e he
    obtain ⟨⟨k, l, i⟩, hi⟩ := (liveEdge_iff R).1 ((h6 e).1 he)
    obtain ⟨-, -, q1, -, n, m, q2, q3, q4, q5⟩ := R.edgeOk g k l i e hi
    obtain ⟨s, hs⟩ := r.idStr n
    obtain ⟨t, ht⟩ := r.idStr m
    refine ⟨n, m, by simp [edgeStart, q4], by simp [edgeEnd, q5], ?_, ?_⟩
    · rw [hs, q4]; simp [endName, hs]; rfl
    · rw [ht, q5]; simp [endName, ht]; rfl

/-! ## Quoting -/

/-- **C45** for labels. In the statement for a node without label converter the label stands in quotes; by the rules of
the language these are closed by the quote that was meant to close them and hold the label exactly if every run of
backslashes in front of a quote, in front of the end of a line and at the end of the label is even. -/
theorem C45_label {w : World C} {n : NRef} {g : GRef} {d : Display C} (hg : (w.heap.node n).graph = some g)
    (hd : w.display g = some d) (hc : d.nodeConverter = none) :
    ∃ s body rest, nodeGraphvizStr w n = .ok s ∧
      s.toList = (inQuotes (w.heap.node n).id.toStr ++ " [label=\"").toList ++ body ++ '"' :: rest ∧
      (readQuoted false (body ++ '"' :: rest) = some ((labelText w.heap n).toList, rest) ↔
        Quotable (labelText w.heap n).toList) := by
  have hl : nodeDisplayLabel w n = .ok (nodeLabel w.heap n) := by
    simp [nodeDisplayLabel, displayOf, hg, hd, hc, bind, Except.bind]
  have hlt : nodeLabel w.heap n = escapeQuotes (labelText w.heap n) := rfl
  have key : ∀ parts : List String, ∃ rest, (String.intercalate " " (("label=" ++ inQuotes (nodeLabel w.heap n)) :: parts) ++ "]").toList =
      "label=\"".toList ++ escaped (labelText w.heap n).toList ++ '"' :: rest := by
    intro parts
    cases parts with
    | nil =>
      refine ⟨[']'], ?_⟩
      simp [inQuotes, hlt, toList_escapeQuotes]
    | cons p ps =>
      refine ⟨" ".toList ++ List.intercalate " ".toList ((p :: ps).map String.toList) ++ [']'], ?_⟩
      rw [String.toList_append, String.toList_intercalate, List.map_cons, List.map_cons, intercalate_two]
      simp [inQuotes, hlt, toList_escapeQuotes]
  obtain ⟨rest, hr⟩ := key (optPart "tooltip" (w.heap.node n).tooltip ++ nodeStylePart w n)
  refine ⟨inQuotes (w.heap.node n).id.toStr ++ " [" ++ String.intercalate " " (["label=" ++ inQuotes (nodeLabel w.heap n)] ++
    optPart "tooltip" (w.heap.node n).tooltip ++ nodeStylePart w n) ++ "]", escaped (labelText w.heap n).toList, rest, ?_, ?_, ?_⟩
  · simp only [nodeGraphvizStr, hl, bind, Except.bind]
  · rw [String.append_assoc, String.toList_append]
    have e : ["label=" ++ inQuotes (nodeLabel w.heap n)] ++ optPart "tooltip" (w.heap.node n).tooltip ++ nodeStylePart w n =
        ("label=" ++ inQuotes (nodeLabel w.heap n)) :: (optPart "tooltip" (w.heap.node n).tooltip ++ nodeStylePart w n) := rfl
    rw [e, hr]
    simp
  · have := readQuoted_escaped false (labelText w.heap n).toList rest
    rw [quotable_iff]
    simpa [behind] using this

/-- **C45**: a label without backslashes is quoted safely, whatever else is in it. -/
theorem C45_no_backslash (l : List Char) (h : '\\' ∉ l) : Quotable l := by
  rintro a b rfl -
  have : a.reverse.takeWhile (· = '\\') = [] := by
    cases e : a.reverse with
    | nil => rfl
    | cons x t =>
      have hx : x ∈ a := by rw [← List.mem_reverse, e]; simp
      have : x ≠ '\\' := by rintro rfl; exact h (by simp [hx])
      simp [this]
  simp [endSlashes, this]

/-- **C45** for names, which are not escaped: the quotes around the name of a node hold the name and end where they should
exactly if it has no quote in it and every run of backslashes in front of the end of a line and at its end is even. -/
theorem C45_name {w : World C} {n : NRef} {g : GRef} {d : Display C} (hg : (w.heap.node n).graph = some g)
    (hd : w.display g = some d) :
    ∃ s rest, nodeGraphvizStr w n = .ok s ∧ s.toList = '"' :: ((w.heap.node n).id.toStr.toList ++ '"' :: rest) ∧
      (readQuoted false ((w.heap.node n).id.toStr.toList ++ '"' :: rest) = some ((w.heap.node n).id.toStr.toList, rest) ↔
        Plain (w.heap.node n).id.toStr.toList) := by
  have hl : ∃ l, nodeDisplayLabel w n = .ok l := by
    unfold nodeDisplayLabel
    simp only [displayOf, hg, hd, bind, Except.bind]
    cases d.nodeConverter <;> exact ⟨_, rfl⟩
  obtain ⟨l, hl⟩ := hl
  refine ⟨inQuotes (w.heap.node n).id.toStr ++ " [" ++ String.intercalate " " (["label=" ++ inQuotes l] ++
    optPart "tooltip" (w.heap.node n).tooltip ++ nodeStylePart w n) ++ "]", " [".toList ++ (String.intercalate " " (["label=" ++ inQuotes l] ++
    optPart "tooltip" (w.heap.node n).tooltip ++ nodeStylePart w n) ++ "]").toList, ?_, ?_, ?_⟩
  · simp only [nodeGraphvizStr, hl, bind, Except.bind]
  · simp only [String.toList_append, inQuotes, List.append_assoc]
    rfl
  · have := readQuoted_plain false (w.heap.node n).id.toStr.toList (" [".toList ++ (String.intercalate " " (["label=" ++ inQuotes l] ++
      optPart "tooltip" (w.heap.node n).tooltip ++ nodeStylePart w n) ++ "]").toList)
    unfold Plain
    rw [quotable_iff]
    simpa only [behind, Bool.false_eq_true, if_false] using this

/-- **C45** for the labels of edges, which are not escaped either. -/
theorem C45_edge_label {w : World C} {e : ERef} {g : GRef} {d : Display C} {n m : NRef} (hg : (w.heap.edge e).graph = some g)
    (hd : w.display g = some d) (hs : edgeStart w.heap e = .ok n) (ht : edgeEnd w.heap e = .ok m)
    {v : Val} (hv : shownEdgeLabel w d e = v) (hnone : v ≠ .none) :
    ∃ s rest, edgeGraphvizStr w e = .ok s ∧
      s.toList = (inQuotes (w.heap.node n).id.toStr ++ " -> " ++ inQuotes (w.heap.node m).id.toStr ++ "[label=\"").toList ++
        v.toStr.toList ++ '"' :: rest ∧
      (readQuoted false (v.toStr.toList ++ '"' :: rest) = some (v.toStr.toList, rest) ↔ Plain v.toStr.toList) := by
  have hl : edgeDisplayLabelOrValue w e = .ok v := by
    rw [← hv]
    unfold edgeDisplayLabelOrValue shownEdgeLabel
    simp only [displayOf, hg, hd, bind, Except.bind]
    cases (w.heap.edge e).label <;> cases d.edgeConverter <;> rfl
  have hp : optPart "label" v = ["label=" ++ inQuotes v.toStr] := by
    cases v <;> first | exact absurd rfl hnone | rfl
  have key : ∀ parts : List String, ∃ rest, (String.intercalate " " (("label=" ++ inQuotes v.toStr) :: parts) ++ "]").toList =
      "label=\"".toList ++ v.toStr.toList ++ '"' :: rest := by
    intro parts
    cases parts with
    | nil =>
      refine ⟨[']'], ?_⟩
      simp [inQuotes]
    | cons p ps =>
      refine ⟨" ".toList ++ List.intercalate " ".toList ((p :: ps).map String.toList) ++ [']'], ?_⟩
      rw [String.toList_append, String.toList_intercalate, List.map_cons, List.map_cons, intercalate_two]
      simp [inQuotes]
  obtain ⟨rest, hr⟩ := key (optPart "tooltip" (w.heap.edge e).tooltip ++ edgeStylePart w e)
  refine ⟨inQuotes (w.heap.node n).id.toStr ++ " -> " ++ inQuotes (w.heap.node m).id.toStr ++ ("[" ++
    String.intercalate " " (optPart "label" v ++ optPart "tooltip" (w.heap.edge e).tooltip ++ edgeStylePart w e) ++ "]"), rest, ?_, ?_, ?_⟩
  · have : (optPart "label" v ++ optPart "tooltip" (w.heap.edge e).tooltip ++ edgeStylePart w e).length > 0 := by
      rw [hp]; simp
    simp only [edgeGraphvizStr, hl, bind, Except.bind, hs, ht]
    rw [if_pos this]
  · have e : optPart "label" v ++ optPart "tooltip" (w.heap.edge e).tooltip ++ edgeStylePart w e =
        ("label=" ++ inQuotes v.toStr) :: (optPart "tooltip" (w.heap.edge e).tooltip ++ edgeStylePart w e) := by
      rw [hp]; rfl
    rw [e, String.append_assoc (s₁ := "["), String.toList_append, String.toList_append (s := "["), hr]
    simp
  · have := readQuoted_plain false v.toStr.toList rest
    unfold Plain
    rw [quotable_iff]
    simpa only [behind, Bool.false_eq_true, if_false] using this

/-! ## The settings of the picture -/

theorem pictureOf_settings (w : World C) (g : GRef) (d : Display C) (a : DrawArgs) (es : List ERef) (key : String) :
    (pictureOf w g d a es).settings key = (headerItems w g d a).filterMap (DotItem.setting key) := by
  have h2 : ∀ l : List NRef, (l.map (nodeItem w d)).filterMap (DotItem.setting key) = [] := by
    intro l
    induction l with
    | nil => rfl
    | cons x l ih => rw [List.map_cons, List.filterMap_cons_none rfl, ih]
  have h3 : ∀ l : List ERef, (l.map (edgeItem w d)).filterMap (DotItem.setting key) = [] := by
    intro l
    induction l with
    | nil => rfl
    | cons x l ih => rw [List.map_cons, List.filterMap_cons_none rfl, ih]
  unfold DotGraph.settings pictureOf
  simp only [List.filterMap_append, h2, h3, List.filterMap_cons_none (show DotItem.setting key .opening = none from rfl),
    List.filterMap_cons_none (show DotItem.setting key .closing = none from rfl)]
  simp

theorem setting_assign (key k : String) (v : DotText) :
    [DotItem.assign k v].filterMap (DotItem.setting key) = if key = k then [v] else [] := by
  by_cases h : key = k
  · rw [if_pos h, List.filterMap_cons_some (b := v) (by simp [DotItem.setting, h])]; rfl
  · rw [if_neg h, List.filterMap_cons_none (by simp [DotItem.setting, Ne.symm h])]; rfl

theorem setting_defaults (key k : String) (v : DotAttrs) : [DotItem.defaults k v].filterMap (DotItem.setting key) = [] := rfl

theorem headerItems_setting (w : World C) (g : GRef) (d : Display C) (a : DrawArgs) (key : String) :
    (headerItems w g d a).filterMap (DotItem.setting key) =
      (if key = "bgcolor" then [.plain d.background] else []) ++
      (if key = "pad" then (a.pad.map fun p => DotText.plain (showNum C p)).toList else []) ++
      (if key = "ordering" ∧ (w.heap.graph g).ordering = false then [.plain "out"] else []) ++
      (sizeItems C a.height a.width).filterMap (DotItem.setting key) ++
      (if key = "rankdir" ∧ drawnDirection d a ≠ "TB" then [.plain (drawnDirection d a)] else []) := by
  unfold headerItems
  simp only [List.filterMap_append]
  have h1 : (if headerDots d = [] then [] else [DotItem.defaults "graph" (headerDots d)]).filterMap (DotItem.setting key) = [] := by
    split
    · rfl
    · exact setting_defaults ..
  rw [h1, setting_assign]
  congr 1
  · congr 1
    · congr 1
      · congr 1
        cases a.pad with
        | none => simp
        | some p => simpa using setting_assign key "pad" (.plain (showNum C p))
      · cases (w.heap.graph g).ordering with
        | true => simp
        | false => simpa using setting_assign key "ordering" (.plain "out")
  · by_cases ht : drawnDirection d a = "TB"
    · simp [ht]
    · simpa [ht] using setting_assign key "rankdir" (.plain (drawnDirection d a))

/-- **C65**. What the source says about the picture as a whole: the background, the padding, the size (width before height)
and the direction unless it is from top to bottom. -/
theorem C65_settings {w : World C} (r : Reachable w.heap) {g : GRef} {d : Display C} (hd : w.display g = some d)
    (hown : ∀ n ∈ graphNodes w.heap g, (w.heap.node n).graph = some g) {a : DrawArgs} (D : Drawable w g d a) :
    ∃ src p, graphvizStr w g a = .ok src ∧ readDot src = some p ∧
      p.settings "bgcolor" = [.plain d.background] ∧
      p.settings "pad" = (match a.pad with | none => [] | some q => [.plain (showNum C q)]) ∧
      p.settings "rankdir" = (if drawnDirection d a = "TB" then [] else [.plain (drawnDirection d a)]) ∧
      p.settings "size" = (match a.width, a.height with
        | none, none => []
        | some x, none => [.plain (showNum C x ++ "!")]
        | none, some y => [.plain (showNum C y ++ "!")]
        | some x, some y => [.plain (showNum C x ++ "," ++ showNum C y ++ "!")]) := by
  obtain ⟨src, es, h1, -, h3⟩ := C44_source_partial r hd hown D
  refine ⟨src, _, h1, h3, ?_⟩
  simp only [pictureOf_settings, headerItems_setting]
  refine ⟨?_, ?_, ?_, ?_⟩
  · simp [sizeItems]; cases a.height <;> cases a.width <;> simp [DotItem.setting]
  · simp [sizeItems]; cases a.pad <;> cases a.height <;> cases a.width <;> simp [DotItem.setting]
  · simp [sizeItems]; cases a.height <;> cases a.width <;> simp [DotItem.setting]
  · simp [sizeItems]; cases a.height <;> cases a.width <;> simp [DotItem.setting]

/-- **C66 is violated** for every graph that can be drawn: `ordering=out`, which makes Graphviz keep the order of the edges,
is in the source if and only if `ordering` is `False`. -/
theorem C66_violated {w : World C} (r : Reachable w.heap) {g : GRef} {d : Display C} (hd : w.display g = some d)
    (hown : ∀ n ∈ graphNodes w.heap g, (w.heap.node n).graph = some g) {a : DrawArgs} (D : Drawable w g d a) :
    ∃ src p, graphvizStr w g a = .ok src ∧ readDot src = some p ∧
      p.settings "ordering" = if (w.heap.graph g).ordering then [] else [.plain "out"] := by
  obtain ⟨src, es, h1, -, h3⟩ := C44_source_partial r hd hown D
  refine ⟨src, _, h1, h3, ?_⟩
  simp only [pictureOf_settings, headerItems_setting]
  cases (w.heap.graph g).ordering <;> cases a.height <;> cases a.width <;> simp [sizeItems, DotItem.setting]

/-! ## Copies -/

omit [Palette C] in
theorem undisplayed_display {x : M (GRef × Memo)} {w w' : World C} {g : GRef} (h : W.undisplayed x w = (.ok g, w')) :
    w'.display g = none := by
  unfold W.undisplayed at h
  cases hx : x w.heap with
  | mk r h' =>
    rw [hx] at h
    cases r with
    | error e => simp at h
    | ok r =>
      simp only [Prod.mk.injEq, Except.ok.injEq] at h
      obtain ⟨rfl, rfl⟩ := h
      simp

theorem undrawable [DecidableEq C] {w : World C} {g : GRef} (hd : w.display g = none) (lim : Nat)
    (shuffle : List NRef → List NRef) (a : DrawArgs) :
    (stylize lim shuffle g w).1 = .error .attributeError ∧ (render lim shuffle g a w).1 = .error .attributeError ∧
      (∀ n, (w.heap.node n).graph = some g → nodeGraphvizStr w n = .error .attributeError) ∧
      ∀ s, graphvizStr w g a ≠ .ok s := by
  refine ⟨?_, ?_, ?_, ?_⟩
  · simp [stylize, W.display, hd]
  · simp [render, W.display, hd]
  · intro n hn
    simp [nodeGraphvizStr, nodeDisplayLabel, displayOf, hn, hd, bind, Except.bind]
  · intro s hs
    have hh : graphvizHeader w g a = .error .attributeError := by simp [graphvizHeader, displayOf, hd, bind, Except.bind]
    simp only [graphvizStr, hh, bind, Except.bind] at hs
    grind

/-- **C62 is violated** for every copy: the copy has no display attributes, so `stylize`, `render` and the texts for its nodes
raise `AttributeError`, and it has no Graphviz source. -/
theorem C62_violated [DecidableEq C] {w w' : World C} {g g' : GRef} (hc : copyWorld g w = (.ok g', w')) (lim : Nat)
    (shuffle : List NRef → List NRef) (a : DrawArgs) :
    (stylize lim shuffle g' w').1 = .error .attributeError ∧ (render lim shuffle g' a w').1 = .error .attributeError ∧
      (∀ n, (w'.heap.node n).graph = some g' → nodeGraphvizStr w' n = .error .attributeError) ∧
      ∀ s, graphvizStr w' g' a ≠ .ok s := undrawable (undisplayed_display hc) lim shuffle a

/-- **C62 is violated** for every filtered graph as well. -/
theorem C62_violated_filter [DecidableEq C] {w w' : World C} {g g' : GRef} {lim : Nat} {nodes : List NodeArg}
    {direction filterType : String} (hc : filterWorld lim g nodes direction filterType w = (.ok g', w'))
    (shuffle : List NRef → List NRef) (a : DrawArgs) :
    (stylize lim shuffle g' w').1 = .error .attributeError ∧ (render lim shuffle g' a w').1 = .error .attributeError ∧
      (∀ n, (w'.heap.node n).graph = some g' → nodeGraphvizStr w' n = .error .attributeError) ∧
      ∀ s, graphvizStr w' g' a ≠ .ok s := undrawable (undisplayed_display hc) lim shuffle a

omit [Palette C] in
/-- **C62**, the part that holds: without styled nodes the copy is made, has the same nodes and edges under the same names
(`CopyOf`), and is a graph of a state in which every theorem about reachable states applies. -/
theorem C62_structure_partial {w : World C} (r : Reachable w.heap) {g : GRef} (hg : g < w.heap.nG)
    (hst : ∀ n ∈ graphNodes w.heap g, (w.heap.node n).style = none) :
    ∃ (g' : GRef) (m : Memo) (w' : World C), copyWorld g w = (.ok g', w') ∧ Reachable w'.heap ∧ g' ≠ g ∧ g' < w'.heap.nG ∧
      CopyOf w.heap w'.heap g g' m.node m.edge ∧ ∀ x, x ≠ g' → w'.display x = w.display x := by
  obtain ⟨g', m, h', h1, h2, h3, h4, h5⟩ := C31_copy r hg hst
  refine ⟨g', m, { w with heap := h', es := m.dye w.es, display := upd w.display g' none }, ?_, h2, h3, h4, h5, ?_⟩
  · simp [copyWorld, W.undisplayed, h1]
  · intro x hx
    exact upd_ne _ _ hx

/-! ## Examples and counterexamples -/

instance (v : Val) : Decidable (PlainVal v) := inferInstanceAs (Decidable (_ → _))

instance (s : Option String) : Decidable (PlainOpt s) :=
  decidable_of_iff (∀ x ∈ s.toList, Plain x.toList) (by simp [PlainOpt])

/-- The attributes and arguments a graph has unless others are given may be drawn. -/
theorem plainWorld_header : HeaderOk (C := Rat) { scheme := [0, 1 / 2, 1], stylist := .pensieve } {} := by
  constructor
  · intro l hl
    cases hl
    rw [if_neg (by decide +kernel)]
    show Plain _
    decide +kernel
  · intro l hl
    cases hl
    refine ⟨by decide, ?_⟩
    intro s hs
    cases hs
    decide +kernel
  · decide +kernel
  · intro q hq
    cases hq
    exact dotWord_of (by decide +kernel) (by decide +kernel) (by decide +kernel)
  · decide +kernel
  · decide +kernel
  · decide +kernel
  · intro p hp
    cases hp
  · decide +kernel
  · intro q hq
    cases hq
    decide +kernel
  · intro q hq
    cases hq
  · intro q hq
    cases hq
  · decide +kernel

/-- The diamond may be drawn. -/
theorem diamond_drawable : Drawable (plainWorld diamond) 0 { scheme := [0, 1 / 2, 1], stylist := .pensieve } {} where
  names := by decide +kernel
  labels := by
    intro n hn
    show Quotable (labelText diamond n).toList
    revert n
    decide +kernel
  tooltips := by decide +kernel
  looks := by decide +kernel
  edges := by
    intro es he
    have h3 : graphEdges diamond 0 = .ok [0, 1, 2, 3] := by decide +kernel
    have : es = [0, 1, 2, 3] := by
      have := h3.symm.trans he
      cases this
      rfl
    subst this
    decide +kernel
  header := plainWorld_header

/-- Its source, before it is stylized. -/
example : graphvizStr (plainWorld diamond) 0 {} = .ok ("digraph G{\n" ++
    "\t graph [label = \"\nPowered by Abstract\", labelloc = \"b\", fontsize = 10, fontname = \"helvetica\", fontcolor = \"deepskyblue3\", href = \"https://github.com/idin/abstract\", target = \"_blank\" ];\n" ++
    "\tbgcolor=\"#FAFAFA\";\n\tpad=\"1/10\";\n\trankdir=\"LR\"\t{\n" ++
    "\t\t\"a\" [label=\"a\"]\n\t\t\"b\" [label=\"b\"]\n\t\t\"c\" [label=\"c\"]\n\t\t\"d\" [label=\"d\"]\n\t}\n" ++
    "\t\"a\" -> \"b\"[label=\"3\"]\n\t\"a\" -> \"c\"[label=\"2\"]\n\t\"b\" -> \"d\"\n\t\"c\" -> \"d\"\n}") := by decide +kernel

/-- One node, called `a" -> "b`. -/
def rogue : Heap := runOps [.newGraph false true false, .add 0 "a\" -> \"b"] Heap.init

/-- One node `a` with the label `a\`. -/
def slashed : Heap := runOps [.newGraph false true false, .add 0 "a", .nodeLabel 0 (.str "a\\")] Heap.init

theorem rogue_reachable : Reachable rogue := by
  refine Reachable.runOps .init _ ⟨trivial, ?_⟩
  simp only [AllOk, Op.Ok, Op.add]
  decide

theorem slashed_reachable : Reachable slashed := by
  refine Reachable.runOps .init _ ⟨trivial, ?_⟩
  simp only [AllOk, Op.Ok, Op.add]
  decide

/-- **C44 as stated is violated**: the source for a graph with one node, called `a" -> "b`, and no edges has an edge
statement and no node statement. -/
theorem C44_violated : Reachable rogue ∧ (graphNodes rogue 0).length = 1 ∧ graphEdges rogue 0 = .ok [] ∧
    ∃ src p, graphvizStr (plainWorld rogue) 0 {} = .ok src ∧ readDot src = some p ∧ p.nodeNames = [] ∧ p.arrows = [("a", "b")] := by
  have h : ((graphvizStr (plainWorld rogue) 0 {}).toOption.bind readDot).map (fun p => (p.nodeNames, p.arrows)) =
      some ([], [("a", "b")]) := by decide +kernel
  refine ⟨rogue_reachable, by decide +kernel, by decide +kernel, ?_⟩
  cases e : graphvizStr (plainWorld rogue) 0 {} with
  | error x => simp [e, Except.toOption] at h
  | ok src =>
    simp only [e, Except.toOption, Option.bind_some, Option.map_eq_some_iff, Prod.mk.injEq] at h
    obtain ⟨p, h1, h2, h3⟩ := h
    exact ⟨src, p, rfl, h1, h2, h3⟩

/-- **C45 as stated is violated**: the label `a\` is not escaped as it should be, and the source cannot be read. -/
theorem C45_violated : Reachable slashed ∧ ∃ src, graphvizStr (plainWorld slashed) 0 {} = .ok src ∧ readDot src = none := by
  have h : (graphvizStr (plainWorld slashed) 0 {}).toOption.map readDot = some none := by decide +kernel
  refine ⟨slashed_reachable, ?_⟩
  cases e : graphvizStr (plainWorld slashed) 0 {} with
  | error x => simp [e, Except.toOption] at h
  | ok src =>
    simp only [e, Except.toOption, Option.map_some, Option.some.injEq] at h
    exact ⟨src, rfl, h⟩

/-- The diamond can be copied, so **C62** is about something. -/
example : (copyWorld 0 (plainWorld diamond)).1 = .ok 1 := by decide +kernel

end Verif
