import Verif.Lemmas.DotParse
import Verif.Lemmas.Stylize
/-!
# The source of a graph, piece by piece
-/
namespace Verif
open Palette
variable {C : Type} [Palette C]

theorem mapE_ok {α β : Type} {f : α → Except PyErr β} {F : α → β} {l : List α} (h : ∀ x ∈ l, f x = .ok (F x)) :
    mapE f l = .ok (l.map F) := by
  induction l with
  | nil => rfl
  | cons x l ih =>
    simp only [mapE, h x (by simp), ih fun y hy => h y (by simp [hy]), List.map_cons]
    rfl

theorem mapE_error {α β : Type} {f : α → Except PyErr β} {e : PyErr} {x : α} {l : List α} (h : f x = .error e) :
    mapE f (x :: l) = .error e := by simp [mapE, h, bind, Except.bind]

/-! ## Nodes and edges -/

theorem dotWord_of {s : String} (h1 : isKeyword s = false) (h2 : s.toList ≠ []) (h3 : ∀ c ∈ s.toList, isWordChar c = true) :
    DotWord s := ⟨h1, .inl ⟨h2, h3⟩⟩

theorem dotWord_label : DotWord "label" := dotWord_of (by decide +kernel) (by decide +kernel) (by decide +kernel)
theorem dotWord_tooltip : DotWord "tooltip" := dotWord_of (by decide +kernel) (by decide +kernel) (by decide +kernel)

theorem writes_optPart {k : String} (hk : DotWord k) {v : Val} (hv : PlainVal v) :
    ∀ p ∈ (optPart k v).map (fun s => (s, optAttr k v)), WritesAttrs p.1.toList p.2 := by
  intro p hp
  cases v with
  | none => simp [optPart] at hp
  | _ =>
    simp only [optPart, List.map_cons, List.map_nil, List.mem_singleton] at hp
    subst hp
    exact writes_word_attr hk (lexes_plain (hv (by simp)))

theorem flatMap_optPart (k : String) (v : Val) : (optPart k v).flatMap (fun _ => optAttr k v) = optAttr k v := by
  cases v <;> simp [optPart, optAttr]

theorem nodeStyle_keys {s : NodeStyle C} : ∀ p ∈ s.attributes, Plain p.1.toList := by
  intro p hp
  simp only [NodeStyle.attributes, List.mem_filterMap, Option.map_eq_some_iff] at hp
  obtain ⟨q, h1, v, -, rfl⟩ := hp
  have : q.1 ∈ ["color", "fillcolor", "fontname", "fontcolor", "fontsize", "opacity", "shape", "style"] := by
    have := List.mem_map_of_mem (f := Prod.fst) h1
    simpa [NodeStyle.dictionary] using this
  show Plain (stripQuotes q.1).toList
  revert this
  generalize q.1 = x
  revert x
  decide +kernel

theorem edgeStyle_keys {s : EdgeStyle C} : ∀ p ∈ s.attributes, Plain p.1.toList := by
  intro p hp
  simp only [EdgeStyle.attributes, List.mem_filterMap, Option.map_eq_some_iff] at hp
  obtain ⟨q, h1, v, -, rfl⟩ := hp
  have : q.1 ∈ ["color", "fontname", "fontcolor", "fontsize", "arrowsize", "lblstyle", "penwidth"] := by
    have := List.mem_map_of_mem (f := Prod.fst) h1
    simpa [EdgeStyle.dictionary] using this
  show Plain (stripQuotes q.1).toList
  revert this
  generalize q.1 = x
  revert x
  decide +kernel

theorem nodeStyle_looks (s : NodeStyle C) : nodeStyleLooks s = s.attributes := by
  have : ["color", "fillcolor", "fontname", "fontcolor", "fontsize", "opacity", "shape", "style"].map stripQuotes =
    ["color", "fillcolor", "fontname", "fontcolor", "fontsize", "opacity", "shape", "style"] := by decide +kernel
  simp only [List.map_cons, List.map_nil, List.cons.injEq] at this
  obtain ⟨h1, h2, h3, h4, h5, h6, h7, h8, -⟩ := this
  rcases s with ⟨c0, fill, border, text, fa, ba, ta, li, op, fo, ts, sh, ss⟩
  simp only [NodeStyle.attributes, NodeStyle.dictionary, nodeStyleLooks, notNone, List.filterMap_cons, List.filterMap_nil, h1, h2, h3, h4, h5, h6, h7, h8]
  cases border <;> cases fill <;> cases fo <;> cases text <;> cases ts <;> cases op <;> cases sh <;> cases ss <;> rfl

theorem edgeStyle_looks (s : EdgeStyle C) : edgeStyleLooks s = s.attributes := by
  have : ["color", "fontname", "fontcolor", "fontsize", "arrowsize", "lblstyle", "penwidth"].map stripQuotes =
    ["color", "fontname", "fontcolor", "fontsize", "arrowsize", "lblstyle", "penwidth"] := by decide +kernel
  simp only [List.map_cons, List.map_nil, List.cons.injEq] at this
  obtain ⟨h1, h2, h3, h4, h5, h6, h7, -⟩ := this
  rcases s with ⟨c0, text, ta, op, fo, ts, ar, ls, lw⟩
  simp only [EdgeStyle.attributes, EdgeStyle.dictionary, edgeStyleLooks, notNone, List.filterMap_cons, List.filterMap_nil, h1, h2, h3, h4, h5, h6, h7]
  cases text <;> cases fo <;> cases ts <;> cases op <;> cases ls <;> cases lw <;> rfl

theorem writes_nodeStyle {w : World C} {n : NRef} (h : ∀ p ∈ nodeLooks w n, Plain p.2.toList) :
    ∀ p ∈ (nodeStylePart w n).map (fun s => (s, plainAttrs (nodeLooks w n))), WritesAttrs p.1.toList p.2 := by
  intro p hp
  unfold nodeStylePart at hp
  unfold nodeLooks at h hp
  cases hs : (w.heap.node n).style with
  | none => simp [hs] at hp
  | some s =>
    simp only [hs, List.map_cons, List.map_nil, List.mem_singleton] at hp h
    subst hp
    rw [nodeStyle_looks] at h ⊢
    exact writes_attrString fun p hp => ⟨nodeStyle_keys p hp, h p hp⟩

theorem flatMap_nodeStyle (w : World C) (n : NRef) :
    (nodeStylePart w n).flatMap (fun _ => plainAttrs (nodeLooks w n)) = plainAttrs (nodeLooks w n) := by
  unfold nodeStylePart nodeLooks
  cases (w.heap.node n).style <;> simp [plainAttrs]

theorem writes_edgeStyle {w : World C} {n : ERef} (h : ∀ p ∈ edgeLooks w n, Plain p.2.toList) :
    ∀ p ∈ (edgeStylePart w n).map (fun s => (s, plainAttrs (edgeLooks w n))), WritesAttrs p.1.toList p.2 := by
  intro p hp
  unfold edgeStylePart at hp
  unfold edgeLooks at h hp
  cases hs : (w.heap.edge n).style with
  | none => simp [hs] at hp
  | some s =>
    simp only [hs, List.map_cons, List.map_nil, List.mem_singleton] at hp h
    subst hp
    rw [edgeStyle_looks] at h ⊢
    exact writes_attrString fun p hp => ⟨edgeStyle_keys p hp, h p hp⟩

theorem flatMap_edgeStyle (w : World C) (n : ERef) :
    (edgeStylePart w n).flatMap (fun _ => plainAttrs (edgeLooks w n)) = plainAttrs (edgeLooks w n) := by
  unfold edgeStylePart edgeLooks
  cases (w.heap.edge n).style <;> simp [plainAttrs]

theorem nodeStr_writes {w : World C} {g : GRef} {d : Display C} {n : NRef} (hg : (w.heap.node n).graph = some g)
    (hd : w.display g = some d) (hname : Plain (w.heap.node n).id.toStr.toList)
    (hlabel : match d.nodeConverter with
      | none => Quotable (labelText w.heap n).toList
      | some f => Plain (f (nodeLabel w.heap n)).toList)
    (htip : PlainVal (w.heap.node n).tooltip) (hlook : ∀ p ∈ nodeLooks w n, Plain p.2.toList) :
    ∃ s, nodeGraphvizStr w n = .ok s ∧ WritesItem s.toList (nodeItem w d n) := by
  have hl : ∃ l, nodeDisplayLabel w n = .ok l ∧ Lexes (inQuotes l).toList [.text (.plain (shownLabel w d n))] := by
    unfold nodeDisplayLabel shownLabel
    simp only [displayOf, hg, hd]
    cases hc : d.nodeConverter with
    | none =>
      rw [hc] at hlabel
      exact ⟨nodeLabel w.heap n, by simp [bind, Except.bind, hc], lexes_escaped hlabel⟩
    | some f =>
      rw [hc] at hlabel
      exact ⟨f (nodeLabel w.heap n), by simp [bind, Except.bind, hc], lexes_plain hlabel⟩
  obtain ⟨l, hl1, hl2⟩ := hl
  refine ⟨_, by simp only [nodeGraphvizStr, hl1]; rfl, ?_⟩
  have hw : WritesAttrs ("label=" ++ inQuotes l).toList [("label", .plain (shownLabel w d n))] := by
    refine ⟨[.word "label", .eq, .text (.plain (shownLabel w d n))], ?_, .cons (by decide +kernel) rfl .nil⟩
    have e : ("label=" ++ inQuotes l).toList = "label".toList ++ '=' :: (inQuotes l).toList := by simp
    rw [e]
    exact (lexes_word dotWord_label).then (c := '=') (by decide) (lexes_cons (s := [.eq]) (c := '=') (by decide) hl2)
  have := WritesAttrs.join ([("label=" ++ inQuotes l, [("label", .plain (shownLabel w d n))])] ++
      (optPart "tooltip" (w.heap.node n).tooltip).map (fun s => (s, optAttr "tooltip" (w.heap.node n).tooltip)) ++
      (nodeStylePart w n).map (fun s => (s, plainAttrs (nodeLooks w n)))) (by
    intro p hp
    rcases List.mem_append.1 hp with hp | hp
    · rcases List.mem_append.1 hp with hp | hp
      · rw [List.mem_singleton] at hp
        subst hp
        exact hw
      · exact writes_optPart dotWord_tooltip htip p hp
    · exact writes_nodeStyle hlook p hp)
  simp only [List.map_append, List.map_map, List.flatMap_append, List.flatMap_map, Function.comp_def,
    flatMap_optPart, flatMap_nodeStyle, List.map_cons, List.map_nil, List.map_id_fun', id_eq, List.flatMap_cons,
    List.flatMap_nil, List.append_nil] at this
  obtain ⟨ts, h1, h2⟩ := this
  refine ⟨_, ?_, stmt_node rfl h2⟩
  have e : ∀ a b : String, (inQuotes a ++ " [" ++ b ++ "]").toList = (inQuotes a).toList ++ (' ' :: '[' :: (b.toList ++ [']'])) := by
    intro a b; simp
  rw [e]
  exact (lexes_plain hname).append (lexes_cons (s := []) (by decide) (lexes_cons (s := [.lbrack]) (by decide)
    (h1.append (lexes_one (by decide)))))

theorem lexes_arrow : Lexes " -> ".toList [.arrow] := by
  intro rest
  have h1 : lexStart ' ' = some ([], .idle) := by decide
  have h2 : lexStart '-' = some ([], .dash) := by decide
  have e : (" -> " : String).toList = [' ', '-', '>', ' '] := by decide +kernel
  rw [e]
  simp [lexFrom, lexStep, h1, h2, Function.comp_def]

theorem edgeStr_writes {w : World C} {g : GRef} {d : Display C} {e : ERef} {s t : NRef} (hg : (w.heap.edge e).graph = some g)
    (hd : w.display g = some d) (hs : (w.heap.edge e).start = some s) (ht : (w.heap.edge e).stop = some t)
    (hsn : Plain (w.heap.node s).id.toStr.toList) (htn : Plain (w.heap.node t).id.toStr.toList)
    (hlabel : PlainVal (shownEdgeLabel w d e)) (htip : PlainVal (w.heap.edge e).tooltip)
    (hlook : ∀ p ∈ edgeLooks w e, Plain p.2.toList) :
    ∃ str, edgeGraphvizStr w e = .ok str ∧ WritesItem str.toList (edgeItem w d e) := by
  have hl : edgeDisplayLabelOrValue w e = .ok (shownEdgeLabel w d e) := by
    unfold edgeDisplayLabelOrValue shownEdgeLabel
    simp only [displayOf, hg, hd]
    cases (w.heap.edge e).label <;> cases hc : d.edgeConverter <;> simp [bind, Except.bind, hc]
  refine ⟨_, by simp only [edgeGraphvizStr, hl, edgeStart, edgeEnd, hs, ht]; rfl, ?_⟩
  have := WritesAttrs.join ((optPart "label" (shownEdgeLabel w d e)).map (fun s => (s, optAttr "label" (shownEdgeLabel w d e))) ++
      (optPart "tooltip" (w.heap.edge e).tooltip).map (fun s => (s, optAttr "tooltip" (w.heap.edge e).tooltip)) ++
      (edgeStylePart w e).map (fun s => (s, plainAttrs (edgeLooks w e)))) (by
    intro p hp
    rcases List.mem_append.1 hp with hp | hp
    · rcases List.mem_append.1 hp with hp | hp
      · exact writes_optPart dotWord_label hlabel p hp
      · exact writes_optPart dotWord_tooltip htip p hp
    · exact writes_edgeStyle hlook p hp)
  simp only [List.map_append, List.map_map, List.flatMap_append, List.flatMap_map, Function.comp_def,
    flatMap_optPart, flatMap_edgeStyle, List.map_id_fun', id_eq] at this
  obtain ⟨ts, h1, h2⟩ := this
  have e1 : ∀ a b c : String, (inQuotes a ++ " -> " ++ inQuotes b ++ c).toList =
      (inQuotes a).toList ++ ((" -> ").toList ++ ((inQuotes b).toList ++ c.toList)) := by
    intro a b c; simp [inQuotes]
  rw [e1]
  simp only [edgeItem, hs, ht, endName]
  by_cases hp : (optPart "label" (shownEdgeLabel w d e) ++ optPart "tooltip" (w.heap.edge e).tooltip ++ edgeStylePart w e).length > 0
  · rw [if_pos hp]
    refine ⟨_, ?_, stmt_edge h2⟩
    have e2 : ∀ b : String, ("[" ++ b ++ "]").toList = '[' :: (b.toList ++ [']']) := by intro b; simp
    rw [e2]
    exact (lexes_plain hsn).append (lexes_arrow.append ((lexes_plain htn).append
      (lexes_cons (s := [.lbrack]) (by decide) (h1.append (lexes_one (by decide))))))
  · rw [if_neg hp]
    have h0 : optPart "label" (shownEdgeLabel w d e) ++ optPart "tooltip" (w.heap.edge e).tooltip ++ edgeStylePart w e = [] := by
      rw [← List.length_eq_zero_iff]; omega
    simp only [List.append_eq_nil_iff] at h0
    have e3 : optAttr "label" (shownEdgeLabel w d e) ++ optAttr "tooltip" (w.heap.edge e).tooltip ++ plainAttrs (edgeLooks w e) = [] := by
      rw [← flatMap_optPart "label", ← flatMap_optPart "tooltip", ← flatMap_edgeStyle, h0.1.1, h0.1.2, h0.2]
      rfl
    rw [e3]
    refine ⟨_, ?_, stmt_edge_bare⟩
    have : ("" : String).toList = [] := rfl
    rw [this, List.append_nil]
    exact (lexes_plain hsn).append (lexes_arrow.append (lexes_plain htn))

end Verif
