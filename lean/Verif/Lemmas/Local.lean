import Verif.Lemmas.Tame
/-!
# Styling stays within the graph
-/
namespace Verif
open Palette W
variable {C : Type}

/-- From `w` to `w'` nothing changes for the nodes outside `P` and the edges outside `Q`, neither what is in their styles if no
two nodes and no two edges share a style. -/
structure Sealed (P : NRef → Prop) (Q : ERef → Prop) (w w' : World C) : Prop where
  node : ∀ n, ¬ P n → w'.heap.node n = w.heap.node n ∧ (Apart w.heap → nodeLook w' n = nodeLook w n)
  edge : ∀ e, ¬ Q e → w'.heap.edge e = w.heap.edge e ∧ (Apart w.heap → edgeLook w' e = edgeLook w e)

/-- A world in which the graphs have the shape they have in `h`. -/
structure Within (h : Heap) (w : World C) : Prop where
  body : SameBody h w.heap
  fine : Fine w

theorem Within.quiet {h : Heap} {w v : World C} (O : Within h w) (q : Quiet w v) : Within h v := ⟨O.body.trans q.shape, q.fine⟩

/-- A call that, however it ends, changes nothing outside `P` and `Q`, nor the shape of the graphs. -/
structure Local {α : Type} (h : Heap) (P : NRef → Prop) (Q : ERef → Prop) (x : W C α) : Prop where
  quiet : Silent x
  run : ∀ w, Within h w → Sealed P Q w (x w).2

variable {h : Heap} {P : NRef → Prop} {Q : ERef → Prop} {α β : Type}

theorem Sealed.refl (w : World C) : Sealed P Q w w := ⟨fun _ _ => ⟨rfl, fun _ => rfl⟩, fun _ _ => ⟨rfl, fun _ => rfl⟩⟩

theorem Sealed.trans {w w' w'' : World C} (a : Sealed P Q w w') (q : Quiet w w') (b : Sealed P Q w' w'') : Sealed P Q w w'' :=
  ⟨fun n hn => ⟨(b.node n hn).1.trans (a.node n hn).1, fun ap => ((b.node n hn).2 (q.apart ap)).trans ((a.node n hn).2 ap)⟩,
   fun n hn => ⟨(b.edge n hn).1.trans (a.edge n hn).1, fun ap => ((b.edge n hn).2 (q.apart ap)).trans ((a.edge n hn).2 ap)⟩⟩

namespace Local

theorem pure (a : α) : Local h P Q (Pure.pure a : W C α) := ⟨.pure a, fun w _ => .refl w⟩
theorem raise (e : PyErr) : Local h P Q (W.raise e : W C α) := ⟨.raise e, fun w _ => .refl w⟩
theorem ask (q : World C → Except PyErr α) : Local h P Q (W.ask q) := ⟨.ask q, fun w _ => .refl w⟩
theorem look (q : World C → α) : Local h P Q (W.look q) := ⟨.look q, fun w _ => .refl w⟩
theorem display (g : GRef) : Local h P Q (W.display g : W C _) := ⟨.display g, fun w _ => by
  unfold W.display
  split <;> exact .refl w⟩

theorem bind {x : W C α} {f : α → W C β} (hx : Local h P Q x) (hf : ∀ a, Local h P Q (f a)) : Local h P Q (x >>= f) := by
  refine ⟨hx.quiet.bind fun a => (hf a).quiet, fun w O => ?_⟩
  have h1 := hx.run w O
  have h2 := hx.quiet w O.fine
  rw [bind_apply]
  cases hw : x w with
  | mk o w1 =>
    rw [hw] at h1 h2
    cases o with
    | error e => exact h1
    | ok a => exact h1.trans h2 ((hf a).run w1 (O.quiet h2))

/-- What is asked can be remembered. -/
theorem ask_known {q : World C → Except PyErr α} {f : α → W C β} (hf : ∀ a w, q w = .ok a → Local h P Q (f a)) :
    Local h P Q (W.ask q >>= f) := by
  refine ⟨Silent.ask_bind fun a w hq => (hf a w hq).quiet, fun w O => ?_⟩
  rw [bind_apply, ask_apply]
  cases hq : q w with
  | error e => exact .refl w
  | ok a => exact (hf a w hq).run w O

/-- What is asked can be remembered, if it does not depend on styles. -/
theorem ask_bind {q : World C → Except PyErr α} {f : α → W C β} (hs : ∀ a, Silent (f a))
    (hf : ∀ a w, SameBody h w.heap → q w = .ok a → Local h P Q (f a)) : Local h P Q (W.ask q >>= f) := by
  refine ⟨(Silent.ask q).bind hs, fun w O => ?_⟩
  rw [bind_apply, ask_apply]
  cases hq : q w with
  | error e => exact .refl w
  | ok a => exact (hf a w O.body hq).run w O

theorem look_bind {q : World C → α} {f : α → W C β} (hs : ∀ a, Silent (f a))
    (hf : ∀ w, SameBody h w.heap → Local h P Q (f (q w))) : Local h P Q (W.look q >>= f) := by
  refine ⟨(Silent.look q).bind hs, fun w O => ?_⟩
  rw [bind_apply, look_apply]
  exact (hf w O.body).run w O

theorem check (style : Heap → Option SRef) (graph : Heap → Option GRef) :
    Local h P Q (W.lift (fun h => checkOverwrite (style h) (graph h) h) : W C Unit) := by
  refine ⟨.check style graph, fun w O => ?_⟩
  have : (checkOverwrite (style w.heap) (graph w.heap) w.heap).2 = w.heap := by
    rcases checkOverwrite_cases w.heap (style w.heap) (graph w.heap) with h | ⟨e, h⟩
    · rw [checkOverwrite_free h]
    · rw [h]
  simp only [W.lift, this]
  exact .refl w

theorem assignNode {n : NRef} (hn : P n) {st : NodeStyle C} (hst : st.Complete) : Local h P Q (Verif.assignNode n st) := by
  refine ⟨.assignNode n hst, fun w O => ?_⟩
  rcases checkOverwrite_cases w.heap (w.heap.node n).style (w.heap.node n).graph with hf | ⟨e, he⟩
  · obtain ⟨w', h1, B⟩ := assignNode_run O.fine hf st
    have hs : (Verif.assignNode n st w).2.heap.node = upd w.heap.node n { w.heap.node n with style := some w.heap.nStyle } := by
      simp [Verif.assignNode, lift, nodeSetStyle, checkOverwrite_free hf, resolveStyle, M.newStyle, M.modNode, setNs]
    have hs' : (Verif.assignNode n st w).2.heap.edge = w.heap.edge := by
      simp [Verif.assignNode, lift, nodeSetStyle, checkOverwrite_free hf, resolveStyle, M.newStyle, M.modNode, setNs]
    rw [h1] at hs hs' ⊢
    refine ⟨fun m hm => ?_, fun m _ => ⟨by rw [hs'], fun _ => by rw [B.edges]⟩⟩
    have : m ≠ n := fun h => hm (h ▸ hn)
    exact ⟨by rw [hs, upd_ne _ _ this], fun _ => by rw [B.nodes, upd_ne _ _ this]⟩
  · rw [assignNode_blocked st he]; exact .refl w

theorem assignEdge {n : ERef} (hn : Q n) {st : EdgeStyle C} (hst : st.textAuto ≠ none) : Local h P Q (Verif.assignEdge n st) := by
  refine ⟨.assignEdge n hst, fun w O => ?_⟩
  rcases checkOverwrite_cases w.heap (w.heap.edge n).style (w.heap.edge n).graph with hf | ⟨e, he⟩
  · obtain ⟨w', h1, B⟩ := assignEdge_run O.fine hf st
    have hs : (Verif.assignEdge n st w).2.heap.edge = upd w.heap.edge n { w.heap.edge n with style := some w.heap.nStyle } := by
      simp [Verif.assignEdge, lift, edgeSetStyle, checkOverwrite_free hf, resolveStyle, M.newStyle, M.modEdge, setEs]
    have hs' : (Verif.assignEdge n st w).2.heap.node = w.heap.node := by
      simp [Verif.assignEdge, lift, edgeSetStyle, checkOverwrite_free hf, resolveStyle, M.newStyle, M.modEdge, setEs]
    rw [h1] at hs hs' ⊢
    refine ⟨fun m _ => ⟨by rw [hs'], fun _ => by rw [B.nodes]⟩, fun m hm => ?_⟩
    have : m ≠ n := fun h => hm (h ▸ hn)
    exact ⟨by rw [hs, upd_ne _ _ this], fun _ => by rw [B.edges, upd_ne _ _ this]⟩
  · rw [assignEdge_blocked st he]; exact .refl w

theorem forEach {f : α → W C Unit} {l : List α} (hf : ∀ a ∈ l, Local h P Q (f a)) : Local h P Q (Verif.forEach f l) := by
  induction l with
  | nil => exact .pure _
  | cons x xs ih => exact (hf x (by simp)).bind fun _ => ih fun a ha => hf a (by simp [ha])

section
variable [Palette C]

theorem complementNode (l : List (NodeItem C)) {n : NRef} (hn : P n) : Local h P Q (Verif.complementNode l n) := by
  refine ⟨.complementNode l n, fun w O => ?_⟩
  cases hs : (w.heap.node n).style with
  | none =>
    have e : (Verif.complementNode l n w).2 = w := by simp [Verif.complementNode, hs]
    rw [e]; exact .refl w
  | some s =>
    have e : (Verif.complementNode l n w).2 = { w with ns := upd w.ns s ((w.ns s).complement l) } := by
      simp [Verif.complementNode, hs, W.setNs]
    rw [e]
    refine ⟨fun m hm => ⟨rfl, fun ap => ?_⟩, fun _ _ => ⟨rfl, fun _ => rfl⟩⟩
    simp only [nodeLook]
    cases hm' : (w.heap.node m).style with
    | none => rfl
    | some t =>
      have : t ≠ s := fun h => hm (ap.node m n s (h ▸ hm') hs ▸ hn)
      simp [upd_ne _ _ this]

omit [Palette C] in
theorem complementEdge (l : List (EdgeItemStyle C)) {n : ERef} (hn : Q n) : Local h P Q (Verif.complementEdge l n) := by
  refine ⟨.complementEdge l n, fun w O => ?_⟩
  cases hs : (w.heap.edge n).style with
  | none =>
    have e : (Verif.complementEdge l n w).2 = w := by simp [Verif.complementEdge, hs]
    rw [e]; exact .refl w
  | some s =>
    have e : (Verif.complementEdge l n w).2 = { w with es := upd w.es s ((w.es s).complement l) } := by
      simp [Verif.complementEdge, hs, W.setEs]
    rw [e]
    refine ⟨fun _ _ => ⟨rfl, fun _ => rfl⟩, fun m hm => ⟨rfl, fun ap => ?_⟩⟩
    simp only [edgeLook]
    cases hm' : (w.heap.edge m).style with
    | none => rfl
    | some t =>
      have : t ≠ s := fun h => hm (ap.edge m n s (h ▸ hm') hs ▸ hn)
      simp [upd_ne _ _ this]

theorem edgePass (ratio : Rat) {es : List ERef} (hes : ∀ e ∈ es, Q e) (last : Option (EdgeStyle C)) : Local h P Q (Verif.edgePass ratio es last) := by
  induction es generalizing last with
  | nil => exact .pure _
  | cons e es ih =>
    have ih := ih fun e he => hes e (by simp [he])
    refine (look _).bind fun o => ?_
    cases o with
    | some _ => exact ih _
    | none => exact (ask _).bind fun _ => ask_known fun _ _ hq =>
        (assignEdge (hes e (by simp)) (whole_scaleArrow (whole_next _ _) hq)).bind fun _ => ih _

theorem branchPass (lim : Nat) {ns : List NRef} (hns : ∀ n ∈ ns, P n) : Local h P Q (Verif.branchPass lim ns : W C Unit) := by
  induction ns with
  | nil => exact .pure _
  | cons n ns ih =>
    have ih := ih fun n hn => hns n (by simp [hn])
    refine (ask _).bind fun b => ?_
    cases b with
    | true => exact ih
    | false =>
      refine (ask _).bind fun b => ?_
      cases b with
      | true => exact ih
      | false =>
        refine (look _).bind fun o => ?_
        cases o with
        | some _ => exact ih
        | none =>
          refine ⟨Silent.ask_bind fun _ _ hh => (Silent.assignNode _ (full_inherit hh)).bind fun _ => ih.quiet, fun w O => ?_⟩
          change Sealed P Q w ((W.ask _ >>= fun st => Verif.assignNode n st >>= fun _ => Verif.branchPass lim ns : W C Unit) w).2
          rw [bind_apply, ask_apply]
          cases hq : inheritStyle lim w paleRatio lim n divergenceRatio with
          | error e => exact .refl w
          | ok st => exact ((assignNode (hns n (by simp)) (full_inherit hq)).bind fun _ => ih).run w O

theorem assignNodes (l : List (NodeItem C)) {ns : List NRef} (hns : ∀ n ∈ ns, P n) : Local h P Q (Verif.assignNodes l ns) := by
  induction ns with
  | nil => exact .pure _
  | cons n ns ih =>
    have ih := ih fun n hn => hns n (by simp [hn])
    refine (check (fun h => (h.node n).style) (fun h => (h.node n).graph)).bind fun _ => ?_
    refine ⟨Silent.ask_bind fun _ _ hh => (Silent.assignNode _ (full_ofItems hh)).bind fun _ => ih.quiet, fun w O => ?_⟩
    rw [bind_apply, ask_apply]
    cases hq : NodeStyle.ofItems l with
    | error e => exact .refl w
    | ok st => exact ((assignNode (hns n (by simp)) (full_ofItems hq)).bind fun _ => ih).run w O

theorem assignEdges (l : List (EdgeItemStyle C)) {es : List ERef} (hes : ∀ e ∈ es, Q e) : Local h P Q (Verif.assignEdges l es) := by
  induction es with
  | nil => exact .pure _
  | cons n ns ih =>
    have ih := ih fun n hn => hes n (by simp [hn])
    exact (check (fun h => (h.edge n).style) (fun h => (h.edge n).graph)).bind fun _ => ask_known fun _ _ hq =>
      (assignEdge (hes n (by simp)) (whole_ofItems hq)).bind fun _ => ih

/-- `n` is a node of `g`. -/
abbrev InNodes (h : Heap) (g : GRef) (n : NRef) : Prop := n ∈ graphNodes h g

/-- `e` is an edge of `g`. -/
abbrev InEdges (h : Heap) (g : GRef) (e : ERef) : Prop := ∃ es, graphEdges h g = .ok es ∧ e ∈ es

variable {g : GRef}

omit [Palette C] in
theorem in_nodes {w : World C} (S : SameBody h w.heap) : ∀ n ∈ graphNodes w.heap g, InNodes h g n := by
  intro n hn
  rw [← S.graphNodes] at hn
  exact hn

omit [Palette C] in
theorem in_edges {w : World C} (S : SameBody h w.heap) {es : List ERef} (hq : graphEdges w.heap g = .ok es) : ∀ e ∈ es, InEdges h g e := by
  intro e he
  rw [← S.graphEdges] at hq
  exact ⟨es, hq, he⟩

omit [Palette C] in
theorem in_key {w : World C} (S : SameBody h w.heap) {k : Key} {n : NRef} (hq : getNode w.heap g (.key k) = .ok n) : InNodes h g n := by
  refine in_nodes S n ?_
  simp only [getNode] at hq
  cases hd : dget (w.heap.graph g).nodes k with
  | none => rw [hd] at hq; cases hq
  | some m =>
    rw [hd] at hq
    cases hq
    exact List.mem_map.2 ⟨(k, n), mem_of_dget hd, rfl⟩

theorem globalNodeAssign (o : Option (List (NodeItem C))) : Local h (InNodes h g) Q (Verif.globalNodeAssign g o) := by
  cases o with
  | none => exact .pure _
  | some l => exact (ask _).bind fun _ => look_bind (fun _ => .assignNodes _ _) fun w S => assignNodes _ (in_nodes S)

theorem globalEdgeAssign (o : Option (List (EdgeItemStyle C))) : Local h P (InEdges h g) (Verif.globalEdgeAssign g o) := by
  cases o with
  | none => exact .pure _
  | some l => exact ask_bind (fun _ => .assignEdges _ _) fun _ w S hq => assignEdges _ (in_edges S hq)

theorem nodeStyleOverwrite (p : Key × List (NodeItem C)) : Local h (InNodes h g) Q (Verif.nodeStyleOverwrite g p) :=
  ask_bind (fun _ => .complementNode _ _) fun _ _ S hq => complementNode _ (in_key S hq)

theorem edgeStyleOverwrite (r : ∀ i e, edgeById h g i = .ok e → InEdges h g e) (p : EdgeId × List (EdgeItemStyle C)) :
    Local h P (InEdges h g) (Verif.edgeStyleOverwrite g p) :=
  ask_bind (fun _ => .assignEdges _ _) fun e w S hq => assignEdges _ (by
    intro e' he'
    obtain rfl := List.mem_singleton.1 he'
    exact r p.1 e' (by rw [← edgeById_same S]; exact hq))

theorem nodeColourOverwrite (p : Key × C) : Local h (InNodes h g) Q (Verif.nodeColourOverwrite g p) := by
  refine ⟨.nodeColourOverwrite g p, fun w O => ?_⟩
  simp only [Verif.nodeColourOverwrite, W.bind_apply, ask_apply, look_apply]
  cases hn : getNode w.heap g (.key p.1) with
  | error e => exact .refl w
  | ok n =>
    simp only
    cases (w.heap.node n).style with
    | none => exact .refl w
    | some s => exact (assignNode (in_key O.body hn) (full_recolour _ _)).run w O

theorem edgeColourOverwrite (r : ∀ i e, edgeById h g i = .ok e → InEdges h g e) (p : EdgeId × C) :
    Local h P (InEdges h g) (Verif.edgeColourOverwrite g p) := by
  refine ⟨.edgeColourOverwrite g p, fun w O => ?_⟩
  simp only [Verif.edgeColourOverwrite, W.bind_apply, ask_apply, look_apply]
  cases hn : edgeById w.heap g p.1 with
  | error e => exact .refl w
  | ok n =>
    simp only
    cases (w.heap.edge n).style with
    | none => exact .refl w
    | some s =>
      exact (ask_known (q := fun w => (w.es s).copy) fun _ _ hq =>
        assignEdge (r p.1 n (by rw [← edgeById_same O.body]; exact hn)) (by rw [copy_ok hq]; exact whole_redye _ _)).run w O

theorem globalNodeComplement (o : Option (List (NodeItem C))) : Local h (InNodes h g) Q (Verif.globalNodeComplement g o) := by
  cases o with
  | none => exact .pure _
  | some l =>
    exact (ask _).bind fun _ => look_bind (fun _ => .forEach (fun n => .complementNode _ n) _) fun w S =>
      forEach fun n hn => complementNode _ (in_nodes S n hn)

omit [Palette C] in
theorem globalEdgeComplement (o : Option (List (EdgeItemStyle C))) : Local h P (InEdges h g) (Verif.globalEdgeComplement g o) := by
  cases o with
  | none => exact .pure _
  | some l =>
    exact ask_bind (fun _ => .forEach (fun n => .complementEdge _ n) _) fun _ w S hq =>
      forEach fun n hn => complementEdge _ (in_edges S hq n hn)

variable [DecidableEq C]

theorem rootPass (lim : Nat) {ns : List NRef} (hns : ∀ n ∈ ns, P n) (used : Dict C Nat) : Local h P Q (Verif.rootPass lim ns used) := by
  induction ns generalizing used with
  | nil => exact .pure _
  | cons n ns ih =>
    have ih := ih fun n hn => hns n (by simp [hn])
    refine (look _).bind fun o => ?_
    cases o with
    | some _ => exact ih _
    | none =>
      refine (ask _).bind fun b => ?_
      cases b with
      | true => exact (ask _).bind fun _ => (assignNode (hns n (by simp)) (full_make _)).bind fun _ => ih _
      | false => exact ih _

theorem randomPass {ns : List NRef} (hns : ∀ n ∈ ns, P n) (used : Dict C Nat) : Local h P Q (Verif.randomPass ns used) := by
  induction ns generalizing used with
  | nil => exact .pure _
  | cons n ns ih =>
    have ih := ih fun n hn => hns n (by simp [hn])
    exact (ask _).bind fun _ => (assignNode (hns n (by simp)) (full_make _)).bind fun _ => ih _

theorem runStylist (lim : Nat) {shuffle : List NRef → List NRef} (hsh : ∀ l, (shuffle l).Perm l) (s : Stylist) :
    Local h (InNodes h g) (InEdges h g) (Verif.runStylist lim shuffle g s : W C Unit) := by
  cases s with
  | pensieve =>
    refine (display g).bind fun _ => look_bind (fun _ => (Silent.rootPass _ _ _).bind fun _ => (Silent.branchPass _ _).bind fun _ =>
      (Silent.ask _).bind fun _ => Silent.edgePass _ _ _) fun w S => ?_
    exact (rootPass lim (in_nodes S) _).bind fun _ => (branchPass lim (in_nodes S)).bind fun _ =>
      ask_bind (fun _ => .edgePass _ _ _) fun _ w S hq => edgePass _ (in_edges S hq) _
  | random =>
    refine (display g).bind fun _ => look_bind (fun _ => (Silent.randomPass _ _).bind fun _ =>
      (Silent.ask _).bind fun _ => Silent.edgePass _ _ _) fun w S => ?_
    exact (randomPass (fun n hn => in_nodes S n ((hsh _).mem_iff.1 hn)) _).bind fun _ =>
      ask_bind (fun _ => .edgePass _ _ _) fun _ w S hq => edgePass _ (in_edges S hq) _
  | other => exact .pure _

theorem stylize (r : ∀ i e, edgeById h g i = .ok e → InEdges h g e) (lim : Nat) {shuffle : List NRef → List NRef} (hsh : ∀ l, (shuffle l).Perm l) :
    Local h (InNodes h g) (InEdges h g) (Verif.stylize lim shuffle g : W C Unit) :=
  (display g).bind fun _ => (globalNodeAssign _).bind fun _ => (globalEdgeAssign _).bind fun _ => (runStylist _ hsh _).bind fun _ =>
    (forEach fun _ _ => nodeStyleOverwrite _).bind fun _ => (forEach fun _ _ => edgeStyleOverwrite r _).bind fun _ =>
    (forEach fun _ _ => nodeColourOverwrite _).bind fun _ => (forEach fun _ _ => edgeColourOverwrite r _).bind fun _ =>
    (globalNodeComplement _).bind fun _ => globalEdgeComplement _

end
end Local
end Verif
