import Verif.Lemmas.Passes
/-!
# Whatever happens, the stylists touch nothing but styles
-/
namespace Verif
open Palette W
variable {C : Type}

/-- No two nodes share a style object, and no two edges. -/
structure Apart (h : Heap) : Prop where
  node : ∀ n m s, (h.node n).style = some s → (h.node m).style = some s → n = m
  edge : ∀ n m s, (h.edge n).style = some s → (h.edge m).style = some s → n = m

/-- A style with all its colours set; every style made by `NodeStyle(...)` is. -/
structure NodeStyle.Complete (s : NodeStyle C) : Prop where
  fill : s.fill ≠ none
  border : s.border ≠ none
  text : s.text ≠ none

/-- All nodes with a style have one with all its colours set. -/
def AllFull (w : World C) : Prop := ∀ n s, nodeLook w n = some s → s.Complete

/-- The edge has a style with all its attributes. -/
def Whole (w : World C) (e : ERef) : Prop := ∃ st, edgeLook w e = some st ∧ st.textAuto ≠ none

/-- From `w` to `w'` only styles change, and no style is taken away. -/
structure Quiet (w w' : World C) : Prop where
  shape : SameBody w.heap w'.heap
  display : w'.display = w.display
  fine : Fine w'
  reach : Reachable w.heap → Reachable w'.heap
  apart : Apart w.heap → Apart w'.heap
  full : AllFull w → AllFull w'
  nodes : ∀ n, nodeLook w n ≠ none → nodeLook w' n ≠ none
  edges : ∀ e, edgeLook w e ≠ none → edgeLook w' e ≠ none
  whole : ∀ e, Whole w e → Whole w' e
  more : w.heap.nStyle ≤ w'.heap.nStyle
  all : (∀ s, (w.ns s).Complete) → ∀ s, (w'.ns s).Complete
  keptN : ∀ n, ¬ Free w.heap (w.heap.node n).style (w.heap.node n).graph → (w'.heap.node n).style = (w.heap.node n).style
  keptE : ∀ e, ¬ Free w.heap (w.heap.edge e).style (w.heap.edge e).graph → (w'.heap.edge e).style = (w.heap.edge e).style

/-- Whether styles may be assigned is the same before and after. -/
theorem SameBody.free {h h' : Heap} (S : SameBody h h') :
    (∀ n st, Free h' st (h'.node n).graph → Free h st (h.node n).graph) ∧ ∀ e st, Free h' st (h'.edge e).graph → Free h st (h.edge e).graph := by
  have hg : ∀ g, (strip h).graph g = (strip h').graph g := fun g => congrFun (congrArg Heap.graph S) g
  have hg : ∀ g, h.graph g = h'.graph g := hg
  have key : ∀ st gr, Free h' st gr → Free h st gr := by
    rintro st gr (c | ⟨g, c1, c2⟩)
    · exact .inl c
    · exact .inr ⟨g, c1, by rw [hg]; exact c2⟩
  refine ⟨fun n st c => ?_, fun e st c => ?_⟩
  · have a : (h.node n).graph = (h'.node n).graph := by
      have := congrArg NodeObj.graph (congrFun (congrArg Heap.node S) n)
      exact this
    rw [a]; exact key _ _ c
  · have a : (h.edge e).graph = (h'.edge e).graph := by
      have := congrArg EdgeObj.graph (congrFun (congrArg Heap.edge S) e)
      exact this
    rw [a]; exact key _ _ c

theorem Quiet.refl {w : World C} (F : Fine w) : Quiet w w :=
  ⟨rfl, rfl, F, id, id, id, fun _ => id, fun _ => id, fun _ => id, Nat.le_refl _, id, fun _ _ => rfl, fun _ _ => rfl⟩

theorem Quiet.trans {w w' w'' : World C} (a : Quiet w w') (b : Quiet w' w'') : Quiet w w'' :=
  ⟨a.shape.trans b.shape, by rw [b.display, a.display], b.fine, fun r => b.reach (a.reach r), fun r => b.apart (a.apart r),
    fun r => b.full (a.full r), fun n h => b.nodes n (a.nodes n h), fun n h => b.edges n (a.edges n h),
    fun n h => b.whole n (a.whole n h),
    Nat.le_trans a.more b.more, fun r => b.all (a.all r),
    fun n h => (b.keptN n fun c => h (a.shape.free.1 n _ (a.keptN n h ▸ c))).trans (a.keptN n h),
    fun n h => (b.keptE n fun c => h (a.shape.free.2 n _ (a.keptE n h ▸ c))).trans (a.keptE n h)⟩

/-- A call after which, however it ends, only styles have changed. -/
def Silent {α : Type} (x : W C α) : Prop := ∀ w, Fine w → Quiet w (x w).2

/-- An assignment goes through, or changes nothing. -/
theorem checkOverwrite_cases (h : Heap) (st : Option SRef) (gr : Option GRef) :
    Free h st gr ∨ ∃ e, checkOverwrite st gr h = (.error e, h) := by
  cases st with
  | none => exact .inl (.inl rfl)
  | some s =>
    cases gr with
    | none => exact .inr ⟨_, rfl⟩
    | some g =>
      cases ho : (h.graph g).overwrite with
      | none => exact .inr ⟨.attributeError, by simp [checkOverwrite, ho]⟩
      | some b =>
        cases b with
        | true => exact .inl (.inr ⟨g, rfl, ho⟩)
        | false => exact .inr ⟨.runtimeError, by simp [checkOverwrite, ho]⟩

namespace Silent
variable {α β : Type}

theorem pure (a : α) : Silent (Pure.pure a : W C α) := fun _ F => .refl F
theorem raise (e : PyErr) : Silent (W.raise e : W C α) := fun _ F => .refl F
theorem ask (q : World C → Except PyErr α) : Silent (W.ask q) := fun _ F => .refl F
theorem look (q : World C → α) : Silent (W.look q) := fun _ F => .refl F
theorem display (g : GRef) : Silent (W.display g : W C _) := by
  intro w F
  unfold W.display
  split <;> exact .refl F

theorem bind {x : W C α} {f : α → W C β} (hx : Silent x) (hf : ∀ a, Silent (f a)) : Silent (x >>= f) := by
  intro w F
  have h := hx w F
  rw [bind_apply]
  cases hw : x w with
  | mk o w1 =>
    rw [hw] at h
    cases o with
    | error e => exact h
    | ok a => exact h.trans (hf a w1 h.fine)

/-- What is asked can be remembered. -/
theorem ask_bind {q : World C → Except PyErr α} {f : α → W C β} (hf : ∀ a w, q w = .ok a → Silent (f a)) : Silent (W.ask q >>= f) := by
  intro w F
  rw [bind_apply, ask_apply]
  cases hq : q w with
  | error e => exact .refl F
  | ok a => exact hf a w hq w F

theorem check (style : Heap → Option SRef) (graph : Heap → Option GRef) :
    Silent (W.lift (fun h => checkOverwrite (style h) (graph h) h) : W C Unit) := by
  intro w F
  have : (checkOverwrite (style w.heap) (graph w.heap) w.heap).2 = w.heap := by
    rcases checkOverwrite_cases w.heap (style w.heap) (graph w.heap) with h | ⟨e, h⟩
    · rw [checkOverwrite_free h]
    · rw [h]
  simp only [W.lift, this]
  exact .refl F

theorem checkNode (n : NRef) : Silent (W.lift (do let o ← M.look (fun h => h.node n); checkOverwrite o.style o.graph) : W C Unit) :=
  check (fun h => (h.node n).style) (fun h => (h.node n).graph)

theorem checkEdge (n : ERef) : Silent (W.lift (do let o ← M.look (fun h => h.edge n); checkOverwrite o.style o.graph) : W C Unit) :=
  check (fun h => (h.edge n).style) (fun h => (h.edge n).graph)

end Silent

theorem assignNode_blocked {w : World C} {n : NRef} {e : PyErr} (st : NodeStyle C)
    (h : checkOverwrite (w.heap.node n).style (w.heap.node n).graph w.heap = (.error e, w.heap)) :
    assignNode n st w = (.error e, w) := by
  simp [assignNode, lift, nodeSetStyle, h]

theorem assignEdge_blocked {w : World C} {n : ERef} {e : PyErr} (st : EdgeStyle C)
    (h : checkOverwrite (w.heap.edge n).style (w.heap.edge n).graph w.heap = (.error e, w.heap)) :
    assignEdge n st w = (.error e, w) := by
  simp [assignEdge, lift, edgeSetStyle, h]

theorem Quiet.setNs {w : World C} (F : Fine w) {s : SRef} {st : NodeStyle C} (hst : AllFull w → st.Complete) :
    Quiet w (W.setNs s st w).2 := by
  refine ⟨rfl, rfl, F, id, id, ?_, fun n h => ?_, fun n h => h, fun n h => h, Nat.le_refl _, fun A t => ?_, fun _ _ => rfl, fun _ _ => rfl⟩
  · intro A n x hx
    simp only [nodeLook, W.setNs, Option.map_eq_some_iff] at hx
    obtain ⟨t, h1, h2⟩ := hx
    by_cases h : t = s
    · subst h; simp at h2; rw [← h2]; exact hst A
    · rw [upd_ne _ _ h] at h2
      exact A n x (by simp [nodeLook, h1, h2])
  · rw [ne_eq, nodeLook_none] at h ⊢
    exact h
  · by_cases h : t = s
    · subst h
      simp only [W.setNs, upd_same]
      refine hst fun n x hx => ?_
      simp only [nodeLook, Option.map_eq_some_iff] at hx
      obtain ⟨t, -, rfl⟩ := hx
      exact A t
    · simp only [W.setNs, upd_ne _ _ h]
      exact A t

theorem Quiet.setEs {w : World C} (F : Fine w) {s : SRef} {st : EdgeStyle C} (hst : (w.es s).textAuto ≠ none → st.textAuto ≠ none) :
    Quiet w (W.setEs s st w).2 := by
  refine ⟨rfl, rfl, F, id, id, id, fun n h => h, fun n h => ?_, fun n h => ?_, Nat.le_refl _, id, fun _ _ => rfl, fun _ _ => rfl⟩
  · rw [ne_eq, edgeLook_none] at h ⊢
    exact h
  · obtain ⟨x, hx, ht⟩ := h
    simp only [edgeLook, Option.map_eq_some_iff] at hx
    obtain ⟨t, h1, rfl⟩ := hx
    by_cases h : t = s
    · subst h; exact ⟨st, by simp [edgeLook, W.setEs, h1], hst ht⟩
    · exact ⟨w.es t, by simp [edgeLook, W.setEs, h1, upd_ne _ _ h], ht⟩

theorem whole_set {s : EdgeStyle C} (h : s.textAuto ≠ none) (i : EdgeItemStyle C) : (s.set i).textAuto ≠ none := by
  cases i with
  | text c => cases c <;> simp [EdgeStyle.set, EdgeStyle.setText]
  | colour c => simp only [EdgeStyle.set, EdgeStyle.setColour]; split <;> simp_all
  | _ => simpa [EdgeStyle.set] using h

theorem whole_complement {s : EdgeStyle C} (h : s.textAuto ≠ none) (l : List (EdgeItemStyle C)) : (s.complement l).textAuto ≠ none := by
  unfold EdgeStyle.complement
  induction l generalizing s with
  | nil => exact h
  | cons i l ih => exact ih (whole_set h i)

theorem whole_setColour {s : EdgeStyle C} (h : s.textAuto ≠ none) (c : C) : (s.setColour c).textAuto ≠ none := by
  simp only [EdgeStyle.setColour]; split <;> simp_all

theorem whole_scaleArrow {s s' : EdgeStyle C} {v : Val} (h : s.textAuto ≠ none) (hv : s.scaleArrow v = .ok s') : s'.textAuto ≠ none := by
  cases v <;> cases hv <;> exact h

section
variable [Palette C]

theorem whole_make (a : EdgeStyleArgs C) : (EdgeStyle.make a).textAuto ≠ none := by
  simp only [EdgeStyle.make]
  cases a.text <;> simp [EdgeStyle.setText, EdgeStyle.setColour]

theorem copy_ok {s s' : EdgeStyle C} (h : s.copy = .ok s') : s' = s.copied := by
  unfold EdgeStyle.copy at h
  split at h
  · cases h
  · cases h; rfl

theorem copy_whole {s : EdgeStyle C} (h : s.textAuto ≠ none) : s.copy = .ok s.copied := by
  unfold EdgeStyle.copy
  split
  · contradiction
  · rfl

theorem whole_redye (s : EdgeStyle C) (c : C) : (s.copied.resetColours.setColour c).textAuto ≠ none := by
  simp [EdgeStyle.resetColours, EdgeStyle.setColour]

theorem whole_next (last : Option (EdgeStyle C)) (c : C) : (nextEdgeStyle last c).textAuto ≠ none := by
  unfold nextEdgeStyle
  split
  · exact whole_make _
  · exact whole_redye _ _

theorem whole_ofItems {l : List (EdgeItemStyle C)} {s : EdgeStyle C} (h : EdgeStyle.ofItems l = .ok s) : s.textAuto ≠ none := by
  simp only [EdgeStyle.ofItems, bind, Except.bind] at h
  split at h
  · cases h
  · cases h; exact whole_make _

theorem full_make (a : NodeStyleArgs C) : (NodeStyle.make a).Complete := by
  constructor <;> simp [NodeStyle.make, NodeStyle.setColour, NodeStyle.setFill, NodeStyle.setBorder, NodeStyle.setText] <;> grind

theorem full_recolour (s : NodeStyle C) (c : C) : (s.recolour c).Complete := by
  rw [recolour_tinted]; constructor <;> simp [tinted]

theorem full_copy (s : NodeStyle C) : s.copy.Complete := by
  have := full_make ⟨some s.colour, s.fill, s.border, s.opacity, s.font, s.text, s.textSize, s.shape, s.shapeStyle, true⟩
  exact ⟨this.1, this.2, this.3⟩

theorem full_ofItems {l : List (NodeItem C)} {s : NodeStyle C} (h : NodeStyle.ofItems l = .ok s) : s.Complete := by
  simp only [NodeStyle.ofItems, bind, Except.bind] at h
  split at h
  · cases h
  · cases h; exact full_make _

theorem full_set {s : NodeStyle C} (h : s.Complete) (i : NodeItem C) : (s.set i).Complete := by
  obtain ⟨h1, h2, h3⟩ := h
  rcases s with ⟨c0, fill, border, text, fa, ba, ta, li, op, fo, ts, sh, ss⟩
  simp only at h1 h2 h3
  obtain ⟨f, rfl⟩ := Option.ne_none_iff_exists'.1 h1
  obtain ⟨b, rfl⟩ := Option.ne_none_iff_exists'.1 h2
  obtain ⟨t, rfl⟩ := Option.ne_none_iff_exists'.1 h3
  cases i with
  | fill c | border c | text c => cases c <;> constructor <;> simp [NodeStyle.set, NodeStyle.setFill, NodeStyle.setBorder, NodeStyle.setText]
  | _ => constructor <;> simp [NodeStyle.set, NodeStyle.setColour]

theorem full_complement {s : NodeStyle C} (h : s.Complete) (l : List (NodeItem C)) : (s.complement l).Complete := by
  unfold NodeStyle.complement
  induction l generalizing s with
  | nil => exact h
  | cons i l ih => exact ih (full_set h i)

theorem full_inherit {lim : Nat} {w : World C} {pale : Rat} {fuel : Nat} {n : NRef} {d : Rat} {s : NodeStyle C}
    (h : inheritStyle lim w pale fuel n d = .ok s) : s.Complete := by
  cases fuel with
  | zero => cases h
  | succ fuel =>
    simp only [inheritStyle, bind, Except.bind] at h
    repeat' split at h
    all_goals first
      | (cases h; done)
      | skip
    · unfold ownStyle at h
      split at h
      · cases h
      · cases h; exact full_copy _
    · cases h; exact full_recolour _ _
    · unfold mixStyles at h
      split at h
      · cases h
      · cases h; exact full_recolour _ _

end

namespace Silent

theorem assignNode (n : NRef) {st : NodeStyle C} (hst : st.Complete) : Silent (Verif.assignNode n st) := by
  intro w F
  rcases checkOverwrite_cases w.heap (w.heap.node n).style (w.heap.node n).graph with hn | ⟨e, he⟩
  · obtain ⟨w', h1, B⟩ := assignNode_run F hn st
    have hs : (Verif.assignNode n st w).2.heap.node = upd w.heap.node n { w.heap.node n with style := some w.heap.nStyle } := by
      simp [Verif.assignNode, lift, nodeSetStyle, checkOverwrite_free hn, resolveStyle, M.newStyle, M.modNode, setNs]
    have hs' : (Verif.assignNode n st w).2.heap.edge = w.heap.edge := by
      simp [Verif.assignNode, lift, nodeSetStyle, checkOverwrite_free hn, resolveStyle, M.newStyle, M.modNode, setNs]
    have hk : (Verif.assignNode n st w).2.heap.nStyle = w.heap.nStyle + 1 := by
      simp [Verif.assignNode, lift, nodeSetStyle, checkOverwrite_free hn, resolveStyle, M.newStyle, M.modNode, setNs]
    have hc : (Verif.assignNode n st w).2.ns = upd w.ns w.heap.nStyle st := by
      simp [Verif.assignNode, lift, nodeSetStyle, checkOverwrite_free hn, resolveStyle, M.newStyle, M.modNode, setNs]
    rw [h1] at hs hs' hk hc ⊢
    simp only at hs hs' hk hc
    refine ⟨B.shape, B.display, B.fine, B.reach, fun A => ⟨?_, ?_⟩, ?_, ?_, ?_, ?_, by rw [hk]; exact Nat.le_succ _, fun A t => ?_,
      fun m hm => by
        have hne : m ≠ n := fun c => hm (by rw [c]; exact hn)
        rw [hs, upd_ne _ _ hne],
      fun m _ => by rw [hs']⟩
    · intro a b s ha hb
      simp only [hs] at ha hb
      by_cases h1 : a = n <;> by_cases h2 : b = n
      · rw [h1, h2]
      · subst h1
        rw [upd_ne _ _ h2] at hb
        simp at ha
        subst ha
        exact absurd (F.node _ _ hb) (Nat.lt_irrefl _)
      · subst h2
        rw [upd_ne _ _ h1] at ha
        simp at hb
        subst hb
        exact absurd (F.node _ _ ha) (Nat.lt_irrefl _)
      · rw [upd_ne _ _ h1] at ha
        rw [upd_ne _ _ h2] at hb
        exact A.node _ _ _ ha hb
    · rw [hs']; exact A.edge
    · intro A m s hm
      rw [B.nodes] at hm
      by_cases h : m = n
      · subst h; simp at hm; rw [← hm]; exact hst
      · rw [upd_ne _ _ h] at hm; exact A m s hm
    · intro m hm
      rw [B.nodes]
      by_cases h : m = n
      · subst h; simp
      · rw [upd_ne _ _ h]; exact hm
    · intro m hm
      rw [B.edges]; exact hm
    · intro m hm
      unfold Whole at hm ⊢
      rw [B.edges]; exact hm
    · rw [hc]
      by_cases h : t = w.heap.nStyle
      · subst h; rw [upd_same]; exact hst
      · rw [upd_ne _ _ h]; exact A t
  · rw [assignNode_blocked st he]; exact .refl F

theorem assignEdge (n : ERef) {st : EdgeStyle C} (hst : st.textAuto ≠ none) : Silent (Verif.assignEdge n st) := by
  intro w F
  rcases checkOverwrite_cases w.heap (w.heap.edge n).style (w.heap.edge n).graph with hn | ⟨e, he⟩
  · obtain ⟨w', h1, B⟩ := assignEdge_run F hn st
    have hs : (Verif.assignEdge n st w).2.heap.edge = upd w.heap.edge n { w.heap.edge n with style := some w.heap.nStyle } := by
      simp [Verif.assignEdge, lift, edgeSetStyle, checkOverwrite_free hn, resolveStyle, M.newStyle, M.modEdge, setEs]
    have hs' : (Verif.assignEdge n st w).2.heap.node = w.heap.node := by
      simp [Verif.assignEdge, lift, edgeSetStyle, checkOverwrite_free hn, resolveStyle, M.newStyle, M.modEdge, setEs]
    have hk : (Verif.assignEdge n st w).2.heap.nStyle = w.heap.nStyle + 1 := by
      simp [Verif.assignEdge, lift, edgeSetStyle, checkOverwrite_free hn, resolveStyle, M.newStyle, M.modEdge, setEs]
    have hc : (Verif.assignEdge n st w).2.ns = w.ns := by
      simp [Verif.assignEdge, lift, edgeSetStyle, checkOverwrite_free hn, resolveStyle, M.newStyle, M.modEdge, setEs]
    rw [h1] at hs hs' hk hc ⊢
    simp only at hs hs' hk hc
    refine ⟨B.shape, B.display, B.fine, B.reach, fun A => ⟨?_, ?_⟩, ?_, ?_, ?_, ?_, by rw [hk]; exact Nat.le_succ _, by rw [hc]; exact id,
      fun m _ => by rw [hs'], fun m hm => by
        have hne : m ≠ n := fun c => hm (by rw [c]; exact hn)
        rw [hs, upd_ne _ _ hne]⟩
    · rw [hs']; exact A.node
    · intro a b s ha hb
      simp only [hs] at ha hb
      by_cases h1 : a = n <;> by_cases h2 : b = n
      · rw [h1, h2]
      · subst h1
        rw [upd_ne _ _ h2] at hb
        simp at ha
        subst ha
        exact absurd (F.edge _ _ hb) (Nat.lt_irrefl _)
      · subst h2
        rw [upd_ne _ _ h1] at ha
        simp at hb
        subst hb
        exact absurd (F.edge _ _ ha) (Nat.lt_irrefl _)
      · rw [upd_ne _ _ h1] at ha
        rw [upd_ne _ _ h2] at hb
        exact A.edge _ _ _ ha hb
    · intro A m s hm
      rw [B.nodes] at hm; exact A m s hm
    · intro m hm
      rw [B.nodes]; exact hm
    · intro m hm
      rw [B.edges]
      by_cases h : m = n
      · subst h; simp
      · rw [upd_ne _ _ h]; exact hm
    · intro m hm
      unfold Whole at hm ⊢
      rw [B.edges]
      by_cases h : m = n
      · subst h; simp [hst]
      · rw [upd_ne _ _ h]; exact hm
  · rw [assignEdge_blocked st he]; exact .refl F

theorem forEach {α : Type} {f : α → W C Unit} (hf : ∀ a, Silent (f a)) (l : List α) : Silent (Verif.forEach f l) := by
  induction l with
  | nil => exact .pure _
  | cons x xs ih => exact (hf x).bind fun _ => ih

section
variable [Palette C]

theorem edgePass (ratio : Rat) (es : List ERef) (last : Option (EdgeStyle C)) : Silent (Verif.edgePass ratio es last) := by
  induction es generalizing last with
  | nil => exact .pure _
  | cons e es ih =>
    refine (look _).bind fun o => ?_
    cases o with
    | some _ => exact ih _
    | none => exact (ask _).bind fun _ => ask_bind fun _ _ h => (assignEdge _ (whole_scaleArrow (whole_next _ _) h)).bind fun _ => ih _

theorem branchPass (lim : Nat) (ns : List NRef) : Silent (Verif.branchPass lim ns : W C Unit) := by
  induction ns with
  | nil => exact .pure _
  | cons e es ih =>
    refine (ask _).bind fun b => ?_
    cases b with
    | true => exact ih
    | false =>
      refine (ask _).bind fun b => ?_
      cases b with
      | true => exact ih
      | false =>
        refine (look _).bind fun o => ?_
        cases o with
        | some _ => exact ih
        | none => exact ask_bind fun _ _ h => (assignNode _ (full_inherit h)).bind fun _ => ih

theorem assignNodes (l : List (NodeItem C)) (ns : List NRef) : Silent (Verif.assignNodes l ns) := by
  induction ns with
  | nil => exact .pure _
  | cons n ns ih => exact (checkNode n).bind fun _ => ask_bind fun _ _ h => (assignNode _ (full_ofItems h)).bind fun _ => ih

theorem assignEdges (l : List (EdgeItemStyle C)) (ns : List ERef) : Silent (Verif.assignEdges l ns) := by
  induction ns with
  | nil => exact .pure _
  | cons n ns ih => exact (checkEdge n).bind fun _ => ask_bind fun _ _ h => (assignEdge _ (whole_ofItems h)).bind fun _ => ih

theorem complementNode (l : List (NodeItem C)) (n : NRef) : Silent (Verif.complementNode l n) := by
  intro w F
  simp only [Verif.complementNode, W.bind_apply, look_apply]
  cases hs : (w.heap.node n).style with
  | none => exact .refl F
  | some s => exact .setNs F fun A => full_complement (A n _ (by simp [nodeLook, hs])) l

omit [Palette C] in
theorem complementEdge (l : List (EdgeItemStyle C)) (n : ERef) : Silent (Verif.complementEdge l n) := by
  intro w F
  simp only [Verif.complementEdge, W.bind_apply, look_apply]
  cases hs : (w.heap.edge n).style with
  | none => exact .refl F
  | some s => exact .setEs F fun h => whole_complement h l

theorem globalNodeAssign (g : GRef) (o : Option (List (NodeItem C))) : Silent (Verif.globalNodeAssign g o) := by
  cases o with
  | none => exact .pure _
  | some l => exact (ask _).bind fun _ => (look _).bind fun _ => assignNodes _ _

theorem globalEdgeAssign (g : GRef) (o : Option (List (EdgeItemStyle C))) : Silent (Verif.globalEdgeAssign g o) := by
  cases o with
  | none => exact .pure _
  | some l => exact (ask _).bind fun _ => assignEdges _ _

theorem nodeStyleOverwrite (g : GRef) (p : Key × List (NodeItem C)) : Silent (Verif.nodeStyleOverwrite g p) :=
  (ask _).bind fun _ => complementNode _ _

theorem edgeStyleOverwrite (g : GRef) (p : EdgeId × List (EdgeItemStyle C)) : Silent (Verif.edgeStyleOverwrite g p) :=
  (ask _).bind fun _ => assignEdges _ _

theorem nodeColourOverwrite (g : GRef) (p : Key × C) : Silent (Verif.nodeColourOverwrite g p) := by
  refine (ask _).bind fun _ => (look _).bind fun o => ?_
  cases o with
  | none => exact raise _
  | some s => exact (look _).bind fun _ => assignNode _ (full_recolour _ _)

theorem edgeColourOverwrite (g : GRef) (p : EdgeId × C) : Silent (Verif.edgeColourOverwrite g p) := by
  refine (ask _).bind fun _ => (look _).bind fun o => ?_
  cases o with
  | none => exact raise _
  | some s => exact ask_bind fun _ _ h => assignEdge _ (by rw [copy_ok h]; exact whole_redye _ _)

theorem globalNodeComplement (g : GRef) (o : Option (List (NodeItem C))) : Silent (Verif.globalNodeComplement g o) := by
  cases o with
  | none => exact .pure _
  | some l => exact (ask _).bind fun _ => (look _).bind fun _ => forEach (complementNode _) _

omit [Palette C] in
theorem globalEdgeComplement (g : GRef) (o : Option (List (EdgeItemStyle C))) : Silent (Verif.globalEdgeComplement g o) := by
  cases o with
  | none => exact .pure _
  | some l => exact (ask _).bind fun _ => forEach (complementEdge _) _

variable [DecidableEq C]

theorem rootPass (lim : Nat) (ns : List NRef) (used : Dict C Nat) : Silent (Verif.rootPass lim ns used) := by
  induction ns generalizing used with
  | nil => exact .pure _
  | cons n ns ih =>
    refine (look _).bind fun o => ?_
    cases o with
    | some _ => exact ih _
    | none =>
      refine (ask _).bind fun b => ?_
      cases b with
      | true => exact (ask _).bind fun _ => (assignNode _ (full_make _)).bind fun _ => ih _
      | false => exact ih _

theorem randomPass (ns : List NRef) (used : Dict C Nat) : Silent (Verif.randomPass ns used) := by
  induction ns generalizing used with
  | nil => exact .pure _
  | cons n ns ih => exact (ask _).bind fun _ => (assignNode _ (full_make _)).bind fun _ => ih _

theorem runStylist (lim : Nat) (shuffle : List NRef → List NRef) (g : GRef) (s : Stylist) :
    Silent (Verif.runStylist lim shuffle g s : W C Unit) := by
  cases s with
  | pensieve =>
    exact (display g).bind fun _ => (look _).bind fun _ => (rootPass _ _ _).bind fun _ => (branchPass _ _).bind fun _ =>
      (ask _).bind fun _ => edgePass _ _ _
  | random => exact (display g).bind fun _ => (look _).bind fun _ => (randomPass _ _).bind fun _ => (ask _).bind fun _ => edgePass _ _ _
  | other => exact .pure _

theorem stylize (lim : Nat) (shuffle : List NRef → List NRef) (g : GRef) : Silent (Verif.stylize lim shuffle g : W C Unit) :=
  (display g).bind fun _ => (globalNodeAssign _ _).bind fun _ => (globalEdgeAssign _ _).bind fun _ => (runStylist _ _ _ _).bind fun _ =>
    (forEach (nodeStyleOverwrite g) _).bind fun _ => (forEach (edgeStyleOverwrite g) _).bind fun _ =>
    (forEach (nodeColourOverwrite g) _).bind fun _ => (forEach (edgeColourOverwrite g) _).bind fun _ =>
    (globalNodeComplement _ _).bind fun _ => globalEdgeComplement _ _

end
end Silent
end Verif
