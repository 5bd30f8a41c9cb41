import Verif.Model.Session
import Verif.Lemmas.Private
import Verif.Lemmas.Export
import Verif.Lemmas.Owned
import Verif.Lemmas.InOrder
import Verif.Lemmas.Local
import Verif.Lemmas.Lasting
import Verif.Props.Copy
/-!
# What holds in every session
-/
namespace Verif
open Palette W
variable {C : Type}

/-- Whether the calls hand on no style object, whether they add no node object, and which nodes and edges they may unfreeze. -/
structure Promise where
  noObj : Prop
  noAdd : Prop
  thawN : NRef → Prop
  thawE : ERef → Prop

/-- Anything may be unfrozen. -/
def Promise.loose (p : Promise) : Promise := ⟨p.noObj, p.noAdd, fun _ => True, fun _ => True⟩

/-- What holds between calls; styles are private, and nodes know their graphs and are listed in order, if so promised. -/
structure Sound (p : Promise) (w : World C) : Prop where
  reach : Reachable w.heap
  made : Made w.heap
  full : ∀ s, (w.ns s).Complete
  apart : p.noObj → Apart w.heap
  known : p.noAdd → ∀ g, ∀ n ∈ graphNodes w.heap g, (w.heap.node n).graph = some g
  sorted : p.noAdd → ∀ g, Ascending w.heap g

/-- A style argument that exists, and is no style object if so promised. -/
def Fit (p : Promise) (j : Nat) (s : StyleArg) : Prop := s.Below j ∧ (p.noObj → s.NoObj)

theorem Fit.mono {p : Promise} {j k : Nat} {s : StyleArg} (f : Fit p j s) (h : j ≤ k) : Fit p k s := by
  refine ⟨?_, f.2⟩
  have := f.1
  cases s <;> simp only [StyleArg.Below] at this ⊢
  exact Nat.lt_of_lt_of_le this h

theorem Fit.none {p : Promise} {j : Nat} : Fit p j .none := ⟨trivial, fun _ => trivial⟩

/-- From `w` to `w'` nothing that can be seen of `g` changes: its nodes and edges with all their attributes and looks, nor its settings. -/
structure Aside (g : GRef) (w w' : World C) : Prop where
  heap : Untouched w.heap w'.heap g
  nodes : ∀ n ∈ graphNodes w.heap g, nodeLook w' n = nodeLook w n
  edges : ∀ e, LiveEdge w.heap g e → edgeLook w' e = edgeLook w e
  display : w'.display g = w.display g

theorem Aside.refl (g : GRef) (w : World C) : Aside g w w := ⟨.same rfl, fun _ _ => rfl, fun _ _ => rfl, rfl⟩

theorem Aside.trans {g : GRef} {w w' w'' : World C} (r : Reachable w.heap) (r' : Reachable w'.heap) (a : Aside g w w') (b : Aside g w' w'') : Aside g w w'' := by
  have hn : graphNodes w'.heap g = graphNodes w.heap g := by simp only [graphNodes, a.heap.graph]
  exact ⟨a.heap.trans r r' b.heap, fun n h => (b.nodes n (hn ▸ h)).trans (a.nodes n h),
    fun e h => (b.edges e (a.heap.live h r r')).trans (a.edges e h), b.display.trans a.display⟩

/-- What holds after a call that changes only the graphs with `t`, and makes new things. -/
structure After (p : Promise) (t : GRef → Prop) (w w' : World C) : Prop where
  sound : Sound p w'
  styles : w.heap.nStyle ≤ w'.heap.nStyle
  graphs : w.heap.nG ≤ w'.heap.nG
  aside : ∀ g, ¬ t g → g < w.heap.nG → Aside g w w'
  same : Lasting p.thawN p.thawE w.heap w'.heap

theorem After.refl {p : Promise} {t : GRef → Prop} {w : World C} (S : Sound p w) : After p t w w :=
  ⟨S, Nat.le_refl _, Nat.le_refl _, fun g _ _ => .refl g w, .refl _⟩

theorem After.trans {p : Promise} {t : GRef → Prop} {w w' w'' : World C} (S : Sound p w) (a : After p t w w') (b : After p t w' w'') : After p t w w'' :=
  ⟨b.sound, Nat.le_trans a.styles b.styles, Nat.le_trans a.graphs b.graphs,
    fun g h1 h2 => (a.aside g h1 h2).trans S.reach a.sound.reach (b.aside g h1 (Nat.lt_of_lt_of_le h2 a.graphs)), a.same.trans b.same⟩

/-- New graphs may be changed. -/
theorem After.trans_new {p : Promise} {t : GRef → Prop} {w w' w'' : World C} (S : Sound p w)
    (a : After p (fun _ => False) w w') (b : After p (fun g => g = w.heap.nG) w' w'') : After p t w w'' :=
  ⟨b.sound, Nat.le_trans a.styles b.styles, Nat.le_trans a.graphs b.graphs,
    fun g _ h2 => (a.aside g id h2).trans S.reach a.sound.reach (b.aside g (Nat.ne_of_lt h2) (Nat.lt_of_lt_of_le h2 a.graphs)), a.same.trans b.same⟩

/-- Only new style objects get contents. -/
theorem Aside.old {w w' : World C} (F : Made w.heap) {g : GRef} (hu : Untouched w.heap w'.heap g)
    (hn : ∀ s, s < w.heap.nStyle → w'.ns s = w.ns s) (he : ∀ s, s < w.heap.nStyle → w'.es s = w.es s)
    (hd : w'.display g = w.display g) : Aside g w w' := by
  refine ⟨hu, fun n h => ?_, fun e h => ?_, hd⟩
  · unfold nodeLook
    rw [hu.nodes n h]
    cases hs : (w.heap.node n).style with
    | none => rfl
    | some s => simp [hn s (F.node n s hs)]
  · unfold edgeLook
    rw [hu.edges e h]
    cases hs : (w.heap.edge e).style with
    | none => rfl
    | some s => simp [he s (F.edge e s hs)]

/-- However it ends, the call keeps what holds between calls and changes only the graphs with `t`, if there are at least `j` styles
and `k` graphs. -/
def Steady {α : Type} (p : Promise) (j k : Nat) (t : GRef → Prop) (x : W C α) : Prop :=
  ∀ w, Sound p w → j ≤ w.heap.nStyle → k ≤ w.heap.nG → After p t w (x w).2

theorem Sound.op {p : Promise} {t : GRef → Prop} {w : World C} (S : Sound p w) (op : Op) (ok : op.Ok w.heap) (f : Fit p w.heap.nStyle op.style)
    (ht : ∀ g, op.on w.heap g → t g) (hno : p.noAdd → ∀ g, ¬ op.Readds g := by exact fun _ _ h => h)
    (hfz : (∀ n, Grows.unfreezesNode op n → p.thawN n) ∧ ∀ e, Grows.unfreezesEdge op e → p.thawE e := by
      exact ⟨fun _ h => False.elim h, fun _ h => False.elim h⟩) :
    After p t w ({ w with heap := (op.step w.heap).2 } : World C) := by
  have h1 : op.StylesOk w.heap := by
    cases op <;> exact f.1
  have h2 : p.noObj → op.NoObj := fun hp => by
    have := f.2 hp
    cases op <;> exact this
  obtain ⟨k1, k2, -⟩ := Keeps.step op h1 w.heap (Nat.le_refl _) S.made
  refine ⟨⟨.step op S.reach ok, k2, S.full, fun hp => (Neat.step S.reach ⟨S.made, S.apart hp⟩ op ok (h2 hp)).apart,
    fun hp g => Reachable.owned_step S.reach ok (S.known hp g) (hno hp g), fun hp => Reachable.inOrder_step S.reach ok (S.sorted hp) (hno hp)⟩, k1, (Grows.step op w.heap).nG, fun g hg hlt => ?_, (Grows.step op w.heap).same hfz.1 hfz.2⟩
  exact .old S.made (C10_isolated S.reach op ok hlt fun hc => hg (ht g hc)) (fun _ _ => rfl) (fun _ _ => rfl) rfl

namespace Steady
variable {α β : Type} {p : Promise} {j k : Nat} {t : GRef → Prop}

theorem still {x : W C α} (hx : ∀ w, (x w).2 = w) : Steady p j k t x :=
  fun w S _ _ => by rw [hx w]; exact .refl S

theorem pure (a : α) : Steady p j k t (Pure.pure a : W C α) := still fun _ => rfl
theorem raise (e : PyErr) : Steady p j k t (W.raise e : W C α) := still fun _ => rfl
theorem ask (q : World C → Except PyErr α) : Steady p j k t (W.ask q) := still fun _ => rfl
theorem look (q : World C → α) : Steady p j k t (W.look q) := still fun _ => rfl

theorem bind {x : W C α} {f : α → W C β} (hx : Steady p j k t x) (hf : ∀ a, Steady p j k t (f a)) : Steady p j k t (x >>= f) := by
  intro w S hj hk
  have h1 := hx w S hj hk
  rw [bind_apply]
  cases hw : x w with
  | mk o w1 =>
    rw [hw] at h1
    cases o with
    | error e => exact h1
    | ok a => exact h1.trans S (hf a w1 h1.sound (Nat.le_trans hj h1.styles) (Nat.le_trans hk h1.graphs))

theorem forEach {x : α → W C Unit} (hx : ∀ a, Steady p j k t (x a)) (l : List α) : Steady p j k t (Verif.forEach x l) := by
  induction l with
  | nil => exact .pure _
  | cons a l ih => exact (hx a).bind fun _ => ih

theorem lift {x : M α} {op : Op} {f : α → Out} (hx : op.step = (do return f (← x))) (ok : ∀ h : Heap, k ≤ h.nG → op.Ok h)
    (fit : Fit p j op.style) (ht : ∀ h g, op.on h g → t g) (hno : p.noAdd → ∀ g, ¬ op.Readds g := by exact fun _ _ h => h)
    (hfz : (∀ n, Grows.unfreezesNode op n → p.thawN n) ∧ ∀ e, Grows.unfreezesEdge op e → p.thawE e := by
      exact ⟨fun _ h => False.elim h, fun _ h => False.elim h⟩) :
    Steady p j k t (W.lift x : W C α) := by
  intro w S hj hk
  have e : (x w.heap).2 = (op.step w.heap).2 := by
    rw [hx, M.bind_apply]
    cases x w.heap with
    | mk a b => cases a <;> rfl
  have := S.op op (ok _ hk) (fit.mono hj) (ht _) hno hfz
  rw [← e] at this
  exact this

variable [Palette C]

theorem nextNodeStyle (s : NodeStyleArg C) : Steady p j k t (Verif.nextNodeStyle s) := by
  cases s with
  | dict l =>
    intro w S hj hk
    simp only [Verif.nextNodeStyle, bind_apply, W.look]
    cases ho : NodeStyle.ofItems l with
    | error e => exact .refl S
    | ok st =>
      refine ⟨⟨S.reach, S.made, fun s => ?_, S.apart, S.known, S.sorted⟩, Nat.le_refl _, Nat.le_refl _,
        fun g _ _ => .old S.made (.same rfl) (fun s hs => upd_ne _ _ (Nat.ne_of_lt hs)) (fun _ _ => rfl) rfl, .refl _⟩
      simp only [W.setNs, upd]
      split
      · exact full_ofItems ho
      · exact S.full s
  | _ => exact .pure _

theorem nextEdgeStyle (s : EdgeStyleArg C) : Steady p j k t (Verif.nextEdgeStyleObj s) := by
  cases s with
  | dict l =>
    intro w S hj hk
    simp only [Verif.nextEdgeStyleObj, bind_apply, W.look]
    cases EdgeStyle.ofItems l
    rotate_left
    · exact ⟨⟨S.reach, S.made, S.full, S.apart, S.known, S.sorted⟩, Nat.le_refl _, Nat.le_refl _,
        fun g _ _ => .old S.made (.same rfl) (fun _ _ => rfl) (fun s hs => upd_ne _ _ (Nat.ne_of_lt hs)) rfl, .refl _⟩
    · exact .refl S
  | _ => exact .pure _

theorem addNode {g : GRef} (hg : g < k) (ht : t g) (x : Key) {a : NodeSpec C} (fit : Fit p j a.style.plain) : Steady p j k t (addNodeW g x a) :=
  (nextNodeStyle _).bind fun _ => lift (op := .addNode g x a.args a.policy) rfl (fun _ h => Nat.lt_of_lt_of_le hg h) fit
    (fun _ _ e => e ▸ ht)

theorem edgeStyle {s : EdgeStyleArg C} {x : StyleArg → M α} {op : StyleArg → Op} {f : α → Out}
    (hx : (op s.plain).step = (do return f (← x s.plain))) (ok : ∀ h : Heap, k ≤ h.nG → (op s.plain).Ok h)
    (fit : Fit p j (op s.plain).style)
    (ht : ∀ h g, (op s.plain).on h g → t g) (hno : p.noAdd → ∀ g, ¬ (op s.plain).Readds g := by exact fun _ _ h => h)
    (hfz : (∀ n, Grows.unfreezesNode (op s.plain) n → p.thawN n) ∧ ∀ e, Grows.unfreezesEdge (op s.plain) e → p.thawE e := by
      exact ⟨fun _ h => False.elim h, fun _ h => False.elim h⟩) :
    Steady p j k t (withEdgeStyle s x) :=
  (nextEdgeStyle _).bind fun _ => lift hx ok fit ht hno hfz

theorem connect {g : GRef} (hg : g < k) (ht : t g) (s u : Key) {a : EdgeSpec C} (fit : Fit p j a.style.plain) :
    Steady p j k t (connectW g s u a) :=
  (nextEdgeStyle _).bind fun _ => lift (op := .connect g (.key s) (.key u) a.args a.policy) rfl
    (fun _ h => Nat.lt_of_lt_of_le hg h) fit
    (fun _ _ e => e ▸ ht)

omit [Palette C] in
theorem modDisplay {g : GRef} (ht : t g) (f : Display C → Display C) : Steady p j k t (Verif.modDisplay g f) :=
  fun _ S _ _ => ⟨⟨S.reach, S.made, S.full, S.apart, S.known, S.sorted⟩, Nat.le_refl _, Nat.le_refl _, fun g' hg _ =>
    ⟨.same rfl, fun _ _ => rfl, fun _ _ => rfl, upd_ne _ _ fun hc => hg (by rw [hc]; exact ht)⟩, .refl _⟩

omit [Palette C] in
theorem display (g : GRef) : Steady p j k t (W.display g : W C _) := still fun w => by
  unfold W.display; cases w.display g <;> rfl

omit [Palette C] in
theorem setInDisplay {g : GRef} (ht : t g) (f : Display C → Display C) : Steady p j k t (Verif.setInDisplay g f) :=
  (display g).bind fun _ => modDisplay ht f

omit [Palette C] in
theorem edgeSetting {g : GRef} (ht : t g) (known : Dict (Key × Key) EdgeId) (x : EdgeSetting C) : Steady p j k t (appendEdgeSetting g known x) := by
  cases x with
  | pair s t c =>
    simp only [appendEdgeSetting]
    cases dget known (s, t) with
    | none => exact .raise _
    | some i => exact setInDisplay ht _
  | other => exact .raise _

theorem nodeDict {g : GRef} (hg : g < k) (ht : t g) {l : List (Key × NodeSpec C)} (fit : ∀ q ∈ l, Fit p j q.2.style.plain) :
    Steady p j k t (appendNodeDictW g l) := by
  induction l with
  | nil => exact .pure _
  | cons q l ih =>
    obtain ⟨x, a⟩ := q
    exact (addNode hg ht x (fit (x, a) (by simp))).bind fun _ => ih fun q hq => fit q (by simp [hq])

theorem edgeList {g : GRef} (hg : g < k) (ht : t g) {l : List (EdgeEntry C)} (fit : ∀ x ∈ l, Fit p j x.spec.style.plain)
    (known : Dict (Key × Key) EdgeId) : Steady p j k t (appendEdgeListW g l known) := by
  induction l generalizing known with
  | nil => exact .pure _
  | cons x l ih =>
    have ih := ih (fun x hx => fit x (by simp [hx]))
    have f := fit x (by simp)
    cases x with
    | two s t => exact (connect hg ht s t f).bind fun e => (ask _).bind fun _ => ih _
    | three s t a => exact (connect hg ht s t f).bind fun e => (ask _).bind fun _ => ih _
    | few => exact .raise _
    | many => exact .raise _

theorem dict {g : GRef} (hg : g < k) (ht : t g) {D : GraphDict C} (fit : ∀ s ∈ D.styles, Fit p j s) : Steady p j k t (appendDictW g D) := by
  have hN : Steady p j k t (appendNodesW g D.nodes) := by
    cases hD : D.nodes with
    | none => exact .raise _
    | some N =>
      cases N with
      | dict l =>
        refine nodeDict hg ht fun q hq => fit _ ?_
        simp only [GraphDict.styles, hD, NodesEntry.specs, List.mem_append, List.mem_map]
        exact .inl ⟨q.2, ⟨q, hq, rfl⟩, rfl⟩
      | list l =>
        refine nodeDict hg ht fun q hq => ?_
        obtain ⟨x, -, rfl⟩ := List.mem_map.1 hq
        exact Fit.none
  have hE : Steady p j k t (appendEdgesW g D.edges) := by
    cases hD : D.edges with
    | none => exact .raise _
    | some l =>
      refine edgeList hg ht (fun x hx => fit _ ?_) []
      simp only [GraphDict.styles, hD, List.mem_append, List.mem_map]
      exact .inr ⟨x, hx, rfl⟩
  have hL : Steady p j k t (appendLabel g D.label : W C Unit) := by
    unfold appendLabel; split
    · exact .pure _
    · exact modDisplay ht _
    · exact .raise _
  refine (lift (op := .setOptions g D.strict D.ordering) (f := fun _ => .none) rfl (fun _ h => Nat.lt_of_lt_of_le hg h) Fit.none (fun _ _ e => e ▸ ht)).bind
    fun _ => hL.bind fun _ => (modDisplay ht _).bind fun _ => hN.bind fun _ => hE.bind fun known =>
    (forEach (fun _ => setInDisplay ht _) _).bind fun _ => (forEach (edgeSetting ht known) _).bind fun _ =>
    (forEach (fun _ => setInDisplay ht _) _).bind fun _ => forEach (edgeSetting ht known) _

end Steady

/-! ## Making graphs -/

theorem Sound.construct {p : Promise} {w : World C} (S : Sound p w) (a : GraphArgs C) (D : Option (GraphDict C)) :
    ∃ w', constructW a D w = (.ok w.heap.nG, w') ∧ After p (fun _ => False) w w' ∧ w'.heap.nG = w.heap.nG + 1 ∧ w'.heap.nStyle = w.heap.nStyle ∧
      w'.heap.node = w.heap.node ∧ w'.ns = w.ns := by
  have A := S.op (t := fun _ => False) (.newGraph a.strict a.ordering ((D.bind (·.overwrite)).getD a.overwrite)) trivial Fit.none
    fun _ h => h
  have this := A.sound
  exact ⟨_, rfl, ⟨⟨this.reach, this.made, S.full, this.apart, this.known, this.sorted⟩, A.styles, A.graphs, fun g h1 h2 =>
    ⟨(A.aside g h1 h2).heap, (A.aside g h1 h2).nodes, (A.aside g h1 h2).edges, upd_ne _ _ (Nat.ne_of_lt h2)⟩, A.same⟩, rfl, rfl, rfl, rfl⟩

section
variable [Palette C] {p : Promise}

theorem Steady.ofDict (a : GraphArgs C) {D : GraphDict C} {j : Nat} (fit : ∀ s ∈ D.styles, Fit p j s) : Steady p j 0 t (graphOfDict a D) := by
  intro w S hj _
  obtain ⟨w', h1, A, hG, hS, -⟩ := S.construct a (some D)
  have := (Steady.dict (t := fun g => g = w.heap.nG) (k := w.heap.nG + 1) (Nat.lt_succ_self w.heap.nG) rfl fit).bind (β := GRef)
    fun _ => .pure w.heap.nG
  have B := this w' A.sound (by rw [hS]; exact hj) (Nat.le_of_eq hG.symm)
  simp only [graphOfDict, bind_apply, h1]
  simp only [bind_apply] at B
  exact A.trans_new S B

omit [Palette C] in
theorem mem_exportNodes {h : Heap} {ns : List NRef} {r : List (Key × NodeSpec C) × List (Key × Key × EdgeSpec C)}
    (hr : exportNodes h ns = .ok r) : r = (ns.map (exportNode h), []) := by
  have hE : ∀ (es : List ERef) xs, mapE (exportEdge (C := C) h) es = .ok xs → xs = [] := by
    intro es xs hx
    cases es with
    | nil => cases hx; rfl
    | cons e es =>
      have : ∃ er, exportEdge (C := C) h e = .error er := by
        unfold exportEdge
        cases edgeStart h e with
        | error er => exact ⟨er, rfl⟩
        | ok _ =>
          cases edgeEnd h e with
          | error er => exact ⟨er, rfl⟩
          | ok _ => exact ⟨_, rfl⟩
      obtain ⟨er, he⟩ := this
      rw [mapE_error he] at hx
      cases hx
  induction ns generalizing r with
  | nil => cases hr; rfl
  | cons n ns ih =>
    simp only [exportNodes, bind, Except.bind] at hr
    split at hr
    · cases hr
    · split at hr
      · cases hr
      · rename_i xs hx
        split at hr
        · cases hr
        · rename_i r' hr'
          cases hr
          rw [ih hr', hE _ _ hx]
          rfl

omit [Palette C] in
theorem exportGraph_ok {w : World C} {g : GRef} {x : Export C} (hx : exportGraph w g = .ok x) :
    ∃ d, w.display g = some d ∧ x = exportWith (w.heap.graph g) d ((graphNodes w.heap g).map (exportNode w.heap)) [] := by
  simp only [exportGraph, bind, Except.bind] at hx
  split at hx
  · cases hx
  · rename_i r hr
    rw [mem_exportNodes hr] at hx
    cases hd : w.display g with
    | none => rw [hd] at hx; cases hx
    | some d => rw [hd] at hx; cases hx; exact ⟨d, rfl, rfl⟩

/-- The nodes of a graph whose styles are not to be passed on have none. -/
def Bare (p : Promise) (w : World C) (g : GRef) : Prop := p.noObj → ∀ n ∈ graphNodes w.heap g, (w.heap.node n).style = none

theorem fit_exportNode {w : World C} {g : GRef} (m : Made w.heap) (b : Bare p w g) {n : NRef} (hn : n ∈ graphNodes w.heap g) :
    Fit p w.heap.nStyle (exportNode (C := C) w.heap n).2.style.plain := by
  simp only [exportNode]
  cases hs : (w.heap.node n).style with
  | none => exact Fit.none
  | some s => exact ⟨m.node n s hs, fun hp => by rw [b hp n hn] at hs; cases hs⟩

/-- The style arguments in what `__graph__` returns. -/
structure FitExport (p : Promise) (j : Nat) (x : Export C) : Prop where
  nodes : ∀ q ∈ x.nodes, Fit p j q.2.style.plain
  edges : ∀ q ∈ x.edges, Fit p j q.2.2.style.plain

theorem fitExport {w : World C} {g : GRef} (m : Made w.heap) (b : Bare p w g) {x : Export C} (hx : exportGraph w g = .ok x) :
    FitExport p w.heap.nStyle x := by
  obtain ⟨d, -, rfl⟩ := exportGraph_ok hx
  refine ⟨fun q hq => ?_, fun q hq => by simp [exportWith] at hq⟩
  obtain ⟨n, hn, rfl⟩ := List.mem_map.1 hq
  exact fit_exportNode m b hn

theorem FitExport.dict {j : Nat} {x : Export C} (f : FitExport p j x) : ∀ s ∈ x.dict.styles, Fit p j s := by
  intro s hs
  simp only [GraphDict.styles, Export.dict, NodesEntry.specs, List.mem_append, List.mem_map] at hs
  rcases hs with ⟨_, ⟨q, hq, rfl⟩, rfl⟩ | ⟨_, ⟨q, hq, rfl⟩, rfl⟩
  · exact f.nodes q hq
  · exact f.edges q hq

theorem FitExport.of {j : Nat} {x : Export C} (f : ∀ s ∈ x.dict.styles, Fit p j s) : FitExport p j x := by
  constructor <;> intro q hq <;> refine f _ ?_ <;>
    simp only [GraphDict.styles, Export.dict, NodesEntry.specs, List.mem_append, List.mem_map]
  · exact .inl ⟨_, ⟨q, hq, rfl⟩, rfl⟩
  · exact .inr ⟨_, ⟨q, hq, rfl⟩, rfl⟩

theorem Sound.appendGraph {w : World C} (S : Sound p w) {g o : GRef} (hg : g < w.heap.nG) (b : Bare p w o) {t : GRef → Prop} (ht : t g) :
    After p t w (Verif.appendGraph g o w).2 := by
  unfold Verif.appendGraph
  cases hx : exportGraph w o with
  | ok x => exact Steady.dict hg ht (fitExport S.made b hx).dict w S (Nat.le_refl _) (Nat.le_refl _)
  | error e => cases e <;> exact .refl S

theorem Sound.graphOfGraph {w : World C} (S : Sound p w) (a : GraphArgs C) {o : GRef} (ho : o < w.heap.nG) (b : Bare p w o)
    {t : GRef → Prop} : After p t w (Verif.graphOfGraph a o w).2 := by
  have key : ∀ s, After p t w (((do
      let g ← constructW { a with scheme := some s } none
      Verif.appendGraph g o
      return g : W C GRef)) w).2 := by
    intro s
    obtain ⟨w', h1, A, hG, hS, hN, -⟩ := S.construct { a with scheme := some s } none
    have b' : Bare p w' o := by
      intro hp n hn
      rw [hN]
      refine b hp n ?_
      have hgr : w'.heap.graph o = w.heap.graph o := by
        cases h1
        exact upd_ne _ _ (Nat.ne_of_lt ho)
      simpa [graphNodes, hgr] using hn
    have := A.trans_new S (t := t) (A.sound.appendGraph (g := w.heap.nG) (by rw [hG]; exact Nat.lt_succ_self _) b' rfl)
    simp only [bind_apply, h1]
    cases hA : Verif.appendGraph w.heap.nG o w' with
    | mk r w'' =>
      rw [hA] at this
      cases r <;> exact this
  unfold Verif.graphOfGraph
  cases a.scheme with
  | some s => exact key s
  | none =>
    simp only [bind_apply, W.display]
    cases w.display o with
    | none => exact .refl S
    | some d => exact key d.scheme

omit [Palette C] in
theorem mapE_mem {α β : Type} {f : α → Except PyErr β} {l : List α} {r : List β} (h : mapE f l = .ok r) :
    ∀ y ∈ r, ∃ x ∈ l, f x = .ok y := by
  induction l generalizing r with
  | nil => cases h; simp
  | cons a l ih =>
    simp only [mapE, bind, Except.bind] at h
    split at h
    · cases h
    · rename_i b hb
      split at h
      · cases h
      · rename_i r' hr'
        cases h
        intro y hy
        rcases List.mem_cons.1 hy with rfl | hy
        · exact ⟨a, by simp, hb⟩
        · obtain ⟨x, hx, he⟩ := ih hr' y hy
          exact ⟨x, by simp [hx], he⟩

omit [Palette C] in
theorem mem_dset_imp {K V : Type} [DecidableEq K] {d : Dict K V} {k : K} {v : V} {q : K × V} (h : q ∈ dset d k v) : q ∈ d ∨ q = (k, v) := by
  induction d with
  | nil => simp [dset] at h; exact .inr h
  | cons x d ih =>
    obtain ⟨a, b⟩ := x
    simp only [dset] at h
    split at h
    · rename_i e
      subst e
      rcases List.mem_cons.1 h with h | h
      · exact .inr h
      · exact .inl (by simp [h])
    · rcases List.mem_cons.1 h with h | h
      · exact .inl (by simp [h])
      · rcases ih h with h | h
        · exact .inl (by simp [h])
        · exact .inr h

theorem fit_orElse {j : Nat} {x y : NodeStyleArg C} (hx : Fit p j x.plain) (hy : Fit p j y.plain) : Fit p j (x.orElse y).plain := by
  unfold NodeStyleArg.orElse; split <;> assumption

theorem fit_orElseEdge {j : Nat} {x y : EdgeStyleArg C} (hx : Fit p j x.plain) (hy : Fit p j y.plain) : Fit p j (x.orElse y).plain := by
  unfold EdgeStyleArg.orElse; split <;> assumption

theorem fit_mergeNodes {j : Nat} {order : List Key → List Key} {f : Val → Val → Except PyErr Val} {d1 d2 l : List (Key × NodeSpec C)}
    (h1 : ∀ q ∈ d1, Fit p j q.2.style.plain) (h2 : ∀ q ∈ d2, Fit p j q.2.style.plain) (hl : mergeNodes order f d1 d2 = .ok l) :
    ∀ q ∈ l, Fit p j q.2.style.plain := by
  intro q hq
  obtain ⟨k, -, hk⟩ := mapE_mem hl q hq
  unfold mergeEntry at hk
  split at hk
  · rename_i n1 n2 e1 e2
    simp only [mergeNode, bind, Except.bind] at hk
    cases hf : f n2.value n2.value with
    | error e => simp [hf] at hk
    | ok v =>
      simp only [hf] at hk
      cases hk
      exact fit_orElse (h1 _ (mem_of_dget e1)) (h2 _ (mem_of_dget e2))
  · rename_i n1 e1 _
    cases hk
    exact h1 _ (mem_of_dget e1)
  · rename_i n2 _ e2
    cases hk
    exact h2 _ (mem_of_dget e2)
  · cases hk

theorem fit_mergeEdges {j : Nat} {f : Val → Val → Except PyErr Val} {l : List (Key × Key × EdgeSpec C)} {d r : Dict EdgeId (EdgeSpec C)}
    (h1 : ∀ q ∈ l, Fit p j q.2.2.style.plain) (h2 : ∀ q ∈ d, Fit p j q.2.style.plain) (hl : mergeEdges f l d = .ok r) :
    ∀ q ∈ r, Fit p j q.2.style.plain := by
  have put : ∀ {d : Dict EdgeId (EdgeSpec C)} {k a}, (∀ q ∈ d, Fit p j q.2.style.plain) → Fit p j a.style.plain →
      ∀ q ∈ dset d k a, Fit p j q.2.style.plain := by
    intro d k a hd ha q hq
    rcases mem_dset_imp hq with h | h
    · exact hd q h
    · subst h; exact ha
  induction l generalizing d with
  | nil => cases hl; exact h2
  | cons q l ih =>
    obtain ⟨s, t, a⟩ := q
    have ha := h1 (s, t, a) (by simp)
    have ih := @ih
    simp only [mergeEdges] at hl
    split at hl
    · rename_i a1 hd
      simp only [mergeEdge, bind, Except.bind] at hl
      cases hf : f a1.value a.value with
      | error e => simp [hf] at hl
      | ok v =>
        simp only [hf] at hl
        exact ih (fun q hq => h1 q (by simp [hq])) (put h2 (fit_orElseEdge (h2 _ (mem_of_dget hd)) ha)) hl
    · exact ih (fun q hq => h1 q (by simp [hq])) (put h2 ha) hl

theorem Sound.add {w : World C} (S : Sound p w) (base : GraphArgs C) (order : List Key → List Key) (f : Val → Val → Except PyErr Val)
    {g : GRef} {o : Operand C} (b : Bare p w g) (hb : ∀ x, o.export w = .ok x → FitExport p w.heap.nStyle x) :
    After p (fun x => x = g) w (addGraphs base order f g o w).2 := by
  have asked : ∀ {α : Type} {q : World C → Except PyErr α} {f : α → W C GRef},
      (∀ a, q w = .ok a → After p (fun x => x = g) w (f a w).2) → After p (fun x => x = g) w ((W.ask q >>= f) w).2 := by
    intro α q f hf
    rw [bind_apply, ask_apply]
    cases hq : q w with
    | error e => exact .refl S
    | ok a => exact hf a hq
  refine asked fun d1 h1 => asked fun d2 h2 => ?_
  have f1 := fitExport S.made b h1
  have f2 := hb d2 h2
  have T : ∀ x : W C GRef, Steady p w.heap.nStyle 0 (fun x => x = g) x → Steady p w.heap.nStyle 0 (fun x => x = g) ((do
      modDisplay g (fun d => { d with nodeStyles := dupdate d.nodeStyles d2.nodeStyles })
      modDisplay g (fun d => { d with edgeStyles := dupdate d.edgeStyles d2.edgeStyles })
      x : W C GRef)) := fun x hx => (Steady.modDisplay (t := fun x => x = g) rfl _).bind fun _ =>
        (Steady.modDisplay (t := fun x => x = g) rfl _).bind fun _ => hx
  have := T (do
    let nodes ← W.ask (fun _ => mergeNodes order f d1.nodes d2.nodes)
    let edges ← W.ask (fun _ => mergeEdges f (d1.edges ++ d2.edges) [])
    graphOfDict base
      { strict := some d1.strict, ordering := some d1.ordering, nodeStyles := dupdate d1.nodeStyles d2.nodeStyles,
        edgeStyles := (dupdate d1.edgeStyles d2.edgeStyles).map fun _ => .other,
        nodes := some (.dict nodes), edges := some (edges.map fun p => .three p.1.1 p.1.2.1 p.2) }) (by
    cases hn : mergeNodes order f d1.nodes d2.nodes with
    | error e => exact .still fun _ => rfl
    | ok nodes =>
      cases he : mergeEdges f (d1.edges ++ d2.edges) [] with
      | error e => exact .still fun _ => rfl
      | ok edges =>
        refine Steady.ofDict base fun s hs => ?_
        have n := fit_mergeNodes f1.nodes f2.nodes hn
        have e := fit_mergeEdges (fun q hq => (List.mem_append.1 hq).elim (f1.edges q) (f2.edges q)) (by simp) he
        simp only [GraphDict.styles, NodesEntry.specs, List.mem_append, List.mem_map] at hs
        rcases hs with ⟨_, ⟨q, hq, rfl⟩, rfl⟩ | ⟨_, ⟨q, hq, rfl⟩, rfl⟩
        · exact n q hq
        · exact e q hq)
  exact this w S (Nat.le_refl _) (Nat.zero_le _)

/-! ## Copies -/

omit [Palette C] in
theorem copied_new {h h' : Heap} (r : Reachable h) {g : GRef} (hg : g < h.nG) {x : GRef × Memo} (hx : graphCopy g h = (.ok x, h')) :
    x.1 = h.nG ∧ h.nG < h'.nG := by
  obtain ⟨A, H⟩ := r.hist
  by_cases hst : ∀ n ∈ graphNodes h g, (h.node n).style = none
  · obtain ⟨m, h1, hc, P⟩ := run_graphCopy H.rep hg hst
    rw [hc] at hx
    cases hx
    rw [P.nG]
    exact ⟨rfl, Nat.lt_succ_self _⟩
  · have hs : ((dvals (h.graph g).nodes).any fun n => (h.node n).style.isSome) = true := by
      rw [List.any_eq_true]
      refine Classical.byContradiction fun hc => hst fun n hn => Classical.byContradiction fun h2 => hc ⟨n, hn, ?_⟩
      exact Option.isSome_iff_ne_none.2 h2
    simp [graphCopy, M.bind_apply, M.look_apply, hs] at hx

omit [Palette C] in
/-- The graph is new, and the contents of old styles stay. -/
theorem After.undisplayed {t : GRef → Prop} {w : World C} {x : M (GRef × Memo)}
    (S : Sound p w) (A : After p t w ({ w with heap := (x w.heap).2 } : World C))
    (hx : ∀ g m h', x w.heap = (.ok (g, m), h') → w.heap.nG ≤ g ∧ ∀ s, s < w.heap.nStyle → m.dye w.es s = w.es s) :
    After p t w (W.undisplayed x w).2 := by
  unfold W.undisplayed
  cases hc : x w.heap with
  | mk a b =>
    rw [hc] at A
    cases a with
    | error _ => exact A
    | ok a =>
      obtain ⟨g', m⟩ := a
      obtain ⟨h1, h2⟩ := hx g' m b hc
      have h := A.sound
      refine ⟨⟨h.reach, h.made, h.full, h.apart, h.known, h.sorted⟩, A.styles, A.graphs, fun g hg hlt => ?_, A.same⟩
      exact .old S.made (A.aside g hg hlt).heap (fun _ _ => rfl) h2 (upd_ne _ _ (Nat.ne_of_lt (Nat.lt_of_lt_of_le hlt h1)))

omit [Palette C] in
theorem Sound.heapCopy {w : World C} (S : Sound p w) {g : GRef} (hg : g < w.heap.nG) {t : GRef → Prop} :
    After p t w ({ w with heap := (graphCopy g w.heap).2 } : World C) := by
  have h := S.op (t := t) (.copy g) hg Fit.none fun _ h => h.elim
  have e : (graphCopy g w.heap).2 = ((Op.copy g).step w.heap).2 := by
    change _ = ((do let r ← graphCopy g; return Out.copied r.1 r.2 : M Out) w.heap).2
    rw [M.bind_apply]
    cases graphCopy g w.heap with
    | mk a b => cases a <;> rfl
  rw [← e] at h
  exact h

omit [Palette C] in
theorem Sound.copy {w : World C} (S : Sound p w) {g : GRef} (hg : g < w.heap.nG) {t : GRef → Prop} : After p t w (copyWorld g w).2 := by
  refine (S.heapCopy hg).undisplayed S fun g' m h' hx => ⟨Nat.le_of_eq (copied_new S.reach hg hx).1.symm, fun s hs => ?_⟩
  obtain ⟨A, H⟩ := S.reach.hist
  exact (graphCopy_dye H.rep hx).dye_old w.es hs

omit [Palette C] in
theorem Sound.filter {w : World C} (S : Sound p w) (lim : Nat) {g : GRef} (hg : g < w.heap.nG) (nodes : List NodeArg)
    (direction filterType : String) {t : GRef → Prop} : After p t w (filterWorld lim g nodes direction filterType w).2 := by
  have remove : ∀ (ks : List Key) (v : World C) (g : GRef), Sound p v → g < v.heap.nG →
      After p (fun x => x = g) v ({ v with heap := (removeNames g ks v.heap).2 } : World C) := by
    intro ks
    induction ks with
    | nil => exact fun v g S _ => .refl S
    | cons k ks ih =>
      intro v g S hg
      have A := S.op (t := fun x => x = g) (.removeNode g (.key k)) hg Fit.none fun _ h => h.symm
      have e : (removeNode g (.key k) v.heap).2 = ((Op.removeNode g (.key k)).step v.heap).2 := by
        change _ = ((do removeNode g (.key k); return Out.none : M Out) v.heap).2
        rw [M.bind_apply]
        cases removeNode g (.key k) v.heap with
        | mk a b => cases a <;> rfl
      rw [← e] at A
      simp only [removeNames, M.bind_apply]
      cases hr : removeNode g (.key k) v.heap with
      | mk a b =>
        rw [hr] at A
        cases a with
        | error _ => exact A
        | ok _ => exact A.trans S (ih _ g A.sound (Nat.lt_of_lt_of_le hg A.graphs))
  refine After.undisplayed S ?_ ?_
  · simp only [graphFilter, M.bind_apply, M.ask_apply, M.look_apply]
    cases filterRelatives lim w.heap g direction nodes with
    | error _ => exact .refl S
    | ok rel =>
      have A := S.heapCopy hg (t := fun _ => False)
      cases hc : graphCopy g w.heap with
      | mk a h' =>
        rw [hc] at A
        cases a with
        | error _ => simp only [hc]; exact ⟨A.sound, A.styles, A.graphs, fun g _ => A.aside g id, A.same⟩
        | ok r =>
          obtain ⟨h1, h2⟩ := copied_new S.reach hg hc
          have := remove (filterDelete w.heap g filterType rel) _ r.1 A.sound (by rw [h1]; exact h2)
          rw [h1] at this
          have := A.trans_new (t := t) S this
          rw [← h1] at this
          simp only [hc]
          cases hr : removeNames r.1 (filterDelete w.heap g filterType rel) h' with
          | mk a b =>
            simp only [hr] at this
            cases a <;> exact this
  · intro g' m h' hx
    simp only [graphFilter, M.bind_apply, M.ask_apply, M.look_apply] at hx
    cases hf : filterRelatives lim w.heap g direction nodes with
    | error _ => rw [hf] at hx; cases hx
    | ok rel =>
      rw [hf] at hx
      cases hc : graphCopy g w.heap with
      | mk a h1 =>
        simp only [hc] at hx
        cases a with
        | error _ => cases hx
        | ok r =>
          simp only at hx
          cases hr : removeNames r.1 (filterDelete w.heap g filterType rel) h1 with
          | mk a b =>
            simp only [hr] at hx
            cases a with
            | error _ => cases hx
            | ok _ =>
              cases hx
              refine ⟨Nat.le_of_eq (copied_new S.reach hg hc).1.symm, fun s hs => ?_⟩
              obtain ⟨A, H⟩ := S.reach.hist
              exact (graphCopy_dye H.rep hc).dye_old w.es hs

/-! ## Sessions -/

theorem Sound.init : Sound p (World.init : World C) :=
  ⟨.init, .init, fun _ => full_make _, fun _ => Neat.init.apart, fun _ g n hn => by simp [World.init, graphNodes, dvals, Heap.init] at hn,
    fun _ g => by simp [Ascending, World.init, graphNodes, dvals, Heap.init]⟩

omit [Palette C] in
theorem Sound.quiet {w w' : World C} (S : Sound p w) (q : Quiet w w') : Sound p w' :=
  ⟨q.reach S.reach, q.fine, q.all S.full, fun hp => q.apart (S.apart hp), fun hp g n hn => by
    rw [← q.shape.graphNodes] at hn
    rw [← q.shape.nodeGraph]
    exact S.known hp g n hn, fun hp g => (S.sorted hp g).of_eq (q.shape.graphNodes g).symm
      (fun n => (q.shape.via (fun h => (h.node n).index) fun _ => rfl).symm)
      (q.shape.via (fun h => (h.graph g).counter) fun _ => rfl).symm⟩

variable [DecidableEq C]

/-- The call is a call on graph `g`: on the graph itself, on one of its nodes, or on one of its edges. -/
def Call.on (w : World C) (g : GRef) : Call C → Prop
  | .plain op => op.on w.heap g
  | .addNode g' _ _ => g' = g
  | .connect g' _ _ _ => g' = g
  | .connectTo n _ _ => (w.heap.node n).graph = some g
  | .connectFrom n _ _ => (w.heap.node n).graph = some g
  | .nodeStyle n _ => n ∈ graphNodes w.heap g
  | .edgeStyle e _ => LiveEdge w.heap g e
  | .newGraph _ => False
  | .ofDict _ _ => False
  | .ofGraph _ _ => False
  | .append g' _ => g' = g
  | .appendGraph g' _ => g' = g
  | .add _ _ _ g' _ => g' = g
  | .stylize _ _ g' => g' = g
  | .render _ _ g' _ => g' = g
  | .copy _ => False
  | .filter _ _ _ _ _ => False

/-- The call assigns styles: `stylize` or `render`. -/
def Call.Paints : Call C → Prop
  | .stylize _ _ _ => True
  | .render _ _ _ _ => True
  | _ => False

omit [DecidableEq C] in
/-- The style is made, then the call runs. -/
theorem After.edgeStyled {α : Type} {w : World C} (S : Sound p w) {s : EdgeStyleArg C} {x : StyleArg → M α} {op : StyleArg → Op} {f : α → Out}
    (hx : (op s.plain).step = (do return f (← x s.plain))) (ok : (op s.plain).Ok w.heap) (fit : Fit p w.heap.nStyle (op s.plain).style)
    {t : GRef → Prop} (ht : ∀ g, (op s.plain).on w.heap g → t g)
    (hno : p.noAdd → ∀ g, ¬ (op s.plain).Readds g := by exact fun _ _ h => h)
    (hfz : (∀ n, Grows.unfreezesNode (op s.plain) n → p.thawN n) ∧ ∀ e, Grows.unfreezesEdge (op s.plain) e → p.thawE e := by
      exact ⟨fun _ h => False.elim h, fun _ h => False.elim h⟩) :
    After p t w (withEdgeStyle s x w).2 := by
  have A := Steady.nextEdgeStyle (t := t) s w S (Nat.le_refl _) (Nat.le_refl _)
  obtain ⟨w1, h1, h2⟩ : ∃ w1, nextEdgeStyleObj s w = (.ok (), w1) ∧ w1.heap = w.heap := by
    cases s with
    | dict l =>
      simp only [nextEdgeStyleObj, bind_apply, W.look]
      cases EdgeStyle.ofItems l with
      | error e => exact ⟨_, rfl, rfl⟩
      | ok st => exact ⟨_, rfl, rfl⟩
    | _ => exact ⟨_, rfl, rfl⟩
  rw [h1] at A
  have e : (x s.plain w.heap).2 = ((op s.plain).step w.heap).2 := by
    rw [hx, M.bind_apply]
    cases x s.plain w.heap with
    | mk a b => cases a <;> rfl
  have B := A.sound.op (t := t) (op s.plain) (by simpa only [h2] using ok) (by simpa only [h2] using fit) (by simpa only [h2] using ht) hno hfz
  simp only [withEdgeStyle, bind_apply, h1]
  simp only [h2, ← e] at B
  refine A.trans S ?_
  simp only [W.lift, h2]
  exact B

omit [DecidableEq C] in
/-- The same for nodes. -/
theorem After.nodeStyled {α : Type} {w : World C} (S : Sound p w) {s : NodeStyleArg C} {x : StyleArg → M α} {op : StyleArg → Op} {f : α → Out}
    (hx : (op s.plain).step = (do return f (← x s.plain))) (ok : (op s.plain).Ok w.heap) (fit : Fit p w.heap.nStyle (op s.plain).style)
    {t : GRef → Prop} (ht : ∀ g, (op s.plain).on w.heap g → t g)
    (hno : p.noAdd → ∀ g, ¬ (op s.plain).Readds g := by exact fun _ _ h => h)
    (hfz : (∀ n, Grows.unfreezesNode (op s.plain) n → p.thawN n) ∧ ∀ e, Grows.unfreezesEdge (op s.plain) e → p.thawE e := by
      exact ⟨fun _ h => False.elim h, fun _ h => False.elim h⟩) :
    After p t w (withNodeStyle s x w).2 := by
  have A := Steady.nextNodeStyle (t := t) s w S (Nat.le_refl _) (Nat.le_refl _)
  obtain ⟨w1, h1, h2⟩ : ∃ w1, nextNodeStyle s w = (.ok (), w1) ∧ w1.heap = w.heap := by
    cases s with
    | dict l =>
      simp only [nextNodeStyle, bind_apply, W.look]
      cases NodeStyle.ofItems l with
      | error e => exact ⟨_, rfl, rfl⟩
      | ok st => exact ⟨_, rfl, rfl⟩
    | _ => exact ⟨_, rfl, rfl⟩
  rw [h1] at A
  have e : (x s.plain w.heap).2 = ((op s.plain).step w.heap).2 := by
    rw [hx, M.bind_apply]
    cases x s.plain w.heap with
    | mk a b => cases a <;> rfl
  have B := A.sound.op (t := t) (op s.plain) (by simpa only [h2] using ok) (by simpa only [h2] using fit) (by simpa only [h2] using ht) hno hfz
  simp only [withNodeStyle, bind_apply, h1]
  simp only [h2, ← e] at B
  refine A.trans S ?_
  simp only [W.lift, h2]
  exact B

omit [Palette C] [DecidableEq C] in
theorem other_nodes {h : Heap} (r : Reachable h) {g g' : GRef} (hne : g' ≠ g) {n : NRef} (hn : n ∈ graphNodes h g') : n ∉ graphNodes h g := by
  obtain ⟨A, H⟩ := r.hist
  intro h2
  obtain ⟨k, hk⟩ := (mem_graphNodes H.rep).1 hn
  obtain ⟨l, hl⟩ := (mem_graphNodes H.rep).1 h2
  exact hne (H.rep.nodeUniq g' g k l n hk hl)

omit [Palette C] [DecidableEq C] in
theorem edge_home {h : Heap} (r : Reachable h) {g : GRef} {es : List ERef} (he : graphEdges h g = .ok es) {e : ERef} (hm : e ∈ es) :
    (h.edge e).graph = some g := by
  obtain ⟨es', he', -, hes, -⟩ := C11_edges r g
  rw [he] at he'
  cases he'
  obtain ⟨A, H⟩ := r.hist
  obtain ⟨⟨k, l, i⟩, hi⟩ := (liveEdge_iff H.rep).1 ((hes e).1 hm)
  exact (H.rep.edgeOk g k l i e hi).2.2.1

omit [Palette C] [DecidableEq C] in
theorem byId_edges {h : Heap} (r : Reachable h) {g : GRef} : ∀ i e, edgeById h g i = .ok e → Local.InEdges h g e := by
  intro i e he
  obtain ⟨es, d, h1, h2, -, h3, -⟩ := C11_edges_dict r g
  refine ⟨es, h1, (h3 e).1 ?_⟩
  simp only [edgeById, h2, bind, Except.bind] at he
  cases hg : dget d i with
  | none => rw [hg] at he; cases he
  | some x =>
    rw [hg] at he
    cases he
    exact List.mem_map.2 ⟨(i, e), mem_of_dget hg, rfl⟩

theorem Sound.stylize_aside {w : World C} (S : Sound p w) (hp : p.noObj) {lim : Nat} {shuffle : List NRef → List NRef}
    (hsh : ∀ l, (shuffle l).Perm l) {g g' : GRef} (hne : g' ≠ g) : Aside g' w (Verif.stylize lim shuffle g w).2 := by
  have L := (Local.stylize (C := C) (byId_edges (g := g) S.reach) lim hsh).run w ⟨rfl, S.made⟩
  have ap := S.apart hp
  have q := Silent.stylize (C := C) lim shuffle g w S.made
  have hN : ∀ n ∈ graphNodes w.heap g', n ∉ graphNodes w.heap g := fun n hn => other_nodes S.reach hne hn
  have hE : ∀ e, LiveEdge w.heap g' e → ¬ Local.InEdges w.heap g e := by
    rintro e he ⟨es, h1, h2⟩
    obtain ⟨es', h1', -, hes, -⟩ := C11_edges S.reach g'
    have a := edge_home S.reach h1 h2
    rw [edge_home S.reach h1' ((hes e).2 he)] at a
    exact hne (Option.some.inj a)
  exact ⟨⟨congrFun (congrArg Heap.graph q.shape).symm g', fun n hn => (L.node n (hN n hn)).1, fun e he => (L.edge e (hE e he)).1⟩,
    fun n hn => (L.node n (hN n hn)).2 ap, fun e he => (L.edge e (hE e he)).2 ap, by rw [q.display]⟩

/-- `stylize` leaves the nodes and edges of another graph alone, except perhaps what is in their styles. -/
theorem Sound.stylize_untouched {w : World C} (S : Sound p w) {lim : Nat} {shuffle : List NRef → List NRef}
    (hsh : ∀ l, (shuffle l).Perm l) {g g' : GRef} (hne : g' ≠ g) : Untouched w.heap (Verif.stylize lim shuffle g w).2.heap g' := by
  have L := (Local.stylize (C := C) (byId_edges (g := g) S.reach) lim hsh).run w ⟨rfl, S.made⟩
  have q := Silent.stylize (C := C) lim shuffle g w S.made
  refine ⟨congrFun (congrArg Heap.graph q.shape).symm g', fun n hn => (L.node n (other_nodes S.reach hne hn)).1, fun e he => (L.edge e ?_).1⟩
  rintro ⟨es, h1, h2⟩
  obtain ⟨es', h1', -, hes, -⟩ := C11_edges S.reach g'
  have a := edge_home S.reach h1 h2
  rw [edge_home S.reach h1' ((hes e).2 he)] at a
  exact hne (Option.some.inj a)

theorem Sound.call_after {w : World C} (S : Sound p w) (c : Call C) (ok : c.Ok w) (pr : p.noObj → c.Private w)
    (nr : p.noAdd → c.NoReadd) (hp : ¬ c.Paints)
    (nu : ∀ op, c = .plain op → (∀ n, Grows.unfreezesNode op n → p.thawN n) ∧ ∀ e, Grows.unfreezesEdge op e → p.thawE e) :
    After p (fun g => c.on w g) w (c.step w) := by
  have fit : ∀ s ∈ c.styles, Fit p w.heap.nStyle s := by
    intro s hs
    cases s with
    | obj s => exact ⟨ok.styles s hs, fun hp => (pr hp).styles s hs⟩
    | _ => exact ⟨trivial, fun _ => trivial⟩
  have bare : ∀ g ∈ c.sources, Bare p w g := fun g hg hp => (pr hp).sources g hg
  have graphs := ok.graphs
  have run : ∀ {α : Type} {t : GRef → Prop} {x : W C α}, Steady p w.heap.nStyle w.heap.nG t x → After p t w (x w).2 :=
    fun hx => hx w S (Nat.le_refl _) (Nat.le_refl _)
  cases c with
  | plain op => exact S.op op (ok.plain op rfl).2 (fit _ (by simp [Call.styles])) (fun _ h => h) (fun hp => nr hp op rfl) (nu op rfl)
  | addNode g x a => exact run (.addNode (graphs g (by simp [Call.graphs])) rfl x (fit _ (by simp [Call.styles])))
  | connect g s t a =>
    exact .edgeStyled S (op := fun st => .connect g s t { a.args with style := st } a.policy) rfl
      (graphs g (by simp [Call.graphs])) (fit _ (by simp [Call.styles, Op.style])) (fun _ h => h)
  | connectTo n t a =>
    exact .edgeStyled S (op := fun st => .connectTo n t { a.args with style := st } a.policy) rfl
      trivial (fit _ (by simp [Call.styles, Op.style])) (fun _ h => h)
  | connectFrom n t a =>
    exact .edgeStyled S (op := fun st => .connectFrom n t { a.args with style := st } a.policy) rfl
      trivial (fit _ (by simp [Call.styles, Op.style])) (fun _ h => h)
  | nodeStyle n s =>
    exact .nodeStyled S (op := fun st => .nodeStyle n st) (f := fun _ => .none) rfl
      trivial (fit _ (by simp [Call.styles, Op.style])) (fun _ h => h)
  | edgeStyle e s =>
    exact .edgeStyled S (op := fun st => .edgeStyle e st) (f := fun _ => .none) rfl
      trivial (fit _ (by simp [Call.styles, Op.style])) (fun _ h => h)
  | newGraph a =>
    obtain ⟨w', h1, A, -⟩ := S.construct a none
    simp only [Call.step, h1]
    exact A
  | ofDict a D => exact Steady.ofDict a fit w S (Nat.le_refl _) (Nat.zero_le _)
  | ofGraph a o => exact S.graphOfGraph a (graphs o (by simp [Call.graphs])) (bare o (by simp [Call.sources]))
  | append g D => exact run (.dict (graphs g (by simp [Call.graphs])) rfl fit)
  | appendGraph g o => exact S.appendGraph (graphs g (by simp [Call.graphs])) (bare o (by simp [Call.sources])) rfl
  | add base order f g o =>
    have A := S.add base order f (g := g) (o := o) (bare g (by cases o <;> simp [Call.sources])) fun x hx => by
      cases o with
      | graph o => exact fitExport S.made (bare o (by simp [Call.sources])) hx
      | object r =>
        simp only [Operand.export] at hx
        subst hx
        exact .of fit
    exact ⟨A.sound, A.styles, A.graphs, fun x hx => A.aside x fun e => hx e.symm, A.same⟩
  | stylize lim shuffle g => exact absurd trivial hp
  | render lim shuffle g a => exact absurd trivial hp
  | copy g => exact S.copy (graphs g (by simp [Call.graphs]))
  | filter lim g nodes d t => exact S.filter lim (graphs g (by simp [Call.graphs])) nodes d t

omit [Palette C] [DecidableEq C] in
theorem Sound.loose {w : World C} (S : Sound p w) : Sound p.loose w := ⟨S.reach, S.made, S.full, S.apart, S.known, S.sorted⟩

omit [Palette C] [DecidableEq C] in
theorem Sound.thaw {w : World C} (S : Sound p w) (U : NRef → Prop) (V : ERef → Prop) : Sound ⟨p.noObj, p.noAdd, U, V⟩ w :=
  ⟨S.reach, S.made, S.full, S.apart, S.known, S.sorted⟩

theorem Sound.call_loose {w : World C} (S : Sound p w) (c : Call C) (ok : c.Ok w) (pr : p.noObj → c.Private w)
    (nr : p.noAdd → c.NoReadd) (hp : ¬ c.Paints) : After p.loose (fun g => c.on w g) w (c.step w) :=
  S.loose.call_after c ok pr nr hp fun _ _ => ⟨fun _ _ => trivial, fun _ _ => trivial⟩

theorem Sound.call {w : World C} (S : Sound p w) (c : Call C) (ok : c.Ok w) (pr : p.noObj → c.Private w)
    (nr : p.noAdd → c.NoReadd) : Sound p (c.step w) := by
  by_cases hp : c.Paints
  · cases c with
    | stylize lim shuffle g => exact S.quiet (Silent.stylize lim shuffle g w S.made)
    | render lim shuffle g a =>
      have : Silent (Verif.render lim shuffle g a : W C String) :=
        (Silent.display g).bind fun _ => (Silent.stylize lim shuffle g).bind fun _ => .ask _
      exact S.quiet (this w S.made)
    | _ => exact hp.elim
  · exact (S.call_loose c ok pr nr hp).sound.thaw _ _

/-- Whatever the call, objects stay what they are. -/
theorem Sound.call_same {w : World C} (S : Sound p w) (c : Call C) (ok : c.Ok w) (pr : p.noObj → c.Private w)
    (nr : p.noAdd → c.NoReadd)
    (nu : ∀ op, c = .plain op → (∀ n, Grows.unfreezesNode op n → p.thawN n) ∧ ∀ e, Grows.unfreezesEdge op e → p.thawE e) :
    Lasting p.thawN p.thawE w.heap (c.step w).heap := by
  by_cases hp : c.Paints
  · cases c with
    | stylize lim shuffle g => exact (Silent.stylize lim shuffle g w S.made).same
    | render lim shuffle g a =>
      have : Silent (Verif.render lim shuffle g a : W C String) :=
        (Silent.display g).bind fun _ => (Silent.stylize lim shuffle g).bind fun _ => .ask _
      exact (this w S.made).same
    | _ => exact hp.elim
  · exact (S.call_after c ok pr nr hp nu).same

/-- Whatever the call, other graphs stay as they are; `stylize` and `render` need that no two nodes share a style, nor edges. -/
theorem Sound.call_aside {w : World C} (S : Sound p w) (c : Call C) (ok : c.Ok w) (pr : p.noObj → c.Private w)
    (nr : p.noAdd → c.NoReadd) (hp : c.Paints → p.noObj) {g : GRef} (hg : g < w.heap.nG) (hno : ¬ c.on w g) : Aside g w (c.step w) := by
  by_cases hpt : c.Paints
  · have hq := hp hpt
    cases c with
    | stylize lim shuffle g' => exact S.stylize_aside hq ok.shuffles fun e => hno e.symm
    | render lim shuffle g' a =>
      have := S.stylize_aside (lim := lim) hq ok.shuffles (g := g') (g' := g) fun e => hno e.symm
      show Aside g w (Verif.render lim shuffle g' a w).2
      unfold Verif.render
      rw [W.bind_apply]
      unfold W.display
      cases w.display g' with
      | none => exact .refl _ _
      | some d =>
        simp only
        rw [W.bind_apply]
        cases hs : Verif.stylize lim shuffle g' w with
        | mk r w' =>
          rw [hs] at this
          cases r <;> exact this
    | _ => exact hpt.elim
  · exact (S.call_loose c ok pr nr hpt).aside g hno hg

/-- The same without the styles, whatever was passed on. -/
theorem Sound.call_untouched {w : World C} (S : Sound p w) (c : Call C) (ok : c.Ok w) (pr : p.noObj → c.Private w)
    (nr : p.noAdd → c.NoReadd) {g : GRef} (hg : g < w.heap.nG) (hno : ¬ c.on w g) :
    Untouched w.heap (c.step w).heap g ∧ (c.step w).display g = w.display g := by
  by_cases hpt : c.Paints
  · have main : ∀ (lim : Nat) (shuffle : List NRef → List NRef) (g' : GRef), (∀ l, (shuffle l).Perm l) → g ≠ g' →
        Untouched w.heap (Verif.stylize lim shuffle g' w).2.heap g ∧ (Verif.stylize lim shuffle g' w).2.display g = w.display g :=
      fun lim shuffle g' hs hne => ⟨S.stylize_untouched hs hne, by rw [(Silent.stylize (C := C) lim shuffle g' w S.made).display]⟩
    cases c with
    | stylize lim shuffle g' => exact main lim shuffle g' ok.shuffles fun e => hno e.symm
    | render lim shuffle g' a =>
      have := main lim shuffle g' ok.shuffles fun e => hno e.symm
      show Untouched w.heap (Verif.render lim shuffle g' a w).2.heap g ∧ (Verif.render lim shuffle g' a w).2.display g = w.display g
      unfold Verif.render
      rw [W.bind_apply]
      unfold W.display
      cases w.display g' with
      | none => exact ⟨.same rfl, rfl⟩
      | some d =>
        simp only
        rw [W.bind_apply]
        cases hs : Verif.stylize lim shuffle g' w with
        | mk r w' =>
          rw [hs] at this
          cases r <;> exact this
    | _ => exact hpt.elim
  · have := (S.call_loose c ok pr nr hpt).aside g hno hg
    exact ⟨this.heap, this.display⟩

theorem Session.sound {w : World C} (s : Session w) : Sound ⟨False, False, fun _ => True, fun _ => True⟩ w := by
  induction s with
  | init => exact .init
  | step c _ ok ih => exact ih.call c ok (fun h => h.elim) (fun h => h.elim)

theorem PrivateSession.sound {w : World C} (s : PrivateSession w) : Sound ⟨True, False, fun _ => True, fun _ => True⟩ w := by
  induction s with
  | init => exact .init
  | step c _ ok pr ih => exact ih.call c ok (fun _ => pr) (fun h => h.elim)

theorem PrivateSession.session {w : World C} (s : PrivateSession w) : Session w := by
  induction s with
  | init => exact .init
  | step c _ ok _ ih => exact .step c ih ok

theorem OwnedSession.sound {w : World C} (s : OwnedSession w) : Sound ⟨False, True, fun _ => True, fun _ => True⟩ w := by
  induction s with
  | init => exact .init
  | step c _ ok nr ih => exact ih.call c ok (fun h => h.elim) (fun _ => nr)

theorem TidySession.sound {w : World C} (s : TidySession w) : Sound ⟨True, True, fun _ => True, fun _ => True⟩ w := by
  induction s with
  | init => exact .init
  | step c _ ok pr nr ih => exact ih.call c ok (fun _ => pr) (fun _ => nr)

theorem OwnedSession.session {w : World C} (s : OwnedSession w) : Session w := by
  induction s with
  | init => exact .init
  | step c _ ok _ ih => exact .step c ih ok

theorem TidySession.owned {w : World C} (s : TidySession w) : OwnedSession w := by
  induction s with
  | init => exact .init
  | step c _ ok _ nr ih => exact .step c ih ok nr

theorem TidySession.private {w : World C} (s : TidySession w) : PrivateSession w := by
  induction s with
  | init => exact .init
  | step c _ ok pr _ ih => exact .step c ih ok pr

end
end Verif
