import Verif.Model.Dictionary
import Verif.Props.Append
/-!
# Appending with and without the display

What `append` does to nodes and edges does not depend on the display: every step of `appendDictW` does to the heap what the
same step of `appendDict` does.
-/
namespace Verif
variable {C : Type}

/-! ## The plain part of a dictionary -/

section
variable [Palette C]

def NodesEntry.plain : NodesEntry C → NodesArg
  | .dict l => .dict (l.map fun q => (q.1, q.2.args, q.2.policy))
  | .list l => .list l

def EdgeEntry.plain : EdgeEntry C → EdgeItem
  | .two s t => .two s t
  | .three s t a => .three s t a.args a.policy
  | .few => .few
  | .many => .many

omit [Palette C] in
def EdgeSetting.names : EdgeSetting C → Option (Key × Key)
  | .pair s t _ => some (s, t)
  | .other => none

/-- What a dictionary says apart from the display. -/
def GraphDict.plain (D : GraphDict C) : GDict :=
  { strict := D.strict, ordering := D.ordering, label := D.label, nodes := D.nodes.map NodesEntry.plain,
    edges := D.edges.map fun l => l.map EdgeEntry.plain, edgeStyles := D.edgeStyles.filterMap EdgeSetting.names,
    edgeColours := D.edgeColours.filterMap EdgeSetting.names }

end

/-! ## Runs over a heap -/

/-- `x` does to the heap what `y` does, and leaves the display alone. -/
structure Over {α β : Type} (R : α → β → Prop) (x : W C α) (y : M β) : Prop where
  heap : ∀ w, (x w).2.heap = (y w.heap).2
  display : ∀ w, (x w).2.display = w.display
  ok : ∀ w a, (x w).1 = .ok a → ∃ b, (y w.heap).1 = .ok b ∧ R a b
  error : ∀ w e, (x w).1 = .error e → (y w.heap).1 = .error e

namespace Over
variable {α β γ δ : Type} {R : α → β → Prop} {S : γ → δ → Prop}

theorem pure {a : α} {b : β} (h : R a b) : Over R (Pure.pure a : W C α) (Pure.pure b : M β) :=
  ⟨fun _ => rfl, fun _ => rfl, fun _ _ e => by cases e; exact ⟨b, rfl, h⟩, fun _ _ e => by cases e⟩

theorem raise (e : PyErr) : Over R (W.raise e : W C α) (M.raise e : M β) :=
  ⟨fun _ => rfl, fun _ => rfl, fun _ _ e => (by cases e), fun _ _ e => by cases e; rfl⟩

theorem lift (y : M α) : Over (· = ·) (W.lift y : W C α) y :=
  ⟨fun _ => rfl, fun _ => rfl, fun _ a e => ⟨a, e, rfl⟩, fun _ _ e => e⟩

theorem ask {p : World C → Except PyErr α} {q : Q β} (h1 : ∀ w a, p w = .ok a → ∃ b, q w.heap = .ok b ∧ R a b)
    (h2 : ∀ w e, p w = .error e → q w.heap = .error e) : Over R (W.ask p) (M.ask q) :=
  ⟨fun _ => rfl, fun _ => rfl, h1, h2⟩

theorem bind {x : W C α} {y : M β} {f : α → W C γ} {k : β → M δ} (hx : Over R x y) (hf : ∀ a b, R a b → Over S (f a) (k b)) :
    Over S (x >>= f) (y >>= k) := by
  have cases : ∀ w, (∃ a b w1 h1, x w = (.ok a, w1) ∧ y w.heap = (.ok b, h1) ∧ R a b ∧ w1.heap = h1 ∧ w1.display = w.display) ∨
      ∃ e w1 h1, x w = (.error e, w1) ∧ y w.heap = (.error e, h1) ∧ w1.heap = h1 ∧ w1.display = w.display := by
    intro w
    have a1 := hx.heap w
    have a2 := hx.display w
    cases hq : x w with
    | mk q w1 =>
      rw [hq] at a1 a2
      cases q with
      | ok a =>
        obtain ⟨b, hb, hr⟩ := hx.ok w a (by rw [hq])
        exact .inl ⟨a, b, w1, (y w.heap).2, rfl, Prod.ext hb rfl, hr, a1, a2⟩
      | error e => exact .inr ⟨e, w1, (y w.heap).2, rfl, Prod.ext (hx.error w e (by rw [hq])) rfl, a1, a2⟩
  refine ⟨fun w => ?_, fun w => ?_, fun w c => ?_, fun w c => ?_⟩
  all_goals
    simp only [W.bind_apply, M.bind_apply]
    rcases cases w with ⟨a, b, w1, h1, e1, e2, hr, rfl, e3⟩ | ⟨e, w1, h1, e1, e2, rfl, e3⟩
    all_goals simp only [e1, e2]
  · exact (hf a b hr).heap w1
  · rw [(hf a b hr).display w1, e3]
  · exact e3
  · exact (hf a b hr).ok w1 c
  · rintro ⟨⟩
  · exact (hf a b hr).error w1 c
  · rintro ⟨⟩; rfl

/-- A step that only writes the contents of styles. -/
theorem after {x : W C Unit} {y : W C γ} {z : M δ} (h1 : ∀ w, (x w).1 = .ok () ∧ (x w).2.heap = w.heap ∧ (x w).2.display = w.display)
    (h : Over S y z) : Over S (x >>= fun _ => y) z := by
  have hb : ∀ w, (x >>= fun _ => y) w = y (x w).2 := by
    intro w
    obtain ⟨e1, -, -⟩ := h1 w
    rw [W.bind_apply]
    cases hq : x w with
    | mk q w1 => rw [hq] at e1; cases e1; rfl
  refine ⟨fun w => ?_, fun w => ?_, fun w c => ?_, fun w c => ?_⟩
  all_goals
    obtain ⟨-, e2, e3⟩ := h1 w
    rw [hb]
  · rw [h.heap, e2]
  · rw [h.display, e3]
  · rw [← e2]; exact h.ok _ c
  · rw [← e2]; exact h.error _ c

variable [Palette C]

theorem nextNodeStyle (a : NodeStyleArg C) (w : World C) :
    (Verif.nextNodeStyle a w).1 = .ok () ∧ (Verif.nextNodeStyle a w).2.heap = w.heap ∧ (Verif.nextNodeStyle a w).2.display = w.display := by
  cases a with
  | dict l =>
    simp only [Verif.nextNodeStyle, W.bind_apply, W.look_apply]
    cases NodeStyle.ofItems l <;> exact ⟨rfl, rfl, rfl⟩
  | _ => exact ⟨rfl, rfl, rfl⟩

theorem nextEdgeStyleObj (a : EdgeStyleArg C) (w : World C) :
    (Verif.nextEdgeStyleObj a w).1 = .ok () ∧ (Verif.nextEdgeStyleObj a w).2.heap = w.heap ∧ (Verif.nextEdgeStyleObj a w).2.display = w.display := by
  cases a with
  | dict l =>
    simp only [Verif.nextEdgeStyleObj, W.bind_apply, W.look_apply]
    cases EdgeStyle.ofItems l <;> exact ⟨rfl, rfl, rfl⟩
  | _ => exact ⟨rfl, rfl, rfl⟩

theorem addNodeW (g : GRef) (x : Key) (a : NodeSpec C) : Over (· = ·) (Verif.addNodeW g x a) (addNode g x a.args a.policy) :=
  .after (nextNodeStyle a.style) (.lift _)

theorem connectW (g : GRef) (s t : Key) (a : EdgeSpec C) :
    Over (· = ·) (Verif.connectW g s t a) (connect g (.key s) (.key t) a.args a.policy) :=
  .after (nextEdgeStyleObj a.style) (.lift _)

theorem nodeDict (g : GRef) (l : List (Key × NodeSpec C)) :
    Over (· = ·) (appendNodeDictW g l) (appendNodeDict g (l.map fun q => (q.1, q.2.args, q.2.policy))) := by
  induction l with
  | nil => exact .pure rfl
  | cons q l ih =>
    obtain ⟨x, a⟩ := q
    exact (addNodeW g x a).bind fun _ _ _ => ih

theorem nodes (g : GRef) (N : Option (NodesEntry C)) : Over (· = ·) (appendNodesW g N) (appendNodes g (N.map NodesEntry.plain)) := by
  cases N with
  | none => exact .raise _
  | some N =>
    cases N with
    | dict l => exact nodeDict g l
    | list l =>
      have := nodeDict g (l.map fun x => (x, ({} : NodeSpec C)))
      rw [List.map_map] at this
      exact this

omit [Palette C] in
theorem mem_dkeys_dset {K V : Type} [DecidableEq K] {d : Dict K V} {k q : K} {v : V} : q ∈ dkeys (dset d k v) ↔ q = k ∨ q ∈ dkeys d := by
  by_cases h : k ∈ d.map Prod.fst
  · rw [dkeys, keys_dset_of_mem h]
    constructor
    · exact .inr
    · rintro (rfl | h')
      · exact h
      · exact h'
  · rw [dset_of_not_mem h]
    simp [dkeys, or_comm]

/-- The dictionary of edges has the known pairs of names as keys. -/
def Knows (known : Dict (Key × Key) EdgeId) (ps : List (Key × Key)) : Prop := ∀ p, p ∈ dkeys known ↔ p ∈ ps

omit [Palette C] in
theorem Knows.add {known : Dict (Key × Key) EdgeId} {ps : List (Key × Key)} (h : Knows known ps) (p : Key × Key) (i : EdgeId) :
    Knows (dset known p i) (p :: ps) := by
  intro q
  rw [mem_dkeys_dset, h q, List.mem_cons]

theorem edgeList (g : GRef) (l : List (EdgeEntry C)) {known : Dict (Key × Key) EdgeId} {ps : List (Key × Key)} (hk : Knows known ps) :
    Over Knows (appendEdgeListW g l known) (appendEdgeList g (l.map EdgeEntry.plain) ps) := by
  have hask : ∀ e : ERef, Over (fun _ _ => True) (W.ask (fun w : World C => edgeId w.heap e)) (M.ask fun h => edgeId h e) := fun e =>
    .ask (fun _ a h => ⟨a, h, trivial⟩) fun _ _ h => h
  induction l generalizing known ps with
  | nil => exact .pure hk
  | cons x l ih =>
    cases x with
    | two s t =>
      refine (connectW g s t {}).bind ?_
      rintro e _ rfl
      exact (hask e).bind fun i _ _ => ih (hk.add (s, t) i)
    | three s t a =>
      refine (connectW g s t a).bind ?_
      rintro e _ rfl
      exact (hask e).bind fun i _ _ => ih (hk.add (s, t) i)
    | few => exact .raise _
    | many => exact .raise _

theorem edges (g : GRef) (E : Option (List (EdgeEntry C))) :
    Over Knows (appendEdgesW g E) (appendEdges g (E.map fun l => l.map EdgeEntry.plain)) := by
  cases E with
  | none => exact .raise _
  | some l => exact edgeList g l (fun p => by simp [dkeys])

end Over

/-! ## The edges that were connected -/

open M in
/-- The edge that `connect` returns has the id that was asked for. -/
theorem connect_id {h h1 : Heap} {A : Spec} (R : Rep h A) {g : GRef} {s t : Key} {a : EdgeArgs} {p : IfExists} {e : ERef}
    (hr : connect g (.key s) (.key t) a p h = (.ok e, h1)) : edgeId h1 e = .ok (s, t, a.raw) := by
  have R1 := R.connect_step g (.key s) (.key t) a p
  rw [hr] at R1
  simp only [Spec.connect, Spec.connectId, Spec.argName] at R1
  refine R1.edgeId_eq (g := g) ?_
  simp only [Spec.on, upd_same]
  by_cases hnew : (s, t, a.raw) ∈ (A.graph g).ids
  · obtain ⟨e', he⟩ := Rep.mem_ids.1 hnew
    rw [Rep.addEdge_old he]
    cases hs : getNode h g (.key s) with
    | error err => simp [connect, hs] at hr
    | ok n =>
      cases ht : getNode h g (.key t) with
      | error err => simp [connect, hs, ht] at hr
      | ok m =>
        rw [R.connect_old hs ht (R.getNode_key.1 hs) (R.getNode_key.1 ht) a p he] at hr
        simp only [bind_apply] at hr
        cases h2 : p.check (.valueError "already exists") h with
        | mk q k1 =>
          rw [h2] at hr
          cases q with
          | error e => simp at hr
          | ok u =>
            simp only at hr
            cases h3 : edgeUpdate e' a.label a.value a.style k1 with
            | mk q k2 =>
              rw [h3] at hr
              cases q with
              | error e => simp at hr
              | ok u => simp at hr; rw [← hr.1]; exact he
  · simp [SGraph.addEdge, hnew]

section
variable [Palette C]

/-- The names of the two ends and the id of a described edge. -/
def EdgeEntry.ends : EdgeEntry C → Option ((Key × Key) × EdgeId)
  | .two s t => some ((s, t), (s, t, .none))
  | .three s t a => some ((s, t), (s, t, a.raw))
  | .few => none
  | .many => none

/-- `edges_dict` after all edges. -/
def knownEdges (l : List (EdgeEntry C)) (known : Dict (Key × Key) EdgeId) : Dict (Key × Key) EdgeId :=
  (l.filterMap EdgeEntry.ends).foldl (fun d p => dset d p.1 p.2) known

theorem EdgeSpec.args_raw (a : EdgeSpec C) : a.args.raw = a.raw := by
  cases a with
  | mk id => cases id <;> rfl

theorem appendEdgeListW_known (g : GRef) (l : List (EdgeEntry C)) {known k' : Dict (Key × Key) EdgeId} {w w' : World C} {A : Spec}
    (H : Hist w.heap A) (hg : g < w.heap.nG) (hr : appendEdgeListW g l known w = (.ok k', w')) : k' = knownEdges l known := by
  induction l generalizing known w A with
  | nil => cases hr; rfl
  | cons x l ih =>
    have step : ∀ s t a, (do let e ← connectW g s t a
                             let i ← W.ask (fun w => edgeId w.heap e)
                             appendEdgeListW g l (dset known (s, t) i)) w = (.ok k', w') →
        k' = knownEdges l (dset known (s, t) (s, t, a.raw)) := by
      intro s t a hr
      have O := Over.connectW g s t a
      have o1 := O.heap w
      obtain ⟨A1, H1, g1, -⟩ := (Puts.connect (g := g) s t a.args a.policy).puts w.heap A H hg
      rw [← o1] at H1 g1
      simp only [W.bind_apply] at hr
      cases h1 : connectW g s t a w with
      | mk q w1 =>
        rw [h1] at hr o1 H1 g1
        cases q with
        | error e => simp at hr
        | ok e =>
          obtain ⟨b, hb, rfl⟩ := O.ok w e (by rw [h1])
          have hc : connect g (.key s) (.key t) a.args a.policy w.heap = (.ok e, w1.heap) := Prod.ext hb o1.symm
          have hid := connect_id H.rep hc
          rw [EdgeSpec.args_raw] at hid
          simp only [W.ask_apply, hid] at hr
          exact ih H1 (Nat.lt_of_lt_of_le hg g1) hr
    cases x with
    | two s t => exact step s t {} hr
    | three s t a => exact step s t a hr
    | few => simp [appendEdgeListW] at hr
    | many => simp [appendEdgeListW] at hr

end

/-! ## The display -/

/-- The world with other display attributes for one graph. -/
def World.showing (w : World C) (g : GRef) (d : Display C) : World C := { w with display := upd w.display g (some d) }

@[simp] theorem World.showing_heap (w : World C) (g : GRef) (d : Display C) : (w.showing g d).heap = w.heap := rfl

@[simp] theorem World.showing_display (w : World C) (g : GRef) (d : Display C) : (w.showing g d).display g = some d := by
  simp [World.showing]

@[simp] theorem World.showing_again (w : World C) (g : GRef) (d d' : Display C) : (w.showing g d).showing g d' = w.showing g d' := by
  unfold World.showing
  congr 1
  funext x
  by_cases hx : x = g
  · subst hx; simp
  · simp [upd_ne _ _ hx]

theorem World.showing_self {w : World C} {g : GRef} {d : Display C} (hd : w.display g = some d) : w.showing g d = w := by
  have : upd w.display g (some d) = w.display := by
    funext x
    by_cases hx : x = g
    · subst hx; simp [hd]
    · simp [upd_ne _ _ hx]
  unfold World.showing
  rw [this]

theorem modDisplay_run {w : World C} {g : GRef} {d : Display C} (hd : w.display g = some d) (f : Display C → Display C) :
    modDisplay g f w = (.ok (), w.showing g (f d)) := by
  simp [modDisplay, World.showing, hd]

theorem setInDisplay_run {w : World C} {g : GRef} {d : Display C} (hd : w.display g = some d) (f : Display C → Display C) :
    setInDisplay g f w = (.ok (), w.showing g (f d)) := by
  simp only [setInDisplay, W.bind_apply, W.display, hd]
  exact modDisplay_run hd f

/-- The label after `append`. -/
def Display.labelled (d : Display C) (D : GraphDict C) : Display C :=
  match D.label with
  | some (.str s) => { d with label := some ("\n" ++ s) }
  | _ => d

theorem appendLabel_run {w : World C} {g : GRef} {d : Display C} (hd : w.display g = some d) (D : GraphDict C) :
    appendLabel g D.label w = ((labelCheck D.label w.heap).1, w.showing g (d.labelled D)) := by
  unfold appendLabel Display.labelled labelCheck
  cases D.label with
  | none => simp [World.showing_self hd]
  | some v =>
    cases v with
    | str s => simp [modDisplay_run hd]
    | _ => simp [World.showing_self hd]

theorem forEach_settings {α : Type} {x : α → W C Unit} {f : Display C → α → Display C} {g : GRef}
    (hx : ∀ a (w : World C) d, w.display g = some d → x a w = (.ok (), w.showing g (f d a))) (l : List α) {w : World C} {d : Display C}
    (hd : w.display g = some d) : forEach x l w = (.ok (), w.showing g (l.foldl f d)) := by
  induction l generalizing w d with
  | nil => simp [forEach, World.showing_self hd]
  | cons a l ih => simp [forEach, hx a w d hd, ih (w.showing_display g (f d a))]

def Display.setEdge (known : Dict (Key × Key) EdgeId) (d : Display C) : EdgeSetting C → Display C
  | .pair s t c =>
    match dget known (s, t) with
    | none => d
    | some i => { d with edgeColours := dset d.edgeColours i c }
  | .other => d

theorem forEach_edges {g : GRef} (known : Dict (Key × Key) EdgeId) (l : List (EdgeSetting C)) {w : World C} {d : Display C}
    (hd : w.display g = some d) :
    ((∀ x ∈ l, ∃ p, x.names = some p ∧ p ∈ dkeys known) →
      forEach (appendEdgeSetting g known) l w = (.ok (), w.showing g (l.foldl (Display.setEdge known) d))) ∧
    ((¬ ∀ x ∈ l, ∃ p, x.names = some p ∧ p ∈ dkeys known) →
      (forEach (appendEdgeSetting g known) l w).1 = .error .keyError) := by
  induction l generalizing w d with
  | nil => simp [forEach, World.showing_self hd]
  | cons x l ih =>
    by_cases hx : ∃ p, x.names = some p ∧ p ∈ dkeys known
    · obtain ⟨⟨s, t⟩, hp, hk⟩ := hx
      cases x with
      | other => simp [EdgeSetting.names] at hp
      | pair s' t' c =>
        simp only [EdgeSetting.names, Option.some.injEq, Prod.mk.injEq] at hp
        obtain ⟨rfl, rfl⟩ := hp
        obtain ⟨i, hi⟩ := Option.isSome_iff_exists.1 (dget_isSome.2 hk)
        have e1 : appendEdgeSetting g known (.pair s' t' c) w = (.ok (), w.showing g (d.setEdge known (.pair s' t' c))) := by
          simp only [appendEdgeSetting, hi, Display.setEdge]
          exact setInDisplay_run hd _
        obtain ⟨i1, i2⟩ := ih (w.showing_display g (d.setEdge known (.pair s' t' c)))
        simp only [forEach, W.bind_apply, e1]
        refine ⟨fun h => ?_, fun h => ?_⟩
        · rw [i1 fun x hx => h x (by simp [hx])]; simp
        · refine i2 fun h' => h ?_
          intro x hx
          rcases List.mem_cons.1 hx with rfl | hx
          · exact ⟨_, rfl, hk⟩
          · exact h' x hx
    · refine ⟨fun h => absurd (h x (by simp)) hx, fun _ => ?_⟩
      cases x with
      | other => rfl
      | pair s t c =>
        have : dget known (s, t) = none := dget_none.2 fun h => hx ⟨_, rfl, h⟩
        simp [forEach, appendEdgeSetting, this]

def Display.setNode (d : Display C) (p : Key × List (NodeItem C)) : Display C :=
  { d with nodeStyles := dset d.nodeStyles p.1 p.2 }

def Display.setNodeColour (d : Display C) (p : Key × C) : Display C := { d with nodeColours := dset d.nodeColours p.1 p.2 }

/-- After the labels and so on, and the styles of nodes. -/
def Display.stage1 (d : Display C) (D : GraphDict C) : Display C := D.nodeStyles.foldl Display.setNode ((d.labelled D).told D)

def Display.stage2 (d : Display C) (D : GraphDict C) (known : Dict (Key × Key) EdgeId) : Display C :=
  D.edgeStyles.foldl (Display.setEdge known) (d.stage1 D)

def Display.stage3 (d : Display C) (D : GraphDict C) (known : Dict (Key × Key) EdgeId) : Display C :=
  D.nodeColours.foldl Display.setNodeColour (d.stage2 D known)

/-- The display attributes after `append`. -/
def Display.appended (d : Display C) (D : GraphDict C) (known : Dict (Key × Key) EdgeId) : Display C :=
  D.edgeColours.foldl (Display.setEdge known) (d.stage3 D known)

/-! ## `append` -/

section
variable [Palette C]

omit [Palette C] in
theorem seqW_ok {α β : Type} {x : W C α} {f : α → W C β} {w w' : World C} {b : β} (h : (x >>= f) w = (.ok b, w')) :
    ∃ a w1, x w = (.ok a, w1) ∧ f a w1 = (.ok b, w') := by
  rw [W.bind_apply] at h
  cases hq : x w with
  | mk q w1 =>
    rw [hq] at h
    cases q with
    | ok a => exact ⟨a, w1, rfl, h⟩
    | error e => simp at h

theorem mem_knownEdges {l : List (EdgeEntry C)} {p : Key × Key} : p ∈ dkeys (knownEdges l []) ↔ p ∈ itemPairs (l.map EdgeEntry.plain) := by
  suffices h : ∀ (l : List (EdgeEntry C)) (d : Dict (Key × Key) EdgeId), p ∈ dkeys (knownEdges l d) ↔ p ∈ itemPairs (l.map EdgeEntry.plain) ∨ p ∈ dkeys d by
    rw [h]; simp [dkeys]
  intro l
  induction l with
  | nil => intro d; simp [knownEdges, itemPairs]
  | cons x l ih =>
    intro d
    cases x with
    | two s t =>
      have e1 : knownEdges (.two s t :: l) d = knownEdges l (dset d (s, t) (s, t, .none)) := rfl
      have e2 : itemPairs ((EdgeEntry.two (C := C) s t :: l).map EdgeEntry.plain) = (s, t) :: itemPairs (l.map EdgeEntry.plain) := rfl
      rw [e1, e2, ih, Over.mem_dkeys_dset, List.mem_cons]; grind
    | three s t a =>
      have e1 : knownEdges (.three s t a :: l) d = knownEdges l (dset d (s, t) (s, t, a.raw)) := rfl
      have e2 : itemPairs ((EdgeEntry.three (C := C) s t a :: l).map EdgeEntry.plain) = (s, t) :: itemPairs (l.map EdgeEntry.plain) := rfl
      rw [e1, e2, ih, Over.mem_dkeys_dset, List.mem_cons]; grind
    | few => exact ih d
    | many => exact ih d

/-- The settings of edges in a dictionary are for pairs of names that one of its edges joins. -/
def GraphDict.EdgesKnown (D : GraphDict C) : Prop :=
  ∀ x ∈ D.edgeStyles ++ D.edgeColours, ∃ p, x.names = some p ∧ p ∈ itemPairs ((D.edges.getD []).map EdgeEntry.plain)

/-- The display attributes after a dictionary was appended. -/
def Display.after (d : Display C) (D : GraphDict C) : Display C := d.appended D (knownEdges (D.edges.getD []) [])

/-- The part of `append` after the edges. -/
def settingsW (g : GRef) (D : GraphDict C) (known : Dict (Key × Key) EdgeId) : W C Unit := do
  forEach (appendNodeStyles g) D.nodeStyles
  forEach (appendEdgeSetting g known) D.edgeStyles
  forEach (appendNodeColours g) D.nodeColours
  forEach (appendEdgeSetting g known) D.edgeColours

omit [Palette C] in
theorem settingsW_run {g : GRef} {D : GraphDict C} {known : Dict (Key × Key) EdgeId} {w : World C} {d : Display C}
    (hd : w.display g = some ((d.labelled D).told D)) :
    ((∀ x ∈ D.edgeStyles ++ D.edgeColours, ∃ p, x.names = some p ∧ p ∈ dkeys known) →
      settingsW g D known w = (.ok (), w.showing g (d.appended D known))) ∧
    ((¬ ∀ x ∈ D.edgeStyles ++ D.edgeColours, ∃ p, x.names = some p ∧ p ∈ dkeys known) →
      (settingsW g D known w).1 = .error .keyError) := by
  have e1 : forEach (appendNodeStyles g) D.nodeStyles w = (.ok (), w.showing g (d.stage1 D)) :=
    forEach_settings (f := Display.setNode) (fun a w d hd => setInDisplay_run hd (fun d => d.setNode a)) D.nodeStyles hd
  obtain ⟨p2, n2⟩ := forEach_edges known D.edgeStyles (w.showing_display g (d.stage1 D))
  by_cases h1 : ∀ x ∈ D.edgeStyles, ∃ p, x.names = some p ∧ p ∈ dkeys known
  · have e2 : forEach (appendEdgeSetting g known) D.edgeStyles (w.showing g (d.stage1 D)) = (.ok (), w.showing g (d.stage2 D known)) := by
      have := p2 h1
      rw [World.showing_again] at this
      exact this
    have e3 : forEach (appendNodeColours g) D.nodeColours (w.showing g (d.stage2 D known)) =
        (.ok (), (w.showing g (d.stage2 D known)).showing g (d.stage3 D known)) :=
      forEach_settings (f := Display.setNodeColour) (fun a w d hd => setInDisplay_run hd (fun d => d.setNodeColour a)) D.nodeColours (w.showing_display g _)
    rw [World.showing_again] at e3
    obtain ⟨p4, n4⟩ := forEach_edges known D.edgeColours (w.showing_display g (d.stage3 D known))
    have e5 : settingsW g D known w = forEach (appendEdgeSetting g known) D.edgeColours (w.showing g (d.stage3 D known)) := by
      unfold settingsW
      rw [W.bind_apply, e1]
      simp only
      rw [W.bind_apply, e2]
      simp only
      rw [W.bind_apply, e3]
    refine ⟨fun h => ?_, fun h => ?_⟩
    · have e4 := p4 fun x hx => h x (by simp [hx])
      rw [World.showing_again] at e4
      exact e5.trans e4
    · have e4 := n4 fun h' => h (by
        intro x hx
        rcases List.mem_append.1 hx with hx | hx
        · exact h1 x hx
        · exact h' x hx)
      rw [e5]
      exact e4
  · refine ⟨fun h => absurd (fun x hx => h x (by simp [hx])) h1, fun _ => ?_⟩
    have e2 := n2 h1
    unfold settingsW
    rw [W.bind_apply, e1]
    simp only
    rw [W.bind_apply]
    cases hq : forEach (appendEdgeSetting g known) D.edgeStyles (w.showing g (d.stage1 D)) with
    | mk q w1 =>
      rw [hq] at e2
      cases e2
      rfl

omit [Palette C] in
theorem labelCheck_still {v : Option Val} {h : Heap} (hv : (labelCheck v h).1 = .ok ()) : labelCheck v h = (.ok (), h) := by
  unfold labelCheck at hv ⊢
  cases v with
  | none => rfl
  | some v => cases v <;> first | rfl | cases hv

/-- What a successful `append` did. -/
theorem appendDictW_ok {g : GRef} {D : GraphDict C} {w w' : World C} {d : Display C} (r : Reachable w.heap) (hg : g < w.heap.nG)
    (hd : w.display g = some d) (hr : appendDictW g D w = (.ok (), w')) :
    D.EdgesKnown ∧ appendDict g D.plain w.heap = (.ok (), w'.heap) ∧ w'.display = upd w.display g (some (d.after D)) := by
  obtain ⟨A, H⟩ := r.hist
  obtain ⟨_, w1, a1, hr⟩ := seqW_ok hr
  obtain ⟨A1, H1, g1, -⟩ := (Puts.options (g := g) D.strict D.ordering).puts w.heap A H hg
  cases a1
  obtain ⟨_, w2, a2, hr⟩ := seqW_ok hr
  have hl := appendLabel_run (w := { w with heap := (graphSetOptions g D.strict D.ordering w.heap).2 }) hd D
  have hw : ∀ (w1 w2 : World C) (x y : Except PyErr Unit), (x, w1) = (y, w2) → x = y ∧ w1 = w2 := by
    intro w1 w2 x y h; cases h; exact ⟨rfl, rfl⟩
  obtain ⟨l1, l2⟩ := hw _ _ _ _ (hl.symm.trans a2)
  subst l2
  obtain ⟨_, w3, a3, hr⟩ := seqW_ok hr
  rw [modDisplay_run (World.showing_display _ _ _), World.showing_again] at a3
  obtain ⟨-, l3⟩ := hw _ _ _ _ a3
  subst l3
  obtain ⟨_, w4, a4, hr⟩ := seqW_ok hr
  obtain ⟨known, w5, a5, hr⟩ := seqW_ok hr
  have o4 := (Over.nodes g D.nodes).heap (World.showing { w with heap := (graphSetOptions g D.strict D.ordering w.heap).2 } g ((d.labelled D).told D))
  have d4 := (Over.nodes g D.nodes).display (World.showing { w with heap := (graphSetOptions g D.strict D.ordering w.heap).2 } g ((d.labelled D).told D))
  obtain ⟨_, b4, -⟩ := (Over.nodes g D.nodes).ok (World.showing { w with heap := (graphSetOptions g D.strict D.ordering w.heap).2 } g ((d.labelled D).told D)) _ (by rw [a4])
  rw [a4] at o4 d4
  simp only [World.showing_heap] at o4 b4
  have hN : Puts g (appendNodes g (D.nodes.map NodesEntry.plain)) D.plain.namesMentioned [] := by
    show Puts g (appendNodes g D.plain.nodes) _ _
    unfold GDict.namesMentioned
    cases D.plain.nodes with
    | none => exact .raise _ _ _
    | some N => rw [appendNodes_eq]; exact .nodeDict _
  obtain ⟨A4, H4, g4, -⟩ := hN.puts _ A1 H1 (Nat.lt_of_lt_of_le hg g1)
  rw [← o4] at H4 g4
  have o5 := (Over.edges g D.edges).heap w4
  have d5 := (Over.edges g D.edges).display w4
  obtain ⟨ps, b5, kn⟩ := (Over.edges g D.edges).ok w4 known (by rw [a5])
  rw [a5] at o5 d5
  have hknown : known = knownEdges (D.edges.getD []) [] := by
    cases hE : D.edges with
    | none => rw [hE] at a5; simp [appendEdgesW] at a5
    | some l =>
      rw [hE] at a5
      exact appendEdgeListW_known g l H4 (Nat.lt_of_lt_of_le (Nat.lt_of_lt_of_le hg g1) g4) a5
  have hd5 : w5.display g = some ((d.labelled D).told D) := by rw [d5, d4, World.showing_display]
  obtain ⟨p6, n6⟩ := settingsW_run (known := known) hd5
  have hall : ∀ x ∈ D.edgeStyles ++ D.edgeColours, ∃ p, x.names = some p ∧ p ∈ dkeys known := by
    refine Classical.byContradiction fun h => ?_
    have := n6 h
    rw [show settingsW g D known w5 = (.ok (), w') from hr] at this
    cases this
  have e6 := p6 hall
  obtain ⟨-, rfl⟩ := hw _ _ _ _ (e6.symm.trans hr)
  refine ⟨?_, ?_, ?_⟩
  · intro x hx
    obtain ⟨p, h1, h2⟩ := hall x hx
    exact ⟨p, h1, mem_knownEdges.1 (hknown ▸ h2)⟩
  · have look : ∀ (l : List (EdgeSetting C)), (∀ x ∈ l, x ∈ D.edgeStyles ++ D.edgeColours) → ∀ h, appendLookups ps (l.filterMap EdgeSetting.names) h = (.ok (), h) := by
      intro l hl h
      refine appendLookups_run _ _ (fun k hk => ?_) h
      obtain ⟨x, hx, hxk⟩ := List.mem_filterMap.1 hk
      obtain ⟨p, h1, h2⟩ := hall x (hl x hx)
      rw [hxk] at h1
      cases h1
      exact (kn _).1 h2
    have c1 : graphSetOptions g D.plain.strict D.plain.ordering w.heap = (.ok (), (graphSetOptions g D.strict D.ordering w.heap).2) := rfl
    have c2 : labelCheck D.plain.label (graphSetOptions g D.strict D.ordering w.heap).2 = (.ok (), (graphSetOptions g D.strict D.ordering w.heap).2) := by
      exact labelCheck_still l1
    have c3 : appendNodes g D.plain.nodes (graphSetOptions g D.strict D.ordering w.heap).2 = (.ok (), w4.heap) := Prod.ext b4 o4.symm
    have c4 : appendEdges g D.plain.edges w4.heap = (.ok ps, w5.heap) := Prod.ext b5 o5.symm
    simp only [appendDict, M.bind_apply, c1, c2, c3, c4]
    rw [show D.plain.edgeStyles = D.edgeStyles.filterMap EdgeSetting.names from rfl, look _ (fun x hx => by simp [hx])]
    simp only
    rw [show D.plain.edgeColours = D.edgeColours.filterMap EdgeSetting.names from rfl, look _ (fun x hx => by simp [hx])]
    rfl
  · have : w5.display = upd w.display g (some ((d.labelled D).told D)) := by rw [d5, d4]; rfl
    simp only [World.showing, this, hknown, Display.after]
    funext x
    by_cases hx : x = g
    · subst hx; simp
    · simp [upd_ne _ _ hx]

omit [Palette C] in
theorem seqM_ok {α β : Type} {x : M α} {f : α → M β} {h h' : Heap} {b : β} (hr : (x >>= f) h = (.ok b, h')) :
    ∃ a h1, x h = (.ok a, h1) ∧ f a h1 = (.ok b, h') := by
  rw [M.bind_apply] at hr
  cases hq : x h with
  | mk q h1 =>
    rw [hq] at hr
    cases q with
    | ok a => exact ⟨a, h1, rfl, hr⟩
    | error e => simp at hr

omit [Palette C] in
theorem Over.run {α β : Type} {R : α → β → Prop} {x : W C α} {y : M β} (O : Over R x y) {w : World C} {b : β} {h' : Heap}
    (hy : y w.heap = (.ok b, h')) : ∃ a w', x w = (.ok a, w') ∧ R a b ∧ w'.heap = h' ∧ w'.display = w.display := by
  have o1 := O.heap w
  have o2 := O.display w
  cases hq : x w with
  | mk q w1 =>
    rw [hq] at o1 o2
    cases q with
    | ok a =>
      obtain ⟨b', hb, hR⟩ := O.ok w a (by rw [hq])
      rw [hy] at hb o1
      cases hb
      exact ⟨a, w1, rfl, hR, o1, o2⟩
    | error e =>
      have := O.error w e (by rw [hq])
      rw [hy] at this
      cases this

/-- When `append` succeeds. -/
theorem appendDictW_run {g : GRef} {D : GraphDict C} {w : World C} {d : Display C} {h' : Heap} (r : Reachable w.heap) (hg : g < w.heap.nG)
    (hd : w.display g = some d) (hk : D.EdgesKnown) (hr : appendDict g D.plain w.heap = (.ok (), h')) :
    ∃ w', appendDictW g D w = (.ok (), w') ∧ w'.heap = h' ∧ w'.display = upd w.display g (some (d.after D)) := by
  suffices hs : ∃ w', appendDictW g D w = (.ok (), w') by
    obtain ⟨w', hw⟩ := hs
    obtain ⟨-, e1, e2⟩ := appendDictW_ok r hg hd hw
    rw [hr] at e1
    cases e1
    exact ⟨w', hw, rfl, e2⟩
  obtain ⟨A, H⟩ := r.hist
  obtain ⟨_, h1, a1, hr⟩ := seqM_ok hr
  obtain ⟨A1, H1, g1, -⟩ := (Puts.options (g := g) D.strict D.ordering).puts w.heap A H hg
  cases a1
  obtain ⟨_, h2, a2, hr⟩ := seqM_ok hr
  have l1 := labelCheck_still (congrArg Prod.fst a2)
  rw [l1] at a2
  cases a2
  obtain ⟨_, h3, a3, hr⟩ := seqM_ok hr
  obtain ⟨ps, h4, a4, hr⟩ := seqM_ok hr
  have hl := appendLabel_run (w := { w with heap := (graphSetOptions g D.strict D.ordering w.heap).2 }) hd D
  have l2 : (labelCheck D.label (graphSetOptions g D.strict D.ordering w.heap).2).1 = .ok () := congrArg Prod.fst l1
  simp only [l2] at hl
  have hm := modDisplay_run (World.showing_display { w with heap := (graphSetOptions g D.strict D.ordering w.heap).2 } g (d.labelled D)) (·.told D)
  rw [World.showing_again] at hm
  obtain ⟨_, w3, b3, -, rfl, d3⟩ := (Over.nodes g D.nodes).run (w := World.showing { w with heap := (graphSetOptions g D.strict D.ordering w.heap).2 } g ((d.labelled D).told D)) a3
  obtain ⟨known, w4, b4, kn, rfl, d4⟩ := (Over.edges g D.edges).run a4
  have hN : Puts g (appendNodes g D.plain.nodes) D.plain.namesMentioned [] := by
    unfold GDict.namesMentioned
    cases D.plain.nodes with
    | none => exact .raise _ _ _
    | some N => rw [appendNodes_eq]; exact .nodeDict _
  obtain ⟨A3, H3, g3, -⟩ := hN.puts _ A1 H1 (Nat.lt_of_lt_of_le hg g1)
  have a3' : (appendNodes g D.plain.nodes (graphSetOptions g D.strict D.ordering w.heap).2).2 = w3.heap := congrArg Prod.snd a3
  rw [a3'] at H3 g3
  have hknown : known = knownEdges (D.edges.getD []) [] := by
    cases hE : D.edges with
    | none => rw [hE] at b4; simp [appendEdgesW] at b4
    | some l =>
      rw [hE] at b4
      exact appendEdgeListW_known g l H3 (Nat.lt_of_lt_of_le (Nat.lt_of_lt_of_le hg g1) g3) b4
  obtain ⟨p5, -⟩ := settingsW_run (known := known) (g := g) (w := w4) (d := d) (D := D) (by rw [d4, d3, World.showing_display])
  have b5 := p5 (by
    intro x hx
    obtain ⟨p, h1, h2⟩ := hk x hx
    exact ⟨p, h1, by rw [hknown]; exact mem_knownEdges.2 h2⟩)
  refine ⟨w4.showing g (d.appended D known), ?_⟩
  unfold appendDictW
  have b1 : W.lift (C := C) (graphSetOptions g D.strict D.ordering) w = (.ok (), { w with heap := (graphSetOptions g D.strict D.ordering w.heap).2 }) := rfl
  rw [W.bind_apply, b1]
  simp only
  rw [W.bind_apply, hl]
  simp only
  rw [W.bind_apply, hm]
  simp only
  rw [W.bind_apply, b3]
  simp only
  rw [W.bind_apply, b4]
  exact b5

end
end Verif
