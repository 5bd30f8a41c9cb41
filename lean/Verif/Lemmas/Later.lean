import Verif.Lemmas.Frame
import Verif.Lemmas.CopyFresh
/-!
# What no call can change

`Later U V W h h'` collects facts that relate the heap before and after any sequence of calls: identity, index and
tooltip of objects, monotone counters, values of frozen objects and locked styles. `U n` (`V e`) says that node `n`
(edge `e`) may have been unfrozen in between, `W g` that the options of graph `g` may have been set.
-/
namespace Verif
open M

/-- A style that cannot be replaced: it is set, and the object has no graph or one that does not allow overwriting. -/
def Locked (h : Heap) (graph : Option GRef) (style : Option SRef) : Prop :=
  style ≠ none ∧ ∀ g, graph = some g → g < h.nG ∧ (h.graph g).overwrite ≠ some true

/-- One node object before and after. -/
structure NLater (h : Heap) (u : Prop) (o o' : NodeObj) : Prop where
  id : o'.id = o.id
  index : o'.index = o.index
  tooltip : o'.tooltip = o.tooltip
  graph : o'.graph = o.graph ∨ o'.graph = none
  frozen : ¬ u → o.frozen = true → o'.frozen = true ∧ o'.value = o.value
  style : Locked h o.graph o.style → o'.style = o.style

/-- One edge object before and after. -/
structure ELater (h : Heap) (u : Prop) (o o' : EdgeObj) : Prop where
  raw : o'.raw = o.raw ∨ o'.raw = .cleared
  tooltip : o'.tooltip = o.tooltip
  graph : o'.graph = o.graph ∨ o'.graph = none
  frozen : ¬ u → o.frozen = true → o'.frozen = true ∧ o'.value = o.value
  style : Locked h o.graph o.style → o'.style = o.style
  ends : (o'.start = o.start ∨ o'.start = none) ∧ (o'.stop = o.stop ∨ o'.stop = none)

structure Later (U : NRef → Prop) (V : ERef → Prop) (W : GRef → Prop) (h h' : Heap) : Prop where
  nN : h.nN ≤ h'.nN
  nE : h.nE ≤ h'.nE
  nG : h.nG ≤ h'.nG
  graph : ∀ g, g < h.nG → (h.graph g).counter ≤ (h'.graph g).counter ∧ (h'.graph g).overwrite = (h.graph g).overwrite ∧
    (¬ W g → (h'.graph g).strict = (h.graph g).strict ∧ (h'.graph g).ordering = (h.graph g).ordering)
  node : ∀ n, n < h.nN → NLater h (U n) (h.node n) (h'.node n)
  edge : ∀ e, e < h.nE → ELater h (V e) (h.edge e) (h'.edge e)

theorem NLater.refl (h : Heap) (u : Prop) (o : NodeObj) : NLater h u o o :=
  ⟨rfl, rfl, rfl, .inl rfl, fun _ hf => ⟨hf, rfl⟩, fun _ => rfl⟩

theorem ELater.refl (h : Heap) (u : Prop) (o : EdgeObj) : ELater h u o o :=
  ⟨.inl rfl, rfl, .inl rfl, fun _ hf => ⟨hf, rfl⟩, fun _ => rfl, ⟨.inl rfl, .inl rfl⟩⟩

namespace Later
variable {U : NRef → Prop} {V : ERef → Prop} {W : GRef → Prop}

theorem refl (h : Heap) : Later U V W h h :=
  ⟨Nat.le_refl _, Nat.le_refl _, Nat.le_refl _, fun _ _ => ⟨Nat.le_refl _, rfl, fun _ => ⟨rfl, rfl⟩⟩, fun _ _ => .refl _ _ _,
    fun _ _ => .refl _ _ _⟩

theorem locked {h h' : Heap} (L : Later U V W h h') {gr gr' : Option GRef} {st : Option SRef}
    (hg : gr' = gr ∨ gr' = none) (hl : Locked h gr st) : Locked h' gr' st := by
  refine ⟨hl.1, ?_⟩
  intro g hgr
  rcases hg with hg | hg
  · have := hl.2 g (hg ▸ hgr)
    exact ⟨Nat.lt_of_lt_of_le this.1 L.nG, by rw [(L.graph g this.1).2.1]; exact this.2⟩
  · rw [hg] at hgr; cases hgr

theorem trans {h h' h'' : Heap} (a : Later U V W h h') (b : Later U V W h' h'') : Later U V W h h'' where
  nN := Nat.le_trans a.nN b.nN
  nE := Nat.le_trans a.nE b.nE
  nG := Nat.le_trans a.nG b.nG
  graph g hg := by
    obtain ⟨a1, a2, a3⟩ := a.graph g hg
    obtain ⟨b1, b2, b3⟩ := b.graph g (Nat.lt_of_lt_of_le hg a.nG)
    exact ⟨Nat.le_trans a1 b1, b2.trans a2, fun hw => ⟨(b3 hw).1.trans (a3 hw).1, (b3 hw).2.trans (a3 hw).2⟩⟩
  node n hn := by
    have x := a.node n hn
    have y := b.node n (Nat.lt_of_lt_of_le hn a.nN)
    refine ⟨y.id.trans x.id, y.index.trans x.index, y.tooltip.trans x.tooltip, ?_, ?_, ?_⟩
    · rcases y.graph with hy | hy
      · rw [hy]; exact x.graph
      · exact .inr hy
    · intro hu hf
      obtain ⟨f1, v1⟩ := x.frozen hu hf
      obtain ⟨f2, v2⟩ := y.frozen hu f1
      exact ⟨f2, v2.trans v1⟩
    · intro hl
      have e1 := x.style hl
      rw [y.style (by rw [e1]; exact a.locked x.graph hl), e1]
  edge n hn := by
    have x := a.edge n hn
    have y := b.edge n (Nat.lt_of_lt_of_le hn a.nE)
    refine ⟨?_, y.tooltip.trans x.tooltip, ?_, ?_, ?_, ?_⟩
    · rcases y.raw with hy | hy
      · rw [hy]; exact x.raw
      · exact .inr hy
    · rcases y.graph with hy | hy
      · rw [hy]; exact x.graph
      · exact .inr hy
    · intro hu hf
      obtain ⟨f1, v1⟩ := x.frozen hu hf
      obtain ⟨f2, v2⟩ := y.frozen hu f1
      exact ⟨f2, v2.trans v1⟩
    · intro hl
      have e1 := x.style hl
      rw [y.style (by rw [e1]; exact a.locked x.graph hl), e1]
    · refine ⟨?_, ?_⟩
      · rcases y.ends.1 with hy | hy
        · rw [hy]; exact x.ends.1
        · exact .inr hy
      · rcases y.ends.2 with hy | hy
        · rw [hy]; exact x.ends.2
        · exact .inr hy

theorem weaken {U' : NRef → Prop} {V' : ERef → Prop} {W' : GRef → Prop} {h h' : Heap} (L : Later U V W h h')
    (hU : ∀ n, U n → U' n) (hV : ∀ e, V e → V' e) (hW : ∀ g, W g → W' g) : Later U' V' W' h h' where
  nN := L.nN
  nE := L.nE
  nG := L.nG
  graph g hg := ⟨(L.graph g hg).1, (L.graph g hg).2.1, fun hw => (L.graph g hg).2.2 fun hc => hw (hW _ hc)⟩
  node n hn := by
    have x := L.node n hn
    exact ⟨x.id, x.index, x.tooltip, x.graph, fun hu => x.frozen (fun hc => hu (hU _ hc)), x.style⟩
  edge n hn := by
    have x := L.edge n hn
    exact ⟨x.raw, x.tooltip, x.graph, fun hu => x.frozen (fun hc => hu (hV _ hc)), x.style, x.ends⟩

theorem ofNode (h : Heap) (n : NRef) (o : NodeObj) (ho : NLater h (U n) (h.node n) o) :
    Later U V W h { h with node := upd h.node n o } := by
  refine ⟨Nat.le_refl _, Nat.le_refl _, Nat.le_refl _, fun _ _ => ⟨Nat.le_refl _, rfl, fun _ => ⟨rfl, rfl⟩⟩, ?_, fun _ _ => .refl _ _ _⟩
  intro m _
  by_cases hm : m = n
  · subst hm; simpa using ho
  · simp only [upd_ne _ _ hm]; exact .refl _ _ _

theorem ofEdge (h : Heap) (n : ERef) (o : EdgeObj) (ho : ELater h (V n) (h.edge n) o) :
    Later U V W h { h with edge := upd h.edge n o } := by
  refine ⟨Nat.le_refl _, Nat.le_refl _, Nat.le_refl _, fun _ _ => ⟨Nat.le_refl _, rfl, fun _ => ⟨rfl, rfl⟩⟩, fun _ _ => .refl _ _ _, ?_⟩
  intro m _
  by_cases hm : m = n
  · subst hm; simpa using ho
  · simp only [upd_ne _ _ hm]; exact .refl _ _ _

end Later

/-- A call after which everything is `Later`. -/
def Grows {α : Type} (U : NRef → Prop) (V : ERef → Prop) (W : GRef → Prop) (x : M α) : Prop := ∀ h, Later U V W h (x h).2

namespace Grows
variable {U : NRef → Prop} {V : ERef → Prop} {W : GRef → Prop} {α β : Type}

theorem pure (a : α) : Grows U V W (Pure.pure a : M α) := fun h => .refl h
theorem raise (e : PyErr) : Grows U V W (M.raise e : M α) := fun h => .refl h
theorem ask (q : Q α) : Grows U V W (M.ask q) := fun h => .refl h
theorem look (f : Heap → α) : Grows U V W (M.look f) := fun h => .refl h
theorem warn : Grows U V W M.warn := fun _ =>
  ⟨Nat.le_refl _, Nat.le_refl _, Nat.le_refl _, fun _ _ => ⟨Nat.le_refl _, rfl, fun _ => ⟨rfl, rfl⟩⟩, fun _ _ => .refl _ _ _,
    fun _ _ => .refl _ _ _⟩
theorem newStyle : Grows U V W M.newStyle := fun _ =>
  ⟨Nat.le_refl _, Nat.le_refl _, Nat.le_refl _, fun _ _ => ⟨Nat.le_refl _, rfl, fun _ => ⟨rfl, rfl⟩⟩, fun _ _ => .refl _ _ _,
    fun _ _ => .refl _ _ _⟩

theorem bind {x : M α} {f : α → M β} (hx : Grows U V W x) (hf : ∀ a, Grows U V W (f a)) : Grows U V W (x >>= f) := by
  intro h
  simp only [bind_apply]
  have := hx h
  cases hxh : x h with
  | mk r h' =>
    rw [hxh] at this
    cases r with
    | ok a => exact this.trans (hf a h')
    | error e => exact this

theorem ite {c : Prop} [Decidable c] {x y : M α} (hx : Grows U V W x) (hy : Grows U V W y) : Grows U V W (if c then x else y) := by
  split
  · exact hx
  · exact hy

theorem onlyIf {c : Prop} [Decidable c] {x : M Unit} (hx : Grows U V W x) : Grows U V W (Verif.onlyIf c x) := ite hx (.pure _)

theorem check (p : IfExists) (e : PyErr) : Grows U V W (p.check e) := by
  cases p
  · exact .pure _
  · exact .warn
  · exact .raise _

/-- A node modification that touches only label, parameters, edges, or forgets the graph. -/
theorem modNode {n : NRef} {f : NodeObj → NodeObj} (hf : ∀ h o, NLater h (U n) o (f o)) : Grows U V W (M.modNode n f) :=
  fun h => Later.ofNode h n _ (hf h _)

theorem modEdge {n : ERef} {f : EdgeObj → EdgeObj} (hf : ∀ h o, ELater h (V n) o (f o)) : Grows U V W (M.modEdge n f) :=
  fun h => Later.ofEdge h n _ (hf h _)

theorem modGraph {g : GRef} {f : GraphObj → GraphObj} (h1 : ∀ o, o.counter ≤ (f o).counter)
    (h2 : ∀ o, (f o).overwrite = o.overwrite) (h3 : ¬ W g → ∀ o, (f o).strict = o.strict ∧ (f o).ordering = o.ordering) :
    Grows U V W (M.modGraph g f) := by
  intro h
  refine ⟨Nat.le_refl _, Nat.le_refl _, Nat.le_refl _, ?_, fun _ _ => .refl _ _ _, fun _ _ => .refl _ _ _⟩
  intro g' _
  simp only [M.modGraph]
  by_cases hg : g' = g
  · subst hg; simp only [upd_same]; exact ⟨h1 _, h2 _, fun hw => h3 hw _⟩
  · simp [upd_ne _ _ hg]

theorem newNode (o : NodeObj) : Grows U V W (M.newNode o) := by
  intro h
  refine ⟨Nat.le_succ _, Nat.le_refl _, Nat.le_refl _, fun _ _ => ⟨Nat.le_refl _, rfl, fun _ => ⟨rfl, rfl⟩⟩, ?_, fun _ _ => .refl _ _ _⟩
  intro n hn
  simp only [M.newNode, upd_ne _ _ (Nat.ne_of_lt hn)]
  exact .refl _ _ _

theorem newEdge (o : EdgeObj) : Grows U V W (M.newEdge o) := by
  intro h
  refine ⟨Nat.le_refl _, Nat.le_succ _, Nat.le_refl _, fun _ _ => ⟨Nat.le_refl _, rfl, fun _ => ⟨rfl, rfl⟩⟩, fun _ _ => .refl _ _ _, ?_⟩
  intro n hn
  simp only [M.newEdge, upd_ne _ _ (Nat.ne_of_lt hn)]
  exact .refl _ _ _

theorem newGraph (o : GraphObj) : Grows U V W (M.newGraph o) := by
  intro h
  refine ⟨Nat.le_refl _, Nat.le_refl _, Nat.le_succ _, ?_, fun _ _ => .refl _ _ _, fun _ _ => .refl _ _ _⟩
  intro g hg
  simp [M.newGraph, upd_ne _ _ (Nat.ne_of_lt hg)]

theorem resolveStyle (old : Option SRef) (s : StyleArg) : Grows U V W (Verif.resolveStyle old s) := by
  unfold Verif.resolveStyle
  split
  · exact newStyle.bind fun _ => .pure _
  · exact .raise _
  · exact .pure _
  · exact .pure _
  · exact .raise _

/-- The overwrite check rejects every locked style. -/
theorem checkOverwrite_locked {h : Heap} {gr : Option GRef} {st : Option SRef} (hl : Locked h gr st) :
    ∃ err, Verif.checkOverwrite st gr h = (.error err, h) := by
  obtain ⟨s, rfl⟩ := Option.ne_none_iff_exists'.1 hl.1
  cases gr with
  | none => exact ⟨_, rfl⟩
  | some g =>
    have := (hl.2 g rfl).2
    simp only [Verif.checkOverwrite, bind_apply, look_apply]
    cases ho : (h.graph g).overwrite with
    | none => exact ⟨_, rfl⟩
    | some b =>
      cases b with
      | false => exact ⟨_, rfl⟩
      | true => exact absurd ho this

theorem nodeSetStyle (n : NRef) (s : StyleArg) : Grows U V W (Verif.nodeSetStyle n s) := by
  intro h
  simp only [Verif.nodeSetStyle, bind_apply, look_apply]
  by_cases hl : Locked h (h.node n).graph (h.node n).style
  · obtain ⟨err, he⟩ := checkOverwrite_locked hl
    rw [he]
    exact .refl h
  · have hh := checkOverwrite_heap (h.node n).style (h.node n).graph h
    cases hc : Verif.checkOverwrite (h.node n).style (h.node n).graph h with
    | mk r h1 =>
      rw [hc] at hh
      simp only at hh
      subst hh
      cases r with
      | error err => exact .refl _
      | ok u =>
        simp only [run_resolveStyle]
        have L1 : Later U V W h1 { h1 with nStyle := styleCount h1.nStyle s } :=
          ⟨Nat.le_refl _, Nat.le_refl _, Nat.le_refl _, fun _ _ => ⟨Nat.le_refl _, rfl, fun _ => ⟨rfl, rfl⟩⟩,
            fun _ _ => .refl _ _ _, fun _ _ => .refl _ _ _⟩
        cases styleResult (h1.node n).style h1.nStyle s with
        | none => exact L1
        | some sr =>
          refine L1.trans (Later.ofNode _ n _ ?_)
          exact ⟨rfl, rfl, rfl, .inl rfl, fun _ hf => ⟨hf, rfl⟩, fun hc => absurd hc hl⟩

theorem edgeSetStyle (n : ERef) (s : StyleArg) : Grows U V W (Verif.edgeSetStyle n s) := by
  intro h
  simp only [Verif.edgeSetStyle, bind_apply, look_apply]
  by_cases hl : Locked h (h.edge n).graph (h.edge n).style
  · obtain ⟨err, he⟩ := checkOverwrite_locked hl
    rw [he]
    exact .refl h
  · have hh := checkOverwrite_heap (h.edge n).style (h.edge n).graph h
    cases hc : Verif.checkOverwrite (h.edge n).style (h.edge n).graph h with
    | mk r h1 =>
      rw [hc] at hh
      simp only at hh
      subst hh
      cases r with
      | error err => exact .refl _
      | ok u =>
        simp only [run_resolveStyle]
        have L1 : Later U V W h1 { h1 with nStyle := styleCount h1.nStyle s } :=
          ⟨Nat.le_refl _, Nat.le_refl _, Nat.le_refl _, fun _ _ => ⟨Nat.le_refl _, rfl, fun _ => ⟨rfl, rfl⟩⟩,
            fun _ _ => .refl _ _ _, fun _ _ => .refl _ _ _⟩
        cases styleResult (h1.edge n).style h1.nStyle s with
        | none => exact L1
        | some sr =>
          refine L1.trans (Later.ofEdge _ n _ ?_)
          exact ⟨.inl rfl, rfl, .inl rfl, fun _ hf => ⟨hf, rfl⟩, fun hc => absurd hc hl, ⟨.inl rfl, .inl rfl⟩⟩

theorem nodeSetValue (n : NRef) (v : Val) : Grows U V W (Verif.nodeSetValue n v) := by
  intro h
  simp only [Verif.nodeSetValue, bind_apply, look_apply]
  split
  · exact .refl h
  · next hf =>
    refine Later.ofNode h n _ ⟨rfl, rfl, rfl, .inl rfl, fun _ hc => absurd hc hf, fun _ => rfl⟩

theorem edgeSetValue (n : ERef) (v : Val) : Grows U V W (Verif.edgeSetValue n v) := by
  intro h
  simp only [Verif.edgeSetValue, bind_apply, look_apply]
  split
  · exact .refl h
  · next hf =>
    refine Later.ofEdge h n _ ⟨.inl rfl, rfl, .inl rfl, fun _ hc => absurd hc hf, fun _ => rfl, ⟨.inl rfl, .inl rfl⟩⟩

theorem nodeSetLabel (n : NRef) (v : Val) : Grows U V W (Verif.nodeSetLabel n v) :=
  modNode fun _ _ => ⟨rfl, rfl, rfl, .inl rfl, fun _ hf => ⟨hf, rfl⟩, fun _ => rfl⟩

theorem edgeSetLabel (n : ERef) (v : Val) : Grows U V W (Verif.edgeSetLabel n v) :=
  modEdge fun _ _ => ⟨.inl rfl, rfl, .inl rfl, fun _ hf => ⟨hf, rfl⟩, fun _ => rfl, ⟨.inl rfl, .inl rfl⟩⟩

theorem nodeSetParam (n : NRef) (k : String) (v : Val) : Grows U V W (Verif.nodeSetParam n k v) :=
  modNode fun _ _ => ⟨rfl, rfl, rfl, .inl rfl, fun _ hf => ⟨hf, rfl⟩, fun _ => rfl⟩

theorem edgeSetParam (n : ERef) (k : String) (v : Val) : Grows U V W (Verif.edgeSetParam n k v) :=
  modEdge fun _ _ => ⟨.inl rfl, rfl, .inl rfl, fun _ hf => ⟨hf, rfl⟩, fun _ => rfl, ⟨.inl rfl, .inl rfl⟩⟩

theorem nodeFreeze (n : NRef) (b : Bool) (hb : b = false → U n) : Grows U V W (Verif.nodeFreeze n b) := by
  refine modNode fun _ _ => ⟨rfl, rfl, rfl, .inl rfl, fun hu hf => ⟨?_, rfl⟩, fun _ => rfl⟩
  cases b
  · exact absurd (hb rfl) hu
  · rfl

theorem edgeFreeze (n : ERef) (b : Bool) (hb : b = false → V n) : Grows U V W (Verif.edgeFreeze n b) := by
  refine modEdge fun _ _ => ⟨.inl rfl, rfl, .inl rfl, fun hu hf => ⟨?_, rfl⟩, fun _ => rfl, ⟨.inl rfl, .inl rfl⟩⟩
  cases b
  · exact absurd (hb rfl) hu
  · rfl

theorem nodeUpdate (n : NRef) (l v : Val) (s : StyleArg) : Grows U V W (Verif.nodeUpdate n l v s) :=
  (onlyIf (nodeSetStyle _ _)).bind fun _ => (onlyIf (nodeSetLabel _ _)).bind fun _ => onlyIf (nodeSetValue _ _)

theorem edgeUpdate (n : ERef) (l v : Val) (s : StyleArg) : Grows U V W (Verif.edgeUpdate n l v s) :=
  (onlyIf (edgeSetStyle _ _)).bind fun _ => (onlyIf (edgeSetLabel _ _)).bind fun _ => onlyIf (edgeSetValue _ _)

theorem generateNodeIndex (g : GRef) : Grows U V W (Verif.generateNodeIndex g) := by
  refine (look _).bind fun _ => bind ?_ fun _ => .pure _
  exact modGraph (fun _ => Nat.le_succ _) (fun _ => rfl) (fun _ _ => ⟨rfl, rfl⟩)

theorem setNodes (g : GRef) (f : Dict Key NRef → Dict Key NRef) :
    Grows U V W (M.modGraph g (fun o => { o with nodes := f o.nodes })) :=
  modGraph (fun _ => Nat.le_refl _) (fun _ => rfl) (fun _ _ => ⟨rfl, rfl⟩)

theorem nodeInit (g : GRef) (name : Key) (value label tooltip : Val) (style : StyleArg) (index : Nat)
    (kwargs : Dict String Val) : Grows U V W (Verif.nodeInit g name value label tooltip style index kwargs) :=
  (resolveStyle _ _).bind fun _ => (newNode _).bind fun n => (setNodes g (fun d => dset d name n)).bind fun _ => .pure _

theorem addNode (g : GRef) (name : Key) (a : NodeArgs) (p : IfExists) : Grows U V W (Verif.addNode g name a p) := by
  cases name with
  | int i => exact .raise _
  | str x =>
    refine (look _).bind fun d => ?_
    split
    · exact (check _ _).bind fun _ => (ask _).bind fun _ => (nodeUpdate _ _ _ _).bind fun _ => .pure _
    · exact (generateNodeIndex g).bind fun _ => (nodeInit _ _ _ _ _ _ _ _).bind fun n =>
        (setNodes g (fun d => dset d (Key.str x) n)).bind fun _ => .pure _

theorem addNodeObj (g : GRef) (n : NRef) : Grows U V W (Verif.addNodeObj g n) := by
  refine (look _).bind fun o => (look _).bind fun d => ?_
  split
  · exact ite (.pure _) (.raise _)
  · exact ite (.raise _) ((setNodes g (fun d => dset d o.id n)).bind fun _ => .pure _)

theorem removeOutwardEdge (n : NRef) (i : EdgeId) : Grows U V W (Verif.removeOutwardEdge n i) := by
  refine (look _).bind fun o => ?_
  split
  · exact .raise _
  · exact modNode fun _ _ => ⟨rfl, rfl, rfl, .inl rfl, fun _ hf => ⟨hf, rfl⟩, fun _ => rfl⟩

theorem removeInwardEdge (n : NRef) (i : EdgeId) : Grows U V W (Verif.removeInwardEdge n i) := by
  refine (look _).bind fun o => ?_
  split
  · exact .raise _
  · exact modNode fun _ _ => ⟨rfl, rfl, rfl, .inl rfl, fun _ hf => ⟨hf, rfl⟩, fun _ => rfl⟩

theorem edgeRemoveSelf (e : ERef) : Grows U V W (Verif.edgeRemoveSelf e) := by
  refine (look _).bind fun o => ite (.raise _) ?_
  exact (ask _).bind fun _ => (ask _).bind fun _ => (removeOutwardEdge _ _).bind fun _ => (ask _).bind fun _ =>
    (ask _).bind fun _ => (removeInwardEdge _ _).bind fun _ =>
      modEdge fun _ _ => ⟨.inl rfl, rfl, .inr rfl, fun _ hf => ⟨hf, rfl⟩, fun _ => rfl, ⟨.inr rfl, .inr rfl⟩⟩

theorem disconnect (e : ERef) : Grows U V W (Verif.disconnect e) :=
  (ask _).bind fun _ => (ask _).bind fun _ => (removeOutwardEdge _ _).bind fun _ => (ask _).bind fun _ =>
    (ask _).bind fun _ => (removeInwardEdge _ _).bind fun _ =>
      modEdge fun _ _ => ⟨.inr rfl, rfl, .inr rfl, fun _ hf => ⟨hf, rfl⟩, fun _ => rfl, ⟨.inl rfl, .inl rfl⟩⟩

theorem removeAll (es : List ERef) : Grows U V W (Verif.removeAll es) := by
  induction es with
  | nil => exact .pure _
  | cons e es ih => exact (edgeRemoveSelf e).bind fun _ => ih

theorem removeNode (g : GRef) (a : NodeArg) : Grows U V W (Verif.removeNode g a) := by
  refine (ask _).bind fun n => (((ask _).bind fun _ => removeAll _) : Grows U V W (Verif.removeEdges n)).bind fun _ =>
    bind ?_ fun _ => (look _).bind fun o => (look _).bind fun d => ?_
  · exact modNode fun _ _ => ⟨rfl, rfl, rfl, .inr rfl, fun _ hf => ⟨hf, rfl⟩, fun _ => rfl⟩
  · split
    · exact .raise _
    · exact setNodes g (fun d => ddel d o.id)

theorem edgeInit (g : GRef) (s t : NRef) (raw : RawId) (value label tooltip : Val) (style : StyleArg)
    (kwargs : Dict String Val) : Grows U V W (Verif.edgeInit g s t raw value label tooltip style kwargs) := by
  refine (resolveStyle _ _).bind fun _ => (newEdge _).bind fun _ => (ask _).bind fun _ => bind ?_ fun _ =>
    (ask _).bind fun _ => bind ?_ fun _ => .pure _
  · exact modNode fun _ _ => ⟨rfl, rfl, rfl, .inl rfl, fun _ hf => ⟨hf, rfl⟩, fun _ => rfl⟩
  · exact modNode fun _ _ => ⟨rfl, rfl, rfl, .inl rfl, fun _ hf => ⟨hf, rfl⟩, fun _ => rfl⟩

theorem connect (g : GRef) (s t : NodeArg) (a : EdgeArgs) (p : IfExists) : Grows U V W (Verif.connect g s t a p) := by
  refine (ask _).bind fun n => (ask _).bind fun m => (look _).bind fun so => (look _).bind fun t' => ?_
  refine ite (edgeInit _ _ _ _ _ _ _ _ _) (ite ?_ ?_)
  · refine (check _ _).bind fun _ => ?_
    split
    · exact .raise _
    · exact (edgeUpdate _ _ _ _).bind fun _ => .pure _
  · refine (ask _).bind fun _ => (ask _).bind fun _ => ite ?_ (.raise _)
    exact (ask _).bind fun _ => (ask _).bind fun _ => .raise _

theorem graphCopy (g : GRef) : Grows U V W (Verif.graphCopy g) := by
  intro h
  obtain ⟨m, F⟩ := graphCopy_fresh g h
  refine ⟨F.nN, F.nE, F.nG, fun x hx => ?_, fun n hn => ?_, fun e he => ?_⟩
  · rw [F.graph x hx]; exact ⟨Nat.le_refl _, rfl, fun _ => ⟨rfl, rfl⟩⟩
  · rw [F.node n hn]; exact .refl _ _ _
  · rw [F.edge e he]; exact .refl _ _ _

/-- Which node a call may unfreeze. -/
def unfreezesNode : Op → NRef → Prop
  | .nodeFreeze n false, m => m = n
  | _, _ => False

/-- Which edge a call may unfreeze. -/
def unfreezesEdge : Op → ERef → Prop
  | .edgeFreeze n false, m => m = n
  | _, _ => False

/-- Whose options a call may set. -/
def setsOptions : Op → GRef → Prop
  | .setOptions g _ _, g' => g' = g
  | _, _ => False

theorem step (op : Op) : Grows (unfreezesNode op) (unfreezesEdge op) (setsOptions op) op.step := by
  cases op with
  | newGraph s o w => exact (newGraph _).bind fun _ => .pure _
  | addNode g x a p => exact (addNode _ _ _ _).bind fun _ => .pure _
  | addNodeObj g n =>
    refine (addNodeObj _ _).bind fun o => ?_
    split <;> exact .pure _
  | removeNode g a => exact (removeNode _ _).bind fun _ => .pure _
  | connect g s t a p => exact (connect _ _ _ _ _).bind fun _ => .pure _
  | connectTo n t a p => exact ((ask _).bind fun _ => connect _ _ _ _ _ : Grows _ _ _ (Verif.connectTo n t a p)).bind fun _ => .pure _
  | connectFrom n t a p => exact ((ask _).bind fun _ => connect _ _ _ _ _ : Grows _ _ _ (Verif.connectFrom n t a p)).bind fun _ => .pure _
  | disconnect e => exact (disconnect _).bind fun _ => .pure _
  | removeSelf e => exact (edgeRemoveSelf _).bind fun _ => .pure _
  | nodeValue n v => exact (nodeSetValue _ _).bind fun _ => .pure _
  | nodeLabel n v => exact (nodeSetLabel _ _).bind fun _ => .pure _
  | nodeStyle n s => exact (nodeSetStyle _ _).bind fun _ => .pure _
  | nodeFreeze n b =>
    refine (nodeFreeze _ _ ?_).bind fun _ => .pure _
    rintro rfl; rfl
  | nodeParam n k v => exact (nodeSetParam _ _ _).bind fun _ => .pure _
  | edgeValue n v => exact (edgeSetValue _ _).bind fun _ => .pure _
  | edgeLabel n v => exact (edgeSetLabel _ _).bind fun _ => .pure _
  | edgeStyle n s => exact (edgeSetStyle _ _).bind fun _ => .pure _
  | edgeFreeze n b =>
    refine (edgeFreeze _ _ ?_).bind fun _ => .pure _
    rintro rfl; rfl
  | edgeParam n k v => exact (edgeSetParam _ _ _).bind fun _ => .pure _
  | copy g => exact (graphCopy _).bind fun _ => .pure _
  | setOptions g s o =>
    have : Grows (unfreezesNode (.setOptions g s o)) (unfreezesEdge (.setOptions g s o)) (setsOptions (.setOptions g s o))
        (graphSetOptions g s o) :=
      modGraph (fun _ => Nat.le_refl _) (fun _ => rfl) (fun hw => absurd (by rfl) hw)
    exact this.bind fun _ => .pure _

end Grows

/-- Any sequence of calls. -/
theorem Later.runOps (ops : List Op) (h : Heap) :
    Later (fun n => ∃ op ∈ ops, Grows.unfreezesNode op n) (fun e => ∃ op ∈ ops, Grows.unfreezesEdge op e)
      (fun g => ∃ op ∈ ops, Grows.setsOptions op g) h (Verif.runOps ops h) := by
  induction ops generalizing h with
  | nil => exact .refl h
  | cons op ops ih =>
    refine ((Grows.step op h).weaken ?_ ?_ ?_).trans ((ih _).weaken ?_ ?_ ?_)
    · intro n hn; exact ⟨op, by simp, hn⟩
    · intro n hn; exact ⟨op, by simp, hn⟩
    · intro n hn; exact ⟨op, by simp, hn⟩
    · rintro n ⟨o, ho, hn⟩; exact ⟨o, by simp [ho], hn⟩
    · rintro n ⟨o, ho, hn⟩; exact ⟨o, by simp [ho], hn⟩
    · rintro n ⟨o, ho, hn⟩; exact ⟨o, by simp [ho], hn⟩

end Verif
