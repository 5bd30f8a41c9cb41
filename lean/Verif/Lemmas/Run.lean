import Verif.Lemmas.RunEdge
/-!
# Running the other calls
-/
namespace Verif
open M

/-- Two heaps with the same structure: only labels, values, styles, parameters, freezing, counters of graphs,
styles and warnings may differ. -/
structure SameStruct (h h' : Heap) : Prop where
  gnodes : ∀ g, (h'.graph g).nodes = (h.graph g).nodes
  id : ∀ n, (h'.node n).id = (h.node n).id
  ngraph : ∀ n, (h'.node n).graph = (h.node n).graph
  out : ∀ n, (h'.node n).outE = (h.node n).outE
  inn : ∀ n, (h'.node n).inE = (h.node n).inE
  edge : ∀ e, (h'.edge e).graph = (h.edge e).graph ∧ (h'.edge e).raw = (h.edge e).raw ∧
      (h'.edge e).start = (h.edge e).start ∧ (h'.edge e).stop = (h.edge e).stop
  nN : h'.nN = h.nN
  nE : h'.nE = h.nE
  nG : h'.nG = h.nG

namespace SameStruct

theorem refl (h : Heap) : SameStruct h h :=
  ⟨fun _ => rfl, fun _ => rfl, fun _ => rfl, fun _ => rfl, fun _ => rfl, fun _ => ⟨rfl, rfl, rfl, rfl⟩, rfl, rfl, rfl⟩

theorem trans {h h' h'' : Heap} (a : SameStruct h h') (b : SameStruct h' h'') : SameStruct h h'' where
  gnodes g := (b.gnodes g).trans (a.gnodes g)
  id n := (b.id n).trans (a.id n)
  ngraph n := (b.ngraph n).trans (a.ngraph n)
  out n := (b.out n).trans (a.out n)
  inn n := (b.inn n).trans (a.inn n)
  edge e := ⟨(b.edge e).1.trans (a.edge e).1, (b.edge e).2.1.trans (a.edge e).2.1,
    (b.edge e).2.2.1.trans (a.edge e).2.2.1, (b.edge e).2.2.2.trans (a.edge e).2.2.2⟩
  nN := b.nN.trans a.nN
  nE := b.nE.trans a.nE
  nG := b.nG.trans a.nG

theorem rep {h h' : Heap} {A : Spec} (s : SameStruct h h') (R : Rep h A) : Rep h' A :=
  R.congr s.gnodes s.id s.ngraph s.out s.inn s.edge s.nN s.nE s.nG

theorem ofNode (h : Heap) (n : NRef) (o : NodeObj) (h1 : o.id = (h.node n).id) (h2 : o.graph = (h.node n).graph)
    (h3 : o.outE = (h.node n).outE) (h4 : o.inE = (h.node n).inE) :
    SameStruct h { h with node := upd h.node n o } := by
  refine ⟨fun _ => rfl, ?_, ?_, ?_, ?_, fun _ => ⟨rfl, rfl, rfl, rfl⟩, rfl, rfl, rfl⟩ <;>
  · intro x
    by_cases hx : x = n
    · subst hx; simpa
    · simp [upd_ne _ _ hx]

theorem ofEdge (h : Heap) (e : ERef) (o : EdgeObj) (h1 : o.graph = (h.edge e).graph) (h2 : o.raw = (h.edge e).raw)
    (h3 : o.start = (h.edge e).start) (h4 : o.stop = (h.edge e).stop) :
    SameStruct h { h with edge := upd h.edge e o } := by
  refine ⟨fun _ => rfl, fun _ => rfl, fun _ => rfl, fun _ => rfl, fun _ => rfl, ?_, rfl, rfl, rfl⟩
  intro x
  by_cases hx : x = e
  · subst hx; simp [h1, h2, h3, h4]
  · simp [upd_ne _ _ hx]

theorem ofGraph (h : Heap) (g : GRef) (o : GraphObj) (h1 : o.nodes = (h.graph g).nodes) :
    SameStruct h { h with graph := upd h.graph g o } := by
  refine ⟨?_, fun _ => rfl, fun _ => rfl, fun _ => rfl, fun _ => rfl, fun _ => ⟨rfl, rfl, rfl, rfl⟩, rfl, rfl, rfl⟩
  intro x
  by_cases hx : x = g
  · subst hx; simp [h1]
  · simp [upd_ne _ _ hx]

theorem ofStyle (h : Heap) (k : Nat) : SameStruct h { h with nStyle := k } :=
  ⟨fun _ => rfl, fun _ => rfl, fun _ => rfl, fun _ => rfl, fun _ => rfl, fun _ => ⟨rfl, rfl, rfl, rfl⟩, rfl, rfl, rfl⟩

theorem ofWarn (h : Heap) (k : Nat) : SameStruct h { h with warns := k } :=
  ⟨fun _ => rfl, fun _ => rfl, fun _ => rfl, fun _ => rfl, fun _ => rfl, fun _ => ⟨rfl, rfl, rfl, rfl⟩, rfl, rfl, rfl⟩

end SameStruct

/-- A call that never changes the structure. -/
def Calm {α : Type} (x : M α) : Prop := ∀ h, SameStruct h (x h).2

namespace Calm

theorem pure {α : Type} (a : α) : Calm (Pure.pure a : M α) := fun h => SameStruct.refl h
theorem raise {α : Type} (e : PyErr) : Calm (M.raise e : M α) := fun h => SameStruct.refl h
theorem ask {α : Type} (q : Q α) : Calm (M.ask q) := fun h => SameStruct.refl h
theorem look {α : Type} (f : Heap → α) : Calm (M.look f) := fun h => SameStruct.refl h
theorem warn : Calm M.warn := fun h => SameStruct.ofWarn h _
theorem newStyle : Calm M.newStyle := fun h => SameStruct.ofStyle h _

theorem bind {α β : Type} {x : M α} {f : α → M β} (hx : Calm x) (hf : ∀ a, Calm (f a)) : Calm (x >>= f) := by
  intro h
  simp only [bind_apply]
  have := hx h
  cases hxh : x h with
  | mk r h' =>
    rw [hxh] at this
    cases r with
    | ok a => exact this.trans (hf a h')
    | error e => exact this

theorem modNode {n : NRef} {f : NodeObj → NodeObj} (h1 : ∀ o, (f o).id = o.id) (h2 : ∀ o, (f o).graph = o.graph)
    (h3 : ∀ o, (f o).outE = o.outE) (h4 : ∀ o, (f o).inE = o.inE) : Calm (M.modNode n f) :=
  fun h => SameStruct.ofNode h n _ (h1 _) (h2 _) (h3 _) (h4 _)

theorem modEdge {n : ERef} {f : EdgeObj → EdgeObj} (h1 : ∀ o, (f o).graph = o.graph) (h2 : ∀ o, (f o).raw = o.raw)
    (h3 : ∀ o, (f o).start = o.start) (h4 : ∀ o, (f o).stop = o.stop) : Calm (M.modEdge n f) :=
  fun h => SameStruct.ofEdge h n _ (h1 _) (h2 _) (h3 _) (h4 _)

theorem modGraph {g : GRef} {f : GraphObj → GraphObj} (h1 : ∀ o, (f o).nodes = o.nodes) : Calm (M.modGraph g f) :=
  fun h => SameStruct.ofGraph h g _ (h1 _)

theorem resolveStyle (old : Option SRef) (s : StyleArg) : Calm (Verif.resolveStyle old s) := by
  unfold Verif.resolveStyle
  split
  · exact newStyle.bind fun _ => .pure _
  · exact .raise _
  · exact .pure _
  · exact .pure _
  · exact .raise _

theorem checkOverwrite (s : Option SRef) (g : Option GRef) : Calm (Verif.checkOverwrite s g) := by
  unfold Verif.checkOverwrite
  split
  · exact .pure _
  · split
    · exact .raise _
    · refine (look _).bind fun o => ?_
      split
      · exact .raise _
      · exact .raise _
      · exact .pure _

theorem nodeSetStyle (n : NRef) (s : StyleArg) : Calm (Verif.nodeSetStyle n s) :=
  (look _).bind fun _ => (checkOverwrite _ _).bind fun _ => (resolveStyle _ _).bind fun _ =>
    modNode (fun _ => rfl) (fun _ => rfl) (fun _ => rfl) (fun _ => rfl)

theorem edgeSetStyle (n : ERef) (s : StyleArg) : Calm (Verif.edgeSetStyle n s) :=
  (look _).bind fun _ => (checkOverwrite _ _).bind fun _ => (resolveStyle _ _).bind fun _ =>
    modEdge (fun _ => rfl) (fun _ => rfl) (fun _ => rfl) (fun _ => rfl)

theorem nodeSetValue (n : NRef) (v : Val) : Calm (Verif.nodeSetValue n v) := by
  refine (look _).bind fun o => ?_
  split
  · exact .raise _
  · exact modNode (fun _ => rfl) (fun _ => rfl) (fun _ => rfl) (fun _ => rfl)

theorem edgeSetValue (n : ERef) (v : Val) : Calm (Verif.edgeSetValue n v) := by
  refine (look _).bind fun o => ?_
  split
  · exact .raise _
  · exact modEdge (fun _ => rfl) (fun _ => rfl) (fun _ => rfl) (fun _ => rfl)

theorem nodeSetLabel (n : NRef) (v : Val) : Calm (Verif.nodeSetLabel n v) :=
  modNode (fun _ => rfl) (fun _ => rfl) (fun _ => rfl) (fun _ => rfl)

theorem edgeSetLabel (n : ERef) (v : Val) : Calm (Verif.edgeSetLabel n v) :=
  modEdge (fun _ => rfl) (fun _ => rfl) (fun _ => rfl) (fun _ => rfl)

theorem ite {α : Type} {c : Prop} [Decidable c] {x y : M α} (hx : Calm x) (hy : Calm y) : Calm (if c then x else y) := by
  split
  · exact hx
  · exact hy

theorem onlyIf {c : Prop} [Decidable c] {x : M Unit} (hx : Calm x) : Calm (Verif.onlyIf c x) := ite hx (.pure _)

theorem check (p : IfExists) (e : PyErr) : Calm (p.check e) := by
  cases p
  · exact .pure _
  · exact .warn
  · exact .raise _

theorem nodeUpdate (n : NRef) (l v : Val) (s : StyleArg) : Calm (Verif.nodeUpdate n l v s) :=
  (onlyIf (nodeSetStyle _ _)).bind fun _ => (onlyIf (nodeSetLabel _ _)).bind fun _ =>
    onlyIf (nodeSetValue _ _)

theorem edgeUpdate (n : ERef) (l v : Val) (s : StyleArg) : Calm (Verif.edgeUpdate n l v s) :=
  (onlyIf (edgeSetStyle _ _)).bind fun _ => (onlyIf (edgeSetLabel _ _)).bind fun _ =>
    onlyIf (edgeSetValue _ _)

end Calm
end Verif
