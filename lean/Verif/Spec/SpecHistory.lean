import Verif.Spec.MultiGraph
import Verif.Model.History
/-!
# What each call does to the abstract multigraph

`Spec.step A op r` is the abstract state after call `op` returned (or raised) `r`. A call that raises changes
nothing. Only these kinds of calls change anything.
-/
namespace Verif

/-- The name an argument refers to. -/
def Spec.argName (A : Spec) : NodeArg → Option Key
  | .key k => some k
  | .node n => some (A.name n)
  | .other => none

/-- The edge id `connect` talks about. -/
def Spec.connectId (A : Spec) (s t : NodeArg) (r : RawId) : Option EdgeId :=
  match A.argName s, A.argName t with
  | some x, some y => some (x, y, r)
  | _, _ => none

/-- Add edge `e` for `connect(s, t, id)` in graph `g`. -/
def Spec.connect (A : Spec) (g : GRef) (s t : NodeArg) (r : RawId) (e : ERef) : Spec :=
  match A.connectId s t r with
  | some i => A.on g (fun G => G.addEdge i e)
  | none => A

/-- A copy of graph `g` appears as graph `g'`: the same names and edge ids in the same order, with other handles. -/
def Spec.copy (A : Spec) (g g' : GRef) (m : Memo) : Spec :=
  { graph := upd A.graph g' { nodes := (A.graph g).nodes.map (fun p => (p.1, m.node p.2)),
                              edges := (A.graph g).edges.map (fun p => (p.1, m.edge p.2)) },
    name := fun x =>
      match (A.graph g).nodes.find? (fun p => decide (m.node p.2 = x)) with
      | some p => p.1
      | none => A.name x,
    home := fun x => if x ∈ (A.graph g).nodes.map (fun p => m.node p.2) then some g' else A.home x }

/-- The abstract state after `op` returned or raised `r`. -/
def Spec.step (A : Spec) (op : Op) (r : Except PyErr Out) : Spec :=
  match r with
  | .error _ => A
  | .ok out =>
    match op, out with
    | .addNode g x _ _, .node n => A.register g x n (some g)
    | .addNodeObj g n, _ => A.register g (A.name n) n (A.home n)
    | .removeNode g a, _ =>
      match A.argName a with
      | some k => A.unregister g k
      | none => A
    | .connect g s t a _, .edge e => A.connect g s t a.raw e
    | .connectTo n t a _, .edge e =>
      match A.home n with
      | some g => A.connect g (.node n) t a.raw e
      | none => A
    | .connectFrom n s a _, .edge e =>
      match A.home n with
      | some g => A.connect g s (.node n) a.raw e
      | none => A
    | .disconnect e, _ => { A with graph := fun g => (A.graph g).delEdge e }
    | .removeSelf e, _ => { A with graph := fun g => (A.graph g).delEdge e }
    | .copy g, .copied g' m => A.copy g g' m
    | _, _ => A

/-- `Hist h A`: some history of legal calls leads to heap `h` and drives the abstract state to `A`. -/
inductive Hist : Heap → Spec → Prop
  | init : Hist Heap.init Spec.init
  | step {h : Heap} {A : Spec} (op : Op) : Hist h A → op.Ok h →
      Hist (op.step h).2 (A.step op (op.step h).1)

theorem Hist.reachable {h : Heap} {A : Spec} (H : Hist h A) : Reachable h := by
  induction H with
  | init => exact .init
  | step op _ ok ih => exact .step op ih ok

theorem Reachable.hist {h : Heap} (r : Reachable h) : ∃ A, Hist h A := by
  induction r with
  | init => exact ⟨_, .init⟩
  | step op _ ok ih =>
    obtain ⟨A, H⟩ := ih
    exact ⟨_, .step op H ok⟩

end Verif
