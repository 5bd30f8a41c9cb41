import Verif.Model.Stylize
import Verif.Lemmas.TraverseTop
/-!
# Structural queries do not look at styles

`strip h` is `h` without any style; all queries about the structure give the same answer on it.
-/
namespace Verif

/-- Forget all styles. -/
def strip (h : Heap) : Heap :=
  { h with node := fun n => { h.node n with style := none }, edge := fun e => { h.edge e with style := none }, nStyle := 0 }

namespace Strip
variable (h : Heap)

theorem getNode (g : GRef) (a : NodeArg) : Verif.getNode (strip h) g a = Verif.getNode h g a := by cases a <;> rfl

theorem memEdge (e : ERef) (l : List ERef) : Verif.memEdge (strip h) e l = Verif.memEdge h e l := by
  induction l with
  | nil => rfl
  | cons x l ih => simp only [Verif.memEdge, ih]; rfl

theorem dedupEdges (l r : List ERef) : Verif.dedupEdges (strip h) l r = Verif.dedupEdges h l r := by
  induction l generalizing r with
  | nil => rfl
  | cons x l ih => simp only [Verif.dedupEdges, ih, memEdge]

theorem outwardEdges (n : NRef) : Verif.outwardEdges (strip h) n = Verif.outwardEdges h n := dedupEdges h _ _

theorem inwardEdges (n : NRef) : Verif.inwardEdges (strip h) n = Verif.inwardEdges h n := dedupEdges h _ _

theorem nodeEdges (n : NRef) : Verif.nodeEdges (strip h) n = Verif.nodeEdges h n := by
  unfold Verif.nodeEdges
  simp only [dedupEdges]
  rfl

theorem graphNodes (g : GRef) : Verif.graphNodes (strip h) g = Verif.graphNodes h g := rfl

theorem graphEdges (g : GRef) : Verif.graphEdges (strip h) g = Verif.graphEdges h g := by
  unfold Verif.graphEdges
  simp only [nodeEdges, dedupEdges, graphNodes]

theorem edgesDict (g : GRef) : Verif.edgesDict (strip h) g = Verif.edgesDict h g := by
  unfold Verif.edgesDict
  simp only [outwardEdges, graphNodes]
  rfl

theorem getParents (g : GRef) (a : NodeArg) : Verif.getParents (strip h) g a = Verif.getParents h g a := by
  simp only [Verif.getParents, Verif.getInwardEdges, getNode, inwardEdges]; rfl

theorem getChildren (g : GRef) (a : NodeArg) : Verif.getChildren (strip h) g a = Verif.getChildren h g a := by
  simp only [Verif.getChildren, Verif.getOutwardEdges, getNode, outwardEdges]; rfl

theorem nodeParents (n : NRef) : Verif.nodeParents (strip h) n = Verif.nodeParents h n := by
  simp only [Verif.nodeParents, getParents]; rfl

theorem nodeChildren (n : NRef) : Verif.nodeChildren (strip h) n = Verif.nodeChildren h n := by
  simp only [Verif.nodeChildren, getChildren]; rfl

theorem nodeLt (a b : NRef) : Verif.nodeLt (strip h) a b = Verif.nodeLt h a b := rfl

theorem memNode (x : NRef) (l : List NRef) : Verif.memNode (strip h) x l = Verif.memNode h x l := rfl

theorem insertNode (x : NRef) (l : List NRef) : Verif.insertNode (strip h) x l = Verif.insertNode h x l := by
  induction l with
  | nil => rfl
  | cons y l ih => simp only [Verif.insertNode, ih, nodeLt]

theorem sortNodes (l : List NRef) : Verif.sortNodes (strip h) l = Verif.sortNodes h l := by
  simp only [Verif.sortNodes, insertNode]

theorem getChildRank (n p : NRef) : Verif.getChildRank (strip h) n p = Verif.getChildRank h n p := by
  simp only [Verif.getChildRank, nodeChildren, sortNodes, memNode]; rfl

theorem memNode' : Verif.memNode (strip h) = Verif.memNode h := rfl

theorem ancestorsRec (g : GRef) (fuel : Nat) (a : NodeArg) (t : List NRef) :
    Verif.ancestorsRec (strip h) g fuel a t = Verif.ancestorsRec h g fuel a t := by
  induction fuel generalizing a t with
  | zero => rfl
  | succ fuel ih => simp only [Verif.ancestorsRec, ih, getNode, getParents, memNode']

theorem isNodeInLoop (lim : Nat) (g : GRef) (a : NodeArg) : Verif.isNodeInLoop lim (strip h) g a = Verif.isNodeInLoop lim h g a := by
  simp only [Verif.isNodeInLoop, getNode, getAncestors, ancestorsRec, memNode]

theorem areNodesInSameLoop (lim : Nat) (g : GRef) (a b : NodeArg) :
    Verif.areNodesInSameLoop lim (strip h) g a b = Verif.areNodesInSameLoop lim h g a b := by
  simp only [Verif.areNodesInSameLoop, getNode, getAncestors, ancestorsRec, memNode]

theorem nodeIsInLoop (lim : Nat) (n : NRef) : Verif.nodeIsInLoop lim (strip h) n = Verif.nodeIsInLoop lim h n := by
  simp only [Verif.nodeIsInLoop, isNodeInLoop]; rfl

theorem nodeIsInLoopWith (lim : Nat) (n m : NRef) :
    Verif.nodeIsInLoopWith lim (strip h) n m = Verif.nodeIsInLoopWith lim h n m := by
  simp only [Verif.nodeIsInLoopWith, areNodesInSameLoop]; rfl

theorem isRootOrParentsInLoop (lim : Nat) (n : NRef) :
    Verif.isRootOrParentsInLoop lim (strip h) n = Verif.isRootOrParentsInLoop lim h n := by
  simp only [Verif.isRootOrParentsInLoop, nodeParents, nodeIsInLoop]

end Strip

/-- The heaps differ only in styles. -/
def SameBody (h h' : Heap) : Prop := strip h = strip h'

namespace SameBody
variable {h h' : Heap} (S : SameBody h h')
include S

theorem symm : SameBody h' h := Eq.symm S
theorem trans {h'' : Heap} (S' : SameBody h' h'') : SameBody h h'' := Eq.trans S S'

theorem via {α : Type} (q : Heap → α) (hq : ∀ h, q (strip h) = q h) : q h = q h' := by rw [← hq h, ← hq h', S]

theorem getNode (g : GRef) (a : NodeArg) : Verif.getNode h g a = Verif.getNode h' g a := S.via (Verif.getNode · g a) (Strip.getNode · g a)
theorem graphNodes (g : GRef) : Verif.graphNodes h g = Verif.graphNodes h' g := S.via (Verif.graphNodes · g) (Strip.graphNodes · g)
theorem graphEdges (g : GRef) : Verif.graphEdges h g = Verif.graphEdges h' g := S.via (Verif.graphEdges · g) (Strip.graphEdges · g)
theorem edgesDict (g : GRef) : Verif.edgesDict h g = Verif.edgesDict h' g := S.via (Verif.edgesDict · g) (Strip.edgesDict · g)
theorem nodeParents (n : NRef) : Verif.nodeParents h n = Verif.nodeParents h' n := S.via (Verif.nodeParents · n) (Strip.nodeParents · n)
theorem nodeChildren (n : NRef) : Verif.nodeChildren h n = Verif.nodeChildren h' n := S.via (Verif.nodeChildren · n) (Strip.nodeChildren · n)
theorem getChildRank (n p : NRef) : Verif.getChildRank h n p = Verif.getChildRank h' n p := S.via (Verif.getChildRank · n p) (Strip.getChildRank · n p)
theorem nodeIsInLoop (lim : Nat) (n : NRef) : Verif.nodeIsInLoop lim h n = Verif.nodeIsInLoop lim h' n :=
  S.via (Verif.nodeIsInLoop lim · n) (Strip.nodeIsInLoop · lim n)
theorem nodeIsInLoopWith (lim : Nat) (n m : NRef) : Verif.nodeIsInLoopWith lim h n m = Verif.nodeIsInLoopWith lim h' n m :=
  S.via (Verif.nodeIsInLoopWith lim · n m) (Strip.nodeIsInLoopWith · lim n m)
theorem isRootOrParentsInLoop (lim : Nat) (n : NRef) :
    Verif.isRootOrParentsInLoop lim h n = Verif.isRootOrParentsInLoop lim h' n := S.via (Verif.isRootOrParentsInLoop lim · n) (Strip.isRootOrParentsInLoop · lim n)
theorem edgeStart (e : ERef) : Verif.edgeStart h e = Verif.edgeStart h' e := S.via (fun h => Verif.edgeStart h e) (fun _ => rfl)
theorem edgeId (e : ERef) : Verif.edgeId h e = Verif.edgeId h' e := S.via (fun h => Verif.edgeId h e) (fun _ => rfl)
theorem graph : h.graph = h'.graph := S.via (·.graph) (fun _ => rfl)
theorem nodeGraph (n : NRef) : (h.node n).graph = (h'.node n).graph := S.via (fun h => (h.node n).graph) (fun _ => rfl)
theorem edgeGraph (n : ERef) : (h.edge n).graph = (h'.edge n).graph := S.via (fun h => (h.edge n).graph) (fun _ => rfl)
theorem nodeId (n : NRef) : (h.node n).id = (h'.node n).id := S.via (fun h => (h.node n).id) (fun _ => rfl)
theorem edgeValue (n : ERef) : (h.edge n).value = (h'.edge n).value := S.via (fun h => (h.edge n).value) (fun _ => rfl)
theorem arrow (g : GRef) : Arrow h g = Arrow h' g := by
  have : ∀ h, Arrow (strip h) g = Arrow h g := by
    intro h; funext n m; simp only [Arrow, LiveEdge, Strip.outwardEdges]; rfl
  rw [← this h, ← this h', S]
theorem liveEdge (g : GRef) (e : ERef) : LiveEdge h g e ↔ LiveEdge h' g e := by
  have : ∀ h, LiveEdge (strip h) g e = LiveEdge h g e := by
    intro h; simp only [LiveEdge, Strip.outwardEdges]; rfl
  rw [← this h, ← this h', S]
theorem path (g : GRef) : Path h g = Path h' g := by unfold Path; rw [S.arrow g]

end SameBody
end Verif
