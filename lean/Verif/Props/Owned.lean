import Verif.Props.Readd
import Verif.Lemmas.Sessions
/-!
# C12, the other way round: which nodes know their graph

Many theorems assume that every node of a graph knows it is in it (`node.graph` is the graph). Here this is proved of every history
in which no removed node object was added to that graph again; `C12_readded_has_no_graph` says that it fails otherwise.
-/
namespace Verif
open M

/-- **C12**, what holds instead: a graph whose nodes all know it keeps this property through every call, on whatever graph, other
than adding a node object to it. -/
theorem C12_known_partial {h : Heap} (r : Reachable h) {g : GRef} (hown : ∀ n ∈ graphNodes h g, (h.node n).graph = some g)
    (ops : List Op) (ok : AllOk ops h) (hno : ∀ op ∈ ops, ¬ op.Readds g) :
    ∀ n ∈ graphNodes (runOps ops h) g, ((runOps ops h).node n).graph = some g := by
  induction ops generalizing h with
  | nil => exact hown
  | cons op ops ih =>
    exact ih (.step op r ok.1) (r.owned_step ok.1 hown (hno op (by simp))) ok.2
      (fun op h => hno op (by simp [h]))

/-- **C12**: in every history in which no node object is added to `g`, every node of `g` knows that it is in `g`. -/
theorem C12_owned_partial (ops : List Op) (ok : AllOk ops Heap.init) {g : GRef} (hno : ∀ op ∈ ops, ¬ op.Readds g) :
    ∀ n ∈ graphNodes (runOps ops Heap.init) g, ((runOps ops Heap.init).node n).graph = some g :=
  C12_known_partial .init (by simp [graphNodes, dvals, Heap.init]) ops ok hno

/-- **C12**: at any time, a node of a graph knows it or, having been removed and added again, knows no graph. -/
theorem C12_either {h : Heap} (r : Reachable h) {g : GRef} {n : NRef} (hn : n ∈ graphNodes h g) :
    (h.node n).graph = some g ∨ (h.node n).graph = none := by
  obtain ⟨A, R⟩ := r.rep
  obtain ⟨k, hk⟩ := (mem_graphNodes R).1 hn
  exact (R.nodeOk _ _ _ hk).2.2

end Verif
