import Verif.Props.Order
/-!
# C14, C15: frozen values and write-once styles
-/
namespace Verif
open M

/-- **C14**, nodes: whatever calls are made on whatever objects, as long as none of them is `unfreeze` on this node, a
frozen node keeps its value and stays frozen. -/
theorem C14_node {h : Heap} {n : NRef} (hn : n < h.nN) (hf : (h.node n).frozen = true) (ops : List Op)
    (hno : Op.nodeFreeze n false ∉ ops) :
    ((runOps ops h).node n).frozen = true ∧ ((runOps ops h).node n).value = (h.node n).value := by
  refine ((Later.runOps ops h).node n hn).frozen ?_ hf
  rintro ⟨op, hop, hu⟩
  cases op with
  | nodeFreeze m b =>
    cases b with
    | true => exact hu
    | false => simp only [Grows.unfreezesNode] at hu; subst hu; exact hno hop
  | _ => exact hu

/-- **C14**, edges. -/
theorem C14_edge {h : Heap} {e : ERef} (he : e < h.nE) (hf : (h.edge e).frozen = true) (ops : List Op)
    (hno : Op.edgeFreeze e false ∉ ops) :
    ((runOps ops h).edge e).frozen = true ∧ ((runOps ops h).edge e).value = (h.edge e).value := by
  refine ((Later.runOps ops h).edge e he).frozen ?_ hf
  rintro ⟨op, hop, hu⟩
  cases op with
  | edgeFreeze m b =>
    cases b with
    | true => exact hu
    | false => simp only [Grows.unfreezesEdge] at hu; subst hu; exact hno hop
  | _ => exact hu

/-- **C14**: an attempt to set the value raises `RuntimeError` and changes nothing; `freeze` freezes, and after
`unfreeze` the value can be set. -/
theorem C14_attempt (h : Heap) (n : NRef) (e : ERef) (v : Val) :
    ((h.node n).frozen = true → nodeSetValue n v h = (.error .runtimeError, h)) ∧
    ((h.edge e).frozen = true → edgeSetValue e v h = (.error .runtimeError, h)) ∧
    ((nodeFreeze n true h).2.node n).frozen = true ∧ ((edgeFreeze e true h).2.edge e).frozen = true ∧
    ((nodeSetValue n v (nodeFreeze n false h).2).2.node n).value = v ∧
    ((edgeSetValue e v (edgeFreeze e false h).2).2.edge e).value = v := by
  refine ⟨?_, ?_, ?_, ?_, ?_, ?_⟩
  · intro hf; simp [nodeSetValue, hf]
  · intro hf; simp [edgeSetValue, hf]
  · simp [nodeFreeze, modNode]
  · simp [edgeFreeze, modEdge]
  · simp [nodeSetValue, nodeFreeze, modNode]
  · simp [edgeSetValue, edgeFreeze, modEdge]

/-- A history in which node `b` is frozen and then attacked through every door. -/
def frozenDemo : Heap := runOps [.nodeValue 1 (.int 7), .nodeFreeze 1 true] demo

example : ((runOps [.nodeValue 1 (.int 8), .addNode 0 (.str "b") { value := .int 9 } .ignore, .removeNode 0 (.node 1)]
    frozenDemo).node 1).value = .int 7 := by
  have := C14_node (h := frozenDemo) (n := 1) (by decide +kernel) (by decide +kernel)
    [.nodeValue 1 (.int 8), .addNode 0 (.str "b") { value := .int 9 } .ignore, .removeNode 0 (.node 1)]
    (by intro hc; simp at hc)
  rw [this.2]
  decide +kernel

/-- **C15**, nodes: a node of a graph with `style_overwrite_allowed=False` that has a style keeps that very style object
through every sequence of calls, also after it was removed from its graph. -/
theorem C15_node {h : Heap} {n : NRef} {g : GRef} {s : SRef} (hn : n < h.nN) (hg : g < h.nG)
    (hgr : (h.node n).graph = some g) (hov : (h.graph g).overwrite = some false) (hs : (h.node n).style = some s)
    (ops : List Op) : ((runOps ops h).node n).style = some s := by
  rw [((Later.runOps ops h).node n hn).style, hs]
  refine ⟨by simp [hs], ?_⟩
  intro g' hg'
  rw [hgr] at hg'
  cases hg'
  exact ⟨hg, by simp [hov]⟩

/-- **C15**, edges. -/
theorem C15_edge {h : Heap} {e : ERef} {g : GRef} {s : SRef} (he : e < h.nE) (hg : g < h.nG)
    (hgr : (h.edge e).graph = some g) (hov : (h.graph g).overwrite = some false) (hs : (h.edge e).style = some s)
    (ops : List Op) : ((runOps ops h).edge e).style = some s := by
  rw [((Later.runOps ops h).edge e he).style, hs]
  refine ⟨by simp [hs], ?_⟩
  intro g' hg'
  rw [hgr] at hg'
  cases hg'
  exact ⟨hg, by simp [hov]⟩

/-- **C15**: an attempt raises `RuntimeError` and changes nothing, even with `style=None`. -/
theorem C15_attempt {h : Heap} {g : GRef} {s : SRef} (hov : (h.graph g).overwrite = some false) (n : NRef) (e : ERef)
    (a : StyleArg) :
    ((h.node n).graph = some g → (h.node n).style = some s → nodeSetStyle n a h = (.error .runtimeError, h)) ∧
    ((h.edge e).graph = some g → (h.edge e).style = some s → edgeSetStyle e a h = (.error .runtimeError, h)) := by
  constructor
  · intro h1 h2; simp [nodeSetStyle, checkOverwrite, h1, h2, hov]
  · intro h1 h2; simp [edgeSetStyle, checkOverwrite, h1, h2, hov]

/-- **C15**: with `style_overwrite_allowed=True`, or while there is no style yet, the style is replaced. -/
theorem C15_allowed {h : Heap} (n : NRef) (s : SRef)
    (hov : (h.node n).style = none ∨ ∃ g, (h.node n).graph = some g ∧ (h.graph g).overwrite = some true) :
    ∃ h', nodeSetStyle n (.obj s) h = (.ok (), h') ∧ (h'.node n).style = some s := by
  refine ⟨{ h with node := upd h.node n { h.node n with style := some s } }, ?_, by simp⟩
  rcases hov with h1 | ⟨g, h1, h2⟩
  · simp [nodeSetStyle, h1, checkOverwrite, run_resolveStyle, styleResult, styleCount, modNode]
  · cases hst : (h.node n).style with
    | none => simp [nodeSetStyle, hst, checkOverwrite, run_resolveStyle, styleResult, styleCount, modNode]
    | some t => simp [nodeSetStyle, hst, h1, h2, checkOverwrite, run_resolveStyle, styleResult, styleCount, modNode]

/-- Node `b` of the demo graph with a style. -/
def styledDemo : Heap := runOps [.nodeStyle 1 (.dict true)] demo

example : ((runOps [.nodeStyle 1 (.obj 17), .removeNode 0 (.node 1), .nodeStyle 1 (.obj 18)] styledDemo).node 1).style
    = some 0 :=
  C15_node (g := 0) (by decide +kernel) (by decide +kernel) (by decide +kernel) (by decide +kernel) (by decide +kernel) _

end Verif
