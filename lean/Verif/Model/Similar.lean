import Verif.Model.Query
/-!
# `is_similar_to`
-/
namespace Verif

/-- `a == b` for two `_parameters` dictionaries: the same value, or none, for every key. `_GraphObj.py:151`. -/
def paramsEq (a b : Dict String Val) : Bool := (a ++ b).all (fun p => decide (dget a p.1 = dget b p.1))

/-- `GraphObj.is_similar_to` on two nodes, `_GraphObj.py:148-152`. Style objects have no `__eq__`: `==` is identity. -/
def nodeObjSimilar (h : Heap) (a b : NRef) : Bool :=
  let x := h.node a
  let y := h.node b
  decide (x.id = y.id) && decide (x.value = y.value) && decide (x.style = y.style) && paramsEq x.params y.params

/-- `GraphObj.is_similar_to` on two edges, `_GraphObj.py:148-152` (`id` is `Edge.id`, which raises on a removed edge). -/
def edgeObjSimilar (h : Heap) (a b : ERef) : Except PyErr Bool := do
  let i ← edgeId h a
  let j ← edgeId h b
  let x := h.edge a
  let y := h.edge b
  return decide (i = j) && decide (x.value = y.value) && decide (x.style = y.style) && paramsEq x.params y.params

/-- `edge._start.id == other._start.id` etc., `Edge.py:89-91`; `None.id` raises `AttributeError`. -/
def endsSimilar (h : Heap) (a b : ERef) : Except PyErr Bool :=
  match (h.edge a).start, (h.edge b).start, (h.edge a).stop, (h.edge b).stop with
  | some s, some s', some t, some t' =>
    .ok (decide ((h.node s).id = (h.node s').id) && decide ((h.node t).id = (h.node t').id) &&
      decide ((h.edge a).raw = (h.edge b).raw))
  | _, _, _, _ => .error .attributeError

/-- `Edge.is_similar_to`, `Edge.py:87-91`. -/
def edgeSimilar (h : Heap) (a b : ERef) : Except PyErr Bool := do
  let r ← edgeObjSimilar h a b
  if r then endsSimilar h a b else return false

/-- The loops of `Node.is_similar_to`, `Node.py:122-129`: `other_dict[id]` raises `KeyError` when the id is missing. -/
def edgesSimilar (h : Heap) (other : Dict EdgeId ERef) : Dict EdgeId ERef → Except PyErr Bool
  | [] => .ok true
  | (i, e) :: d =>
    match dget other i with
    | none => .error .keyError
    | some f => do
      let r ← edgeSimilar h e f
      if r then edgesSimilar h other d else return false

/-- `Node.is_similar_to`, `Node.py:116-130`. -/
def nodeSimilar (h : Heap) (a b : NRef) : Except PyErr Bool :=
  let x := h.node a
  let y := h.node b
  if nodeObjSimilar h a b = false then .ok false
  else if x.outE.length ≠ y.outE.length then .ok false
  else if x.inE.length ≠ y.inE.length then .ok false
  else do
    let r ← edgesSimilar h y.outE x.outE
    if r then edgesSimilar h y.inE x.inE else return false

/-- The loop of `BasicGraph.is_similar_to`, `_BasicGraph.py:750-753`. -/
def nodesSimilar (h : Heap) (other : Dict Key NRef) : Dict Key NRef → Except PyErr Bool
  | [] => .ok true
  | (k, n) :: d =>
    match dget other k with
    | none => .error .keyError
    | some m => do
      let r ← nodeSimilar h n m
      if r then nodesSimilar h other d else return false

/-- `BasicGraph.is_similar_to`, `_BasicGraph.py:747-761`. -/
def graphSimilar (h : Heap) (g g' : GRef) : Except PyErr Bool :=
  if (h.graph g).nodes.length ≠ (h.graph g').nodes.length then .ok false
  else do
    let r ← nodesSimilar h (h.graph g').nodes (h.graph g).nodes
    if r then
      if (h.graph g).strict ≠ (h.graph g').strict then return false
      else if (h.graph g).ordering ≠ (h.graph g').ordering then return false
      else return true
    else return false

end Verif
