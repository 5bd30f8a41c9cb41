import Verif.Model.Mutate
import Verif.Model.Parse
/-!
# Class methods that build a graph, and `append`

Arguments that are left out in the source have their defaults: `add_node` and `connect` warn about what exists
(`_BasicGraph.py:263, 669`), a new graph has `ordering=True` and does not allow styles to be overwritten
(`_GraphWithoutDisplay.py:20-27`).
-/
namespace Verif
open M

/-- The loop of `from_lists`, `_BasicGraph.py:115-118`. -/
def fromListsLoop (g : GRef) : List (Nat × Key × Key × Val) → M Unit
  | [] => pure ()
  | (index, startName, endName, edgeName) :: rows => do
    let s ← addNode g startName {} .ignore
    let t ← addNode g endName {} .ignore
    let _ ← connect g (.node s) (.node t) { id := some (.int index), label := edgeName } .warn
    fromListsLoop g rows

/-- `BasicGraph.from_lists`, `_BasicGraph.py:101-119`. -/
def fromLists (start stop : List Key) (edge : List Val) (strict : Bool) : M GRef := do
  let g ← graphInit strict true false
  fromListsLoop g ((List.range start.length).zip (start.zip (stop.zip edge)))
  return g

/-- The loop of `from_indented_text`, `_BasicGraph.py:173-179`. -/
def fromItems (g : GRef) : List Item → M Unit
  | [] => pure ()
  | it :: items => do
    let _ ← addNode g (.str (Nat.repr it.index)) { label := .str ("line " ++ Nat.repr it.index) } .warn
    let _ ← match it.parent with
      | some p => connect g (.key (.str (Nat.repr p))) (.key (.str (Nat.repr it.index))) {} .warn
      | none => connect g (.key (.str "root")) (.key (.str (Nat.repr it.index))) {} .warn
    fromItems g items

/-- `BasicGraph.from_indented_text`, `_BasicGraph.py:157-181`. The generator is consumed line by line: an exception of the
parser appears after the lines before it have been added (to a graph nobody gets). -/
def fromIndentedText (root : String) (lines : List Line) (indent : Option Line) : M GRef := do
  let g ← graphInit true true false
  let _ ← addNode g (.str "root") { label := .str root } .warn
  fromItems g (parseIndentations lines indent).1
  match (parseIndentations lines indent).2 with
  | some e => raise e
  | none => return g

/-! ## `random` -/

/-- `for n in node_names: graph.add_node(name=str(n))`, `_GraphWithoutDisplay.py:587-588`. -/
def randomNodes (g : GRef) : List Int → M Unit
  | [] => pure ()
  | n :: ns => do
    let _ ← addNode g (.str (Int.repr n)) {} .warn
    randomNodes g ns

/-- The inner loop, `_GraphWithoutDisplay.py:593-598`. `u k` is what the `k`-th call of `random.uniform(0, 1)` returns, `k`
the number of calls so far. -/
def randomInner (g : GRef) (p : Rat) (cycle : Bool) (u : Nat → Rat) (n1 : Int) : List Int → Nat → M Nat
  | [], k => pure k
  | n2 :: ns, k => do
    onlyIf (u k < p ∧ (cycle = true ∨ n1 < n2)) (do
      let _ ← connect g (.key (.str (Int.repr n1))) (.key (.str (Int.repr n2))) {} .warn)
    randomInner g p cycle u n1 ns (k + 1)

/-- The outer loop, `_GraphWithoutDisplay.py:592-598`. -/
def randomOuter (g : GRef) (p : Rat) (cycle : Bool) (u : Nat → Rat) (names : List Int) : List Int → Nat → M Unit
  | [], _ => pure ()
  | n1 :: ns, k => do
    let k ← randomInner g p cycle u n1 names k
    randomOuter g p cycle u names ns k

/-- `[i + start_index for i in range(num_nodes)]`, `_GraphWithoutDisplay.py:586`. -/
def randomNames (numNodes startIndex : Int) : List Int :=
  (List.range numNodes.toNat).map (fun i : Nat => (i : Int) + startIndex)

/-- `GraphWithoutDisplay.random`, `_GraphWithoutDisplay.py:562-600`. Simplifications: a probability is a rational number, and
the generator of random numbers is any sequence `u` (so `seed` needs no mention). -/
def randomGraph (numNodes : Int) (strict cycle : Bool) (startIndex : Int) (probability : Rat) (ordering : Bool)
    (u : Nat → Rat) : M GRef := do
  let g ← graphInit strict ordering false
  let p := min 1 (max 0 probability)
  let names := randomNames numNodes startIndex
  randomNodes g names
  randomOuter g p cycle u names names 0
  return g

/-! ## `append` and `from_dict` -/

/-- `dictionary['nodes']`: a dictionary from names to keyword arguments, or a list of names. The keyword arguments may
include `if_node_exists`. `_GraphWithoutDisplay.py:459-464`. -/
inductive NodesArg where
  | dict (l : List (Key × NodeArgs × IfExists))
  | list (l : List Key)

/-- An element of `dictionary['edges']`: `[start, end]`, `[start, end, {...}]`, or something shorter or longer.
`_GraphWithoutDisplay.py:466-482`. -/
inductive EdgeItem where
  | two (s t : Key)
  | three (s t : Key) (a : EdgeArgs) (p : IfExists)
  | few
  | many

/-- The dictionary given to `append`; `none` for a key that is missing. Simplification: keys that only concern the display
are left out, except that `edge_styles` and `edge_colours` (here the list of their keys) are looked up among the edges, and
that `label` must be a `str`. `_GraphWithoutDisplay.py:432-500`. -/
structure GDict where
  strict : Option Bool := none
  ordering : Option Bool := none
  label : Option Val := none
  nodes : Option NodesArg := none
  edges : Option (List EdgeItem) := none
  edgeStyles : List (Key × Key) := []
  edgeColours : List (Key × Key) := []

/-- `'\n' + dictionary['label']`, `_GraphWithoutDisplay.py:437-438`. -/
def labelCheck : Option Val → M Unit
  | none => pure ()
  | some (.str _) => pure ()
  | some _ => raise .typeError

/-- `_GraphWithoutDisplay.py:460-461`. -/
def appendNodeDict (g : GRef) : List (Key × NodeArgs × IfExists) → M Unit
  | [] => pure ()
  | (x, a, p) :: l => do
    let _ ← addNode g x a p
    appendNodeDict g l

/-- `_GraphWithoutDisplay.py:459-464`. -/
def appendNodes (g : GRef) : Option NodesArg → M Unit
  | none => raise .keyError
  | some (.dict l) => appendNodeDict g l
  | some (.list l) => appendNodeDict g (l.map fun x => (x, {}, .warn))

/-- `_GraphWithoutDisplay.py:467-482`. The keys of `edges_dict` are returned; `edge.id` does not raise for an edge that was
just connected, but it is evaluated. -/
def appendEdgeList (g : GRef) : List EdgeItem → List (Key × Key) → M (List (Key × Key))
  | [], known => pure known
  | .two s t :: l, known => do
    let e ← connect g (.key s) (.key t) {} .warn
    let _ ← ask (fun h => edgeId h e)
    appendEdgeList g l ((s, t) :: known)
  | .three s t a p :: l, known => do
    let e ← connect g (.key s) (.key t) a p
    let _ ← ask (fun h => edgeId h e)
    appendEdgeList g l ((s, t) :: known)
  | .few :: _, _ => raise (.valueError "Too few objects in an edge definition!")
  | .many :: _, _ => raise (.valueError "Too many objects in an edge definition!")

/-- `dictionary['edges']`, `_GraphWithoutDisplay.py:467`. -/
def appendEdges (g : GRef) : Option (List EdgeItem) → M (List (Key × Key))
  | none => raise .keyError
  | some l => appendEdgeList g l []

/-- `edges_dict[parent_child_edge_id]` for each key, `_GraphWithoutDisplay.py:488-491, 497-500`. -/
def appendLookups (known : List (Key × Key)) : List (Key × Key) → M Unit
  | [] => pure ()
  | k :: ks => if k ∈ known then appendLookups known ks else raise .keyError

/-- `append` once the dictionary is known, `_GraphWithoutDisplay.py:431-502`. The options are set, in this order, before the
label is looked at. -/
def appendDict (g : GRef) (d : GDict) : M Unit := do
  graphSetOptions g d.strict d.ordering
  labelCheck d.label
  appendNodes g d.nodes
  let known ← appendEdges g d.edges
  appendLookups known d.edgeStyles
  appendLookups known d.edgeColours

/-- What can be appended: a `list` or `tuple`, a `dict`, or an object, of which all that matters is what its `__graph__()`
does (an object without that method raises `AttributeError`; a `__graph__()` that returns no `dict` raises `TypeError` later
and counts as raising it). `_GraphWithoutDisplay.py:417-429`. -/
inductive Appendable where
  | items (l : List Appendable)
  | dict (d : GDict)
  | object (graph : Except PyErr GDict)

mutual
/-- `GraphWithoutDisplay.append`, `_GraphWithoutDisplay.py:407-502`. Simplification: returns nothing instead of `self`. -/
def append (g : GRef) : Appendable → M Unit
  | .items l => appendAll g l
  | .dict d => appendDict g d
  | .object (.ok d) => appendDict g d
  | .object (.error .attributeError) => raise .typeError
  | .object (.error e) => raise e
/-- `for item in obj: self.append(obj=item)`, `_GraphWithoutDisplay.py:417-420`. -/
def appendAll (g : GRef) : List Appendable → M Unit
  | [] => pure ()
  | x :: l => do
    append g x
    appendAll g l
end

/-- `GraphWithoutDisplay.from_dict`, `_GraphWithoutDisplay.py:504-517`. -/
def fromDict (x : Appendable) : M GRef := do
  let g ← graphInit false true false
  append g x
  return g

end Verif
