/-!
# The pieces of the Python run time that the model needs

* `PyErr`  - the exceptions the library raises (or lets escape);
* `Key`, `RawId`, `EdgeId`, `Val` - the immutable data used as names, ids, labels and values;
* `Dict`   - a Python `dict`, i.e. an insertion-ordered association list with unique keys.

Nothing here is specific to idin/abstract.
-/
namespace Verif

/-- Exceptions. Only `ValueError` carries a text, because the library raises it for several reasons.
Raised by Python, and by the library at `_BasicGraph.py:231`, `285`, `699`, `Node.py:78` and other lines cited at the
functions that raise. -/
inductive PyErr where
  | keyError
  | valueError (msg : String)
  | typeError
  | runtimeError
  | attributeError
  | unboundLocalError
  | indexError
  | recursionError
  deriving DecidableEq, Repr

deriving instance DecidableEq for Except

/-- What may name a node: a `str` or an `int` (`Node(graph, name)` accepts both, `add_node` only `str`).
`Node.py:13-42`, `_BasicGraph.py:226-231`. -/
inductive Key where
  | str (s : String)
  | int (i : Int)
  deriving DecidableEq, Repr

/-- The extra id of an edge: `None`, a `str`/`int`, or the tuple `(None, None, None)` that
`disconnect` writes into `_raw_id` (`_BasicGraph.py:733`). -/
inductive RawId where
  | none
  | key (k : Key)
  | cleared
  deriving DecidableEq, Repr

/-- `Edge.id`: `(start.id, end.id, raw_id)` (`Edge.py:126`). -/
abbrev EdgeId := Key × Key × RawId

/-- A Python value stored as `value`, `label`, `tooltip` or parameter.
Simplification: values are compared structurally; `obj uid s` stands for any other (truthy) object
whose `str()` is `s` and which equals only itself. `_GraphObj.py:13-23`. -/
inductive Val where
  | none
  | int (i : Int)
  | str (s : String)
  | obj (uid : Nat) (repr : String)
  deriving DecidableEq, Repr

/-- `str(k)` for a node name. Used at `_GraphObj.py:112-119` and in `_GraphWithoutDisplay.py:289-405`. -/
def Key.toStr : Key → String
  | .str s => s
  | .int i => toString i

/-- `str(v)`. Used at `_GraphObj.py:112-119`. -/
def Val.toStr : Val → String
  | .none => "None"
  | .int i => toString i
  | .str s => s
  | .obj _ r => r

/-- `bool(v)`: `None`, `0` and `""` are false. Used at `_GraphWithoutDisplay.py:653`, `676`. -/
def Val.truthy : Val → Bool
  | .none => false
  | .int i => i != 0
  | .str s => s != ""
  | .obj _ _ => true

/-! ## `dict` -/

/-- A Python `dict`: the items in insertion order. For example `_nodes_dict`, `_BasicGraph.py:25-31`. -/
abbrev Dict (K V : Type) := List (K × V)

section Dict
variable {K V : Type} [DecidableEq K]

/-- `d.get(k)`; a plain `d[k]` is this with `None` turned into `KeyError`. For example `_BasicGraph.py:226-231`. -/
def dget : Dict K V → K → Option V
  | [], _ => none
  | (k', v) :: d, k => if k' = k then some v else dget d k

/-- `d[k] = v`: an existing key keeps its position. For example `_BasicGraph.py:301`, `318`. -/
def dset : Dict K V → K → V → Dict K V
  | [], k, v => [(k, v)]
  | (k', v') :: d, k, v => if k' = k then (k', v) :: d else (k', v') :: dset d k v

/-- `del d[k]` (the caller checks that the key is there). For example `_BasicGraph.py:330-333`, `Edge.py:192-198`. -/
def ddel (d : Dict K V) (k : K) : Dict K V := d.filter (fun p => decide (p.1 ≠ k))

/-- `list(d.keys())`. For example `_BasicGraph.py:211`, `343`. -/
def dkeys (d : Dict K V) : List K := d.map Prod.fst

/-- `list(d.values())`. For example `_BasicGraph.py:211`, `343`. -/
def dvals (d : Dict K V) : List V := d.map Prod.snd

end Dict

/-- Update a function at one point (stores are functions from references to objects).
Not in the library: assignment to an attribute, for example `_BasicGraph.py:25-31`. -/
def upd {α : Type} (f : Nat → α) (i : Nat) (v : α) : Nat → α := fun j => if j = i then v else f j

@[simp] theorem upd_same {α : Type} (f : Nat → α) (i : Nat) (v : α) : upd f i v i = v := by simp [upd]

@[simp] theorem upd_ne {α : Type} (f : Nat → α) {i j : Nat} (v : α) (h : j ≠ i) : upd f i v j = f j := by
  simp [upd, h]

theorem upd_apply {α : Type} (f : Nat → α) (i j : Nat) (v : α) :
    upd f i v j = if j = i then v else f j := rfl

end Verif
