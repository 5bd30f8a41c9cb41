import Verif.Py
/-!
# Traversing arbitrary objects: `get_descendants.py` and `get_ancestors.py`

An object type with `__children__()` is a type `α` with a function `children : α → List α`. Simplifications: `__children__`
returns the same list every time and does not raise; `==` on the objects is a decidable equality.

Recursion: the first argument of the recursive functions is the number of stack frames left; when it is used up the
model raises `RecursionError`, as Python does. A result other than that does not depend on it.
-/
namespace Verif

variable {α : Type}

/-- `if x not in result: result.append(x); result_dict[1].append(x)`,
`get_descendants.py:29-31`, `_BasicGraph.py:518-520`, `578-580`. -/
def addDirect (mem : α → List α → Bool) (x : α) (acc : List α × Dict Nat (List α)) : List α × Dict Nat (List α) :=
  if mem x acc.1 then acc
  else (acc.1 ++ [x], dset acc.2 1 ((dget acc.2 1).getD [] ++ [x]))

/-- The loop over the relatives of a relative, `get_descendants.py:35-39`, `_BasicGraph.py:524-528`, `582-586`: every new
one is appended, and then the *whole* distance dictionary of the relative is written over the own one, shifted by one. The
lists in it are shared between the dictionaries; none of them is changed after that. -/
def absorb (mem : α → List α → Bool) (sub : List α) (subDict : Dict Nat (List α))
    (acc : List α × Dict Nat (List α)) : List α × Dict Nat (List α) :=
  sub.foldl (fun acc y =>
    if mem y acc.1 then acc
    else (acc.1 ++ [y], subDict.foldl (fun d p => dset d (p.1 + 1) p.2) acc.2)) acc

/-- `_get_descendants`, `get_descendants.py:15-40`, and `_get_ancestors`, `get_ancestors.py:15-40`, which is the same code
with `__parents__` and `max_height`. `trav` is the shared list `_objects_travelled`; the result is the list, the distance
dictionary and the list `_objects_travelled` as it is left behind. -/
def objTraverse [DecidableEq α] (next : α → List α) :
    Nat → α → List α → Option Int → Except PyErr (List α × Dict Nat (List α) × List α)
  | 0, _, _, _ => .error .recursionError
  | fuel + 1, obj, trav, maxDepth =>
    if maxDepth.any (fun d => decide (d ≤ 0)) then .ok ([], [], trav)
    else if (next obj).length = 0 then .ok ([], [], trav ++ [obj])
    else (next obj).foldlM (fun s child =>
      if child ∈ s.2.2 then .ok s
      else do
        let acc := addDirect (fun x l => decide (x ∈ l)) child (s.1, s.2.1)
        let sub ← objTraverse next fuel child s.2.2 (maxDepth.map (· - 1))
        let acc := absorb (fun x l => decide (x ∈ l)) sub.1 sub.2.1 acc
        .ok (acc.1, acc.2, sub.2.2)) ([], [(1, [])], trav ++ [obj])

/-- `get_descendants(obj, distance=False, max_depth)`, `get_descendants.py:56-60`, and
`get_ancestors(obj, distance=False, max_height)`. `lim` is the number of stack frames available. -/
def objRelatives [DecidableEq α] (next : α → List α) (lim : Nat) (obj : α) (maxDepth : Option Int) :
    Except PyErr (List α) :=
  (objTraverse next lim obj [] maxDepth).map (·.1)

/-- `get_descendants(obj, distance=True, max_depth)`, `get_descendants.py:56-58`. -/
def objRelativesByDistance [DecidableEq α] (next : α → List α) (lim : Nat) (obj : α) (maxDepth : Option Int) :
    Except PyErr (Dict Nat (List α)) :=
  (objTraverse next lim obj [] maxDepth).map (·.2.1)

end Verif
