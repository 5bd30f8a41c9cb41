import Verif.Model.ObjTraverse
import Verif.Model.Mutate
/-!
# `BasicGraph.from_object`, `_BasicGraph.py:121-155`

As in `ObjTraverse.lean` an object type is a type with `__children__()` and `__parents__()`, and `lim` is the number of stack
frames available.
-/
namespace Verif
open M
variable {α : Type}

/-- An object type: its methods `__children__()` and `__parents__()`, what `obj.__hash__()` returns and what `str(obj)` is.
Python's own `__hash__` returns an `int`; the method is called directly, hence one that returns a `str` raises nothing.
What `_BasicGraph.py:135-154` uses of it. -/
structure ObjType (α : Type) where
  children : α → List α
  parents : α → List α
  hash : α → Key
  str : α → String

/-- `graph.add_node(name=x.__hash__(), label=str(x)); graph.connect(start=p.__hash__(), end=c.__hash__())`,
`_BasicGraph.py:144-145` with `x` the child and `151-152` with `x` the parent. -/
def objLink (T : ObjType α) (g : GRef) (x p c : α) : M Unit := do
  let _ ← addNode g (T.hash x) { label := .str (T.str x) } .warn
  let _ ← connect g (.key (T.hash p)) (.key (T.hash c)) {} .warn

/-- `for parent in child.__parents__(): if parent in obj_and_descendants: ...`, `_BasicGraph.py:142-145`. -/
def objParents [DecidableEq α] (T : ObjType α) (g : GRef) (all : List α) (child : α) : List α → M Unit
  | [] => pure ()
  | p :: ps => do
    if p ∈ all then objLink T g child p child
    objParents T g all child ps

/-- `for child in parent.__children__(): if child in obj_and_ancestors: ...`, `_BasicGraph.py:149-152`. -/
def objChildren [DecidableEq α] (T : ObjType α) (g : GRef) (all : List α) (parent : α) : List α → M Unit
  | [] => pure ()
  | c :: cs => do
    if c ∈ all then objLink T g parent parent c
    objChildren T g all parent cs

/-- `for child in descendants: ...`, `_BasicGraph.py:141-145`. -/
def objDown [DecidableEq α] (T : ObjType α) (g : GRef) (all : List α) : List α → M Unit
  | [] => pure ()
  | c :: cs => do
    objParents T g all c (T.parents c)
    objDown T g all cs

/-- `for parent in ancestors: ...`, `_BasicGraph.py:148-152`. -/
def objUp [DecidableEq α] (T : ObjType α) (g : GRef) (all : List α) : List α → M Unit
  | [] => pure ()
  | p :: ps => do
    objChildren T g all p (T.children p)
    objUp T g all ps

/-- `BasicGraph.from_object`, `_BasicGraph.py:121-155`. `ordering` and `overwrite` stand for the defaults of `cls(...)`. -/
def fromObject [DecidableEq α] (T : ObjType α) (lim : Nat) (obj : α) (strict ordering overwrite : Bool)
    (maxDepth maxHeight : Option Int) : M GRef := do
  let g ← graphInit strict ordering overwrite
  let _ ← addNode g (T.hash obj) { label := .str (T.str obj) } .warn
  let descendants ← ask (fun _ => objRelatives T.children lim obj maxDepth)
  let ancestors ← ask (fun _ => objRelatives T.parents lim obj maxHeight)
  objDown T g (obj :: descendants) descendants
  objUp T g (obj :: ancestors) ancestors
  return g

end Verif
