import Mathlib.Logic.Relation
/-!
# What "reachable", "at distance `k`" and "depth-first preorder" mean

`next x` lists the neighbours of `x` (children, or parents). Nothing here refers to the model of the code.
-/
namespace Verif

variable {α : Type}

/-- One step. -/
def Step (next : α → List α) (x y : α) : Prop := y ∈ next x

/-- `y` can be reached from `x` by one or more steps. -/
abbrev Reach (next : α → List α) : α → α → Prop := Relation.TransGen (Step next)

/-- There is a walk of exactly `k` steps of `R` from `x` to `y`. -/
inductive Walk (R : α → α → Prop) : Nat → α → α → Prop where
  | zero (x : α) : Walk R 0 x x
  | step {x y z : α} {k : Nat} : R x y → Walk R k y z → Walk R (k + 1) x z

/-- `Pre next V todo out`: going through `todo` from left to right and depth first, never entering a node of `V` or a
node entered before, one enters exactly the nodes `out`, in this order. -/
inductive Pre (next : α → List α) : List α → List α → List α → Prop where
  | nil (V : List α) : Pre next V [] []
  | skip {V : List α} {x : α} {xs out : List α} : x ∈ V → Pre next V xs out → Pre next V (x :: xs) out
  | visit {V : List α} {x : α} {xs sub rest : List α} : x ∉ V → Pre next (V ++ [x]) (next x) sub →
      Pre next (V ++ x :: sub) xs rest → Pre next V (x :: xs) (x :: sub ++ rest)

end Verif
