import Verif.Spec.Reach
/-!
# Searches that meet things more than once

Nothing here refers to the model of the code.
-/
namespace Verif

variable {α : Type}

/-- `Meet next V todo met`: going through `todo` from left to right, one meets everything in it; what was never met and is not in `V` is
gone into at once, that is, its neighbours are gone through in the same way before going on. `met` is everything met, in this order, as
often as it was met. -/
inductive Meet (next : α → List α) : List α → List α → List α → Prop where
  | nil (V : List α) : Meet next V [] []
  | again {V : List α} {x : α} {xs met : List α} : x ∈ V → Meet next V xs met → Meet next V (x :: xs) (x :: met)
  | enter {V : List α} {x : α} {xs sub rest : List α} : x ∉ V → Meet next (V ++ [x]) (next x) sub →
      Meet next (V ++ x :: sub) xs rest → Meet next V (x :: xs) (x :: sub ++ rest)

/-- `Limited next b V todo met V'`: a depth-first search through `todo` that may go `b` levels further down. It passes over what it has
gone into before (`V` at the start, `V'` at the end) and meets the rest. What it meets while it may go no further down, it does not go
into; so it can meet that again. -/
inductive Limited (next : α → List α) : Nat → List α → List α → List α → List α → Prop where
  | nil (b : Nat) (V : List α) : Limited next b V [] [] V
  | pass {b : Nat} {V V' : List α} {x : α} {xs met : List α} : x ∈ V → Limited next b V xs met V' → Limited next b V (x :: xs) met V'
  | bottom {V V' : List α} {x : α} {xs met : List α} : x ∉ V → Limited next 0 V xs met V' → Limited next 0 V (x :: xs) (x :: met) V'
  | enter {b : Nat} {V V1 V' : List α} {x : α} {xs sub rest : List α} : x ∉ V → Limited next b (V ++ [x]) (next x) sub V1 →
      Limited next (b + 1) V1 xs rest V' → Limited next (b + 1) V (x :: xs) (x :: sub ++ rest) V'

end Verif
