import Verif.Spec.Reach
/-!
# A depth-first search that takes notes

Of every node it enters it notes how deep it is and which node it came from. Nothing here refers to the model of the code.
-/
namespace Verif

variable {α : Type}

/-- A node was entered, so many steps away from where the search began, coming from `via`. -/
structure Find (α : Type) where
  node : α
  depth : Nat
  via : α
deriving DecidableEq

/-- `Trace next V p k todo out`: going through the neighbours `todo` of `p` from left to right and depth first, the neighbours being `k`
steps from the start, never entering a node of `V` or a node entered before, one makes exactly the finds `out`, in this order. -/
inductive Trace (next : α → List α) : List α → α → Nat → List α → List (Find α) → Prop where
  | nil (V : List α) (p : α) (k : Nat) : Trace next V p k [] []
  | skip {V : List α} {p x : α} {k : Nat} {xs : List α} {out : List (Find α)} : x ∈ V → Trace next V p k xs out →
      Trace next V p k (x :: xs) out
  | visit {V : List α} {p x : α} {k : Nat} {xs : List α} {sub rest : List (Find α)} : x ∉ V →
      Trace next (V ++ [x]) x (k + 1) (next x) sub → Trace next (V ++ x :: sub.map (·.node)) p k xs rest →
      Trace next V p k (x :: xs) ({ node := x, depth := k, via := p } :: sub ++ rest)

/-- All the nodes found `k` steps from the start. -/
def foundAt (t : List (Find α)) (k : Nat) : List α :=
  (t.filter fun f => decide (f.depth = k)).map (·.node)

/-- The nodes found `k` steps from the start that were entered from the same node as the last one of them. -/
def lastFamily [DecidableEq α] (t : List (Find α)) (k : Nat) : Option (List α) :=
  (t.filter fun f => decide (f.depth = k)).getLast?.map fun l =>
    (t.filter fun f => decide (f.depth = k ∧ f.via = l.via)).map (·.node)

end Verif
