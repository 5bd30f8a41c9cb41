/-!
# Outlines: what a tree string shows

An outline is a tree of occurrences. Nothing here refers to the model of the code.
-/
namespace Verif

/-- An occurrence of a node, marked with `*` or not, and what is drawn below it. -/
inductive Outline where
  | mk (node : Nat) (starred : Bool) (below : List Outline)

namespace Outline

/-- The node at the top. -/
def top : Outline → Nat
  | mk n _ _ => n

mutual
/-- One line per occurrence; `ind` is what the lines below start with. -/
def draw (label : Nat → String) (ind : String) : Outline → String
  | mk n s below => label n ++ (if s then "*" else "") ++ "\n" ++ drawAll label ind below
/-- The parts below one occurrence: the last one hangs on a corner. -/
def drawAll (label : Nat → String) (ind : String) : List Outline → String
  | [] => ""
  | [t] => ind ++ "└ " ++ draw label (ind ++ "  ") t
  | t :: t' :: ts => ind ++ "├ " ++ draw label (ind ++ "│ ") t ++ drawAll label ind (t' :: ts)
end

mutual
/-- All occurrences from top to bottom: node, mark, nodes directly below. -/
def occ : Outline → List (Nat × Bool × List Nat)
  | mk n s below => (n, s, below.map top) :: occAll below
def occAll : List Outline → List (Nat × Bool × List Nat)
  | [] => []
  | t :: ts => occ t ++ occAll ts
end

mutual
/-- All occurrences from top to bottom, each with its depth; the top has depth `k`. -/
def depths (k : Nat) : Outline → List (Nat × Nat)
  | mk n _ below => (k, n) :: depthsAll (k + 1) below
def depthsAll (k : Nat) : List Outline → List (Nat × Nat)
  | [] => []
  | t :: ts => depths k t ++ depthsAll k ts
end

end Outline
end Verif
