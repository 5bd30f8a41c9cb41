import Verif.Spec.Outline
/-!
# Drawing an outline

Nothing here refers to the model of the code.
-/
namespace Verif

/-- `Drawing next a todo F a'`: drawing `todo` from left to right and depth first, when the nodes `a` have been expanded before, gives the
outlines `F`, and then the nodes `a'` have been expanded. A node that was expanded before is marked and not expanded again; a node without
neighbours is drawn without a mark, however often; any other node is expanded. -/
inductive Drawing (next : Nat → List Nat) : List Nat → List Nat → List Outline → List Nat → Prop where
  | nil (a : List Nat) : Drawing next a [] [] a
  | star {a a' : List Nat} {x : Nat} {xs : List Nat} {F : List Outline} : x ∈ a → Drawing next a xs F a' →
      Drawing next a (x :: xs) (.mk x true [] :: F) a'
  | leaf {a a' : List Nat} {x : Nat} {xs : List Nat} {F : List Outline} : x ∉ a → next x = [] → Drawing next a xs F a' →
      Drawing next a (x :: xs) (.mk x false [] :: F) a'
  | expand {a b a' : List Nat} {x : Nat} {xs : List Nat} {S F : List Outline} : x ∉ a → next x ≠ [] →
      Drawing next (a ++ [x]) (next x) S b → Drawing next b xs F a' → Drawing next a (x :: xs) (.mk x false S :: F) a'

end Verif
