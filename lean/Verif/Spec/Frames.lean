import Verif.Model.World
/-!
# Calls with few and with many stack frames
-/
namespace Verif
variable {C α : Type}

/-- The call that gave `a` raised RecursionError, or else it did what the call that gave `b` did. -/
def SameOrOverflow (a b : Except PyErr α) : Prop := a = b ∨ a = .error .recursionError

/-- The same for calls with an effect: unless the first raises RecursionError, both return or raise the same and leave the same behind. -/
def SameOrOverflowM (x y : M α) : Prop := ∀ h, x h = y h ∨ (x h).1 = .error .recursionError

def SameOrOverflowW (x y : W C α) : Prop := ∀ w, x w = y w ∨ (x w).1 = .error .recursionError

end Verif
