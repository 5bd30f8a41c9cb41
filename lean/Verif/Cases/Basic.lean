import Verif.Py
import Verif.Model.Heap
/-!
# Concrete cases of the theorems

The files next to this one apply each theorem that has hypotheses to a concrete case, so the kernel checks that the hypotheses can
all be met at once. Helpers for that.
-/
namespace Verif

/-- The result of a run together with the state it leaves. -/
theorem ran {α σ : Type} {x : Except PyErr α × σ} {a : α} (h : x.1 = .ok a) : x = (.ok a, x.2) := by
  cases x; simp_all

end Verif
