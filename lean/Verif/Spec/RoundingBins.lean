import Verif.Spec.Rounding

/-!
# Specification: the bins of an axis, without rounding
-/

namespace Freud.Spec
open Freud

/-- The number of the bin that holds `v`, by the definition of equal bins from `min` to `max`. -/
def exactBin (a : RegularAxis ℚ) (v : ℚ) : ℕ := ⌊(v - a.min) * a.nbins / (a.max - a.min)⌋₊

end Freud.Spec
