import Mathlib.Algebra.Order.Field.Basic
import Mathlib.Algebra.BigOperators.Group.List.Basic

/-!
# Specification of binning
-/

namespace Freud.Spec
variable {K : Type*} [Field K] [LinearOrder K]

/-- The `i`-th of the `n + 1` equally spaced edges between `lo` and `hi`. -/
def edge (lo hi : K) (n i : ℕ) : K := lo + (i : K) * ((hi - lo) / (n : K))

/-- `v` lies in the half-open bin number `i`. -/
def InBin (lo hi : K) (n i : ℕ) (v : K) : Prop := edge lo hi n i ≤ v ∧ v < edge lo hi n (i + 1)

end Freud.Spec
