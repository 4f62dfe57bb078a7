import Verif.Spec.PMFT
import Verif.Spec.BondOrder

/-!
# Specification: the same data in coarse and in fine bins

A fine grid cuts every bin of a coarse one into the same number of parts. The parts of bin `i`, cut into
`m`, are the bins `m * i`, …, `m * i + (m - 1)` of the fine grid.
-/

namespace Freud.Spec
open Freud
variable {K : Type*} [Field K]

/-- The mean of `n` numbers. -/
def meanParts (n : ℕ) (v : ℕ → K) : K := (∑ k ∈ Finset.range n, v k) / n

/-- The mean of `n` numbers with weights. -/
def weightedMeanParts (n : ℕ) (w v : ℕ → K) : K :=
  (∑ k ∈ Finset.range n, w k * v k) / ∑ k ∈ Finset.range n, w k

/-- The `k`-th part of bin `i`. -/
def part (m i k : ℕ) : ℕ := m * i + k

open Classical in
/-- How many of the numbers are in `[lo, hi)`. -/
noncomputable def numberIn [LE K] [LT K] (lo hi : K) (ds : List K) : ℕ :=
  (ds.filter fun d => decide (lo ≤ d ∧ d < hi)).length

end Freud.Spec
