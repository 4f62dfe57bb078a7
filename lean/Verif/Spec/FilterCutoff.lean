import Verif.Model.FilterInput
import Verif.Spec.Sources
import Verif.Props.Filter

/-!
# Specification: offering a filter more neighbors
-/

namespace Freud.Spec
open Freud

/-- What identifies a bond, leaving out the vector: query point, point, weight and distance. -/
def columns {K : Type*} (b : Bond K) : ℕ × ℕ × K × K := (b.q, b.p, b.weight, b.dist)

/-- `n` is for the same numbers of points and offers exactly the bonds of `n'` that are shorter than
`r`, in any order (and with vectors that may point the other way). -/
structure Within {K : Type*} [LinearOrder K] (r : K) (n n' : NList K) : Prop where
  nq : n.numQueryPoints = n'.numQueryPoints
  np : n.numPoints = n'.numPoints
  bonds : (n.bonds.map columns).Perm ((n'.bonds.filter fun b => b.dist < r).map columns)

/-- `arg` asks for at least the neighbors within `r`: nothing given (all pairs), or a dictionary with
no lower cutoff and an upper cutoff of at least `r` that is below half the box. -/
def AtLeast (b : Box ℝ) (r : ℝ) (arg : NeighborsArg) : Prop :=
  arg = .nothing ∨ ∃ r', arg = .ball r' 0 none ∧ r ≤ r' ∧ BelowHalf b r'

end Freud.Spec
