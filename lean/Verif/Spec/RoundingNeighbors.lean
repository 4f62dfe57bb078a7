import Verif.Spec.RoundingBox
import Verif.Spec.Lattice

/-!
# Specification: neighbors up to rounding errors
-/

namespace Freud.Spec
open Freud

/-- The square of the exact distance from the image of `q`, moved by the lattice vector `n`, to `r`. -/
def distSq (b : Box ℚ) (q r : Vec3 ℚ) (n : Vec3 ℤ) : ℚ :=
  (r.x - (q.x + (lattice b n).x)) ^ 2 + (r.y - (q.y + (lattice b n).y)) ^ 2 +
    (r.z - (q.z + (lattice b n).z)) ^ 2

/-- A distance whose square is `d` is less than `R` by a margin: the absolute error `e` and four
roundings of `R`. -/
def ClearlyLess (p : ℕ) (e d R : ℚ) : Prop :=
  ∃ s, 0 ≤ s ∧ d ≤ s ^ 2 ∧ s + e ≤ (1 - 4 * 2 ^ (-(p : ℤ))) * R

/-- A distance whose square is `d` is more than `R` by such a margin. -/
def ClearlyMore (p : ℕ) (e d R : ℚ) : Prop :=
  ∃ s, 0 ≤ s ∧ s ^ 2 ≤ d ∧ (1 + 4 * 2 ^ (-(p : ℤ))) * R ≤ s - e

/-- The image steps that a query looks at: at most one box vector along each periodic axis. -/
def NearStep (b : Box ℚ) (n : Vec3 ℤ) : Prop :=
  AllowedShift b n ∧ (-1 ≤ n.x ∧ n.x ≤ 1) ∧ (-1 ≤ n.y ∧ n.y ≤ 1) ∧ (-1 ≤ n.z ∧ n.z ≤ 1)

end Freud.Spec
