import Verif.Spec.Lattice
import Verif.Spec.Voronoi

/-!
# Specification of the closest periodic images
-/

namespace Freud.Spec
open Freud

/-- `v` leads from the point `i` to a periodic image of the point `j`. -/
def ImageVector (b : Box ℝ) (points : List (Vec3 ℝ)) (i j : ℕ) (v : Vec3 ℝ) : Prop :=
  ∃ p q n, points[i]? = some p ∧ points[j]? = some q ∧ v = q + lattice b n - p

/-- `v` leads from the point `i` to one of the closest of all other points and images. -/
structure ClosestVector (b : Box ℝ) (points : List (Vec3 ℝ)) (i j : ℕ) (v : Vec3 ℝ) : Prop where
  image : ImageVector b points i j v
  apart : v ≠ ⟨0, 0, 0⟩
  closest : ∀ j' v', ImageVector b points i j' v' → v' ≠ ⟨0, 0, 0⟩ → Vec3.norm v ≤ Vec3.norm v'

/-- `v` leads from the point `i` to an image of the point `j`, and all other points and images are
outside the sphere that has `v` as its diameter. -/
structure NothingBetween (b : Box ℝ) (points : List (Vec3 ℝ)) (i j : ℕ) (v : Vec3 ℝ) : Prop where
  image : ImageVector b points i j v
  apart : v ≠ ⟨0, 0, 0⟩
  outside : ∀ j' v', ImageVector b points i j' v' → v' ≠ ⟨0, 0, 0⟩ → v' ≠ v →
    Vec3.norm (Vec3.smul (1 / 2) v) < Vec3.norm (v' - Vec3.smul (1 / 2) v)

end Freud.Spec
