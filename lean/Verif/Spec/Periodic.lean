import Verif.Spec.Lattice
import Verif.Model.BoxReal

/-!
# Specification of periodic neighbors
-/

namespace Freud.Spec

/-- `v` lies in the box: its box coordinates are between 0 and 1. -/
def InCell (b : Box ℝ) (v : Vec3 ℝ) : Prop :=
  ∃ f, HasCoords b v f ∧ (0 ≤ f.x ∧ f.x ≤ 1) ∧ (0 ≤ f.y ∧ f.y ≤ 1) ∧ (0 ≤ f.z ∧ f.z ≤ 1)

/-- `w` is a periodic image of `v`. -/
def IsImage (b : Box ℝ) (v w : Vec3 ℝ) : Prop := ∃ n, AllowedShift b n ∧ w = v + lattice b n

/-- All three axes are periodic. -/
def FullyPeriodic (b : Box ℝ) : Prop := b.px = true ∧ b.py = true ∧ b.pz = true

/-- `r` is below half of the distance between opposite faces of the box, for the periodic axes. -/
def BelowHalf (b : Box ℝ) (r : ℝ) : Prop :=
  (b.px = true → 2 * r < b.getNearestPlaneDistance.x) ∧
    (b.py = true → 2 * r < b.getNearestPlaneDistance.y) ∧
    (b.pz = true → b.is2D = false → 2 * r < b.getNearestPlaneDistance.z)

/-- `w` is a shortest periodic image of `v`: `norm w` is the minimum-image length of `v`. -/
def NearestImage (b : Box ℝ) (v w : Vec3 ℝ) : Prop :=
  IsImage b v w ∧ ∀ w', IsImage b v w' → Vec3.norm w ≤ Vec3.norm w'

/-- For every point, a shortest image of its separation from `q` is at most one box away. -/
def NearestReachable (b : Box ℝ) (pts : List (Vec3 ℝ)) (q : Vec3 ℝ) : Prop :=
  ∀ p ∈ pts, ∀ w, IsImage b (p - q) w → ∃ n, AllowedShift b n ∧
    ((-1 ≤ n.x ∧ n.x ≤ 1) ∧ (-1 ≤ n.y ∧ n.y ≤ 1) ∧ (-1 ≤ n.z ∧ n.z ≤ 1)) ∧
    Vec3.norm (p - q + lattice b n) ≤ Vec3.norm w

/-- All lengths of the box are positive. -/
def PositiveLengths (b : Box ℝ) : Prop :=
  0 < b.L.x ∧ 0 < b.L.y ∧ (b.is2D = false → 0 < b.L.z)

end Freud.Spec
