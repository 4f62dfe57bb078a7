import Verif.Spec.Periodic

/-!
# Specification: buffers that are wide enough for a radius
-/

namespace Freud.Spec
open Freud

/-- Enlarging the lengths of the box by `buff` at both ends moves every face outwards by at least `r`: a length `L` whose
faces are at a distance `d` puts the new faces `buff * d / L` further out. -/
def WideEnough (b : Box ℝ) (buff : Vec3 ℝ) (r : ℝ) : Prop :=
  r ≤ buff.x * b.getNearestPlaneDistance.x / b.L.x ∧ r ≤ buff.y * b.getNearestPlaneDistance.y / b.L.y ∧
    (b.is2D = false → r ≤ buff.z * b.getNearestPlaneDistance.z / b.L.z)

end Freud.Spec
