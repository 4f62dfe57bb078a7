import Verif.Spec.VoronoiNearest

/-!
# Specification of lattices of points
-/

namespace Freud.Spec
open Freud

/-- All points see the other points and their images at the same vectors: together they form a
lattice (a Bravais lattice). -/
def LatticePoints (b : Box ℝ) (points : List (Vec3 ℝ)) : Prop :=
  ∀ i < points.length, ∀ i' < points.length, ∀ v, (∃ j, ImageVector b points i j v) →
    ∃ j, ImageVector b points i' j v

end Freud.Spec
