import Verif.Model.NamedCells
import Verif.Spec.PMFTArgs
import Verif.Spec.Sources

/-!
# Specification: coordination in a crystal
-/

namespace Freud.Spec
open Freud

/-- In every system made from the cell, of any size and scale, every particle has exactly `z`
neighbors at the distance `d` and no other neighbor nearer than `d₂` (lengths in units of the scale):
this is what every ball query with a cutoff between the two finds, with any of the systems, as query
arguments or as a neighbor list. -/
def Coordination (cell : Option (UnitCell ℝ)) (z : ℕ) (d d₂ : ℝ) : Prop :=
  ∃ u, cell = some u ∧
    ∀ (n : Vec3 ℤ) (scale : ℝ) (box : Box ℝ) (points : List (Vec3 ℝ)),
      u.generateSystem n scale none = some (box, points) →
      ∀ r, scale * d < r → r ≤ scale * d₂ → BelowHalf box r →
      ∀ src, IsSource box points points r 0 true src →
      (∀ i < points.length, ((allBonds src).filter fun bd => bd.q = i).length = z) ∧
      ∀ bd ∈ allBonds src, bd.q < points.length ∧ bd.dist = scale * d

end Freud.Spec
