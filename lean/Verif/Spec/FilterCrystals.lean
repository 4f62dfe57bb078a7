import Verif.Spec.FilterCutoff
import Verif.Spec.NamedCells
import Verif.Props.NearestShell

/-!
# Specification: neighbor filters in crystals
-/

namespace Freud.Spec
open Freud

/-- A crystal made from the cell at the given scale, and a list `n` of neighbors offered to a filter, from any kind of
system: all pairs, which is the default, or a ball query with a cutoff above `scale * d`. The box is large enough for
such a cutoff. -/
structure Offered (u : UnitCell ℝ) (d scale : ℝ) (box : Box ℝ) (points : List (Vec3 ℝ)) (n : NList ℝ) : Prop where
  size : points.length ≤ 0xffffffff
  crystal : ∃ k : Vec3 ℤ, u.generateSystem k scale none = some (box, points)
  neighbors : ∃ s arg r, MadeFrom s box points ∧ scale * d < r ∧ BelowHalf box r ∧ AtLeast box r arg ∧
    Filter.Unfiltered s none arg n

/-- In the filtered list, every particle has `z` neighbors: exactly the particles nearer than `R`, each once and with
its distance. -/
def KeepsNearest (box : Box ℝ) (points : List (Vec3 ℝ)) (R : ℝ) (z : ℕ) (out : NList ℝ) : Prop :=
  (∀ b ∈ out.bonds, b.q < points.length) ∧ ∀ i q, points[i]? = some q →
    (bondsOf out i).length = z ∧ ((bondsOf out i).map Bond.p).Nodup ∧
    (∀ j, j ∈ (bondsOf out i).map Bond.p ↔ j ∈ pointsWithin box points q i R 0 true) ∧
    ∀ b ∈ bondsOf out i, ∃ p, points[b.p]? = some p ∧ b.dist = (box.wrap (q - p)).norm

/-- `FilterSANN` keeps the `z` neighbors nearer than `scale * d` in every crystal made from the cell, if particles at
that distance are offered as well, whether incomplete shells are allowed or not. -/
def SannKeeps (cell : Option (UnitCell ℝ)) (z : ℕ) (d : ℝ) : Prop :=
  ∃ u, cell = some u ∧ ∀ scale box points n, Offered u d scale box points n →
    ∀ allow ev, IsExecution points.length ev → ∀ res,
    FilterSANN.Compute n points.length points.length allow ev res →
    ∃ out, res = some out ∧ KeepsNearest box points (scale * d) z out

/-- Likewise `FilterRAD` for particles of equal radii (which is the default), open or closed. -/
def RadKeeps (cell : Option (UnitCell ℝ)) (z : ℕ) (d : ℝ) : Prop :=
  ∃ u, cell = some u ∧ ∀ scale box points n, Offered u d scale box points n →
    ∀ closed allow ev, IsExecution points.length ev → ∀ radius : ℕ → ℝ, (∃ ρ, 0 < ρ ∧ ∀ j, radius j = ρ) → ∀ res,
    FilterRAD.Compute box (fun i => points.getD i 0) (fun j => points.getD j 0) radius closed n
      points.length points.length allow ev res →
    ∃ out, res = some out ∧ KeepsNearest box points (scale * d) z out

end Freud.Spec
