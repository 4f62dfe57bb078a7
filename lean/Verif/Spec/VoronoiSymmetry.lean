import Verif.Spec.VoronoiCrystals
import Verif.Spec.VoronoiLattice
import Verif.Spec.Coordination
import Verif.Spec.Cells

/-!
# Specification of the ridges of symmetric lattices
-/

namespace Freud.Spec
open Freud Voronoi

/-- The measure of facets does not change under rotations, reflections and translations. -/
def RigidMeasure (area : Set (Vec3 ℝ) → ℝ) : Prop :=
  ∀ R, Rigid R → ∀ v S, area ((fun x => R x + v) '' S) = area S

/-- `Q` is a symmetry of the system around each of its points: it takes the vectors from a point to
all points and images to such vectors, and nothing else to them; in 2D it keeps the vertical. -/
structure LatticeSymmetry (b : Box ℝ) (points : List (Vec3 ℝ)) (Q : Vec3 ℝ → Vec3 ℝ) : Prop where
  rigid : Rigid Q
  vectors : ∀ i < points.length, ∀ v,
    (∃ j, ImageVector b points i j (Q v)) ↔ ∃ j, ImageVector b points i j v
  vertical : b.is2D = true → Q ⟨0, 0, 1⟩ = ⟨0, 0, 1⟩

/-- In every crystal made from the cell, of any size and scale, all bonds of the Voronoi diagram along
the vectors of `D`, times the scale, have the same weight. -/
def EqualRidges (cell : Option (UnitCell ℝ)) (D : List (Vec3 ℝ)) : Prop :=
  ∃ u, cell = some u ∧ ∀ n scale box points, u.generateSystem n scale none = some (box, points) →
    ∀ cells, DiagramOK box points cells → ∀ area, RigidMeasure area → ∀ k, container box = some k →
    (∀ c ∈ cells, VoroOK k points area c) → ∀ sortV sortB, SortsOK sortV sortB → ∀ s,
    ∃ s', compute box.is2D points sortV sortB s (cells.map raw) = some s' ∧
      ∃ w, ∀ nb ∈ s'.nlist.bonds, (∃ d ∈ D, nb.vec = Vec3.smul scale d) → nb.weight = w

/-- In every crystal made from the cell, of any size and scale, all continuous coordination numbers of
all particles are `N`, whatever the threads do, provided that facets have positive measures with which
the pyramids over the facets of a cell fill it, as areas (in 2D lengths) do. -/
def CoordinationIs (cell : Option (UnitCell ℝ)) (N : ℕ) : Prop :=
  ∃ u, cell = some u ∧ ∀ n scale box points, u.generateSystem n scale none = some (box, points) →
    ∀ cells, DiagramOK box points cells → ∀ area, RigidMeasure area → ∀ k, container box = some k →
    (∀ c ∈ cells, VoroOK k points area c) → (∀ c ∈ cells, ∀ r ∈ c.ridges, 0 < r.area) →
    (∀ c ∈ cells, c.volume = ((ridgeBonds box.is2D c).map fun nb =>
      pyramid (dimension box.is2D) nb.weight (nb.dist / 2)).sum) →
    ∀ sortV sortB, SortsOK sortV sortB → ∀ s,
    ∃ s', compute box.is2D points sortV sortB s (cells.map raw) = some s' ∧
      ∀ (p : Coordination.Params) (order : List ℕ), order.Perm (List.range points.length) →
        Coordination.compute p box.is2D s' order =
          some (List.replicate points.length (List.replicate p.number (some (N : ℝ))))

end Freud.Spec
