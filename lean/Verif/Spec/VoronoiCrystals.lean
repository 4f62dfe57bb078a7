import Verif.Spec.VoronoiDiagram
import Verif.Spec.NamedCells

/-!
# Specification of the Voronoi diagrams of crystals
-/

namespace Freud.Spec
open Freud Voronoi

/-- In every crystal made from the cell, of any size and scale, the Voronoi neighbors of each particle
are at the vectors of `D`, times the scale, each once; and all particles have equal parts of the volume
of the box (in 2D of its area). -/
def VoronoiIs (cell : Option (UnitCell ℝ)) (D : List (Vec3 ℝ)) : Prop :=
  ∃ u, cell = some u ∧ ∀ n scale box points, u.generateSystem n scale none = some (box, points) →
    ∀ cells, DiagramOK box points cells → ∀ area k, container box = some k →
    (∀ c ∈ cells, VoroOK k points area c) → ∀ sortV sortB, SortsOK sortV sortB → ∀ s,
    ∃ s', compute box.is2D points sortV sortB s (cells.map raw) = some s' ∧
      (∀ i < points.length, ((s'.nlist.bonds.filter fun nb => nb.q = i).map Bond.vec).Perm
        (D.map (Vec3.smul scale))) ∧
      s'.volumes = List.replicate points.length (box.getVolume / points.length)

end Freud.Spec
