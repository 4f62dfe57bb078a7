import Verif.Spec.VoronoiSymmetry
import Verif.Spec.CrystalOrder

/-!
# Specification: order parameters of crystals with Voronoi neighbors
-/

namespace Freud.Spec
open Freud Voronoi

/-- A crystal of any size and scale that was made from the cell, in a box that is more than twice as large as the
distance `d` of nearest neighbors, and the neighbor list of its Voronoi diagram, weighted with the areas (in 2D the
lengths) of the facets. -/
structure VoronoiNeighbors (u : UnitCell ℝ) (d : ℝ) (box : Box ℝ) (points : List (Vec3 ℝ)) (nl : NList ℝ) :
    Prop where
  made : ∃ (n : Vec3 ℤ) (scale : ℝ), u.generateSystem n scale none = some (box, points) ∧
    ∃ r, scale * d < r ∧ BelowHalf box r
  diagram : ∃ cells area k sortV sortB s s', DiagramOK box points cells ∧ RigidMeasure area ∧
    container box = some k ∧ (∀ c ∈ cells, VoroOK k points area c) ∧
    (∀ c ∈ cells, ∀ r ∈ c.ridges, 0 < r.area) ∧ SortsOK sortV sortB ∧
    compute box.is2D points sortV sortB s (cells.map raw) = some s' ∧ nl = s'.nlist

/-- `Steinhardt` of this `l` gives the value `q` to every particle and to the system, in every crystal that was made
from the cell, with its Voronoi neighbors: with or without averaging, with or without weights, after any other calls
and for every order in which the threads run. -/
def SteinhardtVoronoi (cell : Option (UnitCell ℝ)) (d : ℝ) (l : ℕ) (q : ℝ) : Prop :=
  ∃ u, cell = some u ∧ ∀ c : Steinhardt.Call, VoronoiNeighbors u d c.box c.points c.nlist →
    IsExecution c.points.length c.ev → IsExecution c.points.length c.evAve →
    c.reduceOrder.Perm (List.range (2 * l + 1)) →
    ∀ sph, FsphOK sph l (sphericalHarmonic l) → ∀ history, (∀ c ∈ history, LegalSteinhardt l c) →
    ∀ average weighted normalize, ∃ res,
      Steinhardt.resultAfter sph ⟨l, average, false, weighted, normalize⟩ history c = some res ∧
      res.particleOrder ⟨l, average, false, weighted, normalize⟩ = List.replicate c.points.length (some q) ∧
      res.order = some q

/-- `SolidLiquid` with `l`, in every crystal that was made from the cell, with its Voronoi neighbors: all normalized
bond values are 1, so for every threshold below 1 all `z` bonds of every particle are solid-like. -/
def SolidVoronoi (cell : Option (UnitCell ℝ)) (d : ℝ) (l z : ℕ) : Prop :=
  ∃ u, cell = some u ∧ ∀ c : Steinhardt.Call, VoronoiNeighbors u d c.box c.points c.nlist →
    IsExecution c.points.length c.ev → IsExecution c.points.length c.evAve →
    c.reduceOrder.Perm (List.range (2 * l + 1)) → ∀ order : List ℕ, order.Perm (List.range c.points.length) →
    ∀ sph, FsphOK sph l (sphericalHarmonic l) → ∀ history, (∀ c ∈ history, LegalSteinhardt l c) →
    ∀ threshold solidThreshold, 0 ≤ threshold → threshold < 1 →
    ∃ r, SolidLiquid.run sph ⟨l, threshold, solidThreshold, true⟩ history c order = some r ∧
      r.qlij = List.replicate c.nlist.bonds.length (some 1) ∧
      r.connections = List.replicate c.points.length z ∧
      r.clusterBonds.bonds = if solidThreshold ≤ z then c.nlist.bonds else []

/-- `Hexatic` of this `k` gives the value to every particle, in every crystal that was made from the cell, with its
Voronoi neighbors, with or without weights and for every order in which the threads run. -/
def HexaticVoronoi (cell : Option (UnitCell ℝ)) (d : ℝ) (k : ℕ) (value : ℂ) : Prop :=
  ∃ u, cell = some u ∧ ∀ box points nl, VoronoiNeighbors u d box points nl →
    ∀ order : List ℕ, order.Perm (List.range points.length) → ∀ weighted,
    Hexatic.compute ⟨k, weighted⟩ box points nl order = some (List.replicate points.length (some value))

end Freud.Spec
