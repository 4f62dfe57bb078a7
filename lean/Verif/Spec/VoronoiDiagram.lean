import Verif.Model.VoronoiContainer
import Verif.Spec.Voronoi
import Mathlib.MeasureTheory.Measure.Lebesgue.Basic

/-!
# Specification of the periodic Voronoi diagram

The diagram of all periodic images of the points, as sets of positions: what voro++ computes for the
container it is given.
-/

namespace Freud.Spec
open Freud Voronoi

/-- A vector of the lattice of a container. -/
def containerVector (k : Container) (n : Vec3 ℤ) : Vec3 ℝ :=
  ⟨n.x * k.bx + n.y * k.bxy + n.z * k.bxz, n.y * k.by' + n.z * k.byz, n.z * k.bz⟩

/-- `s` is a periodic image of the point `j`. -/
def Site (k : Container) (points : List (Vec3 ℝ)) (j : ℕ) (s : Vec3 ℝ) : Prop :=
  ∃ p n, points[j]? = some p ∧ s = p + containerVector k n

/-- The positions that are at least as close to `s` as to any periodic image of any point. -/
def region (k : Container) (points : List (Vec3 ℝ)) (s : Vec3 ℝ) : Set (Vec3 ℝ) :=
  {x | ∀ j t, Site k points j t → Vec3.norm (x - s) ≤ Vec3.norm (x - t)}

/-- The part of the region of `s` that is just as close to `t`. -/
def shared (k : Container) (points : List (Vec3 ℝ)) (s t : Vec3 ℝ) : Set (Vec3 ℝ) :=
  {x | x ∈ region k points s ∧ Vec3.norm (x - s) = Vec3.norm (x - t)}

/-- The set has three points that are not on one line. -/
def Broad (S : Set (Vec3 ℝ)) : Prop :=
  ∃ x ∈ S, ∃ y ∈ S, ∃ z ∈ S, Vec3.cross (y - x) (z - x) ≠ ⟨0, 0, 0⟩

/-- The volume of a set. -/
noncomputable def volumeOf (S : Set (Vec3 ℝ)) : ℝ :=
  (MeasureTheory.volume {x : Fin 3 → ℝ | (⟨x 0, x 1, x 2⟩ : Vec3 ℝ) ∈ S}).toReal

/-- A cell of the periodic Voronoi diagram of the points in the container: it belongs to an image
of its particle that lies between the bottom and the top of the container, has the volume of the region of that image, and has one ridge for each other image
with which the region shares a facet, with the area of that facet. -/
structure VoroOK (k : Container) (points : List (Vec3 ℝ)) (area : Set (Vec3 ℝ) → ℝ) (c : Cell) :
    Prop where
  pos : Site k points c.pid c.pos
  home : 0 ≤ c.pos.z ∧ c.pos.z < k.bz
  volume : c.volume = volumeOf (region k points c.pos)
  once : (c.ridges.map (fun r => (r.neighbor, r.image))).Nodup
  each : ∀ j t, (∃ r ∈ c.ridges, r.neighbor = j ∧ r.image = t) ↔
    (Site k points j t ∧ t ≠ c.pos ∧ Broad (shared k points c.pos t))
  area : ∀ r ∈ c.ridges, r.area = area (shared k points c.pos r.image)

/-- No two points are periodic images of one another. -/
def Separate (k : Container) (points : List (Vec3 ℝ)) : Prop :=
  ∀ i j s, Site k points i s → Site k points j s → i = j

/-- A bond seen from its other end. -/
noncomputable def flipped (nb : Bond ℝ) : Bond ℝ := ⟨nb.p, nb.q, nb.dist, nb.weight, -nb.vec⟩

end Freud.Spec
