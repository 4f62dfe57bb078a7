import Verif.Spec.VoronoiDiagram
import Verif.Spec.Scaling

/-!
# Specification of Voronoi diagrams in another unit of length
-/

namespace Freud.Spec
open Freud

/-- The change of the unit of length; in 2D the height of the slab, which is not a length of the system,
is kept. -/
def stretch (c : ℝ) (is2D : Bool) (x : Vec3 ℝ) : Vec3 ℝ :=
  ⟨c * x.x, c * x.y, if is2D then x.z else c * x.z⟩

/-- The factor by which the areas of ridges change: they are areas in 3D and lengths in 2D. -/
def ridgeFactor (c : ℝ) (is2D : Bool) : ℝ := if is2D then c else c ^ 2

/-- The factor by which the volumes of cells change: they are volumes in 3D and areas in 2D. -/
def cellFactor (c : ℝ) (is2D : Bool) : ℝ := if is2D then c ^ 2 else c ^ 3

/-- The set lies in a vertical plane. -/
def Upright (S : Set (Vec3 ℝ)) : Prop :=
  ∃ v : Vec3 ℝ, v ≠ ⟨0, 0, 0⟩ ∧ v.z = 0 ∧ ∃ a, ∀ x ∈ S, Vec3.dot v x = a

/-- A bond in the other unit of length. -/
def scaledRidge (c : ℝ) (is2D : Bool) (nb : Bond ℝ) : Bond ℝ :=
  ⟨nb.q, nb.p, c * nb.dist, ridgeFactor c is2D * nb.weight, ⟨c * nb.vec.x, c * nb.vec.y, c * nb.vec.z⟩⟩

end Freud.Spec
