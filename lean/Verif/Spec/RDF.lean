import Verif.Spec.HistCompute
import Verif.Model.RDF

/-!
# Specification of the radial distribution function
-/

namespace Freud.Spec
open Freud
variable {K : Type*} [Field K] [LinearOrder K] [IsStrictOrderedRing K] [FloorRing K]

open Classical in
/-- The number of bonds (a bond is the list of its one coordinate, the distance) with distance in
`[lo, hi)`. -/
noncomputable def bondsIn (lo hi : K) (bonds : List (List K)) : ℕ :=
  (bonds.filter (fun s => decide (∃ d, s = [d] ∧ lo ≤ d ∧ d < hi))).length

/-- The volume of the spherical shell (or area of the ring) between radii `r` and `r'`. -/
def shellVolume (pi : K) (is2D : Bool) (r r' : K) : K :=
  if is2D then pi * (r' ^ 2 - r ^ 2) else 4 / 3 * pi * (r' ^ 3 - r ^ 3)

/-- The density of other particles: all query points, or all but one, per box volume. -/
def density (mode : NormalizationMode) (f : FrameInfo K) : K :=
  match mode with
  | .exact => (f.nQuery : K) / f.box.getVolume
  | .finiteSize => ((f.nQuery : K) - 1) / f.box.getVolume

/-- A frame that can be normalised. -/
structure FrameOK (mode : NormalizationMode) (f : FrameInfo K) : Prop where
  points : 1 ≤ f.nPoints
  query : 1 ≤ f.nQuery
  pair : mode = .finiteSize → 2 ≤ f.nQuery
  volume : 0 < f.box.getVolume

end Freud.Spec
