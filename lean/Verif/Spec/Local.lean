import Verif.Spec.PairFrames

/-!
# Specification: ranges of neighbors, and particles out of range
-/

namespace Freud.Spec
open Freud

/-- The frames are the same particles with the same data; the ranges of the neighbors, the sources and the
schedules may differ. -/
structure SameParticles {D : Type*} (f f' : DataFrame D) : Prop where
  box : f'.box = f.box
  pts : f'.pts = f.pts
  qpts : f'.qpts = f.qpts
  excl : f'.excl = f.excl
  data : f'.data = f.data
  queryData : f'.queryData = f.queryData

/-- The neighbors of the frame include all with a distance in `[lo, hi)`. -/
def DataFrame.Covers {D : Type*} (f : DataFrame D) (lo hi : ℝ) : Prop := f.inner ≤ lo ∧ hi ≤ f.cutoff

/-- Particle `j`, if there is one, is at least `r` away from `q`, and so are its periodic images. -/
def Away (b : Box ℝ) (q : Vec3 ℝ) (r : ℝ) (pts : List (Vec3 ℝ)) (j : ℕ) : Prop :=
  ∀ p w, pts[j]? = some p → IsImage b (p - q) w → r ≤ Vec3.norm w

/-- Up to the distance `r` from `q` the particles are the same: others have been moved, added at the end or
removed from there. -/
def SameNear (b : Box ℝ) (q : Vec3 ℝ) (r : ℝ) (pts pts' : List (Vec3 ℝ)) : Prop :=
  ∀ j, pts'[j]? = pts[j]? ∨ (Away b q r pts j ∧ Away b q r pts' j)

/-- Two systems with the lists of the neighbors in the same range, and a particle `i` of both, around which
both are the same up to the distance `reach`. -/
structure NearLists (reach cutoff : ℝ) (i : ℕ) (q : Vec3 ℝ) (b : Box ℝ) (pts pts' : List (Vec3 ℝ))
    (nl nl' : NList ℝ) : Prop where
  system : PeriodicSystem b pts pts
  system' : PeriodicSystem b pts' pts'
  small : pts.length ≤ 0xffffffff
  small' : pts'.length ≤ 0xffffffff
  here : pts[i]? = some q
  here' : pts'[i]? = some q
  near : SameNear b q reach pts pts'
  half : BelowHalf b cutoff
  lists : ∃ rMin excl, 0 ≤ rMin ∧ IsSource b pts pts cutoff rMin excl (.list nl) ∧
    IsSource b pts' pts' cutoff rMin excl (.list nl')

end Freud.Spec
