import Verif.Model.BondOrder
import Verif.Spec.HistCompute

/-!
# Specification of bond order diagrams
-/

namespace Freud.Spec
open Freud

/-- The point at distance `r` from the origin with azimuthal angle `theta` and polar angle `phi`. -/
noncomputable def spherical (r theta phi : ℝ) : Vec3 ℝ :=
  ⟨r * Real.sin phi * Real.cos theta, r * Real.sin phi * Real.sin theta, r * Real.cos phi⟩

/-- `v` points into the sector `(i, j)` of a sphere that is cut into `nTheta` equal slices of
azimuthal angle and `nPhi` equal slices of polar angle. The azimuthal angle of the poles is 0. -/
def InSector (nTheta nPhi i j : ℕ) (v : Vec3 ℝ) : Prop :=
  ∃ r theta phi : ℝ, 0 < r ∧ v = spherical r theta phi ∧
    2 * Real.pi * i / nTheta ≤ theta ∧ theta < 2 * Real.pi * (i + 1) / nTheta ∧
    Real.pi * j / nPhi ≤ phi ∧ phi < Real.pi * (j + 1) / nPhi ∧ (Real.sin phi = 0 → theta = 0)

/-- The solid angle of that sector: the angle of the slice times the difference in height. -/
noncomputable def solidAngle (nTheta nPhi j : ℕ) : ℝ :=
  2 * Real.pi / nTheta *
    (Real.cos (Real.pi * j / nPhi) - Real.cos (Real.pi * (j + 1) / nPhi))

open Classical in
/-- How many of the vectors satisfy `p`. -/
noncomputable def howMany (p : Vec3 ℝ → Prop) (vs : List (Vec3 ℝ)) : ℕ :=
  (vs.filter (fun v => decide (p v))).length

/-- `v` points straight down. -/
def Down (v : Vec3 ℝ) : Prop := v.x = 0 ∧ v.y = 0 ∧ v.z < 0

/-- The directions of all bonds of a call. -/
noncomputable def callDirections (mode : BondOrder.Mode) (c : BondOrder.Call) : List (Vec3 ℝ) :=
  (List.range c.n).flatMap (fun i => (c.bonds i).map (BondOrder.direction mode c.ori c.queryOri))

/-- The calls since the last reset. -/
def callsSince : List BondOrder.Op → List BondOrder.Call → List BondOrder.Call
  | [], acc => acc
  | .reset :: os, _ => callsSince os []
  | .accumulate c :: os, acc => callsSince os (acc ++ [c])
  | .read _ :: os, acc => callsSince os acc

/-- What a user can do: the loop of a call is executed by some schedule, no bond has direction zero,
and a reduction processes every bin once. -/
def BOLegal (nTheta nPhi : ℕ) (mode : BondOrder.Mode) : BondOrder.Op → Prop
  | .accumulate c => IsExecution c.n c.ev ∧ ∀ v ∈ callDirections mode c, v ≠ ⟨0, 0, 0⟩
  | .read order => order.Perm (List.range (nTheta * nPhi))
  | .reset => True

/-- A bond seen from its other end. -/
noncomputable def reversed (b : Bond ℝ) : Bond ℝ := ⟨b.p, b.q, b.dist, b.weight, -b.vec⟩

end Freud.Spec
