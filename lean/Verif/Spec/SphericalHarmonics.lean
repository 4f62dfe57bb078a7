import Verif.Spec.Steinhardt

/-!
# Specification: the spherical harmonics

With the phase of Condon and Shortley, as polynomials in the components of a unit vector.
-/

namespace Freud.Spec
open Finset

/-- `Y_lm(v)` is the root of `(2l+1)/4π (l+m)! (l-m)!` times the sum over `p`, `q`, `r` with `p + q + r = l`
and `p - q = m` of `(-(x + iy)/2)^p ((x - iy)/2)^q z^r / (p! q! r!)`. -/
noncomputable def sphericalHarmonic (l : ℕ) (m : ℤ) (v : Vec3 ℝ) : ℂ :=
  (Real.sqrt ((2 * l + 1) / (4 * Real.pi) * (ifact (l + m) * ifact (l - m))) : ℂ) *
    ∑ p ∈ range (l + 1), ∑ q ∈ range (l + 1), if p + q ≤ l ∧ (p : ℤ) - q = m then
      (-(v.x + v.y * Complex.I) / 2) ^ p * ((v.x - v.y * Complex.I) / 2) ^ q * (v.z : ℂ) ^ (l - p - q) /
        (p.factorial * q.factorial * (l - p - q).factorial) else 0

/-- The mirror image in the plane normal to the unit vector `w`. -/
noncomputable def mirror (w v : Vec3 ℝ) : Vec3 ℝ := v - Vec3.smul (2 * Vec3.dot w v) w

/-- A map that keeps all scalar products: a rotation, perhaps with a mirror image. -/
def Isometry3 (R : Vec3 ℝ → Vec3 ℝ) : Prop := ∀ u v, Vec3.dot (R u) (R v) = Vec3.dot u v

/-- A distribution with all directions turned. -/
def turnedBy (R : Vec3 ℝ → Vec3 ℝ) (L : List (ℝ × Vec3 ℝ)) : List (ℝ × Vec3 ℝ) := L.map fun d => (d.1, R d.2)

end Freud.Spec
