import Verif.Spec.Steinhardt

/-!
# Specification: the bond parameter of `SolidLiquid`

By the angles between the bonds of two particles, without spherical harmonics.
-/

namespace Freud.Spec

/-- How much two distributions of directions agree: the mean of `P_l` of the cosine of the angle between a direction of
the one and a direction of the other. -/
noncomputable def dirOverlap (l : ℕ) (L L' : List (ℝ × Vec3 ℝ)) : ℝ :=
  (L.map fun d => (L'.map fun e => d.1 * e.1 * legendre l (Vec3.dot d.2 e.2)).sum).sum

/-- The bond parameter of two particles with these distributions; `none` if it is not a number. -/
noncomputable def bondValue (normalize : Bool) (l : ℕ) :
    Option (List (ℝ × Vec3 ℝ)) → Option (List (ℝ × Vec3 ℝ)) → Option ℝ
  | some L, some L' =>
    if normalize then
      if dirOverlap l L L = 0 ∨ dirOverlap l L' L' = 0 then none
      else some (dirOverlap l L L' / (Real.sqrt (dirOverlap l L L) * Real.sqrt (dirOverlap l L' L')))
    else some ((2 * l + 1 : ℕ) / (4 * Real.pi) * dirOverlap l L L')
  | _, _ => none

/-- The value is a number above the threshold. -/
def Above (threshold : ℝ) (v : Option ℝ) : Prop := ∃ x, v = some x ∧ threshold < x

end Freud.Spec
