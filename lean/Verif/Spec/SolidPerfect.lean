import Verif.Spec.SolidLiquid

/-!
# Specification: the angular pattern of a distribution of bonds
-/

namespace Freud.Spec

/-- The pattern of degree `l` of a distribution of directions, at the direction `w`: the part of degree `l` of the angular
density, up to a constant factor. -/
noncomputable def anglePattern (l : ℕ) (L : List (ℝ × Vec3 ℝ)) (w : Vec3 ℝ) : ℝ :=
  (L.map fun d => d.1 * legendre l (Vec3.dot d.2 w)).sum

/-- Both distributions exist, their patterns of degree `l` do not vanish, and they differ by a factor with the sign of
`s` only. -/
def SamePattern (l : ℕ) (s : ℝ) (o o' : Option (List (ℝ × Vec3 ℝ))) : Prop :=
  ∃ L L', o = some L ∧ o' = some L' ∧ (∃ w, Vec3.dot w w = 1 ∧ anglePattern l L w ≠ 0) ∧
    ∃ t, 0 < t ∧ ∀ w, Vec3.dot w w = 1 → anglePattern l L w = s * t * anglePattern l L' w

end Freud.Spec
