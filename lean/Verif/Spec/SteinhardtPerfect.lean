import Verif.Spec.Steinhardt

/-!
# Specification: bonds along one line
-/

namespace Freud.Spec

/-- The directions of the bonds agree, for even `l` up to the sign. -/
def OneLine (l : ℕ) (b : Box ℝ) (points : List (Vec3 ℝ)) (bonds : List (Bond ℝ)) : Prop :=
  ∀ nb ∈ bonds, ∀ nb' ∈ bonds, unit (bondVector b points nb) = unit (bondVector b points nb') ∨
    Even l ∧ unit (bondVector b points nb) = -unit (bondVector b points nb')

end Freud.Spec
