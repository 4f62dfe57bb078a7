import Verif.Model.Rounding
import Verif.Spec.Lattice

/-!
# Specification: floating-point numbers
-/

namespace Freud.Spec
open Freud

/-- The numbers with `p` binary digits. -/
def IsFloat (p : ℕ) (x : ℚ) : Prop := ∃ m e : ℤ, |m| < 2 ^ p ∧ x = m * (2 : ℚ) ^ e

/-- `y` is a floating-point number nearest to `x`. -/
def IsNearest (p : ℕ) (x y : ℚ) : Prop := IsFloat p y ∧ ∀ z, IsFloat p z → |x - y| ≤ |x - z|

end Freud.Spec
