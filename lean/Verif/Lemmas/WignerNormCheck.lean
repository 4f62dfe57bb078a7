import Verif.Lemmas.WignerCheck

/-!
# A check in integers that the squares of the Wigner 3j symbols add up to 1
-/

namespace Freud.Wigner
open Spec Steinhardt

/-- The check in integers for one `l`. -/
def normOK (l : ℕ) : Bool :=
  decide (((triples l).map fun m =>
    (alt3 (pascal l) (shifted (pascal l) m.1) (shifted (pascal l) (-m.2.1))).natAbs ^ 2 *
      (((2 * l).factorial / nth (pascal (2 * l)) (l + m.1)) *
        ((2 * l).factorial / nth (pascal (2 * l)) (l + m.2.1)) *
        ((2 * l).factorial / nth (pascal (2 * l)) (l + m.2.2)))).sum =
    l.factorial ^ 3 * (3 * l + 1).factorial)

theorem normOK_true : ∀ l ∈ List.range 21, normOK l = true := by decide +kernel

end Freud.Wigner
