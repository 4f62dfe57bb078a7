import Mathlib.Analysis.Real.Sqrt
import Mathlib.Data.Nat.Factorial.Basic

/-!
# Specification: Wigner 3j symbols with three equal angular momenta

The formula of Racah (DLMF 34.2.4) with `j1 = j2 = j3 = l`.
-/

namespace Freud.Spec

/-- `n!` of an integer that is not negative. -/
def ifact (n : ℤ) : ℕ := n.toNat.factorial

/-- The term number `s` of the sum; 0 if one of the factorials is that of a negative number. -/
def racahTerm (l : ℕ) (m1 m2 : ℤ) (s : ℕ) : ℚ :=
  if 0 ≤ (l - s : ℤ) ∧ 0 ≤ l - m1 - s ∧ 0 ≤ l + m2 - s ∧ 0 ≤ m1 + s ∧ 0 ≤ -m2 + s then
    (-1) ^ s / (ifact s * ifact (l - s) * ifact (l - m1 - s) * ifact (l + m2 - s) *
      ifact (m1 + s) * ifact (-m2 + s))
  else 0

/-- The product under the root: the square of the triangle coefficient and six factorials. -/
def racahProduct (l : ℕ) (m1 m2 m3 : ℤ) : ℚ :=
  (l.factorial ^ 3 : ℕ) / ((3 * l + 1).factorial : ℕ) *
    (ifact (l + m1) * ifact (l - m1) * ifact (l + m2) * ifact (l - m2) * ifact (l + m3) * ifact (l - m3) : ℕ)

/-- The Wigner 3j symbol `(l l l; m1 m2 m3)` for `m1 + m2 + m3 = 0`. -/
noncomputable def wigner3j (l : ℕ) (m1 m2 m3 : ℤ) : ℝ :=
  (-1 : ℝ) ^ m3 * Real.sqrt (racahProduct l m1 m2 m3) *
    (((List.range (l + 1)).map (racahTerm l m1 m2)).sum : ℚ)

end Freud.Spec
