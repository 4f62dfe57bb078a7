import Verif.Model.Steinhardt
import Verif.Spec.Wigner
import Mathlib.Data.Nat.Choose.Basic
import Mathlib.Tactic.Ring
import Mathlib.Tactic.Linarith
import Mathlib.Tactic.FieldSimp
import Mathlib.Tactic.Positivity

/-!
# A check of the table of Wigner 3j symbols in integers
-/

namespace Freud.Wigner
open Spec Steinhardt

/-- Binomial coefficient with an integer below. -/
def ichoose (n : ℕ) (k : ℤ) : ℕ := if k < 0 then 0 else n.choose k.toNat

/-- The sum of Racah's formula times `(l!) ^ 3`. -/
def alt (l : ℕ) (m1 m2 : ℤ) : ℤ :=
  ((List.range (l + 1)).map fun s : ℕ =>
    (-1) ^ s * ((ichoose l s * ichoose l (m1 + s) * ichoose l (-m2 + s) : ℕ) : ℤ)).sum

/-! ### A check in integers that the kernel can run -/

/-- Rows of Pascal's triangle. -/
def pascal : ℕ → List ℕ
  | 0 => [1]
  | n + 1 => List.zipWith (· + ·) (0 :: pascal n) (pascal n ++ [0])

/-- `row` moved by `m` to the left. -/
def shifted (row : List ℕ) (m : ℤ) : List ℕ :=
  match m with
  | .ofNat k => row.drop k
  | .negSucc k => List.replicate (k + 1) 0 ++ row

/-- The alternating sum of `a * b * c`. -/
def alt3 : List ℕ → List ℕ → List ℕ → ℤ
  | a :: as, b :: bs, c :: cs => a * b * c - alt3 as bs cs
  | _, _, _ => 0

def nth (row : List ℕ) (m : ℤ) : ℕ := row.getD m.toNat 0

/-- The check of one number of the table: the sign is right, and its square is that of the symbol up
to one part in `10 ^ 15`. -/
def entryOK (row row2 : List ℕ) (l c1 c2 : ℕ) (m : ℤ × ℤ × ℤ) (t : ℤ) : Bool :=
  let a := alt3 row (shifted row m.1) (shifted row (-m.2.1))
  let num : ℕ := a.natAbs ^ 2 * c1
  let lhs := t.natAbs ^ 2 * (c2 * nth row2 (l + m.1) * nth row2 (l + m.2.1) * nth row2 (l + m.2.2))
  (if m.2.2 % 2 = 0 then decide (0 ≤ t * a) else decide (t * a ≤ 0)) &&
    decide ((lhs - num) * 10 ^ 15 ≤ num) && decide ((num - lhs) * 10 ^ 15 ≤ num)

/-- The check of the list for one `l`; it also looks at the symmetry under the change of all signs,
which reverses the list. -/
noncomputable def listOK (l : ℕ) : Bool :=
  match table l with
  | none => false
  | some t =>
    decide (t.length = (triples l).length) &&
    decide (t.reverse = if l % 2 = 0 then t else t.map (- ·)) &&
    decide ((triples l).reverse = (triples l).map fun m => (-m.1, -m.2.1, -m.2.2)) &&
    ((triples l).zip t).all fun p =>
      entryOK (pascal l) (pascal (2 * l)) l ((2 * l).factorial ^ 3 * 10 ^ 42)
        (l.factorial ^ 3 * (3 * l + 1).factorial) p.1 p.2

theorem listOK_true : ∀ l ∈ List.range 21, listOK l = true := by decide +kernel

end Freud.Wigner
