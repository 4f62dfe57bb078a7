import Verif.Model.NeighborLoop
import Verif.Model.Quat
import Mathlib.Data.Complex.Basic

/-!
# Rotational autocorrelation

Model of `freud/order/RotationalAutocorrelation.cc`, `freud/order/RotationalAutocorrelation.h` and
`freud/order.py:846-870`. Real and complex numbers are exact (the code uses `float`); `unsigned int` has 32
bits and wraps around. For `l ≥ 34` a factorial is 0 modulo `2 ^ 32` and the code divides by zero (the
values are then not numbers; division by zero gives 0 here): no theorem is about such `l`.
-/

namespace Freud.RotAC

/-- Multiplication of `unsigned int`. -/
def mul32 (a b : ℕ) : ℕ := a * b % 2 ^ 32

/-- The loop that fills `m_factorials`, freud/order/RotationalAutocorrelation.h:66-70, up to index `n`. -/
def factLoop : ℕ → List ℕ
  | 0 => [1]
  | i + 1 => factLoop i ++ [mul32 (i + 1) ((factLoop i).getD i 0)]

/-- `(*m_factorials)[i]` of an object of order `l`. -/
def fact (l i : ℕ) : ℕ := (factLoop l).getD i 0

/-- `cpow`, freud/order/RotationalAutocorrelation.cc:26-38. -/
noncomputable def cpow (base : ℂ) (p : ℕ) : ℂ :=
  if p = 0 then 1 else (List.range (p - 1)).foldl (fun val _ => val * base) base

/-- `std::conj`. -/
def cconj (z : ℂ) : ℂ := ⟨z.re, -z.im⟩

/-- `hypersphere_harmonic`, freud/order/RotationalAutocorrelation.cc:40-59. -/
noncomputable def harmonic (l : ℕ) (xi zeta : ℂ) (m1 m2 : ℕ) : ℂ :=
  let lo := if m1 + m2 < l then 0 else m1 + m2 - l
  (List.range' lo (min m1 m2 + 1 - lo)).foldl (fun sum k =>
    let product : ℝ := (fact l k : ℝ) * fact l (l + k - m1 - m2) * fact l (m1 - k) * fact l (m2 - k)
    sum + cpow (cconj xi) k * cpow zeta (m2 - k) * cpow (cconj zeta) (m1 - k) *
      cpow (-xi) (l + k - m1 - m2) / product) 0

/-- The pairs `(a, b)` in the order of the loops, freud/order/RotationalAutocorrelation.cc:74-76, 97-99. -/
def pairs (l : ℕ) : List (ℕ × ℕ) :=
  (List.range (l + 1)).flatMap fun a => (List.range (l + 1)).map fun b => (a, b)

/-- `unit_harmonics`, freud/order/RotationalAutocorrelation.cc:70-78. -/
noncomputable def unitHarmonics (l : ℕ) : List ℂ :=
  (pairs l).map fun p => cconj (harmonic l ⟨0, 0⟩ ⟨0, 1⟩ p.1 p.2)

/-- `prefactors[a][b]`, freud/order/RotationalAutocorrelation.cc:79-81: the product is one of
`unsigned int`. -/
noncomputable def prefactor (l a b : ℕ) : ℝ :=
  (mul32 (mul32 (mul32 (fact l a) (fact l (l - a))) (fact l b)) (fact l (l - b)) : ℝ) / ((l + 1 : ℕ) : ℝ)

/-- The loops over the quantum numbers, freud/order/RotationalAutocorrelation.cc:94-107; the index of the
second component counts the rounds (`uh_index`). -/
noncomputable def particleOrder (l : ℕ) (ref q : Quat ℝ) : ℂ :=
  let qq := Quat.mul (Quat.conj ref) q
  (pairs l).zipIdx.foldl (fun acc p =>
    acc + (prefactor l p.1.1 p.1.2 : ℂ) * ((unitHarmonics l).getD p.2 0 *
      harmonic l ⟨qq.v.x, qq.v.y⟩ ⟨qq.v.z, qq.s⟩ p.1.1 p.1.2)) 0

/-- `RotationalAutocorrelation::compute`, freud/order/RotationalAutocorrelation.cc:61-116, with the checks of
freud/order.py:847-849 and 861-863 (the sign of `l` is its type): the particle orders and the order.
`order` is the order in which the rounds of the parallel loop are done. The mean of no particles is
`0 / 0`, not a number: `none`. -/
noncomputable def compute (l : ℕ) (refs qs : List (Quat ℝ)) (order : List ℕ) : Option (List ℂ × ℝ) :=
  if l % 2 = 1 ∨ refs.length ≠ qs.length ∨ refs.length = 0 then none
  else ((MArray.mk' [refs.length] : MArray ℂ).forEach order (fun i _ =>
      refs[i]?.bind fun r => qs[i]?.map fun q => particleOrder l r q)).map fun ra =>
    (ra.data, (ra.data.foldl (fun s z => s + z.re) 0) / (refs.length : ℝ))

end Freud.RotAC
