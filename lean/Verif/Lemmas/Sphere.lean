import Mathlib.Analysis.SpecialFunctions.Integrals.Basic
import Mathlib.Analysis.SpecialFunctions.Trigonometric.Series
import Mathlib.Analysis.SpecialFunctions.Trigonometric.Sinc
import Mathlib.Analysis.SpecialFunctions.Complex.Arg
import Mathlib.MeasureTheory.Integral.IntervalIntegral.Periodic
import Mathlib.MeasureTheory.Integral.DominatedConvergence

/-!
# Means of plane waves over the directions in the plane and in space
-/

namespace Freud.Sphere
open Real

/-- A direction in the plane can be measured from any axis. -/
theorem exists_polar (a b : ℝ) : ∃ α, a = √(a ^ 2 + b ^ 2) * cos α ∧ b = √(a ^ 2 + b ^ 2) * sin α := by
  have h : ‖(⟨a, b⟩ : ℂ)‖ = √(a ^ 2 + b ^ 2) := by
    rw [Complex.norm_def, Complex.normSq_apply, pow_two, pow_two]
  refine ⟨Complex.arg ⟨a, b⟩, ?_, ?_⟩
  · have := Complex.norm_mul_cos_arg (⟨a, b⟩ : ℂ)
    rw [h] at this; exact this.symm
  · have := Complex.norm_mul_sin_arg (⟨a, b⟩ : ℂ)
    rw [h] at this; exact this.symm

/-- The mean over a circle of a function of the projection on an axis does not depend on the axis. -/
theorem circle_axis (g : ℝ → ℝ) (a b : ℝ) :
    ∫ t in (0 : ℝ)..2 * π, g (a * cos t + b * sin t) = ∫ t in (0 : ℝ)..2 * π, g (√(a ^ 2 + b ^ 2) * cos t) := by
  obtain ⟨α, ha, hb⟩ := exists_polar a b
  set R := √(a ^ 2 + b ^ 2)
  have hp : Function.Periodic (fun t => g (R * cos t)) (2 * π) := fun t => by simp only [cos_add_two_pi]
  have e : ∀ t, g (a * cos t + b * sin t) = (fun t => g (R * cos t)) (t - α) := by
    intro t
    simp only
    rw [cos_sub]
    congr 1
    conv_lhs => rw [ha, hb]
    ring
  simp only [e]
  rw [intervalIntegral.integral_comp_sub_right (fun t => g (R * cos t)) α]
  have := hp.intervalIntegral_add_eq (0 - α) 0
  rw [zero_add] at this
  rw [← this]
  congr 1
  ring

theorem circle_pow_odd (j : ℕ) : ∫ t in (0 : ℝ)..2 * π, cos t ^ (2 * j + 1) = 0 := by
  induction j with
  | zero => simp
  | succ j ih =>
    rw [show 2 * (j + 1) + 1 = (2 * j + 1) + 2 by ring, integral_cos_pow, ih]
    simp

theorem circle_pow_even (j : ℕ) : ∫ t in (0 : ℝ)..2 * π, cos t ^ (2 * j) =
    2 * π * ((2 * j).factorial / (4 ^ j * (j.factorial : ℝ) ^ 2)) := by
  induction j with
  | zero => simp
  | succ j ih =>
    rw [show 2 * (j + 1) = 2 * j + 2 by ring, integral_cos_pow, ih]
    have h1 : ((2 * j + 2).factorial : ℝ) = (2 * j + 2) * ((2 * j + 1) * (2 * j).factorial) := by
      rw [Nat.factorial_succ, Nat.factorial_succ]; push_cast; ring
    have h2 : ((j + 1).factorial : ℝ) = (j + 1) * j.factorial := by
      rw [Nat.factorial_succ]; push_cast; ring
    have h3 : (j.factorial : ℝ) ≠ 0 := by exact_mod_cast j.factorial_ne_zero
    rw [h1, h2]
    simp only [sin_two_pi, sin_zero, mul_zero, sub_zero, zero_div, zero_add]
    push_cast
    have h4 : (j : ℝ) + 1 ≠ 0 := by positivity
    have h5 : (2 * (j : ℝ) + 2) ≠ 0 := by positivity
    field_simp
    ring

/-- The moments of the height on a sphere. -/
theorem height (j : ℕ) : ∀ l : ℕ, ∫ u in (-1 : ℝ)..1, u ^ (2 * l) * (1 - u ^ 2) ^ j =
    2 * ((4 : ℝ) ^ j * (j.factorial : ℝ) * ((2 * l).factorial : ℝ) * ((j + l).factorial : ℝ) /
      ((l.factorial : ℝ) * ((2 * (j + l) + 1).factorial : ℝ))) := by
  induction j with
  | zero =>
    intro l
    simp only [pow_zero, mul_one, integral_pow]
    have h3 : (l.factorial : ℝ) ≠ 0 := by exact_mod_cast l.factorial_ne_zero
    have h4 : ((2 * l).factorial : ℝ) ≠ 0 := by exact_mod_cast (2 * l).factorial_ne_zero
    have h1 : ((2 * (0 + l) + 1).factorial : ℝ) = (2 * l + 1) * (2 * l).factorial := by
      rw [zero_add, Nat.factorial_succ]; push_cast; ring
    rw [h1]
    have h2 : (2 * (l : ℝ) + 1) ≠ 0 := by positivity
    rw [one_pow, show (-1 : ℝ) ^ (2 * l + 1) = -1 by rw [pow_succ, pow_mul]; simp, zero_add, Nat.factorial_zero]
    push_cast
    field_simp
    ring
  | succ j ih =>
    intro l
    have hd : ∀ u : ℝ, HasDerivAt (fun u : ℝ => u ^ (2 * l + 1) * (1 - u ^ 2) ^ (j + 1))
        ((2 * l + 1) * (u ^ (2 * l) * (1 - u ^ 2) ^ (j + 1)) -
          2 * (j + 1) * (u ^ (2 * (l + 1)) * (1 - u ^ 2) ^ j)) u := by
      intro u
      have h1 := (hasDerivAt_pow (2 * l + 1) u).mul (((hasDerivAt_const u (1 : ℝ)).sub (hasDerivAt_pow 2 u)).pow (j + 1))
      refine h1.congr_deriv ?_
      simp only [Pi.sub_apply, Pi.pow_apply]
      push_cast
      rw [show 2 * (l + 1) = 2 * l + 2 from rfl]
      ring
    have h0 := intervalIntegral.integral_eq_sub_of_hasDerivAt (a := -1) (b := 1) (fun u _ => hd u)
      (Continuous.intervalIntegrable (by fun_prop) _ _)
    rw [intervalIntegral.integral_sub (Continuous.intervalIntegrable (by fun_prop) _ _)
      (Continuous.intervalIntegrable (by fun_prop) _ _), intervalIntegral.integral_const_mul,
      intervalIntegral.integral_const_mul, ih] at h0
    have hz : (1 : ℝ) ^ (2 * l + 1) * (1 - 1 ^ 2) ^ (j + 1) - (-1) ^ (2 * l + 1) * (1 - (-1) ^ 2) ^ (j + 1) = 0 := by
      simp
    rw [hz] at h0
    have h2 : (2 * (l : ℝ) + 1) ≠ 0 := by positivity
    have h3 : (l.factorial : ℝ) ≠ 0 := by exact_mod_cast l.factorial_ne_zero
    have h4 : (((2 * (j + (l + 1)) + 1).factorial : ℕ) : ℝ) ≠ 0 := by
      exact_mod_cast (2 * (j + (l + 1)) + 1).factorial_ne_zero
    have h5 : (2 * (l : ℝ) + 1) * ∫ u in (-1 : ℝ)..1, u ^ (2 * l) * (1 - u ^ 2) ^ (j + 1) =
        2 * (j + 1) * (2 * ((4 : ℝ) ^ j * (j.factorial : ℝ) * ((2 * (l + 1)).factorial : ℝ) *
          ((j + (l + 1)).factorial : ℝ) / (((l + 1).factorial : ℝ) * ((2 * (j + (l + 1)) + 1).factorial : ℝ)))) := by
      linarith
    have h6 : ((2 * (l + 1)).factorial : ℝ) = (2 * l + 2) * ((2 * l + 1) * (2 * l).factorial) := by
      rw [show 2 * (l + 1) = 2 * l + 1 + 1 by ring, Nat.factorial_succ, Nat.factorial_succ]; push_cast; ring
    have h7 : ((l + 1).factorial : ℝ) = (l + 1) * l.factorial := by
      rw [Nat.factorial_succ]; push_cast; ring
    have h8 : ((j + 1).factorial : ℝ) = (j + 1) * j.factorial := by
      rw [Nat.factorial_succ]; push_cast; ring
    rw [show j + 1 + l = j + (l + 1) by ring, h8]
    rw [h6, h7] at h5
    have h9 : (l : ℝ) + 1 ≠ 0 := by positivity
    apply mul_left_cancel₀ h2
    rw [h5]
    field_simp
    ring

theorem sum_even (f : ℕ → ℝ) (hf : ∀ j, f (2 * j + 1) = 0) (m : ℕ) :
    ∑ i ∈ Finset.range (2 * m + 1), f i = ∑ j ∈ Finset.range (m + 1), f (2 * j) := by
  induction m with
  | zero => simp
  | succ m ih =>
    rw [show 2 * (m + 1) + 1 = 2 * m + 1 + 1 + 1 by ring, Finset.sum_range_succ, Finset.sum_range_succ, ih, hf,
      Finset.sum_range_succ _ (m + 1), show 2 * (m + 1) = 2 * m + 1 + 1 by ring]
    ring

/-- The mean over a circle of an even power of a linear function. -/
theorem circle_linear (A B : ℝ) (m : ℕ) : ∫ t in (0 : ℝ)..2 * π, (A * cos t + B) ^ (2 * m) =
    ∑ j ∈ Finset.range (m + 1), ((2 * m).choose (2 * j) : ℝ) * A ^ (2 * j) * B ^ (2 * (m - j)) *
      (2 * π * ((2 * j).factorial / (4 ^ j * (j.factorial : ℝ) ^ 2))) := by
  have e : ∀ t, (A * cos t + B) ^ (2 * m) = ∑ i ∈ Finset.range (2 * m + 1),
      (((2 * m).choose i : ℝ) * A ^ i * B ^ (2 * m - i)) * cos t ^ i := by
    intro t
    rw [add_pow]
    refine Finset.sum_congr rfl fun i _ => ?_
    rw [mul_pow]; ring
  simp only [e]
  rw [intervalIntegral.integral_finset_sum fun i _ => Continuous.intervalIntegrable (by fun_prop) _ _]
  simp only [intervalIntegral.integral_const_mul]
  rw [sum_even (fun i => ((2 * m).choose i : ℝ) * A ^ i * B ^ (2 * m - i) * ∫ t in (0 : ℝ)..2 * π, cos t ^ i)
    (fun j => by simp only [circle_pow_odd, mul_zero])]
  refine Finset.sum_congr rfl fun j _ => ?_
  rw [circle_pow_even, show 2 * m - 2 * j = 2 * (m - j) by omega]

/-- The mean over a sphere of an even power of a projection. -/
theorem sphere_pow (a b c : ℝ) (m : ℕ) :
    ∫ θ in (0 : ℝ)..π, (∫ t in (0 : ℝ)..2 * π, (a * (sin θ * cos t) + b * (sin θ * sin t) + c * cos θ) ^ (2 * m)) * sin θ =
      4 * π * ((a ^ 2 + b ^ 2 + c ^ 2) ^ m / (2 * m + 1)) := by
  set ρ := √(a ^ 2 + b ^ 2) with hρ
  have hρ2 : ρ ^ 2 = a ^ 2 + b ^ 2 := by rw [hρ, sq_sqrt (by positivity)]
  have e : ∀ θ, (∫ t in (0 : ℝ)..2 * π, (a * (sin θ * cos t) + b * (sin θ * sin t) + c * cos θ) ^ (2 * m)) * sin θ =
      ∑ j ∈ Finset.range (m + 1), (((2 * m).choose (2 * j) : ℝ) * ρ ^ (2 * j) * c ^ (2 * (m - j)) *
        (2 * π * ((2 * j).factorial / (4 ^ j * (j.factorial : ℝ) ^ 2)))) *
        (sin θ ^ (2 * j + 1) * cos θ ^ (2 * (m - j))) := by
    intro θ
    have e1 : ∀ t, (a * (sin θ * cos t) + b * (sin θ * sin t) + c * cos θ) ^ (2 * m) =
        (fun x => (sin θ * x + c * cos θ) ^ (2 * m)) (a * cos t + b * sin t) := fun t => by
      simp only; congr 1; ring
    simp only [e1]
    rw [circle_axis (fun x => (sin θ * x + c * cos θ) ^ (2 * m)) a b, ← hρ]
    have e2 : ∀ t, (sin θ * (ρ * cos t) + c * cos θ) ^ (2 * m) = ((sin θ * ρ) * cos t + c * cos θ) ^ (2 * m) :=
      fun t => by rw [mul_assoc]
    simp only [e2]
    rw [circle_linear, Finset.sum_mul]
    refine Finset.sum_congr rfl fun j _ => ?_
    rw [mul_pow, mul_pow]
    ring
  simp only [e]
  rw [intervalIntegral.integral_finset_sum fun i _ => Continuous.intervalIntegrable (by fun_prop) _ _]
  simp only [intervalIntegral.integral_const_mul, integral_sin_pow_odd_mul_cos_pow, cos_pi, cos_zero, height]
  rw [← hρ2, add_pow, Finset.sum_div, Finset.mul_sum]
  refine Finset.sum_congr rfl fun j hj => ?_
  have hj' : j ≤ m := Nat.lt_succ_iff.mp (Finset.mem_range.mp hj)
  obtain ⟨l, rfl⟩ := Nat.exists_eq_add_of_le hj'
  rw [Nat.add_sub_cancel_left, Nat.cast_choose ℝ (show 2 * j ≤ 2 * (j + l) by omega),
    Nat.cast_choose ℝ (show j ≤ j + l by omega), Nat.add_sub_cancel_left,
    show 2 * (j + l) - 2 * j = 2 * l by omega]
  have h1 : (j.factorial : ℝ) ≠ 0 := by exact_mod_cast j.factorial_ne_zero
  have h2 : (l.factorial : ℝ) ≠ 0 := by exact_mod_cast l.factorial_ne_zero
  have h3 : ((2 * j).factorial : ℝ) ≠ 0 := by exact_mod_cast (2 * j).factorial_ne_zero
  have h4 : ((2 * l).factorial : ℝ) ≠ 0 := by exact_mod_cast (2 * l).factorial_ne_zero
  have h5 : ((2 * (j + l)).factorial : ℝ) ≠ 0 := by exact_mod_cast (2 * (j + l)).factorial_ne_zero
  have h6 : ((2 * (j + l) + 1).factorial : ℝ) = (2 * (j + l) + 1) * (2 * (j + l)).factorial := by
    rw [Nat.factorial_succ]; push_cast; ring
  have h7 : (2 * ((j : ℝ) + l) + 1) ≠ 0 := by positivity
  rw [h6, ← pow_mul, ← pow_mul]
  push_cast
  field_simp
  ring

theorem summable_cos (R : ℝ) : Summable fun n : ℕ => R ^ (2 * n) / ((2 * n).factorial : ℝ) := by
  have := (Real.summable_pow_div_factorial R).comp_injective (i := fun n : ℕ => 2 * n)
    (fun a b h => by simpa using h)
  exact this

/-- The mean over the sphere of a plane wave. -/
theorem sphere_wave (a b c : ℝ) :
    ∫ θ in (0 : ℝ)..π, (∫ t in (0 : ℝ)..2 * π, cos (a * (sin θ * cos t) + b * (sin θ * sin t) + c * cos θ)) * sin θ =
      4 * π * sinc (√(a ^ 2 + b ^ 2 + c ^ 2)) := by
  set X : ℝ → ℝ → ℝ := fun θ t => a * (sin θ * cos t) + b * (sin θ * sin t) + c * cos θ with hX
  set R := |a| + |b| + |c| with hR
  have hXR : ∀ θ t, |X θ t| ≤ R := by
    intro θ t
    have q : ∀ x y z : ℝ, |y| ≤ 1 → |x * y| ≤ |x| := fun x y _ h => by
      rw [abs_mul]; exact mul_le_of_le_one_right (abs_nonneg x) h
    have hs : ∀ y z : ℝ, |y| ≤ 1 → |z| ≤ 1 → |y * z| ≤ 1 := fun y z h1 h2 => by
      rw [abs_mul]; exact mul_le_one₀ h1 (abs_nonneg z) h2
    calc |X θ t| ≤ |a * (sin θ * cos t) + b * (sin θ * sin t)| + |c * cos θ| := abs_add_le _ _
      _ ≤ |a * (sin θ * cos t)| + |b * (sin θ * sin t)| + |c * cos θ| := by gcongr; exact abs_add_le _ _
      _ ≤ R := by
        exact add_le_add (add_le_add (q _ _ 0 (hs _ _ (abs_sin_le_one θ) (abs_cos_le_one t)))
          (q _ _ 0 (hs _ _ (abs_sin_le_one θ) (abs_sin_le_one t)))) (q _ _ 0 (abs_cos_le_one θ))
  have hR0 : 0 ≤ R := by positivity
  have hterm : ∀ (n : ℕ) (x : ℝ), |x| ≤ R → ‖(-1) ^ n * x ^ (2 * n) / ((2 * n).factorial : ℝ)‖ ≤
      R ^ (2 * n) / ((2 * n).factorial : ℝ) := by
    intro n x hx
    rw [Real.norm_eq_abs, abs_div, abs_mul, abs_pow, abs_neg, abs_one, one_pow, one_mul, abs_pow, Nat.abs_cast]
    gcongr
  have inner : ∀ θ, HasSum (fun n : ℕ => ∫ t in (0 : ℝ)..2 * π, (-1) ^ n * X θ t ^ (2 * n) / ((2 * n).factorial : ℝ))
      (∫ t in (0 : ℝ)..2 * π, cos (X θ t)) := by
    intro θ
    refine intervalIntegral.hasSum_integral_of_dominated_convergence
      (fun n _ => R ^ (2 * n) / ((2 * n).factorial : ℝ)) (fun n => ?_) (fun n => ?_) ?_ ?_ ?_
    · exact Continuous.aestronglyMeasurable (by fun_prop)
    · exact .of_forall fun t _ => hterm n _ (hXR θ t)
    · exact .of_forall fun t _ => summable_cos R
    · exact intervalIntegrable_const
    · exact .of_forall fun t _ => Real.hasSum_cos _
  have hint : ∀ n : ℕ, ∀ θ, ∫ t in (0 : ℝ)..2 * π, (-1) ^ n * X θ t ^ (2 * n) / ((2 * n).factorial : ℝ) =
      (-1) ^ n / ((2 * n).factorial : ℝ) * ∫ t in (0 : ℝ)..2 * π, X θ t ^ (2 * n) := by
    intro n θ
    rw [← intervalIntegral.integral_const_mul]
    congr 1
    ext t
    ring
  have hcont : ∀ n : ℕ, Continuous fun θ => ∫ t in (0 : ℝ)..2 * π, X θ t ^ (2 * n) := by
    intro n
    apply intervalIntegral.continuous_parametric_intervalIntegral_of_continuous'
    fun_prop
  have outer : HasSum (fun n : ℕ => ∫ θ in (0 : ℝ)..π,
        (∫ t in (0 : ℝ)..2 * π, (-1) ^ n * X θ t ^ (2 * n) / ((2 * n).factorial : ℝ)) * sin θ)
      (∫ θ in (0 : ℝ)..π, (∫ t in (0 : ℝ)..2 * π, cos (X θ t)) * sin θ) := by
    refine intervalIntegral.hasSum_integral_of_dominated_convergence
      (fun n _ => (2 * π) * (R ^ (2 * n) / ((2 * n).factorial : ℝ))) (fun n => ?_) (fun n => ?_) ?_ ?_ ?_
    · refine Continuous.aestronglyMeasurable ?_
      simp only [hint]
      have := hcont n
      fun_prop
    · refine .of_forall fun θ _ => ?_
      have h1 := intervalIntegral.norm_integral_le_of_norm_le_const (a := 0) (b := 2 * π)
        (f := fun t => (-1) ^ n * X θ t ^ (2 * n) / ((2 * n).factorial : ℝ))
        (C := R ^ (2 * n) / ((2 * n).factorial : ℝ)) (fun t _ => hterm n _ (hXR θ t))
      rw [sub_zero, abs_of_pos two_pi_pos] at h1
      rw [norm_mul, Real.norm_eq_abs (sin θ)]
      calc _ ≤ (R ^ (2 * n) / ((2 * n).factorial : ℝ) * (2 * π)) * 1 :=
            mul_le_mul h1 (abs_sin_le_one θ) (abs_nonneg _) (by positivity)
        _ = _ := by ring
    · exact .of_forall fun θ _ => (summable_cos R).mul_left _
    · exact intervalIntegrable_const
    · exact .of_forall fun θ _ => (inner θ).mul_right _
  have hval : ∀ n : ℕ, (∫ θ in (0 : ℝ)..π,
      (∫ t in (0 : ℝ)..2 * π, (-1) ^ n * X θ t ^ (2 * n) / ((2 * n).factorial : ℝ)) * sin θ) =
      4 * π * ((-1) ^ n * (a ^ 2 + b ^ 2 + c ^ 2) ^ n / ((2 * n + 1).factorial : ℝ)) := by
    intro n
    simp only [hint]
    have e : ∀ θ, (-1) ^ n / ((2 * n).factorial : ℝ) * (∫ t in (0 : ℝ)..2 * π, X θ t ^ (2 * n)) * sin θ =
        (-1) ^ n / ((2 * n).factorial : ℝ) * ((∫ t in (0 : ℝ)..2 * π, X θ t ^ (2 * n)) * sin θ) := fun θ => by ring
    simp only [e]
    rw [intervalIntegral.integral_const_mul, hX]
    rw [sphere_pow a b c n]
    have h5 : ((2 * n).factorial : ℝ) ≠ 0 := by exact_mod_cast (2 * n).factorial_ne_zero
    have h6 : ((2 * n + 1).factorial : ℝ) = (2 * n + 1) * (2 * n).factorial := by
      rw [Nat.factorial_succ]; push_cast; ring
    have h7 : (2 * (n : ℝ) + 1) ≠ 0 := by positivity
    rw [h6]
    field_simp
  simp only [hval] at outer
  set S := √(a ^ 2 + b ^ 2 + c ^ 2) with hS
  have hS2 : a ^ 2 + b ^ 2 + c ^ 2 = S ^ 2 := by rw [hS, sq_sqrt (by positivity)]
  have hsinc : HasSum (fun n : ℕ => 4 * π * ((-1) ^ n * (a ^ 2 + b ^ 2 + c ^ 2) ^ n / ((2 * n + 1).factorial : ℝ)))
      (4 * π * sinc S) := by
    refine HasSum.mul_left _ ?_
    rw [hS2]
    rcases eq_or_ne S 0 with h0 | h0
    · rw [h0, sinc_zero]
      have := hasSum_single (f := fun n : ℕ => (-1 : ℝ) ^ n * ((0 : ℝ) ^ 2) ^ n / ((2 * n + 1).factorial : ℝ)) 0
        (fun n hn => by simp [hn])
      simpa using this
    · rw [sinc_of_ne_zero h0]
      have := (Real.hasSum_sin S).div_const S
      have e : (fun n : ℕ => (-1) ^ n * (S ^ 2) ^ n / ((2 * n + 1).factorial : ℝ)) =
          fun n : ℕ => (-1) ^ n * S ^ (2 * n + 1) / ((2 * n + 1).factorial : ℝ) / S := by
        ext n
        rw [← pow_mul, pow_succ]
        field_simp
      rw [e]
      exact this
  exact outer.unique hsinc

end Freud.Sphere
