import Verif.Model.Prune
import Verif.Props.KPoints
import Verif.Spec.Periodic
import Mathlib.Analysis.SpecialFunctions.Integrals.Basic
import Mathlib.MeasureTheory.Measure.Lebesgue.Basic
import Mathlib.Analysis.Real.Pi.Bounds

/-!
# Property C123: how many wave vectors are sampled
-/

namespace Freud
open Spec

/-- The probability to keep a vector of magnitude `q` (without the factor `2π`) when the pruning distance is `d`: all
up to `d`, and then so many that there are as many in any interval of `q` as in any other one of this length. -/
noncomputable def Spec.keepChance (is2D : Bool) (d q : ℝ) : ℝ :=
  if q ≤ d then 1 else if is2D then d / q else (d / q) ^ 2

/-- The number of vectors that are kept on average: they are spread over a quarter of the disk, or an eighth of the
ball, of radius `qMax`, without the part below `qMin`, with one in each cell of size `cell`, and kept with the
probability `chance q`. -/
noncomputable def Spec.meanKept (is2D : Bool) (cell qMin qMax : ℝ) (chance : ℝ → ℝ) : ℝ :=
  (∫ q in qMin..qMax, chance q * (if is2D then 2 * Real.pi * q / 4 else 4 * Real.pi * q ^ 2 / 8)) / cell

namespace Prune

open KPoints

theorem mean_all (is2D : Bool) (cell Q : ℝ) : meanKept is2D cell 0 Q (fun _ => 1) =
    if is2D then Real.pi * Q ^ 2 / (4 * cell) else Real.pi * Q ^ 3 / (6 * cell) := by
  unfold meanKept
  have hI2 : ∫ q in (0 : ℝ)..Q, Real.pi / 2 * q = Real.pi / 2 * (Q ^ 2 / 2) := by
    rw [intervalIntegral.integral_const_mul, integral_id]; ring
  have hI3 : ∫ q in (0 : ℝ)..Q, Real.pi / 2 * q ^ 2 = Real.pi / 2 * (Q ^ 3 / 3) := by
    rw [intervalIntegral.integral_const_mul, integral_pow]; norm_num
  cases is2D
  · simp only [Bool.false_eq_true, if_false, one_mul]
    rw [show (fun q : ℝ => 4 * Real.pi * q ^ 2 / 8) = fun q => Real.pi / 2 * q ^ 2 by ext; ring, hI3]
    by_cases h : cell = 0
    · subst h; simp
    · field_simp; ring
  · simp only [if_true, one_mul]
    rw [show (fun q : ℝ => 2 * Real.pi * q / 4) = fun q => Real.pi / 2 * q by ext; ring, hI2]
    by_cases h : cell = 0
    · subst h; simp
    · field_simp; ring

theorem mean_kept (is2D : Bool) (cell d Q : ℝ) (hd : 0 < d) (hQ : d ≤ Q) :
    meanKept is2D cell 0 Q (keepChance is2D d) =
      if is2D then Real.pi / (4 * cell) * (2 * Q * d - d ^ 2)
      else Real.pi / (6 * cell) * (3 * Q * d ^ 2 - 2 * d ^ 3) := by
  unfold meanKept
  obtain ⟨w, hw⟩ : ∃ w : ℝ → ℝ, w = fun q => if is2D then 2 * Real.pi * q / 4 else 4 * Real.pi * q ^ 2 / 8 :=
    ⟨_, rfl⟩
  have hwc : Continuous w := by
    rw [hw]; cases is2D <;> simp only [Bool.false_eq_true, if_false, if_true] <;> fun_prop
  have k1 : ∀ q, q ≤ d → keepChance is2D d q * w q = w q := by
    intro q h
    rw [keepChance, if_pos h, one_mul]
  have k2 : ∀ q, d ≤ q → keepChance is2D d q * w q = w d := by
    intro q h
    rcases h.eq_or_lt with rfl | h
    · exact k1 _ le_rfl
    · have hq : 0 < q := hd.trans h
      rw [keepChance, if_neg (by linarith), hw]
      cases is2D
      · simp only [Bool.false_eq_true, if_false]; field_simp
      · simp only [if_true]; field_simp
  have hfun : (fun q => keepChance is2D d q * (if is2D then 2 * Real.pi * q / 4 else 4 * Real.pi * q ^ 2 / 8)) =
      fun q => keepChance is2D d q * w q := by rw [hw]
  rw [hfun]
  have e1 : ∫ q in (0 : ℝ)..d, keepChance is2D d q * w q = ∫ q in (0 : ℝ)..d, w q := by
    apply intervalIntegral.integral_congr
    intro q hq
    rw [Set.uIcc_of_le hd.le] at hq
    exact k1 q hq.2
  have e2 : ∫ q in d..Q, keepChance is2D d q * w q = ∫ q in d..Q, w d := by
    apply intervalIntegral.integral_congr
    intro q hq
    rw [Set.uIcc_of_le hQ] at hq
    exact k2 q hq.1
  have i1 : IntervalIntegrable (fun q => keepChance is2D d q * w q) MeasureTheory.volume 0 d := by
    refine IntervalIntegrable.congr (f := w) ?_ (hwc.intervalIntegrable _ _)
    intro q hq
    rw [Set.uIoc_of_le hd.le] at hq
    exact (k1 q hq.2).symm
  have i2 : IntervalIntegrable (fun q => keepChance is2D d q * w q) MeasureTheory.volume d Q := by
    refine IntervalIntegrable.congr (f := fun _ => w d) ?_ intervalIntegrable_const
    intro q hq
    rw [Set.uIoc_of_le hQ] at hq
    exact (k2 q hq.1.le).symm
  have e0 := mean_all is2D 1 d
  rw [meanKept, div_one] at e0
  simp only [one_mul, mul_one] at e0
  rw [← intervalIntegral.integral_add_adjacent_intervals i1 i2, e1, e2, intervalIntegral.integral_const, smul_eq_mul]
  rw [hw]
  rw [e0]
  by_cases ha : cell = 0
  · subst ha; simp
  · cases is2D
    · simp only [Bool.false_eq_true, if_false]; field_simp; ring
    · simp only [if_true]; field_simp; ring

theorem integrable_keep (is2D : Bool) {d Q : ℝ} (hd : 0 < d) (hQ : 0 ≤ Q) :
    IntervalIntegrable (fun q => keepChance is2D d q * (if is2D then 2 * Real.pi * q / 4 else 4 * Real.pi * q ^ 2 / 8))
      MeasureTheory.volume 0 Q := by
  apply MonotoneOn.intervalIntegrable
  rw [Set.uIcc_of_le hQ]
  have hp := Real.pi_pos
  have key : ∀ q, 0 ≤ q → keepChance is2D d q * (if is2D then 2 * Real.pi * q / 4 else 4 * Real.pi * q ^ 2 / 8) =
      if is2D then 2 * Real.pi * min q d / 4 else 4 * Real.pi * (min q d) ^ 2 / 8 := by
    intro q h
    unfold keepChance
    by_cases h1 : q ≤ d
    · rw [if_pos h1, min_eq_left h1, one_mul]
    · rw [if_neg h1, min_eq_right (by linarith)]
      have : 0 < q := by linarith
      split_ifs <;> field_simp
  intro x hx y hy hxy
  simp only
  rw [key x hx.1, key y hy.1]
  have hm : min x d ≤ min y d := min_le_min_right d hxy
  have hm0 : 0 ≤ min x d := le_min hx.1 hd.le
  split_ifs
  · gcongr
  · gcongr

/-- The principal cube root of a number given by its modulus and angle. -/
theorem cbrt_polar {h φ : ℝ} (hh : 0 < h) (h1 : -Real.pi < φ) (h2 : φ ≤ Real.pi) :
    (((h ^ 3 * Real.cos φ : ℝ) : ℂ) + ((h ^ 3 * Real.sin φ : ℝ) : ℂ) * Complex.I) ^ ((1 : ℂ) / 3) =
      ((h * Real.cos (φ / 3) : ℝ) : ℂ) + ((h * Real.sin (φ / 3) : ℝ) : ℂ) * Complex.I := by
  have e : ∀ (r ψ : ℝ), 0 < r → ((r * Real.cos ψ : ℝ) : ℂ) + ((r * Real.sin ψ : ℝ) : ℂ) * Complex.I =
      Complex.exp ((Real.log r : ℝ) + (ψ : ℂ) * Complex.I) := by
    intro r ψ hr
    rw [Complex.exp_add, ← Complex.ofReal_exp, Real.exp_log hr, Complex.exp_mul_I]
    push_cast
    ring
  rw [e _ _ (by positivity), e _ _ hh, Complex.cpow_def_of_ne_zero (Complex.exp_ne_zero _), Complex.log_exp
    (by simpa using h1) (by simpa using h2), Real.log_pow]
  congr 1
  push_cast
  ring

theorem sqrt_neg_real {D : ℝ} (hD : D ≤ 0) : (D : ℂ) ^ ((1 : ℂ) / 2) = (Real.sqrt (-D) : ℂ) * Complex.I := by
  rw [Complex.ofReal_cpow_of_nonpos hD, show (-(D : ℂ)) = ((-D : ℝ) : ℂ) by push_cast; rfl,
    show ((1 : ℂ) / 2) = (((1 / 2 : ℝ)) : ℂ) by push_cast; rfl,
    ← Complex.ofReal_cpow (by linarith), ← Real.sqrt_eq_rpow]
  congr 1
  rw [show (Real.pi : ℂ) * Complex.I * ((1 / 2 : ℝ) : ℂ) = (Real.pi / 2 : ℂ) * Complex.I by push_cast; ring]
  exact Complex.exp_pi_div_two_mul_I

/-- The real part of the root that the code takes, for a cubic with three real roots. -/
theorem cardano {h q : ℝ} (hh : 0 < h) (h1 : -(2 * h ^ 3) < q) (h2 : q < 2 * h ^ 3) :
    let D : ℝ := -h ^ 6 + q * q / 4
    let u : ℂ := (-((q / 2 : ℝ) : ℂ) + (D : ℂ) ^ ((1 : ℂ) / 2)) ^ ((1 : ℂ) / 3)
    let v : ℂ := (-((q / 2 : ℝ) : ℂ) - (D : ℂ) ^ ((1 : ℂ) / 2)) ^ ((1 : ℂ) / 3)
    let x : ℂ := -(u + v) / 2 - Complex.I * (u - v) * ((Real.sqrt 3 : ℝ) : ℂ) / 2
    x.im = 0 ∧ x.re ^ 3 - 3 * h ^ 2 * x.re + q = 0 ∧ -h < x.re ∧ x.re < h := by
  intro D u v x
  have h3 : 0 < h ^ 3 := by positivity
  obtain ⟨c, hc⟩ : ∃ c, c = -q / (2 * h ^ 3) := ⟨_, rfl⟩
  have c1 : -1 < c := by rw [hc, lt_div_iff₀ (by positivity)]; linarith
  have c2 : c < 1 := by rw [hc, div_lt_iff₀ (by positivity)]; linarith
  set φ := Real.arccos c with hφ
  have cφ : Real.cos φ = c := Real.cos_arccos c1.le c2.le
  have p1 : 0 < φ := Real.arccos_pos.mpr c2
  have p2 : φ < Real.pi := by
    rw [hφ, Real.arccos_lt_pi]; exact c1
  have hD : D ≤ 0 := by
    have : q * q ≤ (2 * h ^ 3) * (2 * h ^ 3) := by nlinarith
    simp only [D]; nlinarith
  have hs : Real.sqrt (-D) = h ^ 3 * Real.sin φ := by
    have sφ : 0 ≤ Real.sin φ := (Real.sin_pos_of_pos_of_lt_pi p1 p2).le
    rw [Real.sqrt_eq_iff_mul_self_eq (by linarith) (by positivity)]
    have := Real.sin_sq φ
    rw [cφ] at this
    have hq : q = -(2 * h ^ 3) * c := by rw [hc]; field_simp
    simp only [D]
    rw [hq]
    linear_combination (-h ^ 6) * this
  have hq : -(q / 2) = h ^ 3 * Real.cos φ := by rw [cφ, hc]; field_simp
  have hu : u = ((h * Real.cos (φ / 3) : ℝ) : ℂ) + ((h * Real.sin (φ / 3) : ℝ) : ℂ) * Complex.I := by
    rw [← cbrt_polar hh (by linarith) p2.le]
    simp only [u]
    rw [sqrt_neg_real hD, hs, ← hq]
    push_cast
    rfl
  have hv : v = ((h * Real.cos (φ / 3) : ℝ) : ℂ) - ((h * Real.sin (φ / 3) : ℝ) : ℂ) * Complex.I := by
    have := cbrt_polar hh (φ := -φ) (by linarith) (by linarith [Real.pi_pos])
    rw [neg_div, Real.cos_neg, Real.sin_neg, Real.cos_neg, Real.sin_neg] at this
    rw [sub_eq_add_neg, ← neg_mul, ← Complex.ofReal_neg, ← mul_neg, ← this]
    simp only [v]
    rw [sqrt_neg_real hD, hs, ← hq]
    push_cast
    congr 1
    ring
  have hx : x = ((-(2 * h * Real.cos (φ / 3 + Real.pi / 3)) : ℝ) : ℂ) := by
    simp only [x, hu, hv]
    rw [Real.cos_add, Real.cos_pi_div_three, Real.sin_pi_div_three]
    push_cast
    linear_combination (-(h : ℂ) * Complex.sin (φ / 3) * (Real.sqrt 3 : ℂ)) * Complex.I_sq
  have hre : x.re = -(2 * h * Real.cos (φ / 3 + Real.pi / 3)) := by rw [hx, Complex.ofReal_re]
  refine ⟨by rw [hx, Complex.ofReal_im], ?_, ?_, ?_⟩
  · have h3c := Real.cos_three_mul (φ / 3 + Real.pi / 3)
    rw [show 3 * (φ / 3 + Real.pi / 3) = φ + Real.pi by ring, Real.cos_add_pi] at h3c
    rw [hre]
    linear_combination (2 * h ^ 3) * h3c + 2 * (-hq)
  · rw [hre]
    have : Real.cos (φ / 3 + Real.pi / 3) < Real.cos (Real.pi / 3) :=
      Real.cos_lt_cos_of_nonneg_of_le_pi (by linarith) (by linarith) (by linarith)
    rw [Real.cos_pi_div_three] at this
    nlinarith
  · rw [hre]
    have : Real.cos (Real.pi - Real.pi / 3) < Real.cos (φ / 3 + Real.pi / 3) :=
      Real.cos_lt_cos_of_nonneg_of_le_pi (by linarith) (by linarith) (by linarith)
    rw [Real.cos_pi_sub, Real.cos_pi_div_three] at this
    nlinarith

theorem prune2_some {num : ℕ} {Q A : ℝ} (hQ : 0 < Q) (hA : 0 < A) (h0 : num ≠ 0)
    (hn : (num : ℝ) ≤ Real.pi * Q ^ 2 / (4 * A)) :
    ∃ d, prune2 num Q A = some d ∧ 0 < d ∧ d ≤ Q ∧ Real.pi / (4 * A) * (2 * Q * d - d ^ 2) = num := by
  have hp := Real.pi_pos
  have hN : (0 : ℝ) < num := by positivity
  unfold prune2
  rw [if_neg (by push Not; exact ⟨hn, h0⟩)]
  rw [le_div_iff₀ (by positivity)] at hn
  have hD : 0 ≤ Q * Q - 4 * (num : ℝ) * A / Real.pi := by
    rw [sub_nonneg, div_le_iff₀ hp]; linarith
  have hlt : Q * Q - 4 * (num : ℝ) * A / Real.pi < Q ^ 2 := by
    have : 0 < 4 * (num : ℝ) * A / Real.pi := by positivity
    linarith
  refine ⟨_, rfl, ?_, ?_, ?_⟩
  · rw [max_eq_right hD, sub_pos, Real.sqrt_lt' hQ]; exact hlt
  · linarith [Real.sqrt_nonneg (max 0 (Q * Q - 4 * (num : ℝ) * A / Real.pi))]
  · rw [max_eq_right hD]
    have hs := Real.sq_sqrt hD
    have e : 2 * Q * (Q - √(Q * Q - 4 * (num : ℝ) * A / Real.pi)) - (Q - √(Q * Q - 4 * (num : ℝ) * A / Real.pi)) ^ 2
        = 4 * (num : ℝ) * A / Real.pi := by linear_combination -hs
    rw [e]
    field_simp

theorem prune3_some {num : ℕ} {Q V : ℝ} (hQ : 0 < Q) (hV : 0 < V) (h0 : num ≠ 0)
    (hn : (num : ℝ) < Real.pi * Q ^ 3 / (6 * V)) :
    ∃ d, prune3 num Q V = some d ∧ 0 < d ∧ d < Q ∧ Real.pi / (6 * V) * (3 * Q * d ^ 2 - 2 * d ^ 3) = num := by
  have hp := Real.pi_pos
  have hN : (0 : ℝ) < num := by positivity
  unfold prune3
  rw [if_neg (by push Not; exact ⟨hn.le, h0⟩)]
  rw [lt_div_iff₀ (by positivity)] at hn
  have hx : 0 < 3 * (num : ℝ) * V / Real.pi := by positivity
  have hx2 : 3 * (num : ℝ) * V / Real.pi < Q ^ 3 / 2 := by
    rw [div_lt_iff₀ hp]; linarith
  obtain ⟨h, rfl⟩ : ∃ h, Q = 2 * h := ⟨Q / 2, by ring⟩
  have hh : 0 < h := by linarith
  have hc := cardano (h := h) (q := 3 * (num : ℝ) * V / Real.pi - 2 * h * (2 * h) * (2 * h) / 4) hh
    (by linarith [show 2 * h * (2 * h) * (2 * h) / 4 = 2 * h ^ 3 by ring])
    (by linarith [show 2 * h * (2 * h) * (2 * h) / 4 = 2 * h ^ 3 by ring, show (2 * h) ^ 3 / 2 = 4 * h ^ 3 by ring])
  have hD : -(3 / 4) * (2 * h) * (2 * h) * (-(3 / 4) * (2 * h) * (2 * h)) * (-(3 / 4) * (2 * h) * (2 * h)) / 27 =
      -h ^ 6 := by ring
  simp only at hc ⊢
  rw [hD]
  obtain ⟨-, c1, c2, c3⟩ := hc
  refine ⟨_, rfl, by linarith, by linarith, ?_⟩
  generalize Complex.re _ = x at c1 c2 c3
  have e : 3 * (2 * h) * (x + 2 * h / 2) ^ 2 - 2 * (x + 2 * h / 2) ^ 3 = 2 * (3 * (num : ℝ) * V / Real.pi) := by
    linear_combination -2 * c1
  rw [e]
  field_simp
  ring

/-- The indices of the loops, whatever is kept. -/
noncomputable def indices (cast : Option ℤ → ℕ) (b : Box ℝ) (kMax kMin : ℝ) : List (ℕ × ℕ × ℕ) :=
  let go := fun (k0 bl : Vec3 ℝ) (N : ℕ) =>
    let r := quadRange cast (Vec3.dot bl bl) (-2 * Vec3.dot k0 bl) (Vec3.dot k0 k0 - kMin * kMin)
      (Vec3.dot k0 k0 - kMax * kMax) N
    List.range' r.1 (min r.2 N - r.1)
  if b.is2D then
    (List.range (count kMax (recip2 b).1)).flatMap (fun kx : ℕ =>
      (go (Vec3.smul (kx : ℝ) (Vec3.smul (2 * Real.pi) (recip2 b).1)) (Vec3.smul (2 * Real.pi) (recip2 b).2)
        (count kMax (recip2 b).2)).map (fun ky => (kx, ky, 0)))
  else
    (List.range (count kMax (recip3 b).1)).flatMap (fun kx : ℕ =>
      (List.range (count kMax (recip3 b).2.1)).flatMap (fun ky : ℕ =>
        (go (Vec3.smul (kx : ℝ) (Vec3.smul (2 * Real.pi) (recip3 b).1) +
            Vec3.smul (ky : ℝ) (Vec3.smul (2 * Real.pi) (recip3 b).2.1)) (Vec3.smul (2 * Real.pi) (recip3 b).2.2)
          (count kMax (recip3 b).2.2)).map (fun kz => (kx, ky, kz))))

theorem sample_eq (cast : Option ℤ → ℕ) (b : Box ℝ) (kMax kMin : ℝ) (num : ℕ) (coin : ℕ → ℕ → ℕ → Bool) :
    sample cast b kMax kMin num coin = (indices cast b kMax kMin).filterMap (fun n =>
      if keep (loopVector b n.1 n.2.1 n.2.2) kMax kMin (addAll b kMax num) (coin n.1 n.2.1 n.2.2)
      then some (loopVector b n.1 n.2.1 n.2.2) else none) := by
  unfold sample indices
  split_ifs with h2
  · unfold kPoints2
    simp only [List.filterMap_flatMap, List.filterMap_map]
    refine List.flatMap_congr fun kx _ => ?_
    unfold line
    refine List.filterMap_congr fun ky _ => ?_
    simp only [Function.comp, loopVector, h2, if_true]
  · unfold kPoints3
    simp only [List.filterMap_flatMap, List.filterMap_map]
    refine List.flatMap_congr fun kx _ => List.flatMap_congr fun ky _ => ?_
    unfold line
    refine List.filterMap_congr fun kz _ => ?_
    simp only [Function.comp, loopVector, h2, if_false, Bool.false_eq_true]

theorem dot_norm (k : Vec3 ℝ) : Vec3.dot k k / (2 * Real.pi) / (2 * Real.pi) = (Vec3.norm k / (2 * Real.pi)) ^ 2 := by
  have : Vec3.norm k ^ 2 = Vec3.dot k k := by
    unfold Vec3.norm
    rw [Real.sq_sqrt]
    unfold Vec3.dot
    nlinarith [mul_self_nonneg k.x, mul_self_nonneg k.y, mul_self_nonneg k.z]
  rw [← this]
  field_simp

theorem accept_iff {is2D : Bool} {d : ℝ} (hd : 0 < d) (k : Vec3 ℝ) {r : ℝ} (hr : r < 1) :
    accept is2D (some d) k r = true ↔ r < keepChance is2D d (Vec3.norm k / (2 * Real.pi)) := by
  have hq : 0 ≤ Vec3.norm k / (2 * Real.pi) := div_nonneg (Real.sqrt_nonneg _) two_pi_pos.le
  unfold accept keepChance
  simp only [dot_norm, Real.sqrt_sq hq]
  generalize Vec3.norm k / (2 * Real.pi) = q at hq
  split_ifs with h2 h1 h1
  · simp only [decide_eq_true_eq, gt_iff_lt, hr, iff_true]
    rcases hq.eq_or_lt with h | h
    · left; rw [← h]; ring
    · right
      have : 1 ≤ d / q := by rw [le_div_iff₀ h]; linarith
      linarith
  · have h : q ≠ 0 := by intro h; rw [h] at h1; linarith
    simp [h]
  · simp only [decide_eq_true_eq, gt_iff_lt, hr, iff_true]
    rcases hq.eq_or_lt with h | h
    · left; rw [← h]; ring
    · right
      have : 1 ≤ d * d / q ^ 2 := by rw [le_div_iff₀ (by positivity)]; nlinarith
      linarith
  · have h : q ≠ 0 := by intro h; rw [h] at h1; linarith
    have e : d * d / q ^ 2 = (d / q) ^ 2 := by field_simp
    simp [h, e]

theorem accept_measurable (is2D : Bool) (d : ℝ) (k : Vec3 ℝ) :
    MeasurableSet {r : ℝ | accept is2D (some d) k r = true} := by
  unfold accept
  cases is2D <;>
  · simp only [Bool.false_eq_true, if_false, if_true, decide_eq_true_eq]
    by_cases h : Vec3.dot k k / (2 * Real.pi) / (2 * Real.pi) = 0
    · simp [h]
    · simp only [h, false_or, gt_iff_lt]
      exact measurableSet_Iio

theorem keepChance_mem {is2D : Bool} {d : ℝ} (hd : 0 < d) (q : ℝ) :
    0 ≤ keepChance is2D d q ∧ keepChance is2D d q ≤ 1 := by
  unfold keepChance
  split_ifs with h1 h2
  · norm_num
  · have : 0 < q := by linarith
    exact ⟨by positivity, by rw [div_le_one this]; linarith⟩
  · have hq : 0 < q := by linarith
    have h : d / q ≤ 1 := by rw [div_le_one hq]; linarith
    have h0 : 0 ≤ d / q := by positivity
    exact ⟨by positivity, by nlinarith⟩

theorem addAll_eq (b : Box ℝ) (kMax : ℝ) (num : ℕ) : addAll b kMax num = (pruneDistance b kMax num).isNone := by
  unfold addAll pruneDistance prune2 prune3
  simp only
  split_ifs with h1 h2 h2
  · simpa using h2
  · simp only [Option.isNone_some, Bool.or_eq_false_iff, decide_eq_false_iff_not]
    push Not at h2
    exact ⟨by linarith [h2.1], h2.2⟩
  · simpa using h2
  · simp only [Option.isNone_some, Bool.or_eq_false_iff, decide_eq_false_iff_not]
    push Not at h2
    exact ⟨by linarith [h2.1], h2.2⟩

theorem keep_split (k : Vec3 ℝ) (kMax kMin : ℝ) (a c : Bool) :
    keep k kMax kMin a c = (keep k kMax kMin true true && (a || c)) := by
  unfold keep
  simp

theorem norm_axis (x : ℝ) (v : Vec3 ℝ) (h : v = ⟨x, 0, 0⟩ ∨ v = ⟨0, x, 0⟩ ∨ v = ⟨0, 0, x⟩) (hx : 0 ≤ x) :
    Vec3.norm v = x := by
  rcases h with rfl | rfl | rfl <;> simp [Vec3.norm, Vec3.dot, Real.sqrt_mul_self hx]

end Prune

open Prune KPoints

/-- The box has no tilt. -/
def Spec.NoTilt (b : Box ℝ) : Prop := b.xy = 0 ∧ b.xz = 0 ∧ b.yz = 0

/-- The size of the cell of the reciprocal lattice, without factors of `2π`: one over the area or volume of the box. -/
noncomputable def Spec.reciprocalCell (b : Box ℝ) : ℝ :=
  if b.is2D then 1 / (b.L.x * b.L.y) else 1 / (b.L.x * b.L.y * b.L.z)

theorem Prune.pruneDistance_eq {b : Box ℝ} (hb : Valid b) (hpos : PositiveLengths b) (ht : NoTilt b) (kMax : ℝ) (num : ℕ) :
    0 < reciprocalCell b ∧ pruneDistance b kMax num =
      if b.is2D then prune2 num (kMax / (2 * Real.pi)) (reciprocalCell b)
      else prune3 num (kMax / (2 * Real.pi)) (reciprocalCell b) := by
  obtain ⟨hx, hy, hz⟩ := hpos
  obtain ⟨t1, t2, t3⟩ := ht
  unfold pruneDistance reciprocalCell
  split_ifs with h2
  · refine ⟨by positivity, ?_⟩
    simp only [recip2_eq hb.Lx_ne hb.Ly_ne, t1]
    rw [norm_axis (1 / b.L.x) _ (Or.inl (by simp)) (by positivity),
      norm_axis (1 / b.L.y) _ (Or.inr (Or.inl rfl)) (by positivity)]
    congr 1
    field_simp
  · have hz := hz (by simpa using h2)
    refine ⟨by positivity, ?_⟩
    simp only [recip3_eq hb.Lx_ne hb.Ly_ne (hb.Lz_ne (by simpa using h2)), t1, t2, t3]
    rw [norm_axis (1 / b.L.x) _ (Or.inl (by simp)) (by positivity),
      norm_axis (1 / b.L.y) _ (Or.inr (Or.inl (by simp))) (by positivity),
      norm_axis (1 / b.L.z) _ (Or.inr (Or.inr rfl)) (by positivity)]
    congr 1
    field_simp

/-- **C123** (all vectors): nothing is pruned exactly if no number was asked for, or more than there are on average in
the part of reciprocal space that is sampled. -/
theorem C123_all (b : Box ℝ) (hb : Valid b) (hpos : PositiveLengths b) (ht : NoTilt b) (kMax : ℝ) (num : ℕ) :
    pruneDistance b kMax num = none ↔
      num = 0 ∨ meanKept b.is2D (reciprocalCell b) 0 (kMax / (2 * Real.pi)) (fun _ => 1) < num := by
  rw [(pruneDistance_eq hb hpos ht kMax num).2, mean_all]
  unfold prune2 prune3
  simp only
  split_ifs with h1 h2 h2 <;> tauto

/-- **C123** (the distance): otherwise the pruning distance is the one for which the number of vectors that are kept on
average is the number asked for. -/
theorem C123_distance (b : Box ℝ) (hb : Valid b) (hpos : PositiveLengths b) (ht : NoTilt b) (kMax : ℝ) (hk : 0 < kMax)
    (num : ℕ) (h0 : num ≠ 0)
    (hn : (num : ℝ) < meanKept b.is2D (reciprocalCell b) 0 (kMax / (2 * Real.pi)) (fun _ => 1)) :
    ∃ d, pruneDistance b kMax num = some d ∧ 0 < d ∧ d ≤ kMax / (2 * Real.pi) ∧
      meanKept b.is2D (reciprocalCell b) 0 (kMax / (2 * Real.pi)) (keepChance b.is2D d) = num := by
  obtain ⟨hc, e⟩ := pruneDistance_eq hb hpos ht kMax num
  rw [e]
  rw [mean_all] at hn
  have hQ : 0 < kMax / (2 * Real.pi) := div_pos hk two_pi_pos
  cases h2 : b.is2D with
  | true =>
    rw [h2, if_pos rfl] at hn
    obtain ⟨d, d1, d2, d3, d4⟩ := prune2_some hQ hc h0 hn.le
    refine ⟨d, by simpa using d1, d2, d3, ?_⟩
    rw [mean_kept _ _ _ _ d2 d3, if_pos rfl, d4]
  | false =>
    rw [h2, if_neg (by simp)] at hn
    obtain ⟨d, d1, d2, d3, d4⟩ := prune3_some hQ hc h0 hn
    refine ⟨d, by simpa using d1, d2, d3.le, ?_⟩
    rw [mean_kept _ _ _ _ d2 d3.le, if_neg (by simp), d4]

/-- **C123** (a lower limit): the pruning distance does not depend on `k_min`: with a lower limit fewer vectors than
asked for are kept on average. -/
theorem C123_kmin_counterexample (b : Box ℝ) (hb : Valid b) (hpos : PositiveLengths b) (ht : NoTilt b) (kMax kMin : ℝ)
    (hk : 0 < kMin) (hkm : kMin ≤ kMax) (num : ℕ) (h0 : num ≠ 0)
    (hn : (num : ℝ) < meanKept b.is2D (reciprocalCell b) 0 (kMax / (2 * Real.pi)) (fun _ => 1)) :
    ∃ d, pruneDistance b kMax num = some d ∧
      meanKept b.is2D (reciprocalCell b) (kMin / (2 * Real.pi)) (kMax / (2 * Real.pi)) (keepChance b.is2D d) < num := by
  obtain ⟨d, h1, h2, h3, h4⟩ := C123_distance b hb hpos ht kMax (hk.trans_le hkm) num h0 hn
  refine ⟨d, h1, ?_⟩
  have hc := (pruneDistance_eq hb hpos ht kMax num).1
  rw [← h4]
  have hq : 0 < kMin / (2 * Real.pi) := div_pos hk two_pi_pos
  have hQ : kMin / (2 * Real.pi) ≤ kMax / (2 * Real.pi) := div_le_div_of_nonneg_right hkm two_pi_pos.le
  generalize kMin / (2 * Real.pi) = m at hq hQ
  generalize kMax / (2 * Real.pi) = Q at hQ h3
  unfold meanKept
  have hI := integrable_keep b.is2D h2 (hq.le.trans hQ)
  rw [div_lt_div_iff_of_pos_right hc, ← intervalIntegral.integral_add_adjacent_intervals (a := 0) (b := m) (c := Q)
    (hI.mono_set (by rw [Set.uIcc_of_le hq.le, Set.uIcc_of_le (hq.le.trans hQ)]; exact Set.Icc_subset_Icc_right hQ))
    (hI.mono_set (by rw [Set.uIcc_of_le hQ, Set.uIcc_of_le (hq.le.trans hQ)]; exact Set.Icc_subset_Icc_left hq.le))]
  have : 0 < ∫ q in (0 : ℝ)..m, keepChance b.is2D d q *
      (if b.is2D then 2 * Real.pi * q / 4 else 4 * Real.pi * q ^ 2 / 8) := by
    apply intervalIntegral.intervalIntegral_pos_of_pos_on
    · exact hI.mono_set (by rw [Set.uIcc_of_le hq.le, Set.uIcc_of_le (hq.le.trans hQ)]; exact Set.Icc_subset_Icc_right hQ)
    · intro q hq'
      have hp := Real.pi_pos
      have hq0 : 0 < q := hq'.1
      apply mul_pos
      · unfold keepChance
        split_ifs <;> positivity
      · split_ifs <;> positivity
    · exact hq
  linarith

/-- **C123** (one vector): a vector within the limits is kept with the documented probability, if the random number is
uniform between 0 and 1. -/
theorem C123_chance (is2D : Bool) (d : ℝ) (hd : 0 < d) (k : Vec3 ℝ) :
    MeasureTheory.volume {r : ℝ | 0 ≤ r ∧ r < 1 ∧ accept is2D (some d) k r = true} =
      ENNReal.ofReal (keepChance is2D d (Vec3.norm k / (2 * Real.pi))) := by
  obtain ⟨h0, h1⟩ := keepChance_mem (is2D := is2D) hd (Vec3.norm k / (2 * Real.pi))
  have : {r : ℝ | 0 ≤ r ∧ r < 1 ∧ accept is2D (some d) k r = true} =
      Set.Ico 0 (keepChance is2D d (Vec3.norm k / (2 * Real.pi))) := by
    ext r
    simp only [Set.mem_setOf_eq, Set.mem_Ico]
    constructor
    · rintro ⟨a1, a2, a3⟩
      exact ⟨a1, (accept_iff hd k a2).mp a3⟩
    · rintro ⟨a1, a2⟩
      exact ⟨a1, by linarith, (accept_iff hd k (by linarith)).mpr a2⟩
  rw [this, Real.volume_Ico, sub_zero]

/-- **C123** (which vectors): whatever the random numbers, the vectors used are among those that are used without
pruning, and all of these up to the pruning distance are used. -/
theorem C123_members (cast : Option ℤ → ℕ) (b : Box ℝ) (kMax kMin : ℝ) (num : ℕ) (d : ℝ) (hd : 0 < d)
    (hp : pruneDistance b kMax num = some d) (r : ℕ → ℕ → ℕ → ℝ) (hr : ∀ i j l, r i j l < 1) (k : Vec3 ℝ)
    (coin : ℕ → ℕ → ℕ → Bool) :
    (k ∈ sampleRandom cast b kMax kMin num r → k ∈ sample cast b kMax kMin 0 coin) ∧
    (k ∈ sample cast b kMax kMin 0 coin → Vec3.norm k ≤ 2 * Real.pi * d → k ∈ sampleRandom cast b kMax kMin num r) := by
  have ha : addAll b kMax num = false := by rw [addAll_eq, hp]; rfl
  have ha0 : addAll b kMax 0 = true := by unfold addAll; split_ifs <;> simp
  unfold sampleRandom
  simp only [sample_eq, List.mem_filterMap, ha, ha0, hp]
  constructor
  · rintro ⟨n, hn, h⟩
    refine ⟨n, hn, ?_⟩
    rw [keep_split] at h ⊢
    split_ifs at h with h'
    rw [if_pos (by simp only [Bool.and_eq_true] at h'; simp [h'.1]), h]
  · rintro ⟨n, hn, h⟩ hk
    refine ⟨n, hn, ?_⟩
    rw [keep_split] at h ⊢
    split_ifs at h with h'
    simp only [Option.some.injEq] at h
    have hacc : accept b.is2D (some d) (loopVector b n.1 n.2.1 n.2.2) (r n.1 n.2.1 n.2.2) = true := by
      rw [accept_iff hd _ (hr _ _ _), keepChance, if_pos]
      · exact hr _ _ _
      · rw [h, div_le_iff₀ two_pi_pos]; linarith
    rw [if_pos (by simp only [Bool.and_eq_true] at h'; simp [h'.1, hacc]), h]

open MeasureTheory in
/-- **C123** (the average): if each random number is uniform between 0 and 1, the mean number of vectors used is the
sum of the probabilities over the vectors that are used without pruning. -/
theorem C123_expected {Ω : Type*} [MeasurableSpace Ω] (μ : Measure Ω) [IsProbabilityMeasure μ]
    (R : ℕ → ℕ → ℕ → Ω → ℝ) (hm : ∀ i j l, Measurable (R i j l))
    (hR : ∀ i j l, μ.map (R i j l) = volume.restrict (Set.Ico 0 1))
    (cast : Option ℤ → ℕ) (b : Box ℝ) (kMax kMin : ℝ) (num : ℕ) (d : ℝ) (hd : 0 < d)
    (hp : pruneDistance b kMax num = some d) (coin : ℕ → ℕ → ℕ → Bool) :
    ∫ ω, ((sampleRandom cast b kMax kMin num (fun i j l => R i j l ω)).length : ℝ) ∂μ =
      ((sample cast b kMax kMin 0 coin).map (fun k => keepChance b.is2D d (Vec3.norm k / (2 * Real.pi)))).sum := by
  have ha : addAll b kMax num = false := by rw [addAll_eq, hp]; rfl
  have ha0 : addAll b kMax 0 = true := by unfold addAll; split_ifs <;> simp
  unfold sampleRandom
  simp only [sample_eq, ha, ha0, hp]
  have key : ∀ l : List (ℕ × ℕ × ℕ),
      Integrable (fun ω => ((l.filterMap (fun n =>
        if keep (loopVector b n.1 n.2.1 n.2.2) kMax kMin false
          (accept b.is2D (some d) (loopVector b n.1 n.2.1 n.2.2) (R n.1 n.2.1 n.2.2 ω)) = true
        then some (loopVector b n.1 n.2.1 n.2.2) else none)).length : ℝ)) μ ∧
      ∫ ω, ((l.filterMap (fun n =>
        if keep (loopVector b n.1 n.2.1 n.2.2) kMax kMin false
          (accept b.is2D (some d) (loopVector b n.1 n.2.1 n.2.2) (R n.1 n.2.1 n.2.2 ω)) = true
        then some (loopVector b n.1 n.2.1 n.2.2) else none)).length : ℝ) ∂μ =
      ((l.filterMap (fun n =>
        if keep (loopVector b n.1 n.2.1 n.2.2) kMax kMin true (coin n.1 n.2.1 n.2.2) = true
        then some (loopVector b n.1 n.2.1 n.2.2) else none)).map
          (fun k => keepChance b.is2D d (Vec3.norm k / (2 * Real.pi)))).sum := by
    intro l
    induction l with
    | nil => simp
    | cons n l ih =>
      obtain ⟨i1, i2⟩ := ih
      set v := loopVector b n.1 n.2.1 n.2.2 with hv
      by_cases hin : keep v kMax kMin true true = true
      · have hS := accept_measurable b.is2D d v
        have hSm := hm n.1 n.2.1 n.2.2 hS
        have e : ∀ ω, (((n :: l).filterMap (fun n =>
            if keep (loopVector b n.1 n.2.1 n.2.2) kMax kMin false
              (accept b.is2D (some d) (loopVector b n.1 n.2.1 n.2.2) (R n.1 n.2.1 n.2.2 ω)) = true
            then some (loopVector b n.1 n.2.1 n.2.2) else none)).length : ℝ) =
            (R n.1 n.2.1 n.2.2 ⁻¹' {r : ℝ | accept b.is2D (some d) v r = true}).indicator (fun _ => (1 : ℝ)) ω +
            ((l.filterMap (fun n =>
            if keep (loopVector b n.1 n.2.1 n.2.2) kMax kMin false
              (accept b.is2D (some d) (loopVector b n.1 n.2.1 n.2.2) (R n.1 n.2.1 n.2.2 ω)) = true
            then some (loopVector b n.1 n.2.1 n.2.2) else none)).length : ℝ) := by
          intro ω
          rw [List.filterMap_cons, ← hv, keep_split, hin]
          by_cases hacc : accept b.is2D (some d) v (R n.1 n.2.1 n.2.2 ω) = true
          · rw [Set.indicator_of_mem (by exact hacc), hacc]
            simp only [Bool.false_or, Bool.and_true, if_true, List.length_cons]
            push_cast
            ring
          · rw [Set.indicator_of_notMem (by exact hacc)]
            simp [hacc]
        have hmeas : μ.real (R n.1 n.2.1 n.2.2 ⁻¹' {r : ℝ | accept b.is2D (some d) v r = true}) =
            keepChance b.is2D d (Vec3.norm v / (2 * Real.pi)) := by
          rw [Measure.real, ← Measure.map_apply (hm _ _ _) hS, hR, Measure.restrict_apply hS]
          have : {r : ℝ | accept b.is2D (some d) v r = true} ∩ Set.Ico 0 1 =
              {r : ℝ | 0 ≤ r ∧ r < 1 ∧ accept b.is2D (some d) v r = true} := by
            ext r
            simp only [Set.mem_inter_iff, Set.mem_setOf_eq, Set.mem_Ico]
            tauto
          rw [this, C123_chance _ _ hd, ENNReal.toReal_ofReal (keepChance_mem hd _).1]
        have hint : Integrable ((R n.1 n.2.1 n.2.2 ⁻¹' {r : ℝ | accept b.is2D (some d) v r = true}).indicator
            (fun _ => (1 : ℝ))) μ := (integrable_const 1).indicator hSm
        simp only [e]
        refine ⟨hint.add i1, ?_⟩
        rw [integral_add hint i1, i2, integral_indicator_const _ hSm, hmeas, smul_eq_mul, mul_one,
          List.filterMap_cons, ← hv, keep_split, hin]
        simp
      · have e1 : ∀ a c, keep v kMax kMin a c = false := by
          intro a c
          rw [keep_split]
          simp [hin]
        simp only [List.filterMap_cons, ← hv, e1, Bool.false_eq_true, if_false]
        exact ⟨i1, i2⟩
  exact (key _).2

/-- A cube of side 10 in which 20 vectors up to `2π` are asked for: there are more, so they are pruned. -/
example : let b : Box ℝ := Box.mk' 10 10 10 0 0 0 false
    Valid b ∧ PositiveLengths b ∧ NoTilt b ∧
      ((20 : ℕ) : ℝ) < meanKept b.is2D (reciprocalCell b) 0 (2 * Real.pi / (2 * Real.pi)) (fun _ => 1) := by
  refine ⟨by constructor <;> simp [Box.mk', Box.setL], ?_, ?_, ?_⟩
  · refine ⟨?_, ?_, ?_⟩ <;> simp [Box.mk', Box.setL]
  · refine ⟨?_, ?_, ?_⟩ <;> simp [Box.mk', Box.setL]
  · rw [mean_all, div_self two_pi_pos.ne']
    have := Real.pi_gt_three
    norm_num [Box.mk', Box.setL, reciprocalCell]
    linarith

end Freud
