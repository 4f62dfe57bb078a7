import Verif.Spec.RoundingBins
import Verif.Lemmas.Rounding

/-!
# Property C90: histogram bins in floating-point arithmetic
-/

namespace Freud
open Spec Fl

namespace Fl

/-- The rounding unit. -/
theorem unit_pos (p : ℕ) : (0 : ℚ) < 2 ^ (-(p : ℤ)) := two_zpow_pos _

theorem unit_le {p : ℕ} (hp : 3 ≤ p) : (2 : ℚ) ^ (-(p : ℤ)) ≤ 1 / 8 := by
  have := zpow_mono (a := -(p : ℤ)) (b := -3) (by omega)
  refine this.trans (le_of_eq ?_)
  norm_num

theorem rnd_upper {p : ℕ} {x : ℚ} (h : 0 ≤ x) : rnd p x ≤ (1 + 2 ^ (-(p : ℤ))) * x := by
  have := abs_le.mp (relErr p x)
  rw [abs_of_nonneg h] at this
  linarith [this.1]

theorem rnd_lower {p : ℕ} {x : ℚ} (h : 0 ≤ x) : (1 - 2 ^ (-(p : ℤ))) * x ≤ rnd p x := by
  have := abs_le.mp (relErr p x)
  rw [abs_of_nonneg h] at this
  linarith [this.2]

theorem rnd_pos {p : ℕ} (hp : 1 ≤ p) {x : ℚ} (h : 0 < x) : 0 < rnd p x := by
  have hx := (exponent_spec h.ne').1
  rw [abs_of_pos h] at hx
  exact (two_zpow_pos _).trans_le (le_rnd hp (isFloat_zpow hp (exponent x)) hx)

theorem rnd_nat {p : ℕ} (hp : 1 ≤ p) {n : ℕ} (h : n ≤ 2 ^ p) : rnd p n = n := by
  refine rnd_of_isFloat hp ?_
  have := isFloat_int hp (n := (n : ℤ)) (by rw [abs_of_nonneg (by positivity)]; exact_mod_cast h)
  exact_mod_cast this

theorem trunc_of_nonneg {x : ℚ} (h : 0 ≤ x) : trunc x = ⌊x⌋ := by simp [trunc, h]

/-- What is truncated: bounds in terms of the exact position in units of bins. -/
theorem val_bounds {p : ℕ} (hp : 3 ≤ p) (a : RegularAxis ℚ) (ha : a.min < a.max)
    (hn : 1 ≤ a.nbins) (hn' : a.nbins ≤ 2 ^ p) {v : ℚ} (hv : a.min ≤ v) :
    (1 - 2 ^ (-(p : ℤ))) ^ 3 / (1 + 2 ^ (-(p : ℤ))) ^ 2 * ((v - a.min) * a.nbins / (a.max - a.min)) ≤
      mul p (sub p v a.min) (invWidth p a) ∧
    mul p (sub p v a.min) (invWidth p a) ≤
    (1 + 2 ^ (-(p : ℤ))) ^ 3 / (1 - 2 ^ (-(p : ℤ))) ^ 2 * ((v - a.min) * a.nbins / (a.max - a.min)) := by
  have hu := unit_pos p
  have hu' := unit_le hp
  have h1p : 1 ≤ p := by omega
  set u : ℚ := 2 ^ (-(p : ℤ))
  have hn0 : (0 : ℚ) < a.nbins := by exact_mod_cast hn
  have hD : 0 < a.max - a.min := sub_pos.mpr ha
  have hS : 0 ≤ v - a.min := sub_nonneg.mpr hv
  unfold mul sub invWidth div binWidth sub div
  rw [rnd_nat h1p hn']
  set D := rnd p (a.max - a.min)
  have D1 : D ≤ (1 + u) * (a.max - a.min) := rnd_upper hD.le
  have D2 : (1 - u) * (a.max - a.min) ≤ D := rnd_lower hD.le
  have D0 : 0 < D := rnd_pos h1p hD
  set S := rnd p (v - a.min)
  have S1 : S ≤ (1 + u) * (v - a.min) := rnd_upper hS
  have S2 : (1 - u) * (v - a.min) ≤ S := rnd_lower hS
  have S0 : 0 ≤ S := rnd_nonneg h1p hS
  set w := rnd p (D / a.nbins)
  have w0 : 0 < w := rnd_pos h1p (by positivity)
  have w1 : w ≤ (1 + u) * (D / a.nbins) := rnd_upper (by positivity)
  have w2 : (1 - u) * (D / a.nbins) ≤ w := rnd_lower (by positivity)
  set iw := rnd p (1 / w)
  have i1 : iw ≤ (1 + u) * (1 / w) := rnd_upper (by positivity)
  have i2 : (1 - u) * (1 / w) ≤ iw := rnd_lower (by positivity)
  have i0 : 0 < iw := rnd_pos h1p (by positivity)
  have r1 : rnd p (S * iw) ≤ (1 + u) * (S * iw) := rnd_upper (by positivity)
  have r2 : (1 - u) * (S * iw) ≤ rnd p (S * iw) := rnd_lower (by positivity)
  have hm : (0 : ℚ) < 1 - u := by linarith
  constructor
  · refine le_trans ?_ r2
    have hw : w ≤ (1 + u) ^ 2 * ((a.max - a.min) / a.nbins) := by
      refine w1.trans ?_
      rw [sq, mul_assoc]
      refine mul_le_mul_of_nonneg_left ?_ (by linarith)
      rw [← mul_div_assoc]
      exact div_le_div_of_nonneg_right D1 hn0.le
    have hi : (1 - u) / ((1 + u) ^ 2 * ((a.max - a.min) / a.nbins)) ≤ iw := by
      refine le_trans ?_ i2
      rw [mul_one_div]
      exact div_le_div_of_nonneg_left hm.le w0 hw
    have : (1 - u) * (v - a.min) * ((1 - u) / ((1 + u) ^ 2 * ((a.max - a.min) / a.nbins))) ≤ S * iw :=
      mul_le_mul S2 hi (by positivity) S0
    calc _ = (1 - u) * ((1 - u) * (v - a.min) * ((1 - u) / ((1 + u) ^ 2 * ((a.max - a.min) / a.nbins)))) := by
          field_simp
      _ ≤ _ := mul_le_mul_of_nonneg_left this hm.le
  · refine r1.trans ?_
    have hw : (1 - u) ^ 2 * ((a.max - a.min) / a.nbins) ≤ w := by
      refine le_trans ?_ w2
      rw [sq, mul_assoc]
      refine mul_le_mul_of_nonneg_left ?_ hm.le
      rw [← mul_div_assoc]
      exact div_le_div_of_nonneg_right D2 hn0.le
    have hi : iw ≤ (1 + u) / ((1 - u) ^ 2 * ((a.max - a.min) / a.nbins)) := by
      refine i1.trans ?_
      rw [mul_one_div]
      exact div_le_div_of_nonneg_left (by linarith) (by positivity) hw
    have : S * iw ≤ (1 + u) * (v - a.min) * ((1 + u) / ((1 - u) ^ 2 * ((a.max - a.min) / a.nbins))) :=
      mul_le_mul S1 hi i0.le (by positivity)
    calc _ ≤ (1 + u) * ((1 + u) * (v - a.min) * ((1 + u) / ((1 - u) ^ 2 * ((a.max - a.min) / a.nbins)))) :=
          mul_le_mul_of_nonneg_left this (by linarith)
      _ = _ := by field_simp

theorem val_nonneg {p : ℕ} (hp : 1 ≤ p) (a : RegularAxis ℚ) (ha : a.min < a.max) {v : ℚ}
    (hv : a.min ≤ v) : 0 ≤ mul p (sub p v a.min) (invWidth p a) := by
  have hD : 0 ≤ rnd p (a.max - a.min) := rnd_nonneg hp (sub_nonneg.mpr ha.le)
  have hn : 0 ≤ rnd p (a.nbins : ℚ) := rnd_nonneg hp (Nat.cast_nonneg _)
  unfold mul sub invWidth div binWidth sub div
  exact rnd_nonneg hp (mul_nonneg (rnd_nonneg hp (sub_nonneg.mpr hv))
    (rnd_nonneg hp (div_nonneg zero_le_one (rnd_nonneg hp (div_nonneg hD hn)))))

theorem val_mono {p : ℕ} (hp : 1 ≤ p) (a : RegularAxis ℚ) (ha : a.min < a.max) {v v' : ℚ}
    (h : v ≤ v') : mul p (sub p v a.min) (invWidth p a) ≤ mul p (sub p v' a.min) (invWidth p a) := by
  have hD : 0 ≤ rnd p (a.max - a.min) := rnd_nonneg hp (sub_nonneg.mpr ha.le)
  have hn : 0 ≤ rnd p (a.nbins : ℚ) := rnd_nonneg hp (Nat.cast_nonneg _)
  have hi : 0 ≤ invWidth p a := by
    unfold invWidth div binWidth sub div
    exact rnd_nonneg hp (div_nonneg zero_le_one (rnd_nonneg hp (div_nonneg hD hn)))
  exact rnd_mono hp (mul_le_mul_of_nonneg_right (rnd_mono hp (sub_le_sub_right h _)) hi)

/-- The truncated value is at most the number of bins. -/
theorem floor_val_le {p : ℕ} (hp : 3 ≤ p) (a : RegularAxis ℚ) (ha : a.min < a.max)
    (hn : 1 ≤ a.nbins) (hn' : a.nbins ≤ 2 ^ (p - 2)) {v : ℚ} (hv : a.min ≤ v) (hv' : v < a.max) :
    ⌊mul p (sub p v a.min) (invWidth p a)⌋.toNat ≤ a.nbins := by
  have hu := unit_pos p
  have hu' := unit_le hp
  have h1p : 1 ≤ p := by omega
  have hnp : a.nbins ≤ 2 ^ p := hn'.trans (Nat.pow_le_pow_right (by norm_num) (by omega))
  have hm := val_mono h1p a ha hv'.le
  suffices h : mul p (sub p a.max a.min) (invWidth p a) < a.nbins + 1 by
    have : ⌊mul p (sub p v a.min) (invWidth p a)⌋ < (a.nbins : ℤ) + 1 :=
      Int.floor_lt.mpr (by push_cast; exact hm.trans_lt h)
    omega
  have hD : 0 < a.max - a.min := sub_pos.mpr ha
  have hn0 : (0 : ℚ) < a.nbins := by exact_mod_cast hn
  have hnu : (a.nbins : ℚ) * (4 * 2 ^ (-(p : ℤ))) ≤ 1 := by
    have h1 : (a.nbins : ℚ) ≤ 2 ^ ((p : ℤ) - 2) := by
      rw [show (p : ℤ) - 2 = ((p - 2 : ℕ) : ℤ) by omega, zpow_natCast]; exact_mod_cast hn'
    calc _ ≤ (2 : ℚ) ^ ((p : ℤ) - 2) * (4 * 2 ^ (-(p : ℤ))) :=
          mul_le_mul_of_nonneg_right h1 (by positivity)
      _ = 1 := by
          rw [show (4 : ℚ) = 2 ^ (2 : ℤ) by norm_num, ← zpow_add₀ (by norm_num), ← zpow_add₀ (by norm_num)]
          ring_nf
          norm_num
  set u : ℚ := 2 ^ (-(p : ℤ))
  unfold mul sub invWidth div binWidth sub div
  rw [rnd_nat h1p hnp]
  set D := rnd p (a.max - a.min)
  have D0 : 0 < D := rnd_pos h1p hD
  set w := rnd p (D / a.nbins)
  have w0 : 0 < w := rnd_pos h1p (by positivity)
  have w2 : (1 - u) * (D / a.nbins) ≤ w := rnd_lower (by positivity)
  set iw := rnd p (1 / w)
  have i1 : iw ≤ (1 + u) * (1 / w) := rnd_upper (by positivity)
  have i0 : 0 < iw := rnd_pos h1p (by positivity)
  have r1 : rnd p (D * iw) ≤ (1 + u) * (D * iw) := rnd_upper (by positivity)
  have hm : (0 : ℚ) < 1 - u := by linarith
  have hi : iw ≤ (1 + u) / ((1 - u) * (D / a.nbins)) := by
    refine i1.trans ?_
    rw [mul_one_div]
    exact div_le_div_of_nonneg_left (by linarith) (by positivity) w2
  have h2 : rnd p (D * iw) ≤ (1 + u) ^ 2 / (1 - u) * a.nbins := by
    refine r1.trans ?_
    calc (1 + u) * (D * iw) ≤ (1 + u) * (D * ((1 + u) / ((1 - u) * (D / a.nbins)))) :=
          mul_le_mul_of_nonneg_left (mul_le_mul_of_nonneg_left hi D0.le) (by linarith)
      _ = _ := by field_simp
  refine h2.trans_lt ?_
  rw [div_mul_eq_mul_div, div_lt_iff₀ hm]
  nlinarith [mul_pos hu hn0, mul_pos (mul_pos hu hu) hn0]

theorem bin_eq {p : ℕ} (hp : 1 ≤ p) (a : RegularAxis ℚ) (ha : a.min < a.max) {v : ℚ}
    (hv : a.min ≤ v) (hv' : v < a.max) :
    bin p a v = if ⌊mul p (sub p v a.min) (invWidth p a)⌋.toNat = a.nbins
      then ⌊mul p (sub p v a.min) (invWidth p a)⌋.toNat - 1
      else ⌊mul p (sub p v a.min) (invWidth p a)⌋.toNat := by
  unfold bin
  rw [if_neg (by push Not; exact ⟨hv, hv'⟩), trunc_of_nonneg (val_nonneg hp a ha hv)]

end Fl

/-- **C90**: what the model calls rounding is rounding to nearest: the result has `p` digits, no number with
`p` digits is closer, and of two that are equally close it is the one whose last digit is even. -/
theorem C90_rounding (p : ℕ) (hp : 1 ≤ p) (x : ℚ) (hx : x ≠ 0) :
    IsNearest p x (rnd p x) ∧
    ∃ (m e : ℤ), rnd p x = m * (2 : ℚ) ^ e ∧ (2 : ℚ) ^ (e + p - 1) ≤ |x| ∧ |x| < (2 : ℚ) ^ (e + p) ∧
      (|x - m * (2 : ℚ) ^ e| = 2 ^ e / 2 → Even m) := by
  obtain ⟨h1, h2⟩ := exponent_spec hx
  refine ⟨rnd_nearest hp x, roundEven (x / quantum p x), exponent x + 1 - p, by rw [rnd, if_neg hx]; rfl, ?_, ?_, ?_⟩
  · rwa [show exponent x + 1 - p + p - 1 = exponent x by ring]
  · rwa [show exponent x + 1 - p + p = exponent x + 1 by ring]
  · intro h
    have hq := quantum_pos p x
    change |x - roundEven (x / quantum p x) * quantum p x| = quantum p x / 2 at h
    set y := x / quantum p x with hy
    have hxy : x = y * quantum p x := by rw [hy, div_mul_cancel₀ _ hq.ne']
    have e : x - roundEven y * quantum p x = (y - roundEven y) * quantum p x := by
      nth_rw 1 [hxy]; ring
    rw [e, abs_mul, abs_of_pos hq] at h
    have ha : |y - roundEven y| = 1 / 2 := by
      have : |y - roundEven y| * quantum p x = 1 / 2 * quantum p x := by rw [h]; ring
      exact mul_right_cancel₀ hq.ne' this
    clear_value y
    unfold roundEven at ha ⊢
    have f0 := Int.floor_le y
    split_ifs at ha ⊢ with c1 c2 c3
    · rw [abs_of_nonneg (by linarith)] at ha; linarith
    · push_cast at ha
      rw [abs_of_nonpos (by linarith [Int.lt_floor_add_one y])] at ha
      linarith
    · exact Int.even_iff.mpr c3
    · exact Int.even_iff.mpr (by omega)

/-- **C90**: a value inside the range of an axis is counted in a bin that exists, if the axis has not
more than `2 ^ (p - 2)` bins (4194304 for `float`). -/
theorem C90_bin_exists_partial (p : ℕ) (hp : 3 ≤ p) (a : RegularAxis ℚ) (ha : a.min < a.max)
    (hn : 1 ≤ a.nbins) (hn' : a.nbins ≤ 2 ^ (p - 2)) (v : ℚ) (hv : a.min ≤ v) (hv' : v < a.max) :
    bin p a v < a.nbins := by
  have := floor_val_le hp a ha hn hn' hv hv'
  rw [bin_eq (by omega) a ha hv hv']
  split_ifs <;> omega

/-- **C90**: a greater value is never counted in an earlier bin. -/
theorem C90_monotone (p : ℕ) (hp : 3 ≤ p) (a : RegularAxis ℚ) (ha : a.min < a.max)
    (hn : 1 ≤ a.nbins) (hn' : a.nbins ≤ 2 ^ (p - 2)) (v v' : ℚ) (hv : a.min ≤ v) (h : v ≤ v')
    (hv' : v' < a.max) : bin p a v ≤ bin p a v' := by
  have h1 := floor_val_le hp a ha hn hn' hv (h.trans_lt hv')
  have h2 := floor_val_le hp a ha hn hn' (hv.trans h) hv'
  have h3 : ⌊mul p (sub p v a.min) (invWidth p a)⌋.toNat ≤ ⌊mul p (sub p v' a.min) (invWidth p a)⌋.toNat :=
    Int.toNat_le_toNat (Int.floor_le_floor (val_mono (by omega) a ha h))
  rw [bin_eq (by omega) a ha hv (h.trans_lt hv'), bin_eq (by omega) a ha (hv.trans h) hv']
  split_ifs <;> omega

/-- **C90**: values outside the range are not counted, whatever the rounding. -/
theorem C90_outside (p : ℕ) (a : RegularAxis ℚ) (v : ℚ) (h : v < a.min ∨ a.max ≤ v) :
    bin p a v = OVERFLOW_BIN := by
  unfold bin
  rw [if_pos h]

/-- **C90**: the least value of the range is in the first bin. -/
theorem C90_first (p : ℕ) (a : RegularAxis ℚ) (ha : a.min < a.max) (hn : 1 ≤ a.nbins) :
    bin p a a.min = 0 := by
  unfold bin
  rw [if_neg (by push Not; exact ⟨le_rfl, ha⟩)]
  simp only [sub, sub_self, rnd_zero, mul, zero_mul, trunc, le_refl, if_true, Int.floor_zero, Int.toNat_zero]
  rw [if_neg (by omega)]

/-- **C90**: the bin differs by at most one from the bin that the definition of the bins gives, if the
axis has not more than `2 ^ (p - 3)` bins (2097152 for `float`). -/
theorem C90_within_one_partial (p : ℕ) (hp : 3 ≤ p) (a : RegularAxis ℚ) (ha : a.min < a.max)
    (hn : 1 ≤ a.nbins) (hn' : a.nbins ≤ 2 ^ (p - 3)) (v : ℚ) (hv : a.min ≤ v) (hv' : v < a.max) :
    bin p a v ≤ exactBin a v + 1 ∧ exactBin a v ≤ bin p a v + 1 := by
  have hu := unit_pos p
  have hu' := unit_le hp
  have hnp : a.nbins ≤ 2 ^ p := hn'.trans (Nat.pow_le_pow_right (by norm_num) (by omega))
  have hle := floor_val_le hp a ha hn (hn'.trans (Nat.pow_le_pow_right (by norm_num) (by omega))) hv hv'
  obtain ⟨h1, h2⟩ := val_bounds hp a ha hn hnp hv
  have h0 := val_nonneg (p := p) (by omega) a ha hv
  rw [bin_eq (by omega) a ha hv hv']
  set y := mul p (sub p v a.min) (invWidth p a)
  have hD : 0 < a.max - a.min := sub_pos.mpr ha
  have hn0 : (0 : ℚ) < a.nbins := by exact_mod_cast hn
  set x := (v - a.min) * a.nbins / (a.max - a.min) with hx
  have hx0 : 0 ≤ x := by
    have : 0 ≤ v - a.min := sub_nonneg.mpr hv
    positivity
  have hxn : x < a.nbins := by
    rw [hx, div_lt_iff₀ hD, mul_comm]
    exact mul_lt_mul_of_pos_left (by linarith) hn0
  have hnu : (a.nbins : ℚ) * (8 * 2 ^ (-(p : ℤ))) ≤ 1 := by
    have h1 : (a.nbins : ℚ) ≤ 2 ^ ((p : ℤ) - 3) := by
      rw [show (p : ℤ) - 3 = ((p - 3 : ℕ) : ℤ) by omega, zpow_natCast]; exact_mod_cast hn'
    calc _ ≤ (2 : ℚ) ^ ((p : ℤ) - 3) * (8 * 2 ^ (-(p : ℤ))) :=
          mul_le_mul_of_nonneg_right h1 (by positivity)
      _ = 1 := by
          rw [show (8 : ℚ) = 2 ^ (3 : ℤ) by norm_num, ← zpow_add₀ (by norm_num), ← zpow_add₀ (by norm_num)]
          ring_nf
          norm_num
  set u : ℚ := 2 ^ (-(p : ℤ))
  have hm : (0 : ℚ) < 1 - u := by linarith
  have hup : y < x + 1 := by
    have : (1 + u) ^ 3 / (1 - u) ^ 2 ≤ 1 + 8 * u := by
      rw [div_le_iff₀ (by positivity)]
      nlinarith [mul_pos hu hu, mul_pos (mul_pos hu hu) hu]
    have : y ≤ (1 + 8 * u) * x := h2.trans (mul_le_mul_of_nonneg_right this hx0)
    nlinarith
  have hlo : x - 1 < y := by
    have : 1 - 8 * u ≤ (1 - u) ^ 3 / (1 + u) ^ 2 := by
      rw [le_div_iff₀ (by positivity)]
      nlinarith [mul_pos hu hu, mul_pos (mul_pos hu hu) hu]
    have : (1 - 8 * u) * x ≤ y := (mul_le_mul_of_nonneg_right this hx0).trans h1
    nlinarith
  have hfx : exactBin a v = ⌊x⌋.toNat := (Int.floor_toNat x).symm
  rw [hfx]
  have f1 : ⌊y⌋ ≤ ⌊x⌋ + 1 := by
    rw [← Int.floor_add_one]; exact Int.floor_le_floor hup.le
  have f2 : ⌊x⌋ ≤ ⌊y⌋ + 1 := by
    rw [← Int.floor_add_one]; exact Int.floor_le_floor (by linarith)
  have f3 : 0 ≤ ⌊x⌋ := Int.floor_nonneg.mpr hx0
  have f4 : 0 ≤ ⌊y⌋ := Int.floor_nonneg.mpr h0
  have f5 : ⌊x⌋ < a.nbins := Int.floor_lt.mpr (by exact_mod_cast hxn)
  split_ifs <;> omega

/-- **C90**: on an axis that begins at zero, with bins whose width is a power of two, every value is
counted in the bin that the definition gives. -/
theorem C90_powers_of_two (p : ℕ) (hp : 3 ≤ p) (n : ℕ) (hn : 1 ≤ n) (hn' : n ≤ 2 ^ p) (e : ℤ) (v : ℚ)
    (hf : IsFloat p v) (hv : 0 ≤ v) (hv' : v < n * (2 : ℚ) ^ e) :
    bin p ⟨n, 0, n * (2 : ℚ) ^ e⟩ v = exactBin ⟨n, 0, n * (2 : ℚ) ^ e⟩ v ∧
      bin p ⟨n, 0, n * (2 : ℚ) ^ e⟩ v < n := by
  have h1p : 1 ≤ p := by omega
  have hn0 : (0 : ℚ) < n := by exact_mod_cast hn
  have he := two_zpow_pos e
  have hmax : IsFloat p (n * (2 : ℚ) ^ e) := by
    have := isFloat_of_le h1p (m := (n : ℤ)) (e := e) (by rw [abs_of_nonneg (by positivity)]; exact_mod_cast hn')
    exact_mod_cast this
  have hval : mul p (sub p v 0) (invWidth p ⟨n, 0, n * (2 : ℚ) ^ e⟩) = v * 2 ^ (-e) := by
    unfold mul sub invWidth div binWidth sub div
    simp only [sub_zero]
    rw [rnd_of_isFloat h1p hf, rnd_of_isFloat h1p hmax, rnd_nat h1p hn',
      mul_div_cancel_left₀ _ hn0.ne', rnd_of_isFloat h1p (isFloat_zpow h1p e), one_div, ← zpow_neg,
      rnd_of_isFloat h1p (isFloat_zpow h1p (-e)), rnd_of_isFloat h1p (isFloat_scale hf (-e))]
  have hx : (v - 0) * (n : ℚ) / (n * (2 : ℚ) ^ e - 0) = v * 2 ^ (-e) := by
    rw [sub_zero, sub_zero, zpow_neg]; field_simp
  have hlt : v * (2 : ℚ) ^ (-e) < n := by
    rw [zpow_neg, ← div_eq_mul_inv, div_lt_iff₀ he]; exact hv'
  have hnn : 0 ≤ v * (2 : ℚ) ^ (-e) := mul_nonneg hv (two_zpow_pos _).le
  have hfl : ⌊v * (2 : ℚ) ^ (-e)⌋.toNat < n := by
    have : ⌊v * (2 : ℚ) ^ (-e)⌋ < n := Int.floor_lt.mpr (by exact_mod_cast hlt)
    have := Int.floor_nonneg.mpr hnn
    omega
  have hb : bin p ⟨n, 0, n * (2 : ℚ) ^ e⟩ v = ⌊v * (2 : ℚ) ^ (-e)⌋.toNat := by
    rw [bin_eq h1p _ (by positivity) hv hv']
    simp only [hval]
    rw [if_neg (by omega)]
  refine ⟨?_, by rw [hb]; exact hfl⟩
  rw [hb]
  unfold exactBin
  simp only [hx]
  rw [← Int.floor_toNat]

/-- **C90** (limit): in `float`, with 50 bins from 0 to 1, the value that is reported as the left edge of
bin 5 is counted in bin 4. -/
theorem C90_edges_counterexample :
    IsFloat 24 (binEdge 24 ⟨50, 0, 1⟩ 5) ∧ bin 24 ⟨50, 0, 1⟩ (binEdge 24 ⟨50, 0, 1⟩ 5) = 4 := by
  refine ⟨rnd_isFloat (by norm_num) _, ?_⟩
  decide +kernel

/-- **C90** (limit): in `float`, an axis with 12582913 bins from -8 to 2 counts a value of its range in a
bin that does not exist: two bins past the last one. -/
theorem C90_missing_bin_counterexample :
    ∃ v : ℚ, IsFloat 24 v ∧ -8 ≤ v ∧ v < 2 ∧ bin 24 ⟨12582913, -8, 2⟩ v = 12582913 + 1 := by
  refine ⟨2 - 2 ^ (-23 : ℤ), ⟨2 ^ 24 - 1, -23, by decide, by norm_num⟩, by norm_num, by norm_num, ?_⟩
  decide +kernel

-- the default axis of an RDF with 50 bins up to 2.5
example : bin 24 ⟨50, 0, 5 / 2⟩ 1 = 20 ∨ bin 24 ⟨50, 0, 5 / 2⟩ 1 = 19 := by decide +kernel

example : ∃ (a : RegularAxis ℚ) (v : ℚ), a.min < a.max ∧ 1 ≤ a.nbins ∧ a.nbins ≤ 2 ^ (24 - 3) ∧
    IsFloat 24 v ∧ a.min ≤ v ∧ v < a.max :=
  ⟨⟨50, 0, 5 / 2⟩, 1, by norm_num, by norm_num, by norm_num, isFloat_zpow (by norm_num) 0, by norm_num,
    by norm_num⟩

end Freud
