import Verif.Spec.RoundingBox
import Verif.Lemmas.Rounding
import Verif.Lemmas.Box
import Mathlib.Tactic.LinearCombination

/-!
# Rounding in the box functions: lemmas
-/

namespace Freud
namespace Fl
open Spec

theorem u_pos (p : ℕ) : (0 : ℚ) < 2 ^ (-(p : ℤ)) := two_zpow_pos _

/-- The error after a rounding. -/
theorem rnd_approx (p : ℕ) {x x' e B : ℚ} (h : |x - x'| ≤ e) (hB : |x'| ≤ B) :
    |rnd p x - x'| ≤ e + 2 ^ (-(p : ℤ)) * (B + e) := by
  have h1 := relErr p x
  have h2 : |x| ≤ B + e := by
    have := abs_add_le x' (x - x')
    rw [add_sub_cancel] at this
    linarith
  have h3 : |rnd p x - x'| ≤ |x - rnd p x| + |x - x'| := by
    have := abs_add_le (-(x - rnd p x)) (x - x')
    rw [abs_neg] at this
    rwa [show -(x - rnd p x) + (x - x') = rnd p x - x' by ring] at this
  have := mul_le_mul_of_nonneg_left h2 (u_pos p).le
  linarith

theorem trunc_err (x : ℚ) : |x - trunc x| < 1 := by
  unfold trunc
  split_ifs with h
  · rw [abs_of_nonneg (sub_nonneg.mpr (Int.floor_le x))]
    linarith [Int.lt_floor_add_one x]
  · rw [abs_of_nonpos (sub_nonpos.mpr (Int.le_ceil x))]
    linarith [Int.ceil_lt_add_one x]

theorem fmodOne_abs (a : ℚ) : |fmodOne a| < 1 := trunc_err a

theorem fmodOne_nonneg {a : ℚ} (h : 0 ≤ a) : 0 ≤ fmodOne a := by
  unfold fmodOne trunc
  rw [if_pos h]
  exact sub_nonneg.mpr (Int.floor_le a)

theorem fmodOne_nonpos {a : ℚ} (h : a ≤ 0) : fmodOne a ≤ 0 := by
  unfold fmodOne trunc
  split_ifs with h'
  · rw [le_antisymm h h']; simp
  · exact sub_nonpos.mpr (Int.le_ceil a)

theorem modulusPositive_range {p : ℕ} (hp : 1 ≤ p) (a : ℚ) :
    0 ≤ modulusPositive p a ∧ modulusPositive p a < 1 := by
  have h := abs_lt.mp (fmodOne_abs a)
  have h0 : 0 ≤ add p (fmodOne a) 1 := rnd_nonneg hp (by linarith)
  exact ⟨fmodOne_nonneg h0, lt_of_abs_lt (fmodOne_abs _)⟩

/-- The remainder is right up to an integer and a small error. -/
theorem modulusPositive_approx (p : ℕ) (a : ℚ) :
    ∃ k : ℤ, |modulusPositive p a - (a - k)| ≤ 2 * 2 ^ (-(p : ℤ)) := by
  have h := abs_lt.mp (fmodOne_abs a)
  have h1 := relErr p (fmodOne a + 1)
  rw [abs_of_pos (by linarith : 0 < fmodOne a + 1)] at h1
  refine ⟨trunc a - 1 + trunc (add p (fmodOne a) 1), ?_⟩
  have e : modulusPositive p a - (a - ((trunc a - 1 + trunc (add p (fmodOne a) 1) : ℤ) : ℚ)) =
      -(fmodOne a + 1 - rnd p (fmodOne a + 1)) := by
    unfold modulusPositive add
    rw [show fmodOne (rnd p (fmodOne a + 1)) =
      rnd p (fmodOne a + 1) - trunc (rnd p (fmodOne a + 1)) from rfl]
    push_cast
    rw [show fmodOne a = a - trunc a from rfl]
    ring
  rw [e, abs_neg]
  refine h1.trans ?_
  rw [mul_comm]
  exact mul_le_mul_of_nonneg_right (by linarith) (u_pos p).le

/-- Numbers below one are at most one minus the unit. -/
theorem float_lt_one {p : ℕ} (hp : 1 ≤ p) {f : ℚ} (hf : IsFloat p f) (h : f < 1) : f ≤ 1 - 2 ^ (-(p : ℤ)) := by
  have hu : (2 : ℚ) ^ (-(p : ℤ)) ≤ 1 / 2 := by
    have := zpow_mono (a := -(p : ℤ)) (b := -1) (by omega)
    exact this.trans (le_of_eq (by norm_num))
  by_cases h2 : f < 1 / 2
  · linarith
  · push Not at h2
    obtain ⟨k, hk⟩ := multiple_of_float hf (E := -1) (by
      rw [abs_of_nonneg (by linarith)]; norm_num; linarith)
    rw [show (-1 : ℤ) + 1 - p = -(p : ℤ) by ring] at hk
    have hlt : (k : ℚ) < 2 ^ p := by
      rw [hk, zpow_neg, zpow_natCast, ← div_eq_mul_inv, div_lt_one (by positivity)] at h
      exact h
    have : k + 1 ≤ 2 ^ p := by
      have : k < 2 ^ p := by exact_mod_cast hlt
      omega
    have : (k : ℚ) + 1 ≤ 2 ^ p := by exact_mod_cast this
    rw [hk]
    have e : (1 : ℚ) = 2 ^ p * 2 ^ (-(p : ℤ)) := by
      rw [zpow_neg, zpow_natCast, mul_inv_cancel₀ (by positivity)]
    nlinarith [u_pos p]

/-- A number less than one times a length rounds to less than the length. -/
theorem mul_lt_length {p : ℕ} (hp : 1 ≤ p) {f L : ℚ} (hf : IsFloat p f) (h : f < 1)
    (hL : IsFloat p L) (h0 : 0 < L) : mul p f L < L := by
  have hf1 := float_lt_one hp hf h
  have hu := u_pos p
  unfold mul
  have hle : rnd p (f * L) ≤ L := rnd_le hp hL (by nlinarith)
  refine lt_of_le_of_ne hle fun e => ?_
  have h1 := relErr p (f * L)
  rw [e] at h1
  have hfL : f * L ≤ (1 - 2 ^ (-(p : ℤ))) * L := mul_le_mul_of_nonneg_right hf1 h0.le
  rw [abs_of_nonpos (by nlinarith)] at h1
  by_cases hpos : 0 ≤ f
  · rw [abs_of_nonneg (by positivity)] at h1
    nlinarith [mul_pos hu (mul_pos hu h0)]
  · push Not at hpos
    have : rnd p (f * L) ≤ 0 := rnd_le hp (isFloat_zero p) (by nlinarith)
    linarith

/-- Two numbers in the upper half of a length differ by more than the rounding error. -/
theorem sub_half_lt {p : ℕ} (hp : 1 ≤ p) {y L : ℚ} (hy : IsFloat p y) (h : y < L)
    (hL : IsFloat p L) (h0 : 0 < L) : rnd p (-(L / 2) + y) < L / 2 := by
  have hhalf : IsFloat p (L / 2) := by
    have := isFloat_scale hL (-1)
    rw [zpow_neg, zpow_one] at this
    rwa [div_eq_mul_inv]
  have hle : rnd p (-(L / 2) + y) ≤ L / 2 := rnd_le hp hhalf (by linarith)
  refine lt_of_le_of_ne hle fun e => ?_
  have h1 := relErr p (-(L / 2) + y)
  rw [e] at h1
  have hlow : L / 2 ≤ y := by
    by_contra hc
    push Not at hc
    have : rnd p (-(L / 2) + y) ≤ 0 := rnd_le hp (isFloat_zero p) (by linarith)
    linarith
  rw [abs_of_nonpos (by linarith), abs_of_nonneg (by linarith)] at h1
  obtain ⟨E1, E2⟩ := exponent_spec h0.ne'
  rw [abs_of_pos h0] at E1 E2
  set E := exponent L
  have hE : (2 : ℚ) ^ (E - 1) ≤ y := by
    rw [zpow_sub_one₀ (by norm_num)]
    linarith
  obtain ⟨k, hk⟩ := multiple_of_float hy (E := E - 1) (by rwa [abs_of_pos (by linarith)])
  obtain ⟨l, hl⟩ := multiple_of_float hL (E := E - 1) (by
    rw [abs_of_pos h0]; exact hE.trans h.le)
  rw [show E - 1 + 1 - (p : ℤ) = E - p by ring] at hk hl
  have hq := two_zpow_pos (E - p)
  have hkl : k + 1 ≤ l := by
    rw [hk, hl] at h
    have : (k : ℚ) < l := lt_of_mul_lt_mul_right h hq.le
    have : k < l := by exact_mod_cast this
    omega
  have hd : (2 : ℚ) ^ (E - p) ≤ L - y := by
    have : (k : ℚ) + 1 ≤ l := by exact_mod_cast hkl
    rw [hk, hl]
    nlinarith
  have hq2 : (2 : ℚ) ^ (E - p) = 2 ^ E * 2 ^ (-(p : ℤ)) := by
    rw [← zpow_add₀ (by norm_num)]; rfl
  rw [zpow_add_one₀ (by norm_num)] at E2
  have : (2 : ℚ) ^ (-(p : ℤ)) * (-(L / 2) + y) < 2 ^ (-(p : ℤ)) * 2 ^ E :=
    mul_lt_mul_of_pos_left (by linarith) (u_pos p)
  rw [hq2] at hd
  linarith

theorem isFloat_half {p : ℕ} {x : ℚ} (h : IsFloat p x) : IsFloat p (x / 2) := by
  have := isFloat_scale h (-1)
  rw [zpow_neg, zpow_one] at this
  rwa [div_eq_mul_inv]

theorem isFloat_one {p : ℕ} (hp : 1 ≤ p) : IsFloat p 1 := isFloat_zpow hp 0

/-- The fractional part of a number below two is a number of the same precision. -/
theorem fmodOne_isFloat {p : ℕ} (hp : 1 ≤ p) {a : ℚ} (ha : IsFloat p a) (h0 : 0 ≤ a) (h2 : a ≤ 2) :
    IsFloat p (fmodOne a) := by
  unfold fmodOne trunc
  rw [if_pos h0]
  rcases lt_or_ge a 1 with h1 | h1
  · rw [Int.floor_eq_zero_iff.mpr ⟨h0, h1⟩]
    simpa using ha
  · rcases lt_or_ge a 2 with h3 | h3
    · have : ⌊a⌋ = 1 := Int.floor_eq_iff.mpr ⟨by norm_num; linarith, by norm_num; linarith⟩
      rw [this]
      obtain ⟨k, hk⟩ := multiple_of_float ha (E := 0) (by rw [abs_of_nonneg h0]; simpa using h1)
      rw [zero_add] at hk
      have e1 : (1 : ℚ) = 2 ^ ((p : ℤ) - 1) * 2 ^ (1 - (p : ℤ)) := by
        rw [← zpow_add₀ (by norm_num)]; simp
      have e2 : (2 : ℚ) ^ ((p : ℤ) - 1) = ((2 ^ (p - 1) : ℤ) : ℚ) := by
        rw [show (p : ℤ) - 1 = ((p - 1 : ℕ) : ℤ) by omega, zpow_natCast]; push_cast; rfl
      have hq := two_zpow_pos (1 - (p : ℤ))
      have hpw : (2 : ℤ) ^ p = 2 * 2 ^ (p - 1) := by
        rw [← pow_succ']; congr 1; omega
      have hk1 : (2 ^ (p - 1) : ℤ) ≤ k := by
        rw [hk, e1, e2] at h1
        have := le_of_mul_le_mul_right h1 hq
        exact_mod_cast this
      have hk2 : k < 2 * 2 ^ (p - 1) := by
        have : (k : ℚ) * 2 ^ (1 - (p : ℤ)) < (2 * (2 ^ (p - 1) : ℤ) : ℚ) * 2 ^ (1 - (p : ℤ)) := by
          rw [← hk, mul_assoc, ← e2, ← e1, mul_one]; exact h3
        have := lt_of_mul_lt_mul_right this hq.le
        exact_mod_cast this
      refine ⟨k - 2 ^ (p - 1), 1 - p, ?_, ?_⟩
      · rw [abs_of_nonneg (by omega), hpw]
        have : (0 : ℤ) < 2 ^ (p - 1) := by positivity
        omega
      · rw [hk]
        conv_lhs => rw [Int.cast_one, e1, e2]
        push_cast; ring
    · have : a = 2 := le_antisymm h2 h3
      subst this
      have : ⌊(2 : ℚ)⌋ = 2 := by norm_num
      rw [this]
      simpa using isFloat_zero p

theorem modulusPositive_isFloat {p : ℕ} (hp : 1 ≤ p) (a : ℚ) : IsFloat p (modulusPositive p a) := by
  have h := abs_lt.mp (fmodOne_abs a)
  refine fmodOne_isFloat hp (rnd_isFloat hp _) (rnd_nonneg hp (by linarith)) ?_
  exact rnd_le hp (by simpa using isFloat_zpow hp 1) (by linarith)

/-- A component that is wrapped lies in the half-open interval. -/
theorem component_range {p : ℕ} (hp : 1 ≤ p) (a : ℚ) {L : ℚ} (hL : IsFloat p L) (h0 : 0 < L) :
    -(L / 2) ≤ add p (-(L / 2)) (mul p (modulusPositive p a) L) ∧
      add p (-(L / 2)) (mul p (modulusPositive p a) L) < L / 2 := by
  obtain ⟨h1, h2⟩ := modulusPositive_range hp a
  have hm := mul_lt_length hp (modulusPositive_isFloat hp a) h2 hL h0
  refine ⟨?_, sub_half_lt hp (rnd_isFloat hp _) hm hL h0⟩
  refine le_rnd hp (isFloat_neg (isFloat_half hL)) ?_
  have : 0 ≤ mul p (modulusPositive p a) L := rnd_nonneg hp (mul_nonneg h1 h0.le)
  linarith

/-! ### Errors of sequences of operations -/

/-- `x` differs from `x'` by at most `c` rounding units of `A`. -/
def Near (p : ℕ) (A c x x' : ℚ) : Prop := |x - x'| ≤ c * (2 ^ (-(p : ℤ)) * A)

theorem Near.refl (p : ℕ) (A x : ℚ) : Near p A 0 x x := by simp [Near]

theorem Near.mono {p : ℕ} {A c c' x x' : ℚ} (hA : 0 ≤ A) (h : Near p A c x x') (hc : c ≤ c') :
    Near p A c' x x' :=
  le_trans h (mul_le_mul_of_nonneg_right hc (mul_nonneg (u_pos p).le hA))

theorem Near.add {p : ℕ} {A c d x x' y y' : ℚ} (h : Near p A c x x') (h' : Near p A d y y') :
    Near p A (c + d) (x + y) (x' + y') := by
  unfold Near at *
  rw [show x + y - (x' + y') = (x - x') + (y - y') by ring, add_mul]
  exact (abs_add_le _ _).trans (add_le_add h h')

theorem Near.sub {p : ℕ} {A c d x x' y y' : ℚ} (h : Near p A c x x') (h' : Near p A d y y') :
    Near p A (c + d) (x - y) (x' - y') := by
  unfold Near at *
  rw [show x - y - (x' - y') = (x - x') + -(y - y') by ring, add_mul]
  exact (abs_add_le _ _).trans (add_le_add h (by rwa [abs_neg]))

theorem Near.mul {p : ℕ} {A c x x' : ℚ} (h : Near p A c x x') {k T : ℚ} (hk : |k| ≤ T) :
    Near p (T * A) c (x * k) (x' * k) := by
  unfold Near at *
  rw [← sub_mul, abs_mul]
  calc _ ≤ c * (2 ^ (-(p : ℤ)) * A) * T :=
        mul_le_mul h hk (abs_nonneg _) (le_trans (abs_nonneg _) h)
    _ = _ := by ring

theorem Near.div {p : ℕ} {A c x x' : ℚ} (h : Near p A c x x') {k : ℚ} (hk : 0 < k) :
    Near p (A / k) c (x / k) (x' / k) := by
  unfold Near at *
  rw [← sub_div, abs_div, abs_of_pos hk, div_le_iff₀ hk]
  refine h.trans (le_of_eq ?_)
  field_simp

/-- Rounding adds `B` units to the error, if `B * A` bounds the exact value. -/
theorem Near.rnd {p : ℕ} (hp : 10 ≤ p) {A c B d x x' : ℚ} (hA : 0 ≤ A) (hc : 0 ≤ c)
    (h : Near p A c x x') (hB : |x'| ≤ B * A) (hd : c + B + c / 1024 ≤ d) :
    Near p A d (rnd p x) x' := by
  have hu := u_pos p
  have hu' : (2 : ℚ) ^ (-(p : ℤ)) ≤ 1 / 1024 := by
    have := zpow_mono (a := -(p : ℤ)) (b := -10) (by omega)
    exact this.trans (le_of_eq (by norm_num))
  have h1 := rnd_approx p h hB
  unfold Near
  refine h1.trans ?_
  set u : ℚ := 2 ^ (-(p : ℤ))
  have huA : 0 ≤ u * A := mul_nonneg hu.le hA
  have h2 : u * (c * (u * A)) ≤ c / 1024 * (u * A) := by
    have : u * c ≤ c / 1024 := by nlinarith
    nlinarith
  have h3 : (c + B + c / 1024) * (u * A) ≤ d * (u * A) := mul_le_mul_of_nonneg_right hd huA
  linarith

theorem Near.congr {p : ℕ} {A A' c x x' : ℚ} (h : Near p A c x x') (e : A = A') : Near p A' c x x' :=
  e ▸ h

theorem Near.scale {p : ℕ} {A A' c x x' : ℚ} (hc : 0 ≤ c) (h : Near p A c x x') (e : A ≤ A') :
    Near p A' c x x' :=
  le_trans h (mul_le_mul_of_nonneg_left (mul_le_mul_of_nonneg_left e (u_pos p).le) hc)

theorem abs_mul_le {a b A B : ℚ} (ha : |a| ≤ A) (hb : |b| ≤ B) : |a * b| ≤ A * B := by
  rw [abs_mul]
  exact mul_le_mul ha hb (abs_nonneg _) (le_trans (abs_nonneg _) ha)

theorem abs_add_le' {a b A B : ℚ} (ha : |a| ≤ A) (hb : |b| ≤ B) : |a + b| ≤ A + B :=
  (abs_add_le a b).trans (add_le_add ha hb)

theorem abs_sub_le' {a b A B : ℚ} (ha : |a| ≤ A) (hb : |b| ≤ B) : |a - b| ≤ A + B :=
  (abs_sub a b).trans (add_le_add ha hb)

section frac
variable {p : ℕ} {b : Box ℚ} {v : Vec3 ℚ} {M T : ℚ}

/-- A difference to the lower corner. -/
theorem near_delta (hp : 10 ≤ p) {M x L : ℚ} (hL0 : 0 ≤ L) (hL : L ≤ M) (hx : |x| ≤ M) :
    Near p M (3 / 2) (sub p x (-(L / 2))) (x - -(L / 2)) ∧ |x - -(L / 2)| ≤ 3 / 2 * M := by
  have h : |x - -(L / 2)| ≤ 3 / 2 * M := by
    have := abs_sub_le' hx (b := -(L / 2)) (B := M / 2) (by
      rw [abs_neg, abs_of_nonneg (by linarith)]; linarith)
    linarith
  exact ⟨Near.rnd hp (le_trans hL0 hL) le_rfl (Near.refl p M _) h (by norm_num), h⟩

/-- The numerators of the fractional coordinates. -/
theorem near_numerators (hp : 10 ≤ p) (hs : Sized b v M T) (hx : 0 ≤ b.L.x) (hy : 0 ≤ b.L.y) (hz : 0 ≤ b.L.z) :
    let A := T * (T * M)
    (Near p A 19 (sub p (sub p v.x (-(b.L.x / 2)))
        (add p (mul p (sub p b.xz (mul p b.yz b.xy)) v.z) (mul p b.xy v.y)))
      (v.x - -(b.L.x / 2) - ((b.xz - b.yz * b.xy) * v.z + b.xy * v.y)) ∧
      |v.x - -(b.L.x / 2) - ((b.xz - b.yz * b.xy) * v.z + b.xy * v.y)| ≤ 9 / 2 * A) ∧
    (Near p A 19 (sub p (sub p v.y (-(b.L.y / 2))) (mul p b.yz v.z))
      (v.y - -(b.L.y / 2) - b.yz * v.z) ∧ |v.y - -(b.L.y / 2) - b.yz * v.z| ≤ 9 / 2 * A) ∧
    (Near p A 19 (sub p v.z (-(b.L.z / 2))) (v.z - -(b.L.z / 2)) ∧ |v.z - -(b.L.z / 2)| ≤ 9 / 2 * A) := by
  intro A
  have hT := hs.one_le
  have hM : 0 ≤ M := le_trans (abs_nonneg _) hs.v.1
  have hT0 : 0 ≤ T := by linarith
  have hTM : M ≤ T * M := by nlinarith
  have hMA : T * M ≤ A := by show T * M ≤ T * (T * M); nlinarith
  have hA : 0 ≤ A := by positivity
  have hT2 : T ≤ T * T := by nlinarith
  obtain ⟨dx, dx'⟩ := near_delta hp hx hs.L.1 hs.v.1
  obtain ⟨dy, dy'⟩ := near_delta hp hy hs.L.2.1 hs.v.2.1
  obtain ⟨dz, dz'⟩ := near_delta hp hz hs.L.2.2 hs.v.2.2
  replace dx := dx.scale (by norm_num) (hTM.trans hMA)
  replace dy := dy.scale (by norm_num) (hTM.trans hMA)
  replace dz := dz.scale (by norm_num) (hTM.trans hMA)
  -- products of tilts
  have a1 : |b.yz * b.xy| ≤ 1 * (T * T) := by
    rw [one_mul]; exact abs_mul_le hs.tilts.2.2 hs.tilts.1
  have a2 : Near p (T * T) 1 (mul p b.yz b.xy) (b.yz * b.xy) :=
    Near.rnd hp (by positivity) le_rfl (Near.refl p _ _) a1 (by norm_num)
  have b1 : |b.xz - b.yz * b.xy| ≤ 2 * (T * T) := by
    have := abs_sub_le' hs.tilts.2.1 a1
    linarith
  have b2 : Near p (T * T) 4 (sub p b.xz (mul p b.yz b.xy)) (b.xz - b.yz * b.xy) :=
    Near.rnd hp (by positivity) (by norm_num) ((Near.refl p _ _).sub a2) b1 (by norm_num)
  have c1 : |(b.xz - b.yz * b.xy) * v.z| ≤ 2 * A := by
    have := abs_mul_le b1 hs.v.2.2
    calc _ ≤ _ := this
      _ = _ := by show _ = 2 * (T * (T * M)); ring
  have c2 : Near p A 7 (mul p (sub p b.xz (mul p b.yz b.xy)) v.z) ((b.xz - b.yz * b.xy) * v.z) :=
    Near.rnd hp hA (by norm_num) ((b2.mul hs.v.2.2).congr (by show _ = T * (T * M); ring)) c1 (by norm_num)
  have e1 : |b.xy * v.y| ≤ 1 * A := by
    have := abs_mul_le hs.tilts.1 hs.v.2.1
    linarith
  have e2 : Near p A 1 (mul p b.xy v.y) (b.xy * v.y) :=
    Near.rnd hp hA le_rfl (Near.refl p _ _) e1 (by norm_num)
  have s1 : |(b.xz - b.yz * b.xy) * v.z + b.xy * v.y| ≤ 3 * A := by
    have := abs_add_le' c1 e1
    linarith
  have s2 := Near.rnd hp hA (by norm_num) (c2.add e2) s1 (d := 12) (by norm_num)
  have x1 : |v.x - -(b.L.x / 2) - ((b.xz - b.yz * b.xy) * v.z + b.xy * v.y)| ≤ 9 / 2 * A := by
    have := abs_sub_le' dx' s1
    linarith
  have y0 : |b.yz * v.z| ≤ 1 * A := by
    have := abs_mul_le hs.tilts.2.2 hs.v.2.2
    linarith
  have y2 : Near p A 1 (mul p b.yz v.z) (b.yz * v.z) :=
    Near.rnd hp hA le_rfl (Near.refl p _ _) y0 (by norm_num)
  have y1 : |v.y - -(b.L.y / 2) - b.yz * v.z| ≤ 9 / 2 * A := by
    have := abs_sub_le' dy' y0
    linarith
  have y3 : |v.y - -(b.L.y / 2) - b.yz * v.z| ≤ 5 / 2 * A := by
    have := abs_sub_le' dy' y0
    linarith
  refine ⟨⟨Near.rnd hp hA (by norm_num) (dx.sub s2) x1 (by norm_num), x1⟩,
    ⟨Near.rnd hp hA (by norm_num) (dy.sub y2) y3 (by norm_num), y1⟩, dz.mono hA (by norm_num), ?_⟩
  linarith

/-- A quotient. -/
theorem near_quotient (hp : 10 ≤ p) {A x x' L : ℚ} (hA : 0 ≤ A) (hL : 0 < L) (h : Near p A 19 x x')
    (h' : |x'| ≤ 9 / 2 * A) : Near p (A / L) 24 (div p x L) (x' / L) := by
  refine Near.rnd hp (by positivity) (by norm_num) (h.div hL) (B := 9 / 2) ?_ (by norm_num)
  rw [abs_div, abs_of_pos hL, mul_div_assoc']
  exact div_le_div_of_nonneg_right h' hL.le

/-- A coordinate that is reduced or not. -/
theorem near_reduced {f f' A L M : ℚ} (hL : 0 < L) (hLM : L ≤ M) (hMA : M ≤ A)
    (h : Near p (A / L) 24 f f') (per : Bool) :
    ∃ k : ℤ, (per = false → k = 0) ∧
      Near p (A / L) 26 (if per then modulusPositive p f else f) (f' - k) := by
  have hA : 0 ≤ A / L := div_nonneg (by linarith) hL.le
  cases per with
  | false => exact ⟨0, fun _ => rfl, by simpa using h.mono hA (by norm_num)⟩
  | true =>
    obtain ⟨k, hk⟩ := modulusPositive_approx p f
    refine ⟨k, by simp, ?_⟩
    have h1 : Near p (A / L) 2 (modulusPositive p f) (f - k) := by
      unfold Near
      refine hk.trans ?_
      have : 1 ≤ A / L := by rw [le_div_iff₀ hL]; linarith
      have hu := u_pos p
      nlinarith
    have h2 : Near p (A / L) 24 (f - k) (f' - k) := by
      unfold Near at *
      rwa [show f - k - (f' - k) = f - f' by ring]
    unfold Near at *
    rw [if_pos rfl, show modulusPositive p f - (f' - k) =
      (modulusPositive p f - (f - k)) + ((f - k) - (f' - k)) by ring]
    refine (abs_add_le _ _).trans ?_
    linarith

/-- A coordinate times the length, from the lower corner. -/
theorem near_corner (hp : 10 ≤ p) {g g' A L M : ℚ} (hL : 0 < L) (hLM : L ≤ M) (hMA : M ≤ A)
    (h : Near p (A / L) 26 g g') (hg : |g' * L| ≤ 23 / 5 * A) :
    Near p A 37 (add p (-(L / 2)) (mul p g L)) (-(L / 2) + g' * L) ∧
      |-(L / 2) + g' * L| ≤ 51 / 10 * A := by
  have hA : 0 ≤ A := by linarith
  have h1 : Near p A 26 (g * L) (g' * L) := by
    have := h.mul (k := L) (T := L) (by rw [abs_of_pos hL])
    exact this.congr (by field_simp)
  have h2 : Near p A 31 (mul p g L) (g' * L) := Near.rnd hp hA (by norm_num) h1 hg (by norm_num)
  have h3 : |-(L / 2) + g' * L| ≤ 51 / 10 * A := by
    have := abs_add_le' (a := -(L / 2)) (A := A / 2) (by
      rw [abs_neg, abs_of_nonneg (by linarith)]; linarith) hg
    linarith
  exact ⟨Near.rnd hp hA (by norm_num) ((Near.refl p A _).add h2) h3 (by norm_num), h3⟩

/-- The reduced coordinates are bounded. -/
theorem reduced_bound (hp : 10 ≤ p) {f f' A L M : ℚ} (hL : 0 < L) (hLM : L ≤ M) (hMA : M ≤ A)
    {per : Bool} {k : ℤ} (hk : per = false → k = 0) (hf : |f' * L| ≤ 9 / 2 * A)
    (h : Near p (A / L) 26 (if per then modulusPositive p f else f) (f' - k)) :
    |(f' - k) * L| ≤ 23 / 5 * A := by
  have hA : 0 ≤ A := by linarith
  cases per with
  | false => rw [hk rfl, Int.cast_zero, sub_zero]; linarith
  | true =>
    rw [if_pos rfl] at h
    have hr := modulusPositive_range (p := p) (by omega) f
    have hu := u_pos p
    have hu' : (2 : ℚ) ^ (-(p : ℤ)) ≤ 1 / 1024 := by
      have := zpow_mono (a := -(p : ℤ)) (b := -10) (by omega)
      exact this.trans (le_of_eq (by norm_num))
    have h1 := h.mul (k := L) (T := L) (by rw [abs_of_pos hL])
    have h1' : Near p A 26 (modulusPositive p f * L) ((f' - k) * L) := h1.congr (by field_simp)
    unfold Near at h1'
    have h2 : |modulusPositive p f * L| ≤ L := by
      rw [abs_of_nonneg (by nlinarith [hr.1])]; nlinarith [hr.2]
    have h3 : |(f' - k) * L| ≤ |modulusPositive p f * L| + |modulusPositive p f * L - (f' - k) * L| := by
      have := abs_sub (modulusPositive p f * L) (modulusPositive p f * L - (f' - k) * L)
      rwa [sub_sub_cancel] at this
    have h4 : (2 : ℚ) ^ (-(p : ℤ)) * A ≤ 1 / 1024 * A := mul_le_mul_of_nonneg_right hu' hA
    linarith

end frac
end Fl
end Freud
