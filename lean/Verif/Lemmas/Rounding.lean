import Verif.Spec.Rounding
import Mathlib.Tactic.Linarith
import Mathlib.Tactic.FieldSimp
import Mathlib.Tactic.Ring
import Mathlib.Algebra.Order.Field.Power

/-!
# Rounding: lemmas
-/

namespace Freud
namespace Fl
open Spec

theorem two_zpow_pos (e : ℤ) : (0 : ℚ) < 2 ^ e := zpow_pos (by norm_num) e

theorem zpow_mono {a b : ℤ} (h : a ≤ b) : (2 : ℚ) ^ a ≤ 2 ^ b := zpow_le_zpow_right₀ (by norm_num) h

theorem zpow_lt {a b : ℤ} : (2 : ℚ) ^ a < 2 ^ b ↔ a < b := zpow_lt_zpow_iff_right₀ (by norm_num)

theorem exponent_spec {x : ℚ} (hx : x ≠ 0) :
    (2 : ℚ) ^ exponent x ≤ |x| ∧ |x| < (2 : ℚ) ^ (exponent x + 1) := by
  have hn : x.num.natAbs ≠ 0 := by simpa using hx
  have h1 := Nat.log2_self_le hn
  have h2 := Nat.lt_log2_self (n := x.num.natAbs)
  have h3 := Nat.log2_self_le x.den_nz
  have h4 := Nat.lt_log2_self (n := x.den)
  set a := Nat.log2 x.num.natAbs
  set b := Nat.log2 x.den
  have hx' : |x| = (x.num.natAbs : ℚ) / (x.den : ℚ) := by
    conv_lhs => rw [← Rat.num_div_den x]
    rw [abs_div, Nat.abs_cast, Nat.cast_natAbs, Int.cast_abs]
  have h1' : (2 : ℚ) ^ (a : ℤ) ≤ x.num.natAbs := by rw [zpow_natCast]; exact_mod_cast h1
  have h2' : (x.num.natAbs : ℚ) < 2 ^ ((a : ℤ) + 1) := by
    rw [show (a : ℤ) + 1 = ((a + 1 : ℕ) : ℤ) by push_cast; ring, zpow_natCast]; exact_mod_cast h2
  have h3' : (2 : ℚ) ^ (b : ℤ) ≤ x.den := by rw [zpow_natCast]; exact_mod_cast h3
  have h4' : (x.den : ℚ) < 2 ^ ((b : ℤ) + 1) := by
    rw [show (b : ℤ) + 1 = ((b + 1 : ℕ) : ℤ) by push_cast; ring, zpow_natCast]; exact_mod_cast h4
  have hd : (0 : ℚ) < x.den := by exact_mod_cast x.den_pos
  have hup : |x| < (2 : ℚ) ^ ((a : ℤ) - b + 1) := by
    rw [hx', div_lt_iff₀ hd]
    calc (x.num.natAbs : ℚ) < 2 ^ ((a : ℤ) + 1) := h2'
      _ = 2 ^ ((a : ℤ) - b + 1) * 2 ^ (b : ℤ) := by rw [← zpow_add₀ (by norm_num)]; congr 1; ring
      _ ≤ _ := mul_le_mul_of_nonneg_left h3' (two_zpow_pos _).le
  have hlo : (2 : ℚ) ^ ((a : ℤ) - b - 1) ≤ |x| := by
    rw [hx', le_div_iff₀ hd]
    calc (2 : ℚ) ^ ((a : ℤ) - b - 1) * x.den ≤ 2 ^ ((a : ℤ) - b - 1) * 2 ^ ((b : ℤ) + 1) :=
          mul_le_mul_of_nonneg_left h4'.le (two_zpow_pos _).le
      _ = 2 ^ (a : ℤ) := by rw [← zpow_add₀ (by norm_num)]; congr 1; ring
      _ ≤ _ := h1'
  unfold exponent
  simp only
  split_ifs with h
  · exact ⟨h, hup⟩
  · push Not at h
    exact ⟨hlo, by rw [sub_add_cancel]; exact h⟩

theorem quantum_pos (p : ℕ) (x : ℚ) : 0 < quantum p x := two_zpow_pos _

theorem roundEven_near (q : ℚ) : |q - roundEven q| ≤ 1 / 2 := by
  have h1 := Int.floor_le q
  have h2 := Int.lt_floor_add_one q
  unfold roundEven
  rw [abs_le]
  split_ifs <;> push_cast <;> constructor <;> linarith

theorem roundEven_nearest (q : ℚ) (k : ℤ) : |q - roundEven q| ≤ |q - k| := by
  have h := roundEven_near q
  by_cases hk : k = roundEven q
  · rw [hk]
  · have h1 : (1 : ℚ) ≤ |(k : ℚ) - roundEven q| := by
      have : (1 : ℤ) ≤ |k - roundEven q| := Int.one_le_abs (sub_ne_zero.mpr hk)
      exact_mod_cast this
    have h2 : |(k : ℚ) - roundEven q| ≤ |q - k| + |q - roundEven q| := by
      rw [show (k : ℚ) - roundEven q = -(q - k) + (q - roundEven q) by ring]
      exact (abs_add_le _ _).trans (by rw [abs_neg])
    linarith

theorem err (p : ℕ) (x : ℚ) : |x - rnd p x| ≤ quantum p x / 2 := by
  unfold rnd
  split_ifs with h
  · rw [h, sub_zero, abs_zero]; exact (half_pos (quantum_pos _ _)).le
  · have hq := quantum_pos p x
    have := roundEven_near (x / quantum p x)
    rw [show x - roundEven (x / quantum p x) * quantum p x =
      (x / quantum p x - roundEven (x / quantum p x)) * quantum p x by field_simp, abs_mul,
      abs_of_pos hq]
    nlinarith

/-- The relative error of a rounding is at most `2 ^ (-p)`. -/
theorem relErr (p : ℕ) (x : ℚ) : |x - rnd p x| ≤ 2 ^ (-(p : ℤ)) * |x| := by
  by_cases h : x = 0
  · rw [h]; simp [rnd]
  · refine (err p x).trans ?_
    have h1 := (exponent_spec h).1
    unfold quantum
    calc (2 : ℚ) ^ (exponent x + 1 - p) / 2 = 2 ^ (-(p : ℤ)) * 2 ^ exponent x := by
          rw [← zpow_add₀ (by norm_num), show exponent x + 1 - (p : ℤ) = (-(p : ℤ) + exponent x) + 1 by ring,
            zpow_add_one₀ (by norm_num)]
          ring
      _ ≤ _ := mul_le_mul_of_nonneg_left h1 (two_zpow_pos _).le

theorem isFloat_neg {p : ℕ} {x : ℚ} (h : IsFloat p x) : IsFloat p (-x) := by
  obtain ⟨m, e, h1, rfl⟩ := h
  exact ⟨-m, e, by rw [abs_neg]; exact h1, by push_cast; ring⟩

theorem isFloat_zero (p : ℕ) : IsFloat p 0 := ⟨0, 0, by positivity, by simp⟩

theorem isFloat_zpow {p : ℕ} (hp : 1 ≤ p) (e : ℤ) : IsFloat p ((2 : ℚ) ^ e) :=
  ⟨1, e, by rw [abs_one]; exact one_lt_pow₀ (by norm_num) (by omega), by simp⟩

/-- `m * 2 ^ e` is a number of `p` digits also for `|m| = 2 ^ p`. -/
theorem isFloat_of_le {p : ℕ} (hp : 1 ≤ p) {m e : ℤ} (h : |m| ≤ 2 ^ p) : IsFloat p (m * (2 : ℚ) ^ e) := by
  rcases h.lt_or_eq with h | h
  · exact ⟨m, e, h, rfl⟩
  · rcases abs_eq (by positivity) |>.mp h with rfl | rfl
    · have := isFloat_zpow hp (p + e)
      rw [zpow_add₀ (by norm_num), zpow_natCast] at this
      exact_mod_cast this
    · have := isFloat_neg (isFloat_zpow hp (p + e))
      rw [zpow_add₀ (by norm_num), zpow_natCast] at this
      convert this using 1
      push_cast; ring

theorem isFloat_scale {p : ℕ} {x : ℚ} (h : IsFloat p x) (k : ℤ) : IsFloat p (x * 2 ^ k) := by
  obtain ⟨m, e, h1, rfl⟩ := h
  exact ⟨m, e + k, h1, by rw [zpow_add₀ (by norm_num)]; ring⟩

theorem isFloat_int {p : ℕ} (hp : 1 ≤ p) {n : ℤ} (h : |n| ≤ 2 ^ p) : IsFloat p n := by
  have := isFloat_of_le hp (e := 0) h
  simpa using this

/-- A number with `p` digits that is at least `2 ^ E` is a multiple of `2 ^ (E + 1 - p)`. -/
theorem multiple_of_float {p : ℕ} {x : ℚ} (h : IsFloat p x) {E : ℤ} (hE : (2 : ℚ) ^ E ≤ |x|) :
    ∃ k : ℤ, x = k * (2 : ℚ) ^ (E + 1 - p) := by
  obtain ⟨m, e, h1, rfl⟩ := h
  have hm : |(m : ℚ)| < 2 ^ (p : ℤ) := by rw [zpow_natCast]; exact_mod_cast h1
  rw [abs_mul, abs_of_pos (two_zpow_pos e)] at hE
  have : (2 : ℚ) ^ E < 2 ^ ((p : ℤ) + e) := by
    refine hE.trans_lt ?_
    rw [zpow_add₀ (by norm_num)]
    exact mul_lt_mul_of_pos_right hm (two_zpow_pos e)
  have hle : E + 1 - p ≤ e := by rw [zpow_lt] at this; omega
  obtain ⟨d, hd⟩ := Int.eq_ofNat_of_zero_le (sub_nonneg.mpr hle)
  refine ⟨m * 2 ^ d, ?_⟩
  rw [show e = d + (E + 1 - (p : ℤ)) by omega, zpow_add₀ (by norm_num), zpow_natCast]
  push_cast; ring

theorem rnd_isFloat {p : ℕ} (hp : 1 ≤ p) (x : ℚ) : IsFloat p (rnd p x) := by
  unfold rnd
  split_ifs with h
  · exact isFloat_zero p
  · refine isFloat_of_le hp ?_
    have h2 := (exponent_spec h).2
    have hq := quantum_pos p x
    have hlt : |x / quantum p x| < 2 ^ (p : ℤ) := by
      rw [abs_div, abs_of_pos hq, div_lt_iff₀ hq]
      unfold quantum
      rw [← zpow_add₀ (by norm_num)]
      rwa [show (p : ℤ) + (exponent x + 1 - p) = exponent x + 1 by ring]
    have hr := roundEven_near (x / quantum p x)
    have : |(roundEven (x / quantum p x) : ℚ)| < 2 ^ (p : ℤ) + 1 := by
      rw [show (roundEven (x / quantum p x) : ℚ) = x / quantum p x -
        (x / quantum p x - roundEven (x / quantum p x)) by ring]
      have := abs_sub (x / quantum p x) (x / quantum p x - roundEven (x / quantum p x))
      linarith
    rw [zpow_natCast] at this
    have : |roundEven (x / quantum p x)| < 2 ^ p + 1 := by exact_mod_cast this
    omega

/-- Rounding gives a nearest number. -/
theorem rnd_nearest {p : ℕ} (hp : 1 ≤ p) (x : ℚ) : IsNearest p x (rnd p x) := by
  refine ⟨rnd_isFloat hp x, fun z hz => ?_⟩
  by_cases hx : x = 0
  · rw [hx]; simp [rnd]
  have hq := quantum_pos p x
  obtain ⟨hlo, hup⟩ := exponent_spec hx
  -- multiples of the quantum
  have key : ∀ k : ℤ, |x - rnd p x| ≤ |x - k * quantum p x| := by
    intro k
    unfold rnd
    rw [if_neg hx, show x - roundEven (x / quantum p x) * quantum p x =
      (x / quantum p x - roundEven (x / quantum p x)) * quantum p x by field_simp,
      show x - k * quantum p x = (x / quantum p x - k) * quantum p x by field_simp, abs_mul, abs_mul]
    exact mul_le_mul_of_nonneg_right (roundEven_nearest _ _) (abs_nonneg _)
  by_cases hz' : (2 : ℚ) ^ exponent x ≤ |z|
  · obtain ⟨k, rfl⟩ := multiple_of_float hz hz'
    exact key k
  · push Not at hz'
    -- the power of two between `z` and `x`
    obtain ⟨k, hk⟩ := multiple_of_float (isFloat_zpow hp (exponent x)) (E := exponent x)
      (by rw [abs_of_pos (two_zpow_pos _)])
    rcases lt_or_gt_of_ne hx with h0 | h0
    · refine (key (-k)).trans ?_
      have : ((-k : ℤ) : ℚ) * quantum p x = -(2 : ℚ) ^ exponent x := by
        rw [hk]; unfold quantum; push_cast; ring
      rw [this]
      rw [abs_of_neg h0] at hlo
      have := (abs_lt.mp hz').1
      rw [abs_of_nonpos (by linarith), abs_of_nonpos (by linarith)]
      linarith
    · refine (key k).trans ?_
      have : (k : ℚ) * quantum p x = (2 : ℚ) ^ exponent x := by rw [hk]; rfl
      rw [this]
      rw [abs_of_pos h0] at hlo
      have := (abs_lt.mp hz').2
      rw [abs_of_nonneg (by linarith), abs_of_nonneg (by linarith)]
      linarith

theorem rnd_of_isFloat {p : ℕ} (hp : 1 ≤ p) {x : ℚ} (h : IsFloat p x) : rnd p x = x := by
  have := (rnd_nearest hp x).2 x h
  rw [sub_self, abs_zero] at this
  have := abs_eq_zero.mp (le_antisymm this (abs_nonneg _))
  linarith

theorem rnd_mono {p : ℕ} (hp : 1 ≤ p) {x y : ℚ} (h : x ≤ y) : rnd p x ≤ rnd p y := by
  by_contra hlt
  push Not at hlt
  have h1 := (rnd_nearest hp x).2 _ (rnd_isFloat hp y)
  have h2 := (rnd_nearest hp y).2 _ (rnd_isFloat hp x)
  have hne : x ≠ y := fun e => by rw [e] at hlt; exact lt_irrefl _ hlt
  have hxy : x < y := lt_of_le_of_ne h hne
  rcases abs_cases (x - rnd p x) with ⟨a1, b1⟩ | ⟨a1, b1⟩ <;>
  rcases abs_cases (x - rnd p y) with ⟨a2, b2⟩ | ⟨a2, b2⟩ <;>
  rcases abs_cases (y - rnd p x) with ⟨a3, b3⟩ | ⟨a3, b3⟩ <;>
  rcases abs_cases (y - rnd p y) with ⟨a4, b4⟩ | ⟨a4, b4⟩ <;> linarith

theorem rnd_zero (p : ℕ) : rnd p 0 = 0 := by simp [rnd]

theorem rnd_nonneg {p : ℕ} (hp : 1 ≤ p) {x : ℚ} (h : 0 ≤ x) : 0 ≤ rnd p x := by
  have := rnd_mono hp h
  rwa [rnd_zero] at this

theorem rnd_le {p : ℕ} (hp : 1 ≤ p) {x y : ℚ} (hy : IsFloat p y) (h : x ≤ y) : rnd p x ≤ y := by
  have := rnd_mono hp h
  rwa [rnd_of_isFloat hp hy] at this

theorem le_rnd {p : ℕ} (hp : 1 ≤ p) {x y : ℚ} (hy : IsFloat p y) (h : y ≤ x) : y ≤ rnd p x := by
  have := rnd_mono hp h
  rwa [rnd_of_isFloat hp hy] at this

end Fl
end Freud
