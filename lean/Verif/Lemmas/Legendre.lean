import Verif.Lemmas.Steinhardt
import Mathlib.Algebra.Polynomial.Roots
import Mathlib.Order.Interval.Set.Infinite

/-!
# Where the Legendre polynomials have the size 1
-/

namespace Freud

open Spec

namespace Steinhardt

theorem legendre_poly (l : ℕ) : ∃ p : Polynomial ℝ, ∀ x, p.eval x = legendre l x := by
  induction l using Nat.twoStepInduction with
  | zero => exact ⟨1, fun x => by simp [legendre]⟩
  | one => exact ⟨Polynomial.X, fun x => by simp [legendre]⟩
  | more n h1 h2 =>
    obtain ⟨p, hp⟩ := h1
    obtain ⟨q, hq⟩ := h2
    refine ⟨Polynomial.C (1 / (n + 2 : ℕ) : ℝ) * (Polynomial.C ((2 * n + 3 : ℕ) : ℝ) * Polynomial.X * q -
      Polynomial.C ((n + 1 : ℕ) : ℝ) * p), fun x => ?_⟩
    rw [legendre]
    simp only [Polynomial.eval_mul, Polynomial.eval_C, Polynomial.eval_sub, Polynomial.eval_X, hp, hq]
    ring

theorem legendre_two (l : ℕ) : 1 ≤ legendre l 2 ∧ legendre l 2 < legendre (l + 1) 2 := by
  induction l with
  | zero => norm_num [legendre]
  | succ n ih =>
    refine ⟨ih.1.trans ih.2.le, ?_⟩
    have h : legendre (n + 2) 2 = ((2 * n + 3 : ℕ) * 2 * legendre (n + 1) 2 - (n + 1 : ℕ) * legendre n 2) / (n + 2 : ℕ) := by
      rw [legendre]
    rw [h, lt_div_iff₀ (by positivity)]
    push_cast
    have hn : (0 : ℝ) ≤ n := Nat.cast_nonneg n
    nlinarith [ih.1, ih.2, mul_nonneg hn (sub_nonneg.mpr ih.2.le), mul_nonneg hn (zero_le_one.trans ih.1)]

/-- Inside the interval, the Legendre polynomials other than the constant one stay below 1. -/
theorem legendre_abs_one {l : ℕ} {Y : ℤ → Vec3 ℝ → ℂ} (hY : Harmonics l Y) (hl : 1 ≤ l) (x : ℝ) (hx : |x| < 1) :
    |legendre l x| ≠ 1 := by
  intro hc
  set c := legendre l x with hcdef
  have hcc : c * c = 1 := by rw [← abs_mul_abs_self, hc, one_mul]
  have hx2 : x ^ 2 < 1 := (sq_lt_one_iff_abs_lt_one x).mpr hx
  set r := Real.sqrt (1 - x ^ 2) with hr
  have hr0 : 0 < r := Real.sqrt_pos.mpr (by linarith)
  have hr2 : r * r = 1 - x ^ 2 := Real.mul_self_sqrt (by linarith)
  have key : ∀ s : ℝ, s ^ 2 ≤ 1 → legendre l (s * r) = c * legendre l 0 := by
    intro s hs
    have hq : Real.sqrt (1 - s ^ 2) * Real.sqrt (1 - s ^ 2) = 1 - s ^ 2 := Real.mul_self_sqrt (by linarith)
    have h := fun t : ℝ => double_nonneg hY [(1, ⟨0, 0, 1⟩), (-c, ⟨r, 0, x⟩), (t, ⟨s, Real.sqrt (1 - s ^ 2), 0⟩)] (by
      intro d hd
      simp only [List.mem_cons, List.not_mem_nil, or_false] at hd
      rcases hd with rfl | rfl | rfl <;> simp only [Vec3.dot]
      · norm_num
      · linarith
      · linarith)
    have h' : ∀ t : ℝ, 0 ≤ t * t + 2 * t * (legendre l 0 - c * legendre l (s * r)) := by
      intro t
      have := h t
      simp only [double, List.map_cons, List.map_nil, List.sum_cons, List.sum_nil, Vec3.dot, mul_zero, zero_mul,
        add_zero, zero_add, mul_one, one_mul, hr2, hq] at this
      rw [show 1 - x ^ 2 + x * x = 1 by ring, show s * s + (1 - s ^ 2) = 1 by ring, legendre_one, ← hcdef,
        mul_comm r s] at this
      nlinarith [this]
    have h0 : legendre l 0 - c * legendre l (s * r) = 0 := by
      have := h' (-(legendre l 0 - c * legendre l (s * r)))
      nlinarith [sq_nonneg (legendre l 0 - c * legendre l (s * r))]
    have : c * legendre l 0 = c * c * legendre l (s * r) := by rw [mul_assoc]; congr 1; linarith
    rw [this, hcc, one_mul]
  obtain ⟨p, hp⟩ := legendre_poly l
  have hpc : p = Polynomial.C (c * legendre l 0) := by
    refine Polynomial.eq_of_infinite_eval_eq _ _ (Set.Infinite.mono ?_ (Set.Icc_infinite hr0))
    intro y hy
    have := key (y / r) (by
      rw [div_pow, div_le_one (by positivity)]
      exact pow_le_pow_left₀ hy.1 hy.2 2)
    rw [div_mul_cancel₀ _ hr0.ne'] at this
    simp [hp, this]
  have h1 := hp 1
  have h2 := hp 2
  rw [hpc, Polynomial.eval_C] at h1 h2
  rw [legendre_one] at h1
  obtain ⟨n, rfl⟩ := Nat.exists_eq_add_of_le' hl
  have := legendre_two n
  linarith [this.1, this.2]

theorem legendre_neg' (l : ℕ) (x : ℝ) : legendre l (-x) = (-1) ^ l * legendre l x := by
  induction l using Nat.twoStepInduction with
  | zero => simp [legendre]
  | one => simp [legendre]
  | more n h1 h2 =>
    rw [legendre, legendre, h1, h2]
    ring

theorem eq_of_dot_one {u v : Vec3 ℝ} (hu : Vec3.dot u u = 1) (hv : Vec3.dot v v = 1) (h : Vec3.dot u v = 1) : u = v := by
  have : (u.x - v.x) ^ 2 + (u.y - v.y) ^ 2 + (u.z - v.z) ^ 2 = 0 := by
    have : (u.x - v.x) ^ 2 + (u.y - v.y) ^ 2 + (u.z - v.z) ^ 2 =
      Vec3.dot u u + Vec3.dot v v - 2 * Vec3.dot u v := by simp only [Vec3.dot]; ring
    rw [this, hu, hv, h]; norm_num
  have h1 : (u.x - v.x) ^ 2 = 0 := by nlinarith [sq_nonneg (u.x - v.x), sq_nonneg (u.y - v.y), sq_nonneg (u.z - v.z)]
  have h2 : (u.y - v.y) ^ 2 = 0 := by nlinarith [sq_nonneg (u.x - v.x), sq_nonneg (u.y - v.y), sq_nonneg (u.z - v.z)]
  have h3 : (u.z - v.z) ^ 2 = 0 := by nlinarith [sq_nonneg (u.x - v.x), sq_nonneg (u.y - v.y), sq_nonneg (u.z - v.z)]
  rw [sq_eq_zero_iff, sub_eq_zero] at h1 h2 h3
  cases u; cases v
  simp only at h1 h2 h3
  rw [h1, h2, h3]

end Steinhardt

end Freud
