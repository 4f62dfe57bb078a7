import Verif.Model.KPoints
import Verif.Spec.Lattice
import Mathlib.Analysis.SpecialFunctions.Trigonometric.Basic
import Mathlib.Tactic.FieldSimp
import Mathlib.Tactic.Linarith
import Mathlib.Tactic.LinearCombination

/-!
# Lemmas about the sampling of wave vectors
-/

namespace Freud.KPoints
open Freud

theorem two_pi_pos : (0 : ℝ) < 2 * Real.pi := by have := Real.pi_pos; linarith

theorem mem_line {cast : Option ℤ → ℕ} {k0 bl : Vec3 ℝ} {kMax kMin : ℝ} {N : ℕ} {all : Bool}
    {coin : ℕ → Bool} {k : Vec3 ℝ} :
    k ∈ line cast k0 bl kMax kMin N all coin ↔
      ∃ n : ℕ, (quadRange cast (Vec3.dot bl bl) (-2 * Vec3.dot k0 bl)
          (Vec3.dot k0 k0 - kMin * kMin) (Vec3.dot k0 k0 - kMax * kMax) N).1 ≤ n ∧
        n < (quadRange cast (Vec3.dot bl bl) (-2 * Vec3.dot k0 bl)
          (Vec3.dot k0 k0 - kMin * kMin) (Vec3.dot k0 k0 - kMax * kMax) N).2 ∧ n < N ∧
        keep (k0 + Vec3.smul (n : ℝ) bl) kMax kMin all (coin n) = true ∧
        k = k0 + Vec3.smul (n : ℝ) bl := by
  unfold line
  simp only [List.mem_filterMap, List.mem_range'_1]
  constructor
  · rintro ⟨n, ⟨h1, h2⟩, h3⟩
    split at h3
    · rename_i hk
      simp only [Option.some.injEq] at h3
      exact ⟨n, h1, by omega, by omega, hk, h3.symm⟩
    · cases h3
  · rintro ⟨n, h1, h2, h3, h4, h5⟩
    refine ⟨n, ⟨h1, by omega⟩, ?_⟩
    rw [if_pos h4, h5]

theorem keep_iff {k : Vec3 ℝ} {kMax kMin : ℝ} {all coin : Bool} (h0 : 0 ≤ kMin) (h1 : 0 ≤ kMax) :
    keep k kMax kMin all coin = true ↔
      kMin ≤ Vec3.norm k ∧ Vec3.norm k ≤ kMax ∧ (all || coin) = true := by
  have hp := two_pi_pos
  have hn : 0 ≤ Vec3.norm k := Real.sqrt_nonneg _
  have hd : Vec3.dot k k = Vec3.norm k * Vec3.norm k := by
    unfold Vec3.norm
    rw [Real.mul_self_sqrt]
    unfold Vec3.dot
    nlinarith [mul_self_nonneg k.x, mul_self_nonneg k.y, mul_self_nonneg k.z]
  unfold keep
  simp only [Bool.and_eq_true, decide_eq_true_eq, hd]
  have e1 : Vec3.norm k * Vec3.norm k / (2 * Real.pi) / (2 * Real.pi) =
      (Vec3.norm k / (2 * Real.pi)) * (Vec3.norm k / (2 * Real.pi)) := by
    field_simp
  rw [e1]
  have l1 : (Vec3.norm k / (2 * Real.pi)) * (Vec3.norm k / (2 * Real.pi)) ≤
      kMax / (2 * Real.pi) * (kMax / (2 * Real.pi)) ↔ Vec3.norm k ≤ kMax := by
    rw [mul_self_le_mul_self_iff (div_nonneg hn hp.le) (div_nonneg h1 hp.le) |>.symm,
      div_le_div_iff_of_pos_right hp]
  have l2 : (Vec3.norm k / (2 * Real.pi)) * (Vec3.norm k / (2 * Real.pi)) ≥
      kMin / (2 * Real.pi) * (kMin / (2 * Real.pi)) ↔ kMin ≤ Vec3.norm k := by
    rw [ge_iff_le, mul_self_le_mul_self_iff (div_nonneg h0 hp.le) (div_nonneg hn hp.le) |>.symm,
      div_le_div_iff_of_pos_right hp]
  rw [l1, l2]
  tauto

theorem lt_count {kMax : ℝ} {bi : Vec3 ℝ} {n : ℕ} (hb : 0 < Vec3.norm bi)
    (h : (n : ℝ) * Vec3.norm bi < kMax / (2 * Real.pi)) : n < count kMax bi := by
  unfold count
  rw [Int.lt_toNat, Int.lt_ceil]
  rw [lt_div_iff₀ hb]
  exact_mod_cast h

/-- The bounds of the innermost loop when the last reciprocal vector is orthogonal to the others. -/
theorem quadRange_orth {cast : Option ℤ → ℕ} (c0 : cast none = 0)
    (c1 : ∀ n : ℤ, 0 ≤ n → cast (some n) = n.toNat) {a x kMin kMax : ℝ} {N n : ℕ} (ha : 0 < a)
    (hlo : kMin * kMin ≤ x + (n : ℝ) * n * a) (hhi : x + (n : ℝ) * n * a < kMax * kMax)
    (hN : n < N) :
    (quadRange cast a (-2 * 0) (x - kMin * kMin) (x - kMax * kMax) N).1 ≤ n ∧
      n < (quadRange cast a (-2 * 0) (x - kMin * kMin) (x - kMax * kMax) N).2 := by
  have hroot : ∀ c, quadRoot a (-2 * 0) c = if -(c / a) < 0 then none else some (Real.sqrt (-(c / a))) := by
    intro c
    unfold quadRoot
    simp
  unfold quadRange
  rw [hroot, hroot]
  constructor
  · dsimp only
    split
    · simp [c0]
    · rename_i hd
      rw [Option.map_some, c1 _ (Int.floor_nonneg.mpr (Real.sqrt_nonneg _)), Int.toNat_le]
      have : Real.sqrt (-((x - kMin * kMin) / a)) ≤ (n : ℝ) := by
        rw [show (n : ℝ) = Real.sqrt ((n : ℝ) * n) from (Real.sqrt_mul_self (Nat.cast_nonneg n)).symm]
        apply Real.sqrt_le_sqrt
        rw [← neg_div, div_le_iff₀ ha]
        linarith
      have h2 := (Int.floor_le (Real.sqrt (-((x - kMin * kMin) / a)))).trans this
      exact_mod_cast h2
  · dsimp only
    have hn2 : (n : ℝ) * n < -((x - kMax * kMax) / a) := by
      rw [← neg_div, lt_div_iff₀ ha]
      linarith
    have hd : ¬ -((x - kMax * kMax) / a) < 0 := by
      have := mul_self_nonneg (n : ℝ)
      linarith
    rw [if_neg hd, Option.map_some, c1 _ (Int.ceil_nonneg (Real.sqrt_nonneg _)), lt_min_iff]
    refine ⟨?_, hN⟩
    rw [Int.lt_toNat, Int.lt_ceil]
    have : (n : ℝ) < Real.sqrt (-((x - kMax * kMax) / a)) :=
      Real.lt_sqrt_of_sq_lt (by rw [pow_two]; exact hn2)
    exact_mod_cast this

/-- The reciprocal vectors of a 3D box, written out. -/
theorem recip3_eq {b : Box ℝ} (hx : b.L.x ≠ 0) (hy : b.L.y ≠ 0) (hz : b.L.z ≠ 0) :
    recip3 b = (⟨1 / b.L.x, -b.xy / b.L.x, (b.xy * b.yz - b.xz) / b.L.x⟩,
      ⟨0, 1 / b.L.y, -b.yz / b.L.y⟩, ⟨0, 0, 1 / b.L.z⟩) := by
  unfold recip3
  simp only [Vec3.dot, Vec3.cross, Prod.mk.injEq]
  refine ⟨?_, ?_, ?_⟩ <;> ext <;> simp only [Vec3.smul_x, Vec3.smul_y, Vec3.smul_z] <;>
    field_simp <;> ring

theorem recip2_eq {b : Box ℝ} (hx : b.L.x ≠ 0) (hy : b.L.y ≠ 0) :
    recip2 b = (⟨1 / b.L.x, -b.xy / b.L.x, 0⟩, ⟨0, 1 / b.L.y, 0⟩) := by
  unfold recip2
  simp only [Prod.mk.injEq]
  refine ⟨?_, ?_⟩ <;> ext <;>
    simp only [zero_mul, sub_zero, neg_zero, zero_div] <;> field_simp

/-- The vector with the given index. -/
noncomputable def kvec (b : Box ℝ) (n1 n2 n3 : ℕ) : Vec3 ℝ :=
  if b.is2D then Vec3.smul (n1 : ℝ) (Vec3.smul (2 * Real.pi) (recip2 b).1) +
    Vec3.smul (n2 : ℝ) (Vec3.smul (2 * Real.pi) (recip2 b).2)
  else (Vec3.smul (n1 : ℝ) (Vec3.smul (2 * Real.pi) (recip3 b).1) +
    Vec3.smul (n2 : ℝ) (Vec3.smul (2 * Real.pi) (recip3 b).2.1)) +
    Vec3.smul (n3 : ℝ) (Vec3.smul (2 * Real.pi) (recip3 b).2.2)

end Freud.KPoints
