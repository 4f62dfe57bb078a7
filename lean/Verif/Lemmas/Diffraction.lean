import Verif.Model.Diffraction
import Verif.Spec.Diffraction
import Verif.Lemmas.Quat
import Mathlib.LinearAlgebra.Matrix.Determinant.Basic
import Mathlib.Algebra.Order.Floor.Ring
import Mathlib.Tactic.LinearCombination
import Mathlib.Tactic.FieldSimp
import Mathlib.Tactic.FinCases

/-!
# Lemmas on diffraction patterns
-/

namespace Freud.Diffraction
open Spec Matrix

theorem argmax3_le (f : Fin 3 → ℝ) (j : Fin 3) : f j ≤ f (argmax3 f) := by
  unfold argmax3
  split_ifs with h1 h2
  · fin_cases j
    · exact le_rfl
    · exact h1.1
    · exact h1.2
  · fin_cases j
    · show f 0 ≤ f 1
      by_contra h
      exact h1 ⟨by linarith, by linarith⟩
    · exact le_rfl
    · exact h2
  · fin_cases j
    · show f 0 ≤ f 2
      by_contra h
      push Not at h h2
      exact h1 ⟨by linarith, by linarith⟩
    · exact (not_le.mp h2).le
    · exact le_rfl

theorem boxMatrix_cube (b : Box ℝ) (L : ℝ) (hb : CubeBox b L) :
    boxMatrix b = !![L, 0, 0; 0, L, 0; 0, 0, L] := by
  unfold boxMatrix toMatrix
  simp [hb.lengths, hb.tilts.1, hb.tilts.2.1, hb.tilts.2.2]

theorem maxEntry_cube (b : Box ℝ) (L : ℝ) (hb : CubeBox b L) : maxEntry b = L := by
  unfold maxEntry
  rw [boxMatrix_cube b L hb]
  have := hb.pos
  simp [this.le]

theorem cubic_cube (b : Box ℝ) (L : ℝ) (hb : CubeBox b L) : cubic b := by
  have h := hb.pos
  unfold cubic allclose
  rw [hb.lengths, hb.tilts.1, hb.tilts.2.1, hb.tilts.2.2]
  refine ⟨hb.dim, ⟨?_, ?_, ?_, ?_, ?_, ?_⟩, ?_, ?_, ?_⟩ <;> simp <;> positivity

theorem faceNormalZ_sq (b : Box ℝ) (L : ℝ) (hb : CubeBox b L) (q : Quat ℝ) (hq : Quat.norm2 q = 1) :
    faceNormalZ (rotateRows q (boxMatrix b)) 0 ^ 2 + faceNormalZ (rotateRows q (boxMatrix b)) 1 ^ 2 +
      faceNormalZ (rotateRows q (boxMatrix b)) 2 ^ 2 = L ^ 4 := by
  rw [boxMatrix_cube b L hb]
  have h4 : L ^ 4 = L ^ 4 * (Quat.norm2 q) ^ 4 := by rw [hq]; ring
  rw [h4]
  have e0 : (0 - 1 : Fin 3) = 2 := rfl
  have e1 : (1 + 1 : Fin 3) = 2 := rfl
  have e2 : (2 + 1 : Fin 3) = 0 := rfl
  have e3 : (2 - 1 : Fin 3) = 1 := rfl
  have e4 : (1 - 1 : Fin 3) = 0 := rfl
  have e5 : (0 + 1 : Fin 3) = 1 := rfl
  simp only [faceNormalZ, e0, e1, e2, e3, e4, e5, rotateRows, Quat.rotate, Quat.norm2, Vec3.dot, Vec3.cross,
    Vec3.smul]
  simp
  ring

theorem calcProj_cube (b : Box ℝ) (L : ℝ) (hb : CubeBox b L) (q : Quat ℝ) (hq : Quat.norm2 q = 1) :
    ∃ S, calcProj q b = some S ∧ S.det ≠ 0 := by
  have hsq := faceNormalZ_sq b L hb q hq
  have hmax := argmax3_le fun j => |faceNormalZ (rotateRows q (boxMatrix b)) j|
  unfold calcProj
  simp only
  generalize rotateRows q (boxMatrix b) = m at *
  set best := argmax3 fun j => |faceNormalZ m j| with hbest
  have hdet : (!![m 0 (best + 1), m 0 (best + 2); m 1 (best + 1), m 1 (best + 2)] :
      Matrix (Fin 2) (Fin 2) ℝ).det = -faceNormalZ m best := by
    rw [Matrix.det_fin_two_of]
    unfold faceNormalZ
    have : best - 1 = best + 2 := by generalize best = j; fin_cases j <;> rfl
    rw [this]
    ring
  have hne : (!![m 0 (best + 1), m 0 (best + 2); m 1 (best + 1), m 1 (best + 2)] :
      Matrix (Fin 2) (Fin 2) ℝ).det ≠ 0 := by
    intro h0
    rw [hdet, neg_eq_zero] at h0
    have hz : ∀ j, faceNormalZ m j = 0 := by
      intro j
      have := hmax j
      simp only [h0, abs_zero] at this
      exact abs_nonpos_iff.mp this
    rw [hz, hz, hz] at hsq
    have := pow_pos hb.pos 4
    linarith
  rw [if_neg hne]
  refine ⟨_, rfl, ?_⟩
  rw [Matrix.det_nonsing_inv, Ring.inverse_eq_inv']
  exact inv_ne_zero hne

theorem calcProj_det (b : Box ℝ) (q : Quat ℝ) (S : Matrix (Fin 2) (Fin 2) ℝ)
    (h : calcProj q b = some S) : S.det ≠ 0 := by
  unfold calcProj at h
  simp only at h
  split_ifs at h with hd
  obtain rfl := Option.some.inj h
  rw [Matrix.det_nonsing_inv, Ring.inverse_eq_inv']
  exact inv_ne_zero hd

theorem half_cast (n : ℕ) : ((n / 2 : ℕ) : ℝ) = if n % 2 = 1 then (n : ℝ) / 2 - 1 / 2 else (n : ℝ) / 2 := by
  have h := Nat.div_add_mod n 2
  have hc : (2 : ℝ) * ((n / 2 : ℕ) : ℝ) + ((n % 2 : ℕ) : ℝ) = n := by exact_mod_cast h
  split_ifs with h1
  · rw [h1] at hc
    push_cast at hc
    linarith
  · have : n % 2 = 0 := by omega
    rw [this] at hc
    push_cast at hc
    linarith

theorem roll_eq (g : ℕ) : roll g = ((g / 2 : ℕ) : ℝ) := by
  rw [half_cast]
  rfl

theorem rollShift_eq (n : ℕ) (z : ℝ) : rollShift n z = ((n / 2 : ℕ) : ℝ) / z := by
  rw [half_cast]
  unfold rollShift
  split_ifs <;> ring

theorem forward_det (g n : ℕ) (b : Box ℝ) (S : Matrix (Fin 2) (Fin 2) ℝ) (z : ℝ) :
    (forward g n b S z).det = -(z ^ 2 * maxEntry b ^ 2 * S.det) := by
  unfold forward
  simp only
  rw [Matrix.det_mul, Matrix.det_mul]
  simp [Matrix.det_fin_three, Matrix.det_fin_two]
  ring

/-- The pixel of a frequency. -/
theorem forward_mulVec (g n : ℕ) (b : Box ℝ) (S : Matrix (Fin 2) (Fin 2) ℝ) (z : ℝ) (hz : z ≠ 0)
    (x y : ℝ) :
    forward g n b S z *ᵥ ![x + ((g / 2 : ℕ) : ℝ), y + ((g / 2 : ℕ) : ℝ), 1] =
      ![z * (maxEntry b * (S 1 0 * x + S 0 0 * y)) + ((n / 2 : ℕ) : ℝ),
        z * (maxEntry b * (S 1 1 * x + S 0 1 * y)) + ((n / 2 : ℕ) : ℝ), 1] := by
  unfold forward
  simp only [roll_eq, rollShift_eq, ← Matrix.mulVec_mulVec]
  generalize ((g / 2 : ℕ) : ℝ) = c
  generalize ((n / 2 : ℕ) : ℝ) = d
  funext i
  fin_cases i <;> simp [Matrix.mulVec, dotProduct, Fin.sum_univ_three] <;> field_simp <;> ring

theorem transform_at (g n : ℕ) (img : ℕ → ℕ → ℝ) (b : Box ℝ) (S : Matrix (Fin 2) (Fin 2) ℝ) (z : ℝ)
    (t : ℕ → ℕ → ℝ) (h : transform g n img b S z = some t) (i j : ℕ) (x y : ℝ)
    (hi : (i : ℝ) - ((n / 2 : ℕ) : ℝ) = z * (maxEntry b * (S 1 0 * x + S 0 0 * y)))
    (hj : (j : ℝ) - ((n / 2 : ℕ) : ℝ) = z * (maxEntry b * (S 1 1 * x + S 0 1 * y))) :
    t i j = bilinear g img (x + ((g / 2 : ℕ) : ℝ)) (y + ((g / 2 : ℕ) : ℝ)) := by
  unfold transform at h
  simp only at h
  split_ifs at h with hd
  obtain rfl := Option.some.inj h
  have hz : z ≠ 0 := by
    rintro rfl
    apply hd
    rw [forward_det]
    ring
  have hf := forward_mulVec g n b S z hz x y
  rw [← hi, ← hj, sub_add_cancel, sub_add_cancel] at hf
  have hinv : (forward g n b S z)⁻¹ *ᵥ ![(i : ℝ), (j : ℝ), 1] =
      ![x + ((g / 2 : ℕ) : ℝ), y + ((g / 2 : ℕ) : ℝ), 1] := by
    rw [← hf, Matrix.mulVec_mulVec, Matrix.nonsing_inv_mul _ (isUnit_iff_ne_zero.mpr hd),
      Matrix.one_mulVec]
  simp only [hinv]
  rfl

theorem transform_some (g n : ℕ) (img : ℕ → ℕ → ℝ) (b : Box ℝ) (S : Matrix (Fin 2) (Fin 2) ℝ) (z : ℝ)
    (hz : z ≠ 0) (hm : maxEntry b ≠ 0) (hS : S.det ≠ 0) : ∃ t, transform g n img b S z = some t := by
  unfold transform
  simp only
  rw [if_neg (by
    rw [forward_det, neg_eq_zero]
    exact mul_ne_zero (mul_ne_zero (pow_ne_zero 2 hz) (pow_ne_zero 2 hm)) hS)]
  exact ⟨_, rfl⟩

theorem bilinear_nat (g : ℕ) (img : ℕ → ℕ → ℝ) (a b : ℕ) (ha : a < g) (hb : b < g) :
    bilinear g img a b = img a b := by
  have h1 : (a : ℝ) + 1 ≤ g := by exact_mod_cast ha
  have h2 : (b : ℝ) + 1 ≤ g := by exact_mod_cast hb
  have h3 : (0 : ℝ) ≤ a := Nat.cast_nonneg a
  have h4 : (0 : ℝ) ≤ b := Nat.cast_nonneg b
  unfold bilinear
  rw [if_neg (by push Not; exact ⟨h3, by linarith, h4, by linarith⟩)]
  simp

theorem bilinear_bounds (g : ℕ) (img : ℕ → ℕ → ℝ) (M : ℝ) (hM : 0 ≤ M)
    (h : ∀ a b, 0 ≤ img a b ∧ img a b ≤ M) (x y : ℝ) :
    0 ≤ bilinear g img x y ∧ bilinear g img x y ≤ M := by
  unfold bilinear
  split_ifs with hc
  · exact ⟨le_rfl, hM⟩
  · push Not at hc
    simp only
    have hs0 : 0 ≤ x - ⌊x⌋₊ := by have := Nat.floor_le hc.1; linarith
    have hs1 : 0 ≤ 1 - (x - ⌊x⌋₊) := by have := Nat.lt_floor_add_one x; linarith
    have ht0 : 0 ≤ y - ⌊y⌋₊ := by have := Nat.floor_le hc.2.2.1; linarith
    have ht1 : 0 ≤ 1 - (y - ⌊y⌋₊) := by have := Nat.lt_floor_add_one y; linarith
    generalize x - (⌊x⌋₊ : ℝ) = s at *
    generalize y - (⌊y⌋₊ : ℝ) = t at *
    obtain ⟨a0, a1⟩ := h ⌊x⌋₊ ⌊y⌋₊
    obtain ⟨b0, b1⟩ := h ⌊x⌋₊ (⌊y⌋₊ + 1)
    obtain ⟨c0, c1⟩ := h (⌊x⌋₊ + 1) ⌊y⌋₊
    obtain ⟨d0, d1⟩ := h (⌊x⌋₊ + 1) (⌊y⌋₊ + 1)
    constructor
    · positivity
    · have e1 := mul_le_mul_of_nonneg_left a1 (mul_nonneg hs1 ht1)
      have e2 := mul_le_mul_of_nonneg_left b1 (mul_nonneg hs1 ht0)
      have e3 := mul_le_mul_of_nonneg_left c1 (mul_nonneg hs0 ht1)
      have e4 := mul_le_mul_of_nonneg_left d1 (mul_nonneg hs0 ht0)
      have e5 : (1 - s) * (1 - t) * M + (1 - s) * t * M + s * (1 - t) * M + s * t * M = M := by ring
      linarith

/-- Bilinear interpolation in shifted coordinates. -/
theorem bilinear_interpolate (g : ℕ) (img : ℕ → ℕ → ℝ) (f : ℤ → ℤ → ℝ) (c : ℕ)
    (hf : ∀ a b : ℕ, a < g → b < g → img a b = f ((a : ℤ) - c) ((b : ℤ) - c)) (x y : ℝ)
    (hx : -(c : ℝ) ≤ x ∧ x ≤ g - 1 - c) (hy : -(c : ℝ) ≤ y ∧ y ≤ g - 1 - c) :
    bilinear g img (x + c) (y + c) = interpolate f x y := by
  unfold bilinear
  rw [if_neg (by push Not; exact ⟨by linarith, by linarith, by linarith, by linarith⟩)]
  have key : ∀ x : ℝ, -(c : ℝ) ≤ x → x ≤ g - 1 - c →
      ((⌊x + c⌋₊ : ℕ) : ℤ) = ⌊x⌋ + c ∧ x + c - (⌊x + c⌋₊ : ℝ) = Int.fract x ∧ ⌊x + c⌋₊ < g ∧
        (⌊x + c⌋₊ + 1 < g ∨ Int.fract x = 0) := by
    intro x hx hx'
    have k : ((⌊x + c⌋₊ : ℕ) : ℤ) = ⌊x⌋ + c := by
      rw [Int.natCast_floor_eq_floor (by linarith)]
      exact Int.floor_add_natCast x c
    have k' : ((⌊x + c⌋₊ : ℕ) : ℝ) = (⌊x⌋ : ℝ) + c := by exact_mod_cast k
    have hs : x + c - (⌊x + c⌋₊ : ℝ) = Int.fract x := by rw [k']; unfold Int.fract; ring
    have hle := Nat.floor_le (show 0 ≤ x + c by linarith)
    have h1 : ((⌊x + c⌋₊ + 1 : ℕ) : ℝ) ≤ g := by push_cast; linarith
    have h2 : ⌊x + c⌋₊ + 1 ≤ g := by exact_mod_cast h1
    refine ⟨k, hs, by omega, ?_⟩
    rcases Nat.lt_or_ge (⌊x + c⌋₊ + 1) g with h | h
    · exact Or.inl h
    · right
      have h3 : ((⌊x + c⌋₊ + 1 : ℕ) : ℝ) = g := by exact_mod_cast le_antisymm h2 h
      push_cast at h3
      have := Int.fract_nonneg x
      linarith
  obtain ⟨kx, sx, ax, bx⟩ := key x hx.1 hx.2
  obtain ⟨ky, sy, ay, bY⟩ := key y hy.1 hy.2
  simp only [sx, sy]
  have ex : ((⌊x + c⌋₊ : ℕ) : ℤ) - c = ⌊x⌋ := by omega
  have ey : ((⌊y + c⌋₊ : ℕ) : ℤ) - c = ⌊y⌋ := by omega
  have ex' : ((⌊x + c⌋₊ + 1 : ℕ) : ℤ) - c = ⌊x⌋ + 1 := by push_cast; omega
  have ey' : ((⌊y + c⌋₊ + 1 : ℕ) : ℤ) - c = ⌊y⌋ + 1 := by push_cast; omega
  unfold interpolate
  rw [hf _ _ ax ay, ex, ey]
  congr 1
  · congr 1
    · congr 1
      rcases bY with h | h
      · rw [hf _ _ ax h, ex, ey']
      · rw [h]; ring
    · rcases bx with h | h
      · rw [hf _ _ h ay, ex', ey]
      · rw [h]; ring
  · rcases bx with h | h
    · rcases bY with h' | h'
      · rw [hf _ _ h h', ex', ey']
      · rw [h']; ring
    · rw [h]; ring

theorem inBin_iff (g u : ℕ) (x : ℝ) (h0 : 0 ≤ x) (h1 : x < 1) (hu : u < g) :
    inBin g u x ↔ u = ⌊(g : ℝ) * x⌋₊ := by
  have hg : (0 : ℝ) < g := by exact_mod_cast (by omega : 0 < g)
  have hfl : ⌊(g : ℝ) * x⌋₊ = u ↔ (u : ℝ) ≤ g * x ∧ (g : ℝ) * x < u + 1 :=
    Nat.floor_eq_iff (by positivity)
  rw [eq_comm, hfl]
  unfold inBin
  rw [div_le_iff₀ hg, lt_div_iff₀ hg]
  constructor
  · rintro ⟨a, b | ⟨b, -⟩⟩
    · exact ⟨by linarith, by linarith⟩
    · refine ⟨by linarith, ?_⟩
      have : (u : ℝ) + 1 = g := by exact_mod_cast b
      rw [this]
      nlinarith
  · rintro ⟨a, b⟩
    exact ⟨by linarith, Or.inl (by linarith)⟩

theorem floor_lt (g : ℕ) (hg : 0 < g) (x : ℝ) (h0 : 0 ≤ x) (h1 : x < 1) : ⌊(g : ℝ) * x⌋₊ < g := by
  have hg' : (0 : ℝ) < g := by exact_mod_cast hg
  rw [Nat.floor_lt (by positivity)]
  nlinarith

/-- The transform of the histogram is the sum over the points. -/
theorem fft2_histogram (g : ℕ) (hg : 0 < g) (pts : List ((ℝ × ℝ) × ℝ))
    (hp : ∀ p ∈ pts, (0 ≤ p.1.1 ∧ p.1.1 < 1) ∧ 0 ≤ p.1.2 ∧ p.1.2 < 1) (a b : ℕ) :
    fft2 g (histogram g pts) a b = (pts.map fun p => (p.2 : ℂ) *
      Complex.exp (-(2 * Real.pi * ((a * ⌊(g : ℝ) * p.1.1⌋₊ + b * ⌊(g : ℝ) * p.1.2⌋₊ : ℕ) : ℝ) /
        (g : ℝ) : ℝ) * Complex.I)).sum := by
  induction pts with
  | nil => simp [fft2, histogram]
  | cons p ps ih =>
    have hh : ∀ u v, histogram g (p :: ps) u v =
        (open Classical in if inBin g u p.1.1 ∧ inBin g v p.1.2 then p.2 else 0) + histogram g ps u v := by
      intro u v
      simp only [histogram, List.map_cons, List.sum_cons]
    rw [List.map_cons, List.sum_cons, ← ih (fun q hq => hp q (List.mem_cons_of_mem _ hq))]
    obtain ⟨⟨hx0, hx1⟩, hy0, hy1⟩ := hp p List.mem_cons_self
    unfold fft2
    simp only [hh]
    push_cast
    simp only [add_mul, Finset.sum_add_distrib]
    congr 1
    rw [Finset.sum_eq_single ⌊(g : ℝ) * p.1.1⌋₊]
    · rw [Finset.sum_eq_single ⌊(g : ℝ) * p.1.2⌋₊]
      · rw [if_pos ⟨(inBin_iff g _ _ hx0 hx1 (floor_lt g hg _ hx0 hx1)).mpr rfl,
          (inBin_iff g _ _ hy0 hy1 (floor_lt g hg _ hy0 hy1)).mpr rfl⟩]
      · intro v hv hne
        rw [if_neg (fun h => hne ((inBin_iff g v _ hy0 hy1 (Finset.mem_range.mp hv)).mp h.2))]
        simp
      · intro h
        exact absurd (Finset.mem_range.mpr (floor_lt g hg _ hy0 hy1)) h
    · intro u hu hne
      apply Finset.sum_eq_zero
      intro v hv
      rw [if_neg (fun h => hne ((inBin_iff g u _ hx0 hx1 (Finset.mem_range.mp hu)).mp h.1))]
      simp
    · intro h
      exact absurd (Finset.mem_range.mpr (floor_lt g hg _ hx0 hx1)) h

theorem shiftIndex_mod (g : ℕ) (hg : 0 < g) (a : ℕ) :
    ∃ c : ℤ, (shiftIndex g a : ℤ) = (a : ℤ) - (g / 2 : ℕ) + g * c := by
  refine ⟨1 - ((a + (g - g / 2)) / g : ℕ), ?_⟩
  have h := Nat.div_add_mod (a + (g - g / 2)) g
  have h2 : (g - g / 2 : ℕ) + g / 2 = g := by omega
  unfold shiftIndex
  have hc : (g : ℤ) * ((a + (g - g / 2)) / g : ℕ) + ((a + (g - g / 2)) % g : ℕ) = a + (g - g / 2 : ℕ) := by
    exact_mod_cast h
  have h2c : ((g - g / 2 : ℕ) : ℤ) + (g / 2 : ℕ) = g := by exact_mod_cast h2
  have e : (g : ℤ) * (1 - (((a + (g - g / 2)) / g : ℕ) : ℤ)) =
      g - (g : ℤ) * (((a + (g - g / 2)) / g : ℕ) : ℤ) := by ring
  rw [e]
  linarith

theorem freq_shiftIndex (g a : ℕ) (ha : a < g) : freq g (shiftIndex g a) = (a : ℤ) - (g / 2 : ℕ) := by
  unfold freq shiftIndex
  rcases Nat.lt_or_ge a (g / 2) with h | h
  · have e : (a + (g - g / 2)) % g = a + (g - g / 2) := Nat.mod_eq_of_lt (by omega)
    rw [e, if_neg (by omega)]
    omega
  · have e : (a + (g - g / 2)) % g = a - g / 2 := by
      rw [show a + (g - g / 2) = (a - g / 2) + g by omega, Nat.add_mod_right]
      exact Nat.mod_eq_of_lt (by omega)
    rw [e, if_pos (by omega)]
    omega

theorem project_bounds (q : Quat ℝ) (S : Matrix (Fin 2) (Fin 2) ℝ) (p : Vec3 ℝ) :
    (0 ≤ (project q S p).1 ∧ (project q S p).1 < 1) ∧ 0 ≤ (project q S p).2 ∧ (project q S p).2 < 1 :=
  ⟨⟨Int.fract_nonneg _, Int.fract_lt_one _⟩, Int.fract_nonneg _, Int.fract_lt_one _⟩

/-- The sites of the points. -/
noncomputable def sites (g : ℕ) (a : Args) (S : Matrix (Fin 2) (Fin 2) ℝ) (w : List ℝ) :
    List ((ℕ × ℕ) × ℝ) :=
  ((a.points.map fun p => (⌊(g : ℝ) * (project a.q S p).1⌋₊, ⌊(g : ℝ) * (project a.q S p).2⌋₊))).zip w

theorem exp_shift (g : ℕ) (hg : 0 < g) (a b u v : ℕ) :
    Complex.exp (-(2 * Real.pi * ((shiftIndex g a * u + shiftIndex g b * v : ℕ) : ℝ) / (g : ℝ) : ℝ) *
      Complex.I) =
    Complex.exp (-(2 * Real.pi * ((((a : ℤ) - (g / 2 : ℕ) : ℤ) : ℝ) * u +
      (((b : ℤ) - (g / 2 : ℕ) : ℤ) : ℝ) * v) / g : ℝ) * Complex.I) := by
  obtain ⟨c, hc⟩ := shiftIndex_mod g hg a
  obtain ⟨d, hd⟩ := shiftIndex_mod g hg b
  have hg' : (g : ℝ) ≠ 0 := by exact_mod_cast hg.ne'
  have e : (2 * Real.pi * ((shiftIndex g a * u + shiftIndex g b * v : ℕ) : ℝ) / (g : ℝ) : ℝ) =
      2 * Real.pi * ((((a : ℤ) - (g / 2 : ℕ) : ℤ) : ℝ) * u +
        (((b : ℤ) - (g / 2 : ℕ) : ℤ) : ℝ) * v) / g + ((c * u + d * v : ℤ) : ℝ) * (2 * Real.pi) := by
    have h1 : (shiftIndex g a : ℝ) = (((a : ℤ) - (g / 2 : ℕ) : ℤ) : ℝ) + g * c := by exact_mod_cast hc
    have h2 : (shiftIndex g b : ℝ) = (((b : ℤ) - (g / 2 : ℕ) : ℤ) : ℝ) + g * d := by exact_mod_cast hd
    rw [Nat.cast_add, Nat.cast_mul, Nat.cast_mul, h1, h2]
    push_cast
    field_simp
    ring
  rw [e]
  rw [show (-(((2 * Real.pi * ((((a : ℤ) - (g / 2 : ℕ) : ℤ) : ℝ) * u +
        (((b : ℤ) - (g / 2 : ℕ) : ℤ) : ℝ) * v) / g + ((c * u + d * v : ℤ) : ℝ) * (2 * Real.pi) : ℝ)) : ℂ) *
          Complex.I) = -((2 * Real.pi * ((((a : ℤ) - (g / 2 : ℕ) : ℤ) : ℝ) * u +
        (((b : ℤ) - (g / 2 : ℕ) : ℤ) : ℝ) * v) / g : ℝ) : ℂ) * Complex.I -
          ((c * u + d * v : ℤ) : ℂ) * (2 * Real.pi * Complex.I) by push_cast; ring]
  exact Complex.exp_periodic.sub_int_mul_eq _

/-- The intensities are those of the sites. -/
theorem intensity_eq (g : ℕ) (a : Args) (S : Matrix (Fin 2) (Fin 2) ℝ) (w : List ℝ) (i j : ℕ)
    (hi : i < g) (hj : j < g) :
    intensity g a S w i j = siteIntensity g (a.peakWidth / a.zoom) (sites g a S w)
      ((i : ℤ) - (g / 2 : ℕ)) ((j : ℤ) - (g / 2 : ℕ)) := by
  have hg : 0 < g := by omega
  unfold intensity gaussian
  rw [Complex.normSq_mul, Complex.normSq_ofReal, ← Real.exp_add, freq_shiftIndex g i hi,
    freq_shiftIndex g j hj, fft2_histogram g hg _ (by
      intro p hp
      obtain ⟨v, -, hv⟩ := List.mem_map.mp (List.of_mem_zip hp).1
      rw [← hv]
      exact project_bounds _ _ _)]
  unfold siteIntensity sites
  congr 1
  · congr 1
    rw [List.zip_map_left, List.zip_map_left, List.map_map, List.map_map]
    congr 1
    apply List.map_congr_left
    rintro ⟨p, w⟩ -
    simp only [Function.comp, Prod.map]
    rw [exp_shift g hg]
  · congr 1
    push_cast
    ring

theorem frame_some (g n : ℕ) (a : Args) (d : ℕ → ℕ → ℝ) (h : frame g n a = some (some d)) :
    a.points ≠ [] ∧ ∃ (S : Matrix (Fin 2) (Fin 2) ℝ) (w : List ℝ) (t : ℕ → ℕ → ℝ),
      calcProj a.q a.box = some S ∧ a.w = some (some w) ∧
      transform g n (intensity g a S w) a.box S a.zoom = some t ∧
      ∀ i j, d i j = t i j / (a.points.length : ℝ) := by
  unfold frame at h
  split_ifs at h with h1 h2
  refine ⟨h1, ?_⟩
  obtain ⟨S, hS, h⟩ := Option.bind_eq_some_iff.mp h
  obtain ⟨w, hw, h⟩ := Option.bind_eq_some_iff.mp h
  cases w with
  | none => simp at h
  | some w =>
    obtain ⟨t, ht, h⟩ := Option.map_eq_some_iff.mp h
    exact ⟨S, w, t, hS, hw, ht, fun i j => by rw [← Option.some.inj h]⟩

theorem w_facts (a : Args) (w : List ℝ) (h : a.w = some (some w)) :
    w.length = a.points.length ∧ w.sum = (a.points.length : ℝ) ∧
      ((∀ w', a.weights = some w' → ∀ x ∈ w', 0 ≤ x) → ∀ x ∈ w, 0 ≤ x) := by
  unfold Args.w at h
  split at h
  · obtain rfl := Option.some.inj (Option.some.inj h)
    refine ⟨by simp, by simp, fun _ x hx => ?_⟩
    rw [List.eq_of_mem_replicate hx]
    exact zero_le_one
  · rename_i w' hw'
    split_ifs at h with h1 h2
    · exact absurd (Option.some.inj h) (by simp)
    push Not at h1
    obtain rfl := Option.some.inj (Option.some.inj h)
    refine ⟨by simp [h1], ?_, fun hn x hx => ?_⟩
    · have : (w'.map fun x => x * (w'.length : ℝ) / w'.sum) =
          w'.map fun x => x * ((w'.length : ℝ) / w'.sum) := by
        apply List.map_congr_left
        intro x _
        ring
      rw [this, List.sum_map_mul_right, List.map_id', h1]
      field_simp
    · obtain ⟨y, hy, rfl⟩ := List.mem_map.mp hx
      have h0 := hn w' hw'
      have := List.sum_nonneg h0
      have := h0 y hy
      positivity

theorem sites_weights (g : ℕ) (a : Args) (S : Matrix (Fin 2) (Fin 2) ℝ) (w : List ℝ)
    (hl : w.length = a.points.length) : (sites g a S w).map Prod.snd = w := by
  unfold sites
  rw [List.map_snd_zip]
  simp [hl]

theorem siteIntensity_zero (g : ℕ) (sg : ℝ) (st : List ((ℕ × ℕ) × ℝ)) :
    siteIntensity g sg st 0 0 = (st.map Prod.snd).sum ^ 2 := by
  unfold siteIntensity
  have : (st.map fun s => (s.2 : ℂ) * Complex.exp
      (-(2 * Real.pi * (((0 : ℤ) : ℝ) * s.1.1 + ((0 : ℤ) : ℝ) * s.1.2) / g : ℝ) * Complex.I)) =
      (st.map Prod.snd).map fun x => ((x : ℝ) : ℂ) := by
    rw [List.map_map]
    apply List.map_congr_left
    intro s _
    simp
  rw [this]
  have hs : ∀ l : List ℝ, (l.map fun x => ((x : ℝ) : ℂ)).sum = ((l.sum : ℝ) : ℂ) := by
    intro l
    induction l with
    | nil => simp
    | cons x l ih => simp [ih]
  rw [hs, Complex.normSq_ofReal]
  simp
  ring

theorem siteIntensity_bounds (g : ℕ) (sg : ℝ) (st : List ((ℕ × ℕ) × ℝ)) (hx hy : ℤ) :
    0 ≤ siteIntensity g sg st hx hy ∧
      ((∀ x ∈ st.map Prod.snd, 0 ≤ x) →
        siteIntensity g sg st hx hy ≤ (st.map Prod.snd).sum ^ 2) := by
  unfold siteIntensity
  refine ⟨mul_nonneg (Complex.normSq_nonneg _) (Real.exp_pos _).le, fun h => ?_⟩
  have hexp : Real.exp (-4 * Real.pi ^ 2 * sg ^ 2 * ((hx : ℝ) ^ 2 + (hy : ℝ) ^ 2) / (g : ℝ) ^ 2) ≤ 1 := by
    rw [Real.exp_le_one_iff]
    have : 0 ≤ 4 * Real.pi ^ 2 * sg ^ 2 * ((hx : ℝ) ^ 2 + (hy : ℝ) ^ 2) / (g : ℝ) ^ 2 := by positivity
    have e : -4 * Real.pi ^ 2 * sg ^ 2 * ((hx : ℝ) ^ 2 + (hy : ℝ) ^ 2) / (g : ℝ) ^ 2 =
      -(4 * Real.pi ^ 2 * sg ^ 2 * ((hx : ℝ) ^ 2 + (hy : ℝ) ^ 2) / (g : ℝ) ^ 2) := by ring
    rw [e]
    linarith
  have hnorm : ∀ st : List ((ℕ × ℕ) × ℝ), (∀ x ∈ st.map Prod.snd, 0 ≤ x) →
      ‖(st.map fun s => (s.2 : ℂ) * Complex.exp
        (-(2 * Real.pi * ((hx : ℝ) * s.1.1 + hy * s.1.2) / g : ℝ) * Complex.I)).sum‖ ≤
        (st.map Prod.snd).sum := by
    intro st
    induction st with
    | nil => simp
    | cons s st ih =>
      intro h
      rw [List.map_cons, List.sum_cons, List.map_cons, List.sum_cons]
      refine (norm_add_le _ _).trans (add_le_add ?_ (ih fun x hx => h x (List.mem_cons_of_mem _ hx)))
      have h0 : 0 ≤ s.2 := h s.2 (by simp)
      rw [norm_mul, ← Complex.ofReal_neg, Complex.norm_exp_ofReal_mul_I, mul_one, Complex.norm_real,
        Real.norm_of_nonneg h0]
  rw [Complex.normSq_eq_norm_sq]
  have h2 := pow_le_pow_left₀ (norm_nonneg _) (hnorm st h) 2
  calc _ ≤ _ * 1 := mul_le_mul_of_nonneg_left hexp (by positivity)
    _ ≤ _ := by rw [mul_one]; exact h2

theorem shiftIndex_modEq (g i : ℕ) : shiftIndex g i = shiftIndex g (i % g) := by
  unfold shiftIndex
  rw [Nat.mod_add_mod]

theorem intensity_mod (g : ℕ) (a : Args) (S : Matrix (Fin 2) (Fin 2) ℝ) (w : List ℝ) (i j : ℕ) :
    intensity g a S w i j = intensity g a S w (i % g) (j % g) := by
  unfold intensity
  simp only [shiftIndex_modEq g i, shiftIndex_modEq g j]

theorem calcProj_default (b : Box ℝ) (L : ℝ) (hb : CubeBox b L) :
    calcProj Quat.one b = some !![1 / L, 0; 0, 1 / L] := by
  have hL := hb.pos
  have hm : rotateRows Quat.one (boxMatrix b) = !![L, 0, 0; 0, L, 0; 0, 0, L] := by
    rw [boxMatrix_cube b L hb]
    funext i j
    unfold rotateRows
    simp only [Quat.rotate_one]
    fin_cases i <;> fin_cases j <;> rfl
  unfold calcProj
  simp only [hm]
  have e0 : (0 - 1 : Fin 3) = 2 := rfl
  have e1 : (1 + 1 : Fin 3) = 2 := rfl
  have e2 : (2 + 1 : Fin 3) = 0 := rfl
  have e3 : (2 - 1 : Fin 3) = 1 := rfl
  have e4 : (1 - 1 : Fin 3) = 0 := rfl
  have e5 : (0 + 1 : Fin 3) = 1 := rfl
  have hbest : (argmax3 fun j => |faceNormalZ (!![L, 0, 0; 0, L, 0; 0, 0, L] : Matrix (Fin 3) (Fin 3) ℝ) j|) = 2 := by
    unfold argmax3 faceNormalZ
    simp only [e0, e1, e2, e3, e4, e5]
    have := mul_pos hL hL
    simp [not_le.mpr this]
  rw [hbest]
  have e6 : (2 + 2 : Fin 3) = 1 := rfl
  simp only [e2, e6]
  have hdet : (!![L, 0; 0, L] : Matrix (Fin 2) (Fin 2) ℝ).det ≠ 0 := by
    rw [Matrix.det_fin_two_of]
    have := mul_pos hL hL
    simp [hL.ne']
  have hsh : (!![(!![L, 0, 0; 0, L, 0; 0, 0, L] : Matrix (Fin 3) (Fin 3) ℝ) 0 0,
      (!![L, 0, 0; 0, L, 0; 0, 0, L] : Matrix (Fin 3) (Fin 3) ℝ) 0 1;
      (!![L, 0, 0; 0, L, 0; 0, 0, L] : Matrix (Fin 3) (Fin 3) ℝ) 1 0,
      (!![L, 0, 0; 0, L, 0; 0, 0, L] : Matrix (Fin 3) (Fin 3) ℝ) 1 1] : Matrix (Fin 2) (Fin 2) ℝ) =
      !![L, 0; 0, L] := by
    funext i j
    fin_cases i <;> fin_cases j <;> rfl
  rw [hsh, if_neg hdet]
  congr 1
  apply Matrix.inv_eq_right_inv
  rw [Matrix.mul_fin_two, Matrix.one_fin_two]
  simp [hL.ne']

end Freud.Diffraction
