import Verif.Lemmas.RotAutocorr
import Verif.Lemmas.Quat
import Verif.Props.NeighborLoop
import Mathlib.Analysis.SpecialFunctions.Trigonometric.Inverse
import Mathlib.Tactic.Linarith
import Mathlib.Tactic.NormNum.BigOperators

/-!
# C45, C72: the rotational autocorrelation
-/

namespace Freud
open RotAC Finset

/-- The mean of `cos ((l - 2 j) θ)` for `j = 0, …, l`: the normalized character of the rotation group for
rotations by the angle `2 θ`. -/
noncomputable def Spec.character (l : ℕ) (θ : ℝ) : ℝ :=
  (∑ j ∈ range (l + 1), Real.cos (((l : ℝ) - 2 * j) * θ)) / (l + 1)

/-- The scalar product of two quaternions: for unit quaternions the cosine of half the angle between the
orientations. -/
def Spec.quatInner (a b : Quat ℝ) : ℝ := a.s * b.s + (a.v.x * b.v.x + a.v.y * b.v.y + a.v.z * b.v.z)

/-- A quaternion of length 1. -/
def Spec.UnitQuat (a : Quat ℝ) : Prop := Spec.quatInner a a = 1

/-- The quaternion with all signs changed: the same orientation. -/
def Spec.negQuat (a : Quat ℝ) : Quat ℝ := ⟨-a.s, ⟨-a.v.x, -a.v.y, -a.v.z⟩⟩

open Spec

namespace RotAC

theorem char_zero (θ : ℝ) : (∑ j ∈ range (0 + 1), Real.cos ((((0 : ℕ) : ℝ) - 2 * j) * θ)) = 1 := by simp

theorem char_one (θ : ℝ) : (∑ j ∈ range (1 + 1), Real.cos ((((1 : ℕ) : ℝ) - 2 * j) * θ)) = 2 * Real.cos θ := by
  rw [Finset.sum_range_succ, Finset.sum_range_one]
  have : Real.cos ((((1 : ℕ) : ℝ) - 2 * ((1 : ℕ) : ℝ)) * θ) = Real.cos θ := by
    rw [← Real.cos_neg]; congr 1; push_cast; ring
  rw [this]
  simp
  ring

theorem char_step (l : ℕ) (θ : ℝ) : (∑ j ∈ range (l + 2 + 1), Real.cos ((((l + 2 : ℕ) : ℝ) - 2 * j) * θ)) =
    (∑ j ∈ range (l + 1), Real.cos (((l : ℝ) - 2 * j) * θ)) + 2 * Real.cos (((l : ℝ) + 2) * θ) := by
  rw [Finset.sum_range_succ, Finset.sum_range_succ']
  have e1 : ∑ k ∈ range (l + 1), Real.cos ((((l + 2 : ℕ) : ℝ) - 2 * ((k + 1 : ℕ) : ℝ)) * θ) =
      ∑ j ∈ range (l + 1), Real.cos (((l : ℝ) - 2 * j) * θ) := by
    apply Finset.sum_congr rfl
    intro k _
    congr 1
    push_cast
    ring
  have e2 : Real.cos ((((l + 2 : ℕ) : ℝ) - 2 * ((l + 2 : ℕ) : ℝ)) * θ) = Real.cos (((l : ℝ) + 2) * θ) := by
    rw [← Real.cos_neg]
    congr 1
    push_cast
    ring
  have e3 : Real.cos ((((l + 2 : ℕ) : ℝ) - 2 * ((0 : ℕ) : ℝ)) * θ) = Real.cos (((l : ℝ) + 2) * θ) := by
    congr 1
    push_cast
    ring
  rw [e1, e2, e3]
  ring

/-- The trace of a unit quaternion with real part `cos θ`. -/
theorem tk_character (s x y z θ : ℝ) (h : s * s + (x * x + y * y + z * z) = 1) (hs : s = Real.cos θ) (l : ℕ) :
    tk ⟨s, z⟩ ⟨s, -z⟩ (-((x * x + y * y : ℝ) : ℂ)) l =
      ((∑ j ∈ range (l + 1), Real.cos (((l : ℝ) - 2 * j) * θ) : ℝ) : ℂ) := by
  set u : ℕ → ℝ := fun l => ∑ j ∈ range (l + 1), Real.cos (((l : ℝ) - 2 * j) * θ) with hu
  have htr : (⟨s, z⟩ + ⟨s, -z⟩ : ℂ) = ((2 * s : ℝ) : ℂ) := by
    apply Complex.ext
    · simp; ring
    · simp
  have hdet : ((⟨s, z⟩ : ℂ) * ⟨s, -z⟩ - (-((x * x + y * y : ℝ) : ℂ))) = 1 := by
    apply Complex.ext
    · simp; linarith
    · simp; ring
  have hc : ∀ n : ℕ, 2 * s * Real.cos (((n : ℝ) + 1) * θ) = Real.cos (((n : ℝ) + 2) * θ) + Real.cos ((n : ℝ) * θ) := by
    intro n
    rw [hs, show ((n : ℝ) + 2) * θ = ((n : ℝ) + 1) * θ + θ by ring,
      show (n : ℝ) * θ = ((n : ℝ) + 1) * θ - θ by ring, Real.cos_add, Real.cos_sub]
    ring
  have hAB : ∀ n : ℕ, u (n + 1) - s * u n = Real.cos (((n : ℝ) + 1) * θ) ∧
      s * u (n + 1) - u n = Real.cos (((n : ℝ) + 2) * θ) := by
    intro n
    induction n with
    | zero =>
      have h0 : u 0 = 1 := char_zero θ
      have h1 : u (0 + 1) = 2 * s := by rw [hs]; exact char_one θ
      have h2 := hc 0
      rw [h0, h1]
      simp only [Nat.cast_zero, zero_add, one_mul, zero_mul, Real.cos_zero] at h2 ⊢
      rw [← hs] at h2 ⊢
      constructor <;> linarith
    | succ n ih =>
      obtain ⟨a, b⟩ := ih
      have h3 : u (n + 1 + 1) = u n + 2 * Real.cos (((n : ℝ) + 2) * θ) := char_step n θ
      have h4 := hc (n + 1)
      push_cast at h4 ⊢
      rw [show (n : ℝ) + 1 + 1 = n + 2 by ring] at h4 ⊢
      constructor
      · rw [h3]; linarith
      · rw [h3]
        have : s * (u n + 2 * Real.cos (((n : ℝ) + 2) * θ)) = s * u n + 2 * s * Real.cos (((n : ℝ) + 2) * θ) := by ring
        rw [this, h4]
        linarith
  have key : ∀ n : ℕ, tk ⟨s, z⟩ ⟨s, -z⟩ (-((x * x + y * y : ℝ) : ℂ)) n = (u n : ℂ) ∧
      tk ⟨s, z⟩ ⟨s, -z⟩ (-((x * x + y * y : ℝ) : ℂ)) (n + 1) = (u (n + 1) : ℂ) := by
    intro n
    induction n with
    | zero =>
      have h0 : u 0 = 1 := char_zero θ
      have h1 : u (0 + 1) = 2 * s := by rw [hs]; exact char_one θ
      refine ⟨by rw [tk_zero, h0]; simp, ?_⟩
      rw [h1, ← htr]
      exact tk_one _ _ _
    | succ n ih =>
      refine ⟨ih.2, ?_⟩
      rw [tk_rec, htr, hdet, ih.1, ih.2]
      have h3 : u (n + 1 + 1) = u n + 2 * Real.cos (((n : ℝ) + 2) * θ) := char_step n θ
      obtain ⟨a, b⟩ := hAB n
      have : u (n + 1 + 1) = 2 * s * u (n + 1) - 1 * u n := by rw [h3, ← b]; ring
      rw [this]
      push_cast
      ring
  exact (key l).1

theorem quat_real (a b : Quat ℝ) : (Quat.mul (Quat.conj a) b).s = quatInner a b := by
  unfold quatInner
  quat_simp
  ring

/-- The value for one particle. -/
theorem particleOrder_value (l : ℕ) (hl : l ≤ 8) (ref q : Quat ℝ) (h1 : UnitQuat ref) (h2 : UnitQuat q) (θ : ℝ)
    (hθ : quatInner ref q = Real.cos θ) : particleOrder l ref q = ((character l θ : ℝ) : ℂ) := by
  rw [particleOrder_trace l hl]
  set qq := Quat.mul (Quat.conj ref) q with hqq
  have hn : qq.s * qq.s + (qq.v.x * qq.v.x + qq.v.y * qq.v.y + qq.v.z * qq.v.z) = 1 := by
    have e := Quat.norm2_mul (Quat.conj ref) q
    rw [Quat.norm2_conj] at e
    have e1 : Quat.norm2 ref = 1 := h1
    have e2 : Quat.norm2 q = 1 := h2
    rw [e1, e2, ← hqq] at e
    rw [← one_mul (1 : ℝ), ← e]
    rfl
  rw [tk_character qq.s qq.v.x qq.v.y qq.v.z θ hn (by rw [hqq, quat_real, hθ]) l]
  unfold character
  push_cast
  rfl

theorem inner_le_one (a b : Quat ℝ) (h1 : UnitQuat a) (h2 : UnitQuat b) : -1 ≤ quatInner a b ∧ quatInner a b ≤ 1 := by
  unfold UnitQuat quatInner at *
  constructor
  · nlinarith [sq_nonneg (a.s + b.s), sq_nonneg (a.v.x + b.v.x), sq_nonneg (a.v.y + b.v.y), sq_nonneg (a.v.z + b.v.z)]
  · nlinarith [sq_nonneg (a.s - b.s), sq_nonneg (a.v.x - b.v.x), sq_nonneg (a.v.y - b.v.y), sq_nonneg (a.v.z - b.v.z)]

/-- The half angle. -/
theorem exists_angle (a b : Quat ℝ) (h1 : UnitQuat a) (h2 : UnitQuat b) :
    quatInner a b = Real.cos (Real.arccos (quatInner a b)) :=
  (Real.cos_arccos (inner_le_one a b h1 h2).1 (inner_le_one a b h1 h2).2).symm

theorem character_le (l : ℕ) (θ : ℝ) : -1 ≤ character l θ ∧ character l θ ≤ 1 := by
  unfold character
  have hp : (0 : ℝ) < l + 1 := by positivity
  have h1 : ∑ j ∈ range (l + 1), Real.cos (((l : ℝ) - 2 * j) * θ) ≤ ∑ _j ∈ range (l + 1), (1 : ℝ) :=
    Finset.sum_le_sum fun j _ => Real.cos_le_one _
  have h2 : ∑ _j ∈ range (l + 1), (-1 : ℝ) ≤ ∑ j ∈ range (l + 1), Real.cos (((l : ℝ) - 2 * j) * θ) :=
    Finset.sum_le_sum fun j _ => Real.neg_one_le_cos _
  simp only [Finset.sum_const, Finset.card_range, nsmul_eq_mul, Nat.cast_add, Nat.cast_one] at h1 h2
  rw [le_div_iff₀ hp, div_le_iff₀ hp]
  constructor <;> linarith

theorem character_zero (l : ℕ) : character l 0 = 1 := by
  unfold character
  have hp : ((l : ℝ) + 1) ≠ 0 := by positivity
  simp [hp]

/-- For even `l > 0` the character is 1 only for no rotation. -/
theorem character_eq_one (l : ℕ) (h0 : 0 < l) (he : l % 2 = 0) (θ : ℝ) (h : character l θ = 1) :
    Real.cos θ = 1 ∨ Real.cos θ = -1 := by
  unfold character at h
  have hp : (0 : ℝ) < l + 1 := by positivity
  rw [div_eq_one_iff_eq hp.ne'] at h
  have hsum : ∑ j ∈ range (l + 1), (1 - Real.cos (((l : ℝ) - 2 * j) * θ)) = 0 := by
    rw [Finset.sum_sub_distrib, h]
    simp
  rw [Finset.sum_eq_zero_iff_of_nonneg (fun j _ => by linarith [Real.cos_le_one (((l : ℝ) - 2 * j) * θ)])] at hsum
  obtain ⟨m, rfl⟩ : ∃ m, l = 2 * (m + 1) := ⟨l / 2 - 1, by omega⟩
  have := hsum m (by rw [Finset.mem_range]; omega)
  have e : ((2 * (m + 1) : ℕ) : ℝ) - 2 * m = 2 := by push_cast; ring
  rw [e, Real.cos_two_mul] at this
  have h2 : (Real.cos θ - 1) * (Real.cos θ + 1) = 0 := by linarith
  rcases mul_eq_zero.mp h2 with h | h
  · left; linarith
  · right; linarith

theorem inner_eq_one (a b : Quat ℝ) (h1 : UnitQuat a) (h2 : UnitQuat b) (h : quatInner a b = 1) : b = a := by
  unfold UnitQuat quatInner at *
  have e : (a.s - b.s) ^ 2 + (a.v.x - b.v.x) ^ 2 + (a.v.y - b.v.y) ^ 2 + (a.v.z - b.v.z) ^ 2 = 0 := by nlinarith
  have q1 := sq_nonneg (a.s - b.s)
  have q2 := sq_nonneg (a.v.x - b.v.x)
  have q3 := sq_nonneg (a.v.y - b.v.y)
  have q4 := sq_nonneg (a.v.z - b.v.z)
  have z : ∀ x : ℝ, x ^ 2 = 0 → x = 0 := fun x hx => pow_eq_zero_iff two_ne_zero |>.mp hx
  ext
  · linarith [z (a.s - b.s) (by linarith)]
  · linarith [z (a.v.x - b.v.x) (by linarith)]
  · linarith [z (a.v.y - b.v.y) (by linarith)]
  · linarith [z (a.v.z - b.v.z) (by linarith)]

theorem inner_neg (a b : Quat ℝ) : quatInner a (negQuat b) = -quatInner a b := by
  unfold quatInner negQuat
  ring

theorem unit_neg (a : Quat ℝ) (h : UnitQuat a) : UnitQuat (negQuat a) := by
  unfold UnitQuat quatInner negQuat at *
  linarith

theorem negQuat_neg (a : Quat ℝ) : negQuat (negQuat a) = a := by
  unfold negQuat
  simp

theorem foldl_re (l : List ℂ) (s : ℝ) : l.foldl (fun s z => s + z.re) s = s + (l.map (·.re)).sum := by
  induction l generalizing s with
  | nil => simp
  | cons a l ih => simp [ih, add_assoc]

/-- The loop of `compute`. -/
theorem compute_eq (l : ℕ) (he : l % 2 = 0) (refs qs : List (Quat ℝ)) (hlen : refs.length = qs.length)
    (h0 : 0 < refs.length) (order : List ℕ) (hord : order.Perm (List.range refs.length)) :
    RotAC.compute l refs qs order = some ((List.range refs.length).map (fun i =>
        particleOrder l (refs.getD i Quat.one) (qs.getD i Quat.one)),
      ((List.range refs.length).map (fun i =>
        (particleOrder l (refs.getD i Quat.one) (qs.getD i Quat.one)).re)).sum / refs.length) := by
  unfold RotAC.compute
  rw [if_neg (by omega)]
  obtain ⟨a', h1, -, h2⟩ := forEach_spec order (fun i _ => refs[i]?.bind fun r => qs[i]?.map fun q => particleOrder l r q)
    (fun i => particleOrder l (refs.getD i Quat.one) (qs.getD i Quat.one)) (MArray.mk' [refs.length] : MArray ℂ)
    refs.length (by simp [MArray.mk']) hord (by
      intro i x hx
      have hi : i < refs.length := by
        have := (List.getElem?_eq_some_iff.mp hx).1
        simpa [MArray.mk'] using this
      have hi' : i < qs.length := by omega
      simp [List.getD_eq_getElem?_getD, hi, hi'])
  rw [h1, Option.map_some, h2, foldl_re, zero_add, List.map_map]
  rfl

end RotAC

/-- **C45**: if the orientations equal their unit reference orientations, all particle orders and the order are
1, for `l` up to 8. What is missing: for `l = 10` it is false, see the counterexample. -/
theorem C45_unrotated_partial (l : ℕ) (hl : l ≤ 8) (he : l % 2 = 0) (qs : List (Quat ℝ)) (h0 : qs ≠ [])
    (hu : ∀ q ∈ qs, UnitQuat q) (order : List ℕ) (hord : order.Perm (List.range qs.length)) :
    RotAC.compute l qs qs order = some (List.replicate qs.length 1, 1) := by
  have hp : 0 < qs.length := List.length_pos_iff.mpr h0
  rw [RotAC.compute_eq l he qs qs rfl hp order hord]
  have hv : ∀ i ∈ List.range qs.length, particleOrder l (qs.getD i Quat.one) (qs.getD i Quat.one) = 1 := by
    intro i hi
    have hi' := List.mem_range.mp hi
    have hq : UnitQuat (qs.getD i Quat.one) := by
      rw [List.getD_eq_getElem?_getD, List.getElem?_eq_getElem hi', Option.getD_some]
      exact hu _ (List.getElem_mem _)
    rw [particleOrder_value l hl _ _ hq hq 0 (by rw [Real.cos_zero]; exact hq), RotAC.character_zero]
    simp
  have e1 := List.map_congr_left hv
  have e2 : (List.range qs.length).map (fun i => (particleOrder l (qs.getD i Quat.one) (qs.getD i Quat.one)).re) =
      (List.range qs.length).map (fun _ => (1 : ℝ)) := List.map_congr_left fun i hi => by rw [hv i hi]; simp
  have hp' : ((qs.length : ℕ) : ℝ) ≠ 0 := by exact_mod_cast hp.ne'
  rw [e1, e2]
  simp [hp']

namespace RotAC

/-- The value for equal orientations, whatever overflows. -/
theorem particleOrder_same (l : ℕ) (q : Quat ℝ) (h : UnitQuat q) : particleOrder l q q =
    ∑ p ∈ antidiagonal l, (prefactor l p.1 p.2 : ℂ) * (((1 : ℝ) / ((fact l p.1 : ℝ) * fact l p.2) ^ 2 : ℝ) : ℂ) := by
  rw [particleOrder_eq, Quat.conj_mul_self q h]
  apply Finset.sum_congr rfl
  rintro ⟨a, b⟩ hab
  rw [Finset.mem_antidiagonal] at hab
  simp only at hab ⊢
  have hz : (⟨(Quat.one : Quat ℝ).v.x, (Quat.one : Quat ℝ).v.y⟩ : ℂ) = 0 := rfl
  have hi : (⟨(Quat.one : Quat ℝ).v.z, (Quat.one : Quat ℝ).s⟩ : ℂ) = Complex.I := rfl
  rw [hz, hi, harmonic_unit l a b (by omega) (by omega), if_pos hab]
  congr 1
  have hI : (starRingEnd ℂ) (Complex.I ^ b * (-Complex.I) ^ a) * (Complex.I ^ b * (-Complex.I) ^ a) = 1 := by
    rw [map_mul, map_pow, map_pow, map_neg, Complex.conj_I, neg_neg]
    have : ∀ n, (-Complex.I) ^ n * Complex.I ^ n = 1 := fun n => by rw [← mul_pow]; simp
    linear_combination (Complex.I ^ a * (-Complex.I) ^ a) * this b + this a
  rw [map_div₀, map_mul (starRingEnd ℂ) ((fact l a : ℂ)), Complex.conj_natCast, Complex.conj_natCast,
    div_mul_div_comm, hI]
  push_cast
  rw [sq]

end RotAC

/-- **C45** is false for `l = 10`: the products of factorials overflow 32 bits, and the value for a particle
that has not rotated is less than 1. -/
theorem C45_overflow_counterexample (q : Quat ℝ) (h : UnitQuat q) :
    ∃ z, RotAC.compute 10 [q] [q] [0] = some ([z], z.re) ∧ z.re < 1 := by
  refine ⟨particleOrder 10 q q, ?_, ?_⟩
  · rw [RotAC.compute_eq 10 (by decide) [q] [q] rfl (by simp) [0] (List.Perm.refl _)]
    simp [List.range_succ]
  · rw [RotAC.particleOrder_same 10 q h]
    have e : ∀ p ∈ antidiagonal 10, (prefactor 10 p.1 p.2 : ℂ) * (((1 : ℝ) / ((fact 10 p.1 : ℝ) * fact 10 p.2) ^ 2 : ℝ) : ℂ) =
        ((prefactor 10 p.1 p.2 * (1 / ((fact 10 p.1 : ℝ) * fact 10 p.2) ^ 2) : ℝ) : ℂ) := by
      intro p _
      push_cast
      ring
    rw [Finset.sum_congr rfl e, ← Complex.ofReal_sum, Complex.ofReal_re]
    have f : (factLoop 10) = [1, 1, 2, 6, 24, 120, 720, 5040, 40320, 362880, 3628800] := by decide
    simp only [Finset.Nat.sum_antidiagonal_eq_sum_range_succ_mk, Finset.sum_range_succ, Finset.sum_range_zero,
      prefactor, fact, f, mul32]
    norm_num

/-- **C72** (value): for `l` up to 8, unit orientations and every order of the parallel loop, the order of
each particle is the normalized character of the rotation between its reference and its orientation, and the
system's order is the mean. -/
theorem C72_value_partial (l : ℕ) (hl : l ≤ 8) (he : l % 2 = 0) (refs qs : List (Quat ℝ))
    (hlen : refs.length = qs.length) (h0 : refs ≠ []) (h1 : ∀ q ∈ refs, UnitQuat q) (h2 : ∀ q ∈ qs, UnitQuat q)
    (θ : ℕ → ℝ) (hθ : ∀ i < refs.length, quatInner (refs.getD i Quat.one) (qs.getD i Quat.one) = Real.cos (θ i))
    (order : List ℕ) (hord : order.Perm (List.range refs.length)) :
    RotAC.compute l refs qs order = some ((List.range refs.length).map (fun i => ((character l (θ i) : ℝ) : ℂ)),
      ((List.range refs.length).map (fun i => character l (θ i))).sum / refs.length) := by
  have hp : 0 < refs.length := List.length_pos_iff.mpr h0
  rw [RotAC.compute_eq l he refs qs hlen hp order hord]
  have hv : ∀ i ∈ List.range refs.length, particleOrder l (refs.getD i Quat.one) (qs.getD i Quat.one) =
      ((character l (θ i) : ℝ) : ℂ) := by
    intro i hi
    have hi' := List.mem_range.mp hi
    have hi2 : i < qs.length := by omega
    apply particleOrder_value l hl _ _ _ _ _ (hθ i hi')
    · rw [List.getD_eq_getElem?_getD, List.getElem?_eq_getElem hi', Option.getD_some]
      exact h1 _ (List.getElem_mem _)
    · rw [List.getD_eq_getElem?_getD, List.getElem?_eq_getElem hi2, Option.getD_some]
      exact h2 _ (List.getElem_mem _)
  rw [List.map_congr_left hv]
  have e2 : (List.range refs.length).map (fun i => (particleOrder l (refs.getD i Quat.one) (qs.getD i Quat.one)).re) =
      (List.range refs.length).map (fun i => character l (θ i)) := List.map_congr_left fun i hi => by
        rw [hv i hi, Complex.ofReal_re]
  rw [e2]

namespace RotAC

theorem getD_unit (l : List (Quat ℝ)) (h : ∀ q ∈ l, UnitQuat q) (i : ℕ) (hi : i < l.length) :
    UnitQuat (l.getD i Quat.one) := by
  rw [List.getD_eq_getElem?_getD, List.getElem?_eq_getElem hi, Option.getD_some]
  exact h _ (List.getElem_mem _)

end RotAC

/-- **C72** (range): for `l` up to 8 every particle order is a real number between −1 and 1, and so is the
order of the system. -/
theorem C72_range_partial (l : ℕ) (hl : l ≤ 8) (he : l % 2 = 0) (refs qs : List (Quat ℝ))
    (hlen : refs.length = qs.length) (h0 : refs ≠ []) (h1 : ∀ q ∈ refs, UnitQuat q) (h2 : ∀ q ∈ qs, UnitQuat q)
    (order : List ℕ) (hord : order.Perm (List.range refs.length)) :
    ∃ ra F, RotAC.compute l refs qs order = some (ra, F) ∧ ra.length = refs.length ∧
      (∀ z ∈ ra, z.im = 0 ∧ -1 ≤ z.re ∧ z.re ≤ 1) ∧ -1 ≤ F ∧ F ≤ 1 := by
  have hp : 0 < refs.length := List.length_pos_iff.mpr h0
  have hp' : (0 : ℝ) < refs.length := by exact_mod_cast hp
  refine ⟨_, _, C72_value_partial l hl he refs qs hlen h0 h1 h2 (fun i => Real.arccos (quatInner (refs.getD i Quat.one) (qs.getD i Quat.one)))
    (fun i hi => RotAC.exists_angle _ _ (RotAC.getD_unit refs h1 i hi) (RotAC.getD_unit qs h2 i (by omega))) order hord,
    by simp, ?_, ?_, ?_⟩
  · intro z hz
    obtain ⟨i, -, rfl⟩ := List.mem_map.mp hz
    have := RotAC.character_le l (Real.arccos (quatInner (refs.getD i Quat.one) (qs.getD i Quat.one)))
    exact ⟨Complex.ofReal_im _, by rw [Complex.ofReal_re]; exact this.1, by rw [Complex.ofReal_re]; exact this.2⟩
  · rw [le_div_iff₀ hp']
    have : ∀ (L : List ℕ) (f : ℕ → ℝ), (∀ i, -1 ≤ f i) → -1 * (L.length : ℝ) ≤ (L.map f).sum := by
      intro L f hf
      induction L with
      | nil => simp
      | cons a L ih => simp only [List.map_cons, List.sum_cons, List.length_cons]; push_cast; linarith [hf a]
    have h := this (List.range refs.length) _ (fun i => (RotAC.character_le l
      (Real.arccos (quatInner (refs.getD i Quat.one) (qs.getD i Quat.one)))).1)
    rwa [List.length_range] at h
  · rw [div_le_iff₀ hp', one_mul]
    have : ∀ (L : List ℕ) (f : ℕ → ℝ), (∀ i, f i ≤ 1) → (L.map f).sum ≤ (L.length : ℝ) := by
      intro L f hf
      induction L with
      | nil => simp
      | cons a L ih => simp only [List.map_cons, List.sum_cons, List.length_cons]; push_cast; linarith [hf a]
    have h := this (List.range refs.length) _ (fun i => (RotAC.character_le l
      (Real.arccos (quatInner (refs.getD i Quat.one) (qs.getD i Quat.one)))).2)
    rwa [List.length_range] at h

/-- **C72** (extreme): for `l` = 2, 4, 6, 8 a particle has order 1 exactly if its orientation is the reference
orientation (up to the sign of the quaternion). -/
theorem C72_one_iff_partial (l : ℕ) (hl : l ≤ 8) (he : l % 2 = 0) (hpos : 0 < l) (refs qs : List (Quat ℝ))
    (hlen : refs.length = qs.length) (h0 : refs ≠ []) (h1 : ∀ q ∈ refs, UnitQuat q) (h2 : ∀ q ∈ qs, UnitQuat q)
    (order : List ℕ) (hord : order.Perm (List.range refs.length)) :
    ∃ ra F, RotAC.compute l refs qs order = some (ra, F) ∧
      ∀ i < refs.length, ra.getD i 0 = 1 ↔ (qs.getD i Quat.one = refs.getD i Quat.one ∨
        qs.getD i Quat.one = negQuat (refs.getD i Quat.one)) := by
  refine ⟨_, _, C72_value_partial l hl he refs qs hlen h0 h1 h2 (fun i => Real.arccos (quatInner (refs.getD i Quat.one) (qs.getD i Quat.one)))
    (fun i hi => RotAC.exists_angle _ _ (RotAC.getD_unit refs h1 i hi) (RotAC.getD_unit qs h2 i (by omega))) order hord, ?_⟩
  intro i hi
  have u1 := RotAC.getD_unit refs h1 i hi
  have u2 := RotAC.getD_unit qs h2 i (by omega)
  set a := refs.getD i Quat.one
  set b := qs.getD i Quat.one
  have e : ((List.range refs.length).map (fun i => ((character l (Real.arccos (quatInner (refs.getD i Quat.one) (qs.getD i Quat.one))) : ℝ) : ℂ))).getD i 0 =
      ((character l (Real.arccos (quatInner a b)) : ℝ) : ℂ) := by
    simp [List.getD_eq_getElem?_getD, hi, a, b]
  rw [e]
  have hang := RotAC.exists_angle a b u1 u2
  constructor
  · intro h
    have h' : character l (Real.arccos (quatInner a b)) = 1 := by exact_mod_cast h
    rcases RotAC.character_eq_one l hpos he _ h' with h | h
    · left
      exact RotAC.inner_eq_one a b u1 u2 (by rw [hang, h])
    · right
      rw [← RotAC.negQuat_neg b, RotAC.inner_eq_one a (negQuat b) u1 (RotAC.unit_neg b u2) (by rw [RotAC.inner_neg, hang, h]; norm_num)]
  · have hone : ∀ x : Quat ℝ, UnitQuat x → particleOrder l x x = 1 := by
      intro x hx
      rw [particleOrder_value l hl x x hx hx 0 (by rw [Real.cos_zero]; exact hx), RotAC.character_zero]
      simp
    rintro (h | h)
    · rw [← particleOrder_value l hl a b u1 u2 _ hang, h]
      exact hone a u1
    · have hπ : quatInner a b = Real.cos Real.pi := by
        rw [h, RotAC.inner_neg, Real.cos_pi]
        rw [show quatInner a a = 1 from u1]
      have h3 := particleOrder_value l hl a b u1 u2 _ hang
      rw [particleOrder_value l hl a b u1 u2 _ hπ] at h3
      rw [← h3]
      have : character l Real.pi = 1 := by
        unfold character
        obtain ⟨m, rfl⟩ : ∃ m, l = 2 * m := ⟨l / 2, by omega⟩
        have : ∀ j ∈ range (2 * m + 1), Real.cos ((((2 * m : ℕ) : ℝ) - 2 * j) * Real.pi) = 1 := by
          intro j _
          rw [show (((2 * m : ℕ) : ℝ) - 2 * j) * Real.pi = 0 + (((m : ℤ) - j : ℤ) : ℝ) * (2 * Real.pi) by push_cast; ring,
            Real.cos_add_int_mul_two_pi, Real.cos_zero]
        rw [Finset.sum_congr rfl this]
        have hp : (((2 * m : ℕ) : ℝ) + 1) ≠ 0 := by positivity
        simp only [Finset.sum_const, Finset.card_range, nsmul_eq_mul, Nat.cast_add, Nat.cast_one, mul_one]
        rw [div_self hp]
      rw [this]
      simp

/-- **C72** (what matters): for `l` up to 8 the result depends only on the scalar product of each orientation
with its reference orientation. So it does not change when orientation and reference are exchanged or both
rotated in the same way. -/
theorem C72_relative_partial (l : ℕ) (hl : l ≤ 8) (he : l % 2 = 0) (refs qs refs' qs' : List (Quat ℝ))
    (hlen : refs.length = qs.length) (hlen' : refs'.length = qs'.length) (hll : refs.length = refs'.length)
    (h0 : refs ≠ []) (h1 : ∀ q ∈ refs, UnitQuat q) (h2 : ∀ q ∈ qs, UnitQuat q)
    (h1' : ∀ q ∈ refs', UnitQuat q) (h2' : ∀ q ∈ qs', UnitQuat q)
    (hin : ∀ i < refs.length, quatInner (refs.getD i Quat.one) (qs.getD i Quat.one) =
      quatInner (refs'.getD i Quat.one) (qs'.getD i Quat.one))
    (order order' : List ℕ) (hord : order.Perm (List.range refs.length))
    (hord' : order'.Perm (List.range refs.length)) :
    RotAC.compute l refs qs order = RotAC.compute l refs' qs' order' := by
  have hθ := fun i (hi : i < refs.length) => RotAC.exists_angle _ _ (RotAC.getD_unit refs h1 i hi)
    (RotAC.getD_unit qs h2 i (by omega))
  have h0' : refs' ≠ [] := by
    rw [← List.length_pos_iff] at h0 ⊢
    omega
  rw [C72_value_partial l hl he refs qs hlen h0 h1 h2 _ hθ order hord,
    C72_value_partial l hl he refs' qs' hlen' h0' h1' h2' (fun i => Real.arccos (quatInner (refs.getD i Quat.one) (qs.getD i Quat.one)))
      (fun i hi => by rw [← hin i (by omega)]; exact hθ i (by omega)) order' (by rw [← hll]; exact hord'), hll]

/-- Exchanging orientation and reference, and rotating both, keep the scalar product. -/
theorem C72_invariances (a b g : Quat ℝ) (hg : UnitQuat g) : quatInner b a = quatInner a b ∧
    quatInner (Quat.mul g a) (Quat.mul g b) = quatInner a b ∧
    quatInner (Quat.mul a g) (Quat.mul b g) = quatInner a b := by
  have h : g.s * g.s + (g.v.x * g.v.x + g.v.y * g.v.y + g.v.z * g.v.z) = 1 := hg
  refine ⟨by unfold quatInner; ring, ?_, ?_⟩
  · unfold quatInner
    quat_simp
    linear_combination (a.s * b.s + (a.v.x * b.v.x + a.v.y * b.v.y + a.v.z * b.v.z)) * h
  · unfold quatInner
    quat_simp
    linear_combination (a.s * b.s + (a.v.x * b.v.x + a.v.y * b.v.y + a.v.z * b.v.z)) * h

/-- **C72** (sign): for every allowed `l` below 34, whatever overflows, changing the sign of the quaternion of
any orientations, which does not change the orientations, does not change the result. -/
theorem C72_sign (l : ℕ) (_hl : l < 34) (refs qs : List (Quat ℝ)) (flip : ℕ → Bool) (order : List ℕ)
    (hord : order.Perm (List.range refs.length)) :
    RotAC.compute l refs (qs.mapIdx (fun i q => if flip i then negQuat q else q)) order =
      RotAC.compute l refs qs order := by
  by_cases hc : l % 2 = 1 ∨ refs.length ≠ qs.length ∨ refs.length = 0
  · unfold RotAC.compute
    rw [if_pos (by simpa using hc), if_pos hc]
  · push Not at hc
    obtain ⟨a1, a2, a3⟩ := hc
    have he : l % 2 = 0 := by omega
    have hharm : ∀ (xi zeta : ℂ) (a b : ℕ), a ≤ l → b ≤ l → harmonic l (-xi) (-zeta) a b = harmonic l xi zeta a b := by
      intro xi zeta a b ha hb
      rw [RotAC.harmonic_eq, RotAC.harmonic_eq]
      apply Finset.sum_congr rfl
      intro k hk
      rw [Finset.mem_Ico] at hk
      congr 1
      rw [map_neg, map_neg, neg_pow ((starRingEnd ℂ) xi), neg_pow zeta, neg_pow ((starRingEnd ℂ) zeta),
        neg_pow (-xi) (l + k - a - b)]
      have : ((-1 : ℂ)) ^ k * (-1) ^ (b - k) * (-1) ^ (a - k) * (-1) ^ (l + k - a - b) = 1 := by
        rw [← pow_add, ← pow_add, ← pow_add, show k + (b - k) + (a - k) + (l + k - a - b) = l by omega]
        exact Even.neg_one_pow (Nat.even_iff.mpr he)
      linear_combination ((starRingEnd ℂ) xi ^ k * zeta ^ (b - k) * (starRingEnd ℂ) zeta ^ (a - k) *
        (-xi) ^ (l + k - a - b)) * this
    have hpart : ∀ r q, particleOrder l r (negQuat q) = particleOrder l r q := by
      intro r q
      rw [RotAC.particleOrder_eq, RotAC.particleOrder_eq]
      apply Finset.sum_congr rfl
      rintro ⟨a, b⟩ hab
      rw [Finset.mem_antidiagonal] at hab
      have e1 : (⟨(Quat.mul (Quat.conj r) (negQuat q)).v.x, (Quat.mul (Quat.conj r) (negQuat q)).v.y⟩ : ℂ) =
          -⟨(Quat.mul (Quat.conj r) q).v.x, (Quat.mul (Quat.conj r) q).v.y⟩ := by
        apply Complex.ext <;> simp only [Complex.neg_re, Complex.neg_im, negQuat] <;> quat_simp <;> ring
      have e2 : (⟨(Quat.mul (Quat.conj r) (negQuat q)).v.z, (Quat.mul (Quat.conj r) (negQuat q)).s⟩ : ℂ) =
          -⟨(Quat.mul (Quat.conj r) q).v.z, (Quat.mul (Quat.conj r) q).s⟩ := by
        apply Complex.ext <;> simp only [Complex.neg_re, Complex.neg_im, negQuat] <;> quat_simp <;> ring
      simp only at hab ⊢
      rw [e1, e2, hharm _ _ a b (by omega) (by omega)]
    rw [RotAC.compute_eq l he refs _ (by simpa using a2) (by omega) order hord,
      RotAC.compute_eq l he refs qs a2 (by omega) order hord]
    have key : ∀ i ∈ List.range refs.length, particleOrder l (refs.getD i Quat.one)
        ((qs.mapIdx (fun i q => if flip i then negQuat q else q)).getD i Quat.one) =
        particleOrder l (refs.getD i Quat.one) (qs.getD i Quat.one) := by
      intro i hi
      have hi' : i < qs.length := by rw [← a2]; exact List.mem_range.mp hi
      rw [List.getD_eq_getElem?_getD, List.getD_eq_getElem?_getD, List.getD_eq_getElem?_getD, List.getElem?_mapIdx,
        List.getElem?_eq_getElem hi']
      simp only [Option.map_some, Option.getD_some]
      split_ifs
      · exact hpart _ _
      · rfl
    rw [List.map_congr_left key]
    have e2 := List.map_congr_left (fun i hi => congrArg Complex.re (key i hi))
    rw [e2]

/-- The assumptions hold for a quarter turn about the z axis: for `l = 2` its order is 1/3. -/
example : UnitQuat (Quat.one : Quat ℝ) ∧ UnitQuat (⟨Real.cos (Real.pi / 4), ⟨0, 0, Real.sin (Real.pi / 4)⟩⟩ : Quat ℝ) ∧
    RotAC.compute 2 [Quat.one] [⟨Real.cos (Real.pi / 4), ⟨0, 0, Real.sin (Real.pi / 4)⟩⟩] [0] = some ([((1 / 3 : ℝ) : ℂ)], 1 / 3) := by
  have h1 : UnitQuat (Quat.one : Quat ℝ) := by unfold UnitQuat quatInner Quat.one; norm_num
  have h2 : UnitQuat (⟨Real.cos (Real.pi / 4), ⟨0, 0, Real.sin (Real.pi / 4)⟩⟩ : Quat ℝ) := by
    unfold UnitQuat quatInner
    nlinarith [Real.sin_sq_add_cos_sq (Real.pi / 4)]
  refine ⟨h1, h2, ?_⟩
  rw [C72_value_partial 2 (by decide) (by decide) [Quat.one]
    [⟨Real.cos (Real.pi / 4), ⟨0, 0, Real.sin (Real.pi / 4)⟩⟩] rfl (by simp) (by simpa using h1) (by simpa using h2)
    (fun _ => Real.pi / 4) (by simp [quatInner, Quat.one]) [0] (List.Perm.refl _)]
  have : character 2 (Real.pi / 4) = 1 / 3 := by
    unfold character
    rw [Finset.sum_range_succ, Finset.sum_range_succ, Finset.sum_range_one]
    have a : Real.cos ((((2 : ℕ) : ℝ) - 2 * ((0 : ℕ) : ℝ)) * (Real.pi / 4)) = 0 := by
      rw [← Real.cos_pi_div_two]; congr 1; push_cast; ring
    have b : Real.cos ((((2 : ℕ) : ℝ) - 2 * ((1 : ℕ) : ℝ)) * (Real.pi / 4)) = 1 := by
      rw [← Real.cos_zero]; congr 1; push_cast; ring
    have c : Real.cos ((((2 : ℕ) : ℝ) - 2 * ((2 : ℕ) : ℝ)) * (Real.pi / 4)) = 0 := by
      rw [← Real.cos_neg, ← Real.cos_pi_div_two]; congr 1; push_cast; ring
    rw [a, b, c]
    norm_num
  simp [this]

end Freud
