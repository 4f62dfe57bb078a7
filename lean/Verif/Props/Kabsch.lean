import Verif.Props.Registration
import Mathlib.LinearAlgebra.Matrix.Adjugate
import Mathlib.LinearAlgebra.Matrix.Determinant.Basic
import Mathlib.LinearAlgebra.Matrix.NonsingularInverse
import Mathlib.LinearAlgebra.Matrix.Notation
import Mathlib.LinearAlgebra.Matrix.Trace
import Mathlib.Tactic.FinCases
import Mathlib.Tactic.LinearCombination

/-!
# C68: the Kabsch rotation is the best rotation
-/

namespace Freud
set_option linter.unusedSectionVars false
variable {K : Type*} [Field K] [LinearOrder K] [IsStrictOrderedRing K]

/-- A proper rotation: `R Rᵀ = 1` and determinant 1. -/
def Spec.Rotation (R : Mat3 K) : Prop := R.mul R.transpose = Mat3.one ∧ R.det = 1

/-- Sum of squared distances between the rotated first points and the second points. -/
def Spec.misfit (R : Mat3 K) (P Q : List (Vec3 K)) : K :=
  (List.zipWith (fun p q => Spec.sqDistance (R.mulVec p) q) P Q).sum

/-- `U`, `V` and `s₀ ≥ s₁ ≥ s₂ ≥ 0` are a singular value decomposition of `A`: `A = U diag(s) Vᵀ` with
orthogonal `U` and `V`. -/
structure Spec.IsSVD (A U V : Mat3 K) (s : Vec3 K) : Prop where
  u : U.mul U.transpose = Mat3.one
  v : V.mul V.transpose = Mat3.one
  decomp : A = (U.mul ⟨⟨s.x, 0, 0⟩, ⟨0, s.y, 0⟩, ⟨0, 0, s.z⟩⟩).mul V.transpose
  s01 : s.y ≤ s.x
  s12 : s.z ≤ s.y
  s2 : 0 ≤ s.z

open Spec
open Matrix

namespace Mat3

/-- The same matrix, for Mathlib. -/
def toM (m : Mat3 K) : Matrix (Fin 3) (Fin 3) K :=
  !![m.row0.x, m.row0.y, m.row0.z; m.row1.x, m.row1.y, m.row1.z; m.row2.x, m.row2.y, m.row2.z]

theorem toM_mul (a b : Mat3 K) : (a.mul b).toM = a.toM * b.toM := by
  ext i j
  fin_cases i <;> fin_cases j <;>
    simp [toM, mul, transpose, Vec3.dot, Matrix.mul_apply, Fin.sum_univ_three]

theorem toM_transpose (a : Mat3 K) : a.transpose.toM = a.toMᵀ := by
  ext i j
  fin_cases i <;> fin_cases j <;> simp [toM, transpose]

theorem toM_one : (one : Mat3 K).toM = 1 := by
  ext i j
  fin_cases i <;> fin_cases j <;> simp [toM, one]

theorem toM_det (a : Mat3 K) : a.toM.det = a.det := by
  rw [Matrix.det_fin_three]
  simp only [toM, det, Matrix.of_apply, Matrix.cons_val_zero, Matrix.cons_val_one, Matrix.cons_val]
  ring

theorem toM_injective {a b : Mat3 K} (h : a.toM = b.toM) : a = b := by
  have h' := fun i j => congrFun (congrFun h i) j
  have h00 := h' 0 0
  have h01 := h' 0 1
  have h02 := h' 0 2
  have h10 := h' 1 0
  have h11 := h' 1 1
  have h12 := h' 1 2
  have h20 := h' 2 0
  have h21 := h' 2 1
  have h22 := h' 2 2
  simp [toM] at h00 h01 h02 h10 h11 h12 h20 h21 h22
  ext <;> assumption

end Mat3

namespace Kabsch

theorem diag_le_one (M : Matrix (Fin 3) (Fin 3) K) (h : M * Mᵀ = 1) (i : Fin 3) : M i i ≤ 1 := by
  have hi := congrFun (congrFun h i) i
  rw [Matrix.mul_apply, Fin.sum_univ_three] at hi
  simp only [Matrix.transpose_apply, Matrix.one_apply_eq] at hi
  have h0 := mul_self_nonneg (M i 0)
  have h1 := mul_self_nonneg (M i 1)
  have h2 := mul_self_nonneg (M i 2)
  fin_cases i <;> simp only [Fin.zero_eta, Fin.mk_one, Fin.reduceFinMk] at * <;> nlinarith

theorem trace_aux (a b c d e f g h i : K) (r0 : a * a + b * b + c * c = 1)
    (r1 : d * d + e * e + f * f = 1) (r2 : g * g + h * h + i * i = 1)
    (a0 : e * i - f * h = -a) (a1 : a * i - c * g = -e) (a2 : a * e - b * d = -i) :
    a + e + i ≤ 1 := by
  have key : (a + e + i) * (a + e + i) + 2 * (a + e + i) ≤ 3 := by
    nlinarith [mul_self_nonneg (b - d), mul_self_nonneg (c - g), mul_self_nonneg (f - h)]
  by_contra hc
  push Not at hc
  nlinarith

theorem trace_le_one (M : Matrix (Fin 3) (Fin 3) K) (h : M * Mᵀ = 1) (hd : M.det = -1) :
    M 0 0 + M 1 1 + M 2 2 ≤ 1 := by
  have ht : Mᵀ * M = 1 := mul_eq_one_comm.mp h
  have hadj : M.adjugate = -Mᵀ := by
    have := Matrix.mul_adjugate M
    calc M.adjugate = (Mᵀ * M) * M.adjugate := by rw [ht, one_mul]
      _ = Mᵀ * (M * M.adjugate) := by rw [mul_assoc]
      _ = -Mᵀ := by rw [this, hd]; simp
  rw [Matrix.adjugate_fin_three] at hadj
  have a0 := congrFun (congrFun hadj 0) 0
  have a1 := congrFun (congrFun hadj 1) 1
  have a2 := congrFun (congrFun hadj 2) 2
  simp at a0 a1 a2
  have r0 := congrFun (congrFun h 0) 0
  have r1 := congrFun (congrFun h 1) 1
  have r2 := congrFun (congrFun h 2) 2
  simp only [Matrix.mul_apply, Fin.sum_univ_three, Matrix.transpose_apply, Matrix.one_apply_eq] at r0 r1 r2
  exact trace_aux _ _ _ _ _ _ _ _ _ r0 r1 r2 a0 a1 a2

/-- The bound on the trace that makes the rotation optimal. -/
theorem weighted_bound (M : Matrix (Fin 3) (Fin 3) K) (h : M * Mᵀ = 1) (s : Vec3 K)
    (h01 : s.y ≤ s.x) (h12 : s.z ≤ s.y) (h2 : 0 ≤ s.z) :
    (s.x * M 0 0 + s.y * M 1 1 + s.z * M 2 2 ≤ s.x + s.y + s.z) ∧
    (M.det = -1 → s.x * M 0 0 + s.y * M 1 1 + s.z * M 2 2 ≤ s.x + s.y - s.z) := by
  have d0 := diag_le_one M h 0
  have d1 := diag_le_one M h 1
  have d2 := diag_le_one M h 2
  constructor
  · nlinarith [mul_nonneg (le_trans h2 (le_trans h12 h01)) (sub_nonneg.mpr d0),
      mul_nonneg (le_trans h2 h12) (sub_nonneg.mpr d1), mul_nonneg h2 (sub_nonneg.mpr d2)]
  · intro hd
    have ht := trace_le_one M h hd
    nlinarith [mul_nonneg h2 (sub_nonneg.mpr ht), mul_nonneg (sub_nonneg.mpr (le_trans h12 h01)) (sub_nonneg.mpr d0),
      mul_nonneg (sub_nonneg.mpr h12) (sub_nonneg.mpr d1)]

/-- `Σᵢⱼ Rᵢⱼ Aⱼᵢ`. -/
def tr (R A : Mat3 K) : K :=
  Vec3.dot R.row0 ⟨A.row0.x, A.row1.x, A.row2.x⟩ + Vec3.dot R.row1 ⟨A.row0.y, A.row1.y, A.row2.y⟩ +
    Vec3.dot R.row2 ⟨A.row0.z, A.row1.z, A.row2.z⟩

theorem tr_eq (R A : Mat3 K) : tr R A = (R.toM * A.toM).trace := by
  simp [tr, Mat3.toM, Matrix.trace, Matrix.mul_apply, Fin.sum_univ_three, Vec3.dot]
  ring

theorem tr_madd (R A B : Mat3 K) : tr R (Reg.madd A B) = tr R A + tr R B := by
  simp only [tr, Reg.madd, Vec3.dot, Vec3.add_x, Vec3.add_y, Vec3.add_z]; ring

theorem tr_covariance (R : Mat3 K) (P Q : List (Vec3 K)) :
    tr R (Reg.covariance P Q) = (List.zipWith (fun p q => Vec3.dot (R.mulVec p) q) P Q).sum := by
  have key : ∀ (P Q : List (Vec3 K)) (A : Mat3 K),
      tr R ((List.zipWith Reg.outer P Q).foldl Reg.madd A) =
        tr R A + (List.zipWith (fun p q => Vec3.dot (R.mulVec p) q) P Q).sum := by
    intro P
    induction P with
    | nil => intro Q A; simp
    | cons p P ih =>
      intro Q A
      cases Q with
      | nil => simp
      | cons q Q =>
        rw [List.zipWith_cons_cons, List.foldl_cons, ih, tr_madd, List.zipWith_cons_cons, List.sum_cons]
        have : tr R (Reg.outer p q) = Vec3.dot (R.mulVec p) q := by
          simp only [tr, Reg.outer, Mat3.mulVec, Vec3.dot]; ring
        rw [this]; ring
  have := key P Q ⟨⟨0, 0, 0⟩, ⟨0, 0, 0⟩, ⟨0, 0, 0⟩⟩
  unfold Reg.covariance
  rw [this]
  simp [tr, Vec3.dot]

/-- Lengths are kept by orthogonal matrices. -/
theorem norm_mulVec (R : Mat3 K) (h : R.mul R.transpose = Mat3.one) (p : Vec3 K) :
    Vec3.dot (R.mulVec p) (R.mulVec p) = Vec3.dot p p := by
  have h' : R.toM * R.toMᵀ = 1 := by
    rw [← Mat3.toM_transpose, ← Mat3.toM_mul, h, Mat3.toM_one]
  have ht : R.toMᵀ * R.toM = 1 := mul_eq_one_comm.mp h'
  have e := fun i j => congrFun (congrFun ht i) j
  have e00 := e 0 0
  have e01 := e 0 1
  have e02 := e 0 2
  have e11 := e 1 1
  have e12 := e 1 2
  have e22 := e 2 2
  simp [Mat3.toM, Matrix.mul_apply, Fin.sum_univ_three] at e00 e01 e02 e11 e12 e22
  simp only [Mat3.mulVec, Vec3.dot]
  linear_combination p.x * p.x * e00 + 2 * p.x * p.y * e01 + 2 * p.x * p.z * e02 + p.y * p.y * e11 +
    2 * p.y * p.z * e12 + p.z * p.z * e22

theorem misfit_eq (R : Mat3 K) (h : R.mul R.transpose = Mat3.one) (P Q : List (Vec3 K)) :
    misfit R P Q = (List.zipWith (fun p q => Vec3.dot p p + Vec3.dot q q) P Q).sum -
      2 * tr R (Reg.covariance P Q) := by
  rw [tr_covariance]
  unfold misfit
  induction P generalizing Q with
  | nil => simp
  | cons p P ih =>
    cases Q with
    | nil => simp
    | cons q Q =>
      simp only [List.zipWith_cons_cons, List.sum_cons]
      rw [ih]
      have e : sqDistance (R.mulVec p) q = Vec3.dot p p + Vec3.dot q q - 2 * Vec3.dot (R.mulVec p) q := by
        rw [← norm_mulVec R h p]
        simp only [sqDistance, Vec3.dot]; ring
      rw [e]; ring

theorem negLastCol_eq (V : Mat3 K) : (Reg.negLastCol V).toM = V.toM * Matrix.diagonal ![1, 1, -1] := by
  ext i j
  fin_cases i <;> fin_cases j <;>
    simp [Mat3.toM, Reg.negLastCol, Matrix.mul_apply, Fin.sum_univ_three, Matrix.diagonal]

theorem diag_sq : (Matrix.diagonal ![1, 1, -1] : Matrix (Fin 3) (Fin 3) K) * (Matrix.diagonal ![1, 1, -1])ᵀ = 1 := by
  rw [Matrix.diagonal_transpose, Matrix.diagonal_mul_diagonal, ← Matrix.diagonal_one]
  congr 1
  funext i
  fin_cases i <;> simp

theorem diag_det : (Matrix.diagonal ![1, 1, -1] : Matrix (Fin 3) (Fin 3) K).det = -1 := by
  rw [Matrix.det_diagonal, Fin.prod_univ_three]
  simp

theorem det_sq (M : Matrix (Fin 3) (Fin 3) K) (h : M * Mᵀ = 1) : M.det = 1 ∨ M.det = -1 := by
  have := congrArg Matrix.det h
  rw [Matrix.det_mul, Matrix.det_transpose, Matrix.det_one] at this
  exact mul_self_eq_one_iff.mp this

end Kabsch

/-- **C68**: if the singular value decomposition is one of `Pᵀ Q`, the matrix returned by the Kabsch
algorithm is a proper rotation, and no proper rotation brings the points `P` closer to the points `Q`
(in the sum of squared distances). -/
theorem C68_kabsch_is_optimal (svd : Mat3 K → Mat3 K × Mat3 K) (P Q : List (Vec3 K)) (s : Vec3 K)
    (hsvd : IsSVD (Reg.covariance P Q) (svd (Reg.covariance P Q)).1 (svd (Reg.covariance P Q)).2 s) :
    Rotation (Reg.kabsch svd P Q) ∧
    ∀ R, Rotation R → misfit (Reg.kabsch svd P Q) P Q ≤ misfit R P Q := by
  set A := Reg.covariance P Q with hA
  set U := (svd A).1 with hU
  set V := (svd A).2 with hV
  set S : Mat3 K := ⟨⟨s.x, 0, 0⟩, ⟨0, s.y, 0⟩, ⟨0, 0, s.z⟩⟩ with hS
  have hu : U.toM * U.toMᵀ = 1 := by rw [← Mat3.toM_transpose, ← Mat3.toM_mul, hsvd.u, Mat3.toM_one]
  have hv : V.toM * V.toMᵀ = 1 := by rw [← Mat3.toM_transpose, ← Mat3.toM_mul, hsvd.v, Mat3.toM_one]
  have hu' : U.toMᵀ * U.toM = 1 := mul_eq_one_comm.mp hu
  have hv' : V.toMᵀ * V.toM = 1 := mul_eq_one_comm.mp hv
  have hdec : A.toM = U.toM * S.toM * V.toMᵀ := by
    rw [hsvd.decomp, Mat3.toM_mul, Mat3.toM_mul, Mat3.toM_transpose]
  -- the trace in terms of M = Vᵀ R U
  have htr : ∀ R : Mat3 K, Kabsch.tr R A = s.x * (V.toMᵀ * R.toM * U.toM) 0 0 +
      s.y * (V.toMᵀ * R.toM * U.toM) 1 1 + s.z * (V.toMᵀ * R.toM * U.toM) 2 2 := by
    intro R
    rw [Kabsch.tr_eq, hdec]
    have : (R.toM * (U.toM * S.toM * V.toMᵀ)).trace = (V.toMᵀ * R.toM * U.toM * S.toM).trace := by
      rw [← mul_assoc, Matrix.trace_mul_comm]
      simp only [mul_assoc]
    rw [this]
    have hSd : S.toM = Matrix.diagonal ![s.x, s.y, s.z] := by
      ext i j
      fin_cases i <;> fin_cases j <;> simp [hS, Mat3.toM, Matrix.diagonal]
    rw [hSd]
    simp only [Matrix.trace, Matrix.diag_apply, Matrix.mul_diagonal, Fin.sum_univ_three]
    simp
    ring
  have hortho : ∀ R : Mat3 K, R.toM * R.toMᵀ = 1 →
      (V.toMᵀ * R.toM * U.toM) * (V.toMᵀ * R.toM * U.toM)ᵀ = 1 := by
    intro R hR
    rw [Matrix.transpose_mul, Matrix.transpose_mul, Matrix.transpose_transpose]
    calc V.toMᵀ * R.toM * U.toM * (U.toMᵀ * (R.toMᵀ * V.toM))
        = V.toMᵀ * R.toM * (U.toM * U.toMᵀ) * (R.toMᵀ * V.toM) := by simp only [mul_assoc]
      _ = V.toMᵀ * (R.toM * R.toMᵀ) * V.toM := by rw [hu]; simp only [mul_assoc, mul_one, one_mul]
      _ = 1 := by rw [hR, mul_one, hv']
  set D : Matrix (Fin 3) (Fin 3) K := Matrix.diagonal ![1, 1, -1] with hD
  have hdetVU : (V.mul U.transpose).det = V.toM.det * U.toM.det := by
    rw [← Mat3.toM_det, Mat3.toM_mul, Mat3.toM_transpose, Matrix.det_mul, Matrix.det_transpose]
  have hbound : ∀ R : Mat3 K, Rotation R → Kabsch.tr R A ≤ s.x + s.y + s.z ∧
      ((V.mul U.transpose).det < 0 → Kabsch.tr R A ≤ s.x + s.y - s.z) := by
    intro R hR
    have hRo : R.toM * R.toMᵀ = 1 := by
      rw [← Mat3.toM_transpose, ← Mat3.toM_mul, hR.1, Mat3.toM_one]
    have hb := Kabsch.weighted_bound _ (hortho R hRo) s hsvd.s01 hsvd.s12 hsvd.s2
    rw [htr]
    refine ⟨hb.1, fun hneg => hb.2 ?_⟩
    rw [Matrix.det_mul, Matrix.det_mul, Matrix.det_transpose, Mat3.toM_det R, hR.2, mul_one, ← hdetVU]
    have : (V.toM * U.toMᵀ) * (V.toM * U.toMᵀ)ᵀ = 1 := by
      rw [Matrix.transpose_mul, Matrix.transpose_transpose]
      calc V.toM * U.toMᵀ * (U.toM * V.toMᵀ) = V.toM * (U.toMᵀ * U.toM) * V.toMᵀ := by
            simp only [mul_assoc]
        _ = 1 := by rw [hu', mul_one, hv]
    rcases Kabsch.det_sq _ this with h | h
    · rw [← Mat3.toM_transpose, ← Mat3.toM_mul, Mat3.toM_det] at h
      rw [h] at hneg
      linarith
    · rw [← Mat3.toM_transpose, ← Mat3.toM_mul, Mat3.toM_det] at h
      exact h
  have hdets : (V.mul U.transpose).det = 1 ∨ (V.mul U.transpose).det = -1 := by
    have : (V.toM * U.toMᵀ) * (V.toM * U.toMᵀ)ᵀ = 1 := by
      rw [Matrix.transpose_mul, Matrix.transpose_transpose]
      calc V.toM * U.toMᵀ * (U.toM * V.toMᵀ) = V.toM * (U.toMᵀ * U.toM) * V.toMᵀ := by
            simp only [mul_assoc]
        _ = 1 := by rw [hu', mul_one, hv]
    have := Kabsch.det_sq _ this
    rwa [← Mat3.toM_transpose, ← Mat3.toM_mul, Mat3.toM_det] at this
  have hmain : Rotation (Reg.kabsch svd P Q) ∧
      Kabsch.tr (Reg.kabsch svd P Q) A = if (V.mul U.transpose).det < 0 then s.x + s.y - s.z else s.x + s.y + s.z := by
    have hk : (Reg.kabsch svd P Q).toM =
        (if (V.mul U.transpose).det < 0 then V.toM * D else V.toM) * U.toMᵀ := by
      unfold Reg.kabsch
      simp only [← hA, ← hU, ← hV]
      rw [Mat3.toM_mul, Mat3.toM_transpose]
      split_ifs
      · rw [Kabsch.negLastCol_eq]
      · rfl
    have hkt : Kabsch.tr (Reg.kabsch svd P Q) A = if (V.mul U.transpose).det < 0 then s.x + s.y - s.z else s.x + s.y + s.z := by
      rw [htr, hk]
      split_ifs with hneg
      · have : V.toMᵀ * (V.toM * D * U.toMᵀ) * U.toM = D := by
          calc V.toMᵀ * (V.toM * D * U.toMᵀ) * U.toM = (V.toMᵀ * V.toM) * D * (U.toMᵀ * U.toM) := by
                simp only [mul_assoc]
            _ = D := by rw [hv', hu', one_mul, mul_one]
        rw [this, hD]
        simp [Matrix.diagonal]
        ring
      · have : V.toMᵀ * (V.toM * U.toMᵀ) * U.toM = 1 := by
          calc V.toMᵀ * (V.toM * U.toMᵀ) * U.toM = (V.toMᵀ * V.toM) * (U.toMᵀ * U.toM) := by
                simp only [mul_assoc]
            _ = 1 := by rw [hv', hu', one_mul]
        rw [this]
        simp
    refine ⟨⟨?_, ?_⟩, hkt⟩
    · apply Mat3.toM_injective
      rw [Mat3.toM_mul, Mat3.toM_transpose, Mat3.toM_one, hk]
      split_ifs with hneg
      · rw [Matrix.transpose_mul, Matrix.transpose_mul, Matrix.transpose_transpose]
        calc V.toM * D * U.toMᵀ * (U.toM * (Dᵀ * V.toMᵀ))
            = V.toM * D * (U.toMᵀ * U.toM) * Dᵀ * V.toMᵀ := by simp only [mul_assoc]
          _ = V.toM * (D * Dᵀ) * V.toMᵀ := by rw [hu', mul_one]; simp only [mul_assoc]
          _ = 1 := by rw [hD, Kabsch.diag_sq, mul_one, hv]
      · rw [Matrix.transpose_mul, Matrix.transpose_transpose]
        calc V.toM * U.toMᵀ * (U.toM * V.toMᵀ) = V.toM * (U.toMᵀ * U.toM) * V.toMᵀ := by
              simp only [mul_assoc]
          _ = 1 := by rw [hu', mul_one, hv]
    · rw [← Mat3.toM_det, hk]
      split_ifs with hneg
      · rw [Matrix.det_mul, Matrix.det_mul, Matrix.det_transpose, hD, Kabsch.diag_det]
        rcases hdets with h | h
        · rw [h] at hneg; linarith
        · rw [hdetVU] at h; linear_combination -h
      · rw [Matrix.det_mul, Matrix.det_transpose, ← hdetVU]
        rcases hdets with h | h
        · exact h
        · rw [h] at hneg; exact absurd (by linarith) hneg
  refine ⟨hmain.1, fun R hR => ?_⟩
  rw [Kabsch.misfit_eq _ hmain.1.1, Kabsch.misfit_eq _ hR.1, ← hA, hmain.2]
  have hb := hbound R hR
  split_ifs with hneg
  · have := hb.2 hneg; linarith
  · have := hb.1; linarith

/-- Three points and their mirror images: the decomposition has `det (V Uᵀ) = -1`, and the last column
is flipped. -/
example :
    let P : List (Vec3 ℚ) := [⟨3, 0, 0⟩, ⟨0, 2, 0⟩, ⟨0, 0, 1⟩]
    let Q : List (Vec3 ℚ) := [⟨3, 0, 0⟩, ⟨0, 2, 0⟩, ⟨0, 0, -1⟩]
    let U : Mat3 ℚ := Mat3.one
    let V : Mat3 ℚ := ⟨⟨1, 0, 0⟩, ⟨0, 1, 0⟩, ⟨0, 0, -1⟩⟩
    IsSVD (Reg.covariance P Q) U V ⟨9, 4, 1⟩ ∧
    Reg.kabsch (fun _ => (U, V)) P Q = Mat3.one ∧ misfit Mat3.one P Q = 4 := by
  refine ⟨⟨by decide +kernel, by decide +kernel, by decide +kernel, by decide +kernel, by decide +kernel, by decide +kernel⟩,
    by decide +kernel, by decide +kernel⟩

end Freud
