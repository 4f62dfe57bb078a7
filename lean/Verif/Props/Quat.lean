import Verif.Lemmas.Quat
import Mathlib.Data.Real.Sqrt
import Mathlib.Tactic.Linarith
import Mathlib.Tactic.FieldSimp
import Mathlib.Data.Rat.Floor

/-!
# C53: orientations act as rotations
-/

namespace Freud
open Quat
variable {K : Type*} [Field K]

/-- **C53**: rotating by a unit quaternion keeps lengths, angles and handedness, and is undone by
rotating with the conjugate. -/
theorem C53_rotate_is_rotation (q : Quat K) (h : norm2 q = 1) :
    (∀ v w, Vec3.dot (rotate q v) (rotate q w) = Vec3.dot v w) ∧
    (∀ v w, Vec3.cross (rotate q v) (rotate q w) = rotate q (Vec3.cross v w)) ∧
    (∀ v w c, rotate q (v + Vec3.smul c w) = rotate q v + Vec3.smul c (rotate q w)) ∧
    (∀ v, rotate (conj q) (rotate q v) = v) ∧ (∀ v, rotate q (rotate (conj q) v) = v) := by
  refine ⟨fun v w => ?_, fun v w => ?_, fun v w c => ?_, rotate_conj_rotate q h,
    rotate_rotate_conj q h⟩
  · rw [dot_rotate, h]; ring
  · have : Vec3.cross (rotate q v) (rotate q w) =
        Vec3.smul (norm2 q) (rotate q (Vec3.cross v w)) := by
      ext <;> quat_simp <;> ring
    rw [this, h]
    ext <;> simp
  · ext <;> quat_simp <;> ring

/-- **C53**: rotating by a product is rotating by the second factor, then by the first; products and
conjugates of unit quaternions are unit quaternions; `q` and `-q` rotate alike. -/
theorem C53_composition (p q : Quat K) (v : Vec3 K) :
    rotate (mul p q) v = rotate p (rotate q v) ∧ norm2 (mul p q) = norm2 p * norm2 q ∧
      norm2 (conj q) = norm2 q ∧ rotate ⟨-q.s, -q.v⟩ v = rotate q v := by
  refine ⟨rotate_mul p q v, norm2_mul p q, norm2_conj q, ?_⟩
  ext <;> quat_simp <;> ring

/-- **C53**: the rotation matrix of a quaternion acts like the quaternion; for a unit quaternion its
transpose is its inverse and its determinant is 1; matrix products match quaternion products. -/
theorem C53_matrix (p q : Quat K) (h : norm2 q = 1) (v : Vec3 K) :
    (Mat3.ofQuat q).mulVec v = rotate q v ∧
    Mat3.mul (Mat3.ofQuat q) (Mat3.transpose (Mat3.ofQuat q)) = Mat3.one ∧
    Mat3.mul (Mat3.transpose (Mat3.ofQuat q)) (Mat3.ofQuat q) = Mat3.one ∧
    Mat3.det (Mat3.ofQuat q) = 1 ∧
    Mat3.ofQuat (mul p q) = Mat3.mul (Mat3.ofQuat p) (Mat3.ofQuat q) := by
  simp only [norm2, Vec3.dot] at h
  have h2 : (q.s * q.s + (q.v.x * q.v.x + q.v.y * q.v.y + q.v.z * q.v.z)) ^ 2 = 1 := by rw [h]; ring
  refine ⟨ofQuat_mulVec q v, ?_, ?_, ?_, ?_⟩
  · ext <;> quat_simp
    all_goals first
      | ring1
      | linear_combination h2
  · ext <;> quat_simp
    all_goals first
      | ring1
      | linear_combination h2
  · have h3 : (q.s * q.s + (q.v.x * q.v.x + q.v.y * q.v.y + q.v.z * q.v.z)) ^ 3 = 1 := by
      rw [h]; ring
    quat_simp
    linear_combination h3
  · ext <;> quat_simp <;> ring

/-- The hypothesis is met by a rotation by a non-trivial angle about a tilted axis. -/
example : norm2 (⟨1 / 2, ⟨1 / 2, -1 / 2, 1 / 2⟩⟩ : Quat ℚ) = 1 ∧
    rotate (⟨1 / 2, ⟨1 / 2, -1 / 2, 1 / 2⟩⟩ : Quat ℚ) ⟨1, 2, 3⟩ = ⟨-2, -3, 1⟩ := by
  refine ⟨by decide +kernel, by decide +kernel⟩

end Freud
