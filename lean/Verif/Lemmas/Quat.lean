import Verif.Model.Quat
import Mathlib.Tactic.Ring
import Mathlib.Tactic.LinearCombination

/-!
# Algebra of quaternions
-/

namespace Freud
namespace Quat
variable {K : Type*} [Field K]

/-- Unfolds the operations to components. -/
macro "quat_simp" : tactic =>
  `(tactic| simp only [Quat.mul, Quat.conj, Quat.rotate, Quat.one, Quat.norm2, Quat.dot, Mat3.ofQuat,
    Mat3.mulVec, Mat3.mul, Mat3.transpose, Mat3.det, Mat3.one, Vec3.dot, Vec3.cross, Vec3.smul,
    Vec3.add_x, Vec3.add_y, Vec3.add_z, Vec3.neg_x, Vec3.neg_y, Vec3.neg_z, Vec3.sub_x, Vec3.sub_y,
    Vec3.sub_z])

theorem mul_assoc' (a b c : Quat K) : mul (mul a b) c = mul a (mul b c) := by
  ext <;> quat_simp <;> ring

theorem one_mul' (a : Quat K) : mul one a = a := by
  ext <;> quat_simp <;> ring

theorem mul_one' (a : Quat K) : mul a one = a := by
  ext <;> quat_simp <;> ring

theorem conj_mul (a b : Quat K) : conj (mul a b) = mul (conj b) (conj a) := by
  ext <;> quat_simp <;> ring

theorem conj_conj (a : Quat K) : conj (conj a) = a := by
  ext <;> quat_simp <;> ring

theorem norm2_mul (a b : Quat K) : norm2 (mul a b) = norm2 a * norm2 b := by
  quat_simp; ring

theorem norm2_conj (a : Quat K) : norm2 (conj a) = norm2 a := by
  quat_simp; ring

theorem mul_conj_self (a : Quat K) (h : norm2 a = 1) : mul a (conj a) = one := by
  simp only [norm2, Vec3.dot] at h
  ext <;> quat_simp
  · linear_combination h
  all_goals ring

theorem conj_mul_self (a : Quat K) (h : norm2 a = 1) : mul (conj a) a = one := by
  simp only [norm2, Vec3.dot] at h
  ext <;> quat_simp
  · linear_combination h
  all_goals ring

theorem rotate_mul (a b : Quat K) (v : Vec3 K) : rotate (mul a b) v = rotate a (rotate b v) := by
  ext <;> quat_simp <;> ring

theorem rotate_one (v : Vec3 K) : rotate one v = v := by
  ext <;> quat_simp <;> ring

theorem rotate_conj_rotate (a : Quat K) (h : norm2 a = 1) (v : Vec3 K) :
    rotate (conj a) (rotate a v) = v := by
  rw [← rotate_mul, conj_mul_self a h, rotate_one]

theorem rotate_rotate_conj (a : Quat K) (h : norm2 a = 1) (v : Vec3 K) :
    rotate a (rotate (conj a) v) = v := by
  rw [← rotate_mul, mul_conj_self a h, rotate_one]

theorem dot_rotate (a : Quat K) (v w : Vec3 K) :
    Vec3.dot (rotate a v) (rotate a w) = norm2 a ^ 2 * Vec3.dot v w := by
  quat_simp; ring

theorem ofQuat_mulVec (a : Quat K) (v : Vec3 K) : (Mat3.ofQuat a).mulVec v = rotate a v := by
  ext <;> quat_simp <;> ring

end Quat
end Freud
