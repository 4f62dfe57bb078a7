import Verif.Model.Vec3
import Mathlib.Data.Real.Basic

/-!
# Specification of the nematic order parameter
-/

namespace Freud.Spec

/-- Coordinate `0`, `1` or `2` of a vector. -/
def coord (v : Vec3 ℝ) : ℕ → ℝ
  | 0 => v.x
  | 1 => v.y
  | _ => v.z

/-- Entry `(a, b)` of the tensor of one orientation `o` (of any non-zero length): with the unit
vector `u = o / |o|` it is `(3 u_a u_b - δ_ab) / 2`. -/
noncomputable def nematicQ (o : Vec3 ℝ) (a b : ℕ) : ℝ :=
  (3 * (coord o a * coord o b) / Vec3.dot o o - if a = b then 1 else 0) / 2

/-- The second Legendre polynomial of the cosine of the angle between the orientation `o` and the
unit vector `d`. -/
noncomputable def P2 (o d : Vec3 ℝ) : ℝ := (3 * (Vec3.dot o d) ^ 2 / Vec3.dot o o - 1) / 2

/-- The mean of a quantity over the particles. -/
noncomputable def meanOver (os : List (Vec3 ℝ)) (f : Vec3 ℝ → ℝ) : ℝ :=
  (os.map f).sum / (os.length : ℝ)

/-- An eigendecomposition of a symmetric 3×3 matrix: eigenvalues in ascending order, orthonormal
eigenvectors. -/
structure Decomposition (m : ℕ → ℕ → ℝ) (vals : ℕ → ℝ) (vecs : ℕ → Vec3 ℝ) : Prop where
  ascending : vals 0 ≤ vals 1 ∧ vals 1 ≤ vals 2
  orthonormal : ∀ i < 3, ∀ j < 3, Vec3.dot (vecs i) (vecs j) = if i = j then 1 else 0
  eigen : ∀ i < 3, ∀ r < 3,
    m r 0 * (vecs i).x + m r 1 * (vecs i).y + m r 2 * (vecs i).z = vals i * coord (vecs i) r

/-- What is assumed of the external eigenvalue solver: it succeeds on symmetric matrices and
returns a decomposition. -/
def SolverOK (solve : (ℕ → ℕ → ℝ) → Option ((ℕ → ℝ) × (ℕ → Vec3 ℝ))) : Prop :=
  ∀ m : ℕ → ℕ → ℝ, (∀ r < 3, ∀ c < 3, m r c = m c r) →
    ∃ vals vecs, solve m = some (vals, vecs) ∧ Decomposition m vals vecs

end Freud.Spec
