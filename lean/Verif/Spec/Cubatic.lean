import Verif.Model.Quat
import Mathlib.Analysis.SpecialFunctions.Trigonometric.Basic

/-!
# Specification of the cubatic order parameter
-/

namespace Freud.Spec
open Freud

/-- The three axes of a cube with the orientation `q`. -/
noncomputable def cubeAxes (q : Quat ℝ) : List (Vec3 ℝ) :=
  [Quat.rotate q ⟨1, 0, 0⟩, Quat.rotate q ⟨0, 1, 0⟩, Quat.rotate q ⟨0, 0, 1⟩]

/-- The sum of the fourth powers of the nine cosines between the axes of two cubes. -/
noncomputable def cubeOverlap (p q : Quat ℝ) : ℝ :=
  ((cubeAxes p).map fun u => ((cubeAxes q).map fun v => (Vec3.dot u v) ^ 4).sum).sum

/-- How similar the orientations of two cubes are: 1 for cubes with the same axes. -/
noncomputable def similarity (p q : Quat ℝ) : ℝ := 5 / 6 * cubeOverlap p q - 3 / 2

/-- The mean over the particles. -/
noncomputable def cubeMean (os : List (Quat ℝ)) (f : Quat ℝ → ℝ) : ℝ :=
  (os.map f).sum / (os.length : ℝ)

/-- The cubatic order of the particles `os` with respect to the orientation `q`. -/
noncomputable def cubaticOrder (os : List (Quat ℝ)) (q : Quat ℝ) : ℝ :=
  2 * cubeMean os (similarity q) - cubeMean os (fun o => cubeMean os (similarity o))

/-- The cubes have the same three axes, up to their signs and order. -/
def SameCube (p q : Quat ℝ) : Prop :=
  ∀ u ∈ cubeAxes p, ∃ v ∈ cubeAxes q, u = v ∨ u = -v

/-- Component 0, 1 or 2 of a vector. -/
def component (v : Vec3 ℝ) : ℕ → ℝ
  | 0 => v.x
  | 1 => v.y
  | _ => v.z

/-- Entry `(i, j, k, l)` of the cubatic tensor of an orientation: twice the sum over the axes of the
products of components, minus `2/5` of the symmetrized products of Kronecker deltas. -/
noncomputable def cubeTensor (q : Quat ℝ) (i j k l : ℕ) : ℝ :=
  2 * ((cubeAxes q).map fun u => component u i * component u j * component u k * component u l).sum -
    2 / 5 * ((if i = j ∧ k = l then 1 else 0) + (if i = k ∧ j = l then 1 else 0) +
      (if i = l ∧ j = k then 1 else 0))

/-- A unit quaternion that turns by at most `angle`. -/
def SmallRotation (angle : ℝ) (m : Quat ℝ) : Prop :=
  Quat.norm2 m = 1 ∧ Real.cos (angle / 2) ≤ m.s

/-- `Anneals f tFinal scale numbers n t x y`: at most `n` steps of simulated annealing, from temperature
`t` and orientation `x`, end at `y`. Each step turns the orientation by at most a tenth of a radian. It
is accepted if it increases `f`, or if a random number is at most the Boltzmann factor. Accepted steps
lower the temperature by the factor `scale`. The process ends as soon as the temperature has reached
`tFinal`, or after the last of the `n` steps. -/
inductive Anneals (f : Quat ℝ → ℝ) (tFinal scale : ℝ) (numbers : Set ℝ) :
    ℕ → ℝ → Quat ℝ → Quat ℝ → Prop
  | cold (n : ℕ) (t : ℝ) (x : Quat ℝ) (h : t ≤ tFinal) : Anneals f tFinal scale numbers n t x x
  | last (t : ℝ) (x : Quat ℝ) : Anneals f tFinal scale numbers 0 t x x
  | better (n : ℕ) (t : ℝ) (x m y : Quat ℝ) (h : tFinal < t) (hm : SmallRotation (1 / 10) m)
      (hb : f x < f (Quat.mul m x)) (next : Anneals f tFinal scale numbers n (t * scale) (Quat.mul m x) y) :
      Anneals f tFinal scale numbers (n + 1) t x y
  | worse (n : ℕ) (t : ℝ) (x m y : Quat ℝ) (u : ℝ) (h : tFinal < t) (hm : SmallRotation (1 / 10) m)
      (hb : f (Quat.mul m x) ≤ f x) (hu : u ∈ numbers)
      (hac : u ≤ Real.exp ((f (Quat.mul m x) - f x) / t))
      (next : Anneals f tFinal scale numbers n (t * scale) (Quat.mul m x) y) :
      Anneals f tFinal scale numbers (n + 1) t x y
  | rejected (n : ℕ) (t : ℝ) (x m y : Quat ℝ) (u : ℝ) (h : tFinal < t) (hm : SmallRotation (1 / 10) m)
      (hb : f (Quat.mul m x) ≤ f x) (hu : u ∈ numbers)
      (hre : Real.exp ((f (Quat.mul m x) - f x) / t) < u)
      (next : Anneals f tFinal scale numbers n t x y) :
      Anneals f tFinal scale numbers (n + 1) t x y

end Freud.Spec
