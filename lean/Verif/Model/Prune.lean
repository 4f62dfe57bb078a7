import Verif.Model.KPoints
import Mathlib.Analysis.SpecialFunctions.Pow.Complex

/-!
# Pruning of the wave vectors

Model of the pruning distances and of the random choice in
`freud/diffraction/StaticStructureFactorDirect.cc`, over the real and complex numbers. An infinite distance is
`none`. The random numbers are a parameter, one for each vector: the generator is not modelled.
-/

namespace Freud.KPoints

/-- `get_prune_distance2D`, `freud/diffraction/StaticStructureFactorDirect.cc:216-232`. -/
noncomputable def prune2 (num : ℕ) (qMax qArea : ℝ) : Option ℝ :=
  if (num : ℝ) > Real.pi * qMax ^ 2 / (4 * qArea) ∨ num = 0 then none
  else
    let discriminant := max 0 (qMax * qMax - 4 * (num : ℝ) * qArea / Real.pi)
    some (qMax - Real.sqrt discriminant)

/-- `get_prune_distance3D`, `freud/diffraction/StaticStructureFactorDirect.cc:197-214`. The roots and powers are
principal values, as in C++; C++ distinguishes `-0` from `0` in the imaginary part, which is not modelled and
matters only for `D = 0`. -/
noncomputable def prune3 (num : ℕ) (qMax qVolume : ℝ) : Option ℝ :=
  if (num : ℝ) > Real.pi * qMax ^ 3 / (6 * qVolume) ∨ num = 0 then none
  else
    let p := -(3 / 4) * qMax * qMax
    let q := 3 * (num : ℝ) * qVolume / Real.pi - qMax * qMax * qMax / 4
    let D := p * p * p / 27 + q * q / 4
    let u : ℂ := (-((q / 2 : ℝ) : ℂ) + (D : ℂ) ^ ((1 : ℂ) / 2)) ^ ((1 : ℂ) / 3)
    let v : ℂ := (-((q / 2 : ℝ) : ℂ) - (D : ℂ) ^ ((1 : ℂ) / 2)) ^ ((1 : ℂ) / 3)
    let x : ℂ := -(u + v) / 2 - Complex.I * (u - v) * ((Real.sqrt 3 : ℝ) : ℂ) / 2
    some (x.re + qMax / 2)

/-- The pruning distance of a box, `freud/diffraction/StaticStructureFactorDirect.cc:294-301, 357-365`. -/
noncomputable def pruneDistance (b : Box ℝ) (kMax : ℝ) (num : ℕ) : Option ℝ :=
  let q := kMax / (2 * Real.pi)
  if b.is2D then
    let B := recip2 b
    prune2 num q (Vec3.norm B.1 * Vec3.norm B.2)
  else
    let B := recip3 b
    prune3 num q (Vec3.norm B.1 * Vec3.norm B.2.1 * Vec3.norm B.2.2)

/-- The random part of `should_keep_k_vector2D/3D`, `freud/diffraction/StaticStructureFactorDirect.cc:254-272`: the
vector `k` is kept if the probability is above the random number `r`. A division by zero gives infinity. -/
noncomputable def accept (is2D : Bool) (d : Option ℝ) (k : Vec3 ℝ) (r : ℝ) : Bool :=
  let q2 := Vec3.dot k k / (2 * Real.pi) / (2 * Real.pi)
  match d with
  | none => true
  | some d =>
    if is2D then decide (q2 = 0 ∨ d / Real.sqrt q2 > r)
    else decide (q2 = 0 ∨ d * d / q2 > r)

/-- The vector of the loop indices, `freud/diffraction/StaticStructureFactorDirect.cc:304-305, 317, 337, 366-368, 384,
387, 406`. -/
noncomputable def loopVector (b : Box ℝ) (kx ky kz : ℕ) : Vec3 ℝ :=
  if b.is2D then
    let B := recip2 b
    Vec3.smul (kx : ℝ) (Vec3.smul (2 * Real.pi) B.1) + Vec3.smul (ky : ℝ) (Vec3.smul (2 * Real.pi) B.2)
  else
    let B := recip3 b
    Vec3.smul (kx : ℝ) (Vec3.smul (2 * Real.pi) B.1) + Vec3.smul (ky : ℝ) (Vec3.smul (2 * Real.pi) B.2.1) +
      Vec3.smul (kz : ℝ) (Vec3.smul (2 * Real.pi) B.2.2)

/-- `reciprocal_isotropic` with the random numbers `r`, `freud/diffraction/StaticStructureFactorDirect.cc:274-425`. -/
noncomputable def sampleRandom (cast : Option ℤ → ℕ) (b : Box ℝ) (kMax kMin : ℝ) (num : ℕ)
    (r : ℕ → ℕ → ℕ → ℝ) : List (Vec3 ℝ) :=
  sample cast b kMax kMin num (fun i j l => accept b.is2D (pruneDistance b kMax num) (loopVector b i j l) (r i j l))

end Freud.KPoints
