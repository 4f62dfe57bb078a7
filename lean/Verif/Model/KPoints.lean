import Verif.Model.BoxReal
import Mathlib.Analysis.SpecialFunctions.Trigonometric.Basic

/-!
# Sampling of wave vectors

Model of `reciprocal_isotropic` in `freud/diffraction/StaticStructureFactorDirect.cc` over the real
numbers.

The conversion of a floating point number to `unsigned int` is undefined in C++ when the number is
negative or not a number, and the code does convert such numbers; the result of a conversion is the
parameter `cast`, applied to the number (`none` for not a number). The random decisions are the
parameter `coin`. The outer loop is parallel and appends to a concurrent vector: what the function
returns is a permutation of the list computed here.
-/

namespace Freud.KPoints

/-- The reciprocal vectors of a 3D box without the factor `2π`, the rows of the inverse of the
transposed box matrix, `freud/diffraction/StaticStructureFactorDirect.cc:169-182, 357-358`; the inverse
is by cofactors. -/
noncomputable def recip3 (b : Box ℝ) : Vec3 ℝ × Vec3 ℝ × Vec3 ℝ :=
  let a1 : Vec3 ℝ := ⟨b.L.x, 0, 0⟩
  let a2 : Vec3 ℝ := ⟨b.L.y * b.xy, b.L.y, 0⟩
  let a3 : Vec3 ℝ := ⟨b.L.z * b.xz, b.L.z * b.yz, b.L.z⟩
  let v := Vec3.dot a1 (Vec3.cross a2 a3)
  (Vec3.smul (1 / v) (Vec3.cross a2 a3), Vec3.smul (1 / v) (Vec3.cross a3 a1),
    Vec3.smul (1 / v) (Vec3.cross a1 a2))

/-- The reciprocal vectors of a 2D box,
`freud/diffraction/StaticStructureFactorDirect.cc:184-195, 294-295`. -/
noncomputable def recip2 (b : Box ℝ) : Vec3 ℝ × Vec3 ℝ :=
  let a1 : Vec3 ℝ := ⟨b.L.x, 0, 0⟩
  let a2 : Vec3 ℝ := ⟨b.L.y * b.xy, b.L.y, 0⟩
  let v := a1.x * a2.y - a1.y * a2.x
  (⟨a2.y / v, -a2.x / v, 0⟩, ⟨-a1.y / v, a1.x / v, 0⟩)

/-- One of the two roots in `evaluate_quadratic_equation`,
`freud/diffraction/StaticStructureFactorDirect.cc:246-250`; `none` is the square root of a negative
number. -/
noncomputable def quadRoot (a b c : ℝ) : Option ℝ :=
  let h := b / (2 * a)
  let d := h * h - c / a
  if d < 0 then none else some (-h + Real.sqrt d)

/-- `evaluate_quadratic_equation`, `freud/diffraction/StaticStructureFactorDirect.cc:242-252`. -/
noncomputable def quadRange (cast : Option ℤ → ℕ) (a b cMin cMax : ℝ) (N : ℕ) : ℕ × ℕ :=
  (cast ((quadRoot a b cMin).map Int.floor), min (cast ((quadRoot a b cMax).map Int.ceil)) N)

/-- `should_keep_k_vector2D/3D`, `freud/diffraction/StaticStructureFactorDirect.cc:254-272`. -/
noncomputable def keep (k : Vec3 ℝ) (kMax kMin : ℝ) (addAll coin : Bool) : Bool :=
  let q2 := Vec3.dot k k / (2 * Real.pi) / (2 * Real.pi)
  let qMax := kMax / (2 * Real.pi)
  let qMin := kMin / (2 * Real.pi)
  decide (q2 ≤ qMax * qMax) && decide (q2 ≥ qMin * qMin) && (addAll || coin)

/-- The innermost loop, `freud/diffraction/StaticStructureFactorDirect.cc:330-350, 399-418`: `k0` is the
part of the vector fixed by the outer loops, `bl` the last reciprocal vector times `2π`, `N` the bound
from the length of `bl`. -/
noncomputable def line (cast : Option ℤ → ℕ) (k0 bl : Vec3 ℝ) (kMax kMin : ℝ) (N : ℕ) (addAll : Bool)
    (coin : ℕ → Bool) : List (Vec3 ℝ) :=
  let r := quadRange cast (Vec3.dot bl bl) (-2 * Vec3.dot k0 bl) (Vec3.dot k0 k0 - kMin * kMin)
    (Vec3.dot k0 k0 - kMax * kMax) N
  (List.range' r.1 (min r.2 N - r.1)).filterMap (fun n : ℕ =>
    let k := k0 + Vec3.smul (n : ℝ) bl
    if keep k kMax kMin addAll (coin n) then some k else none)

/-- `ceil(q_max / dq)` as an unsigned integer,
`freud/diffraction/StaticStructureFactorDirect.cc:302-303, 369-371`. -/
noncomputable def count (kMax : ℝ) (bi : Vec3 ℝ) : ℕ :=
  ⌈kMax / (2 * Real.pi) / Vec3.norm bi⌉.toNat

/-- The 3D branch, `freud/diffraction/StaticStructureFactorDirect.cc:355-423`. -/
noncomputable def kPoints3 (cast : Option ℤ → ℕ) (b : Box ℝ) (kMax kMin : ℝ) (addAll : Bool)
    (coin : ℕ → ℕ → ℕ → Bool) : List (Vec3 ℝ) :=
  let B := recip3 b
  let bx := Vec3.smul (2 * Real.pi) B.1
  let bY := Vec3.smul (2 * Real.pi) B.2.1
  let bz := Vec3.smul (2 * Real.pi) B.2.2
  (List.range (count kMax B.1)).flatMap (fun kx : ℕ =>
    (List.range (count kMax B.2.1)).flatMap (fun ky : ℕ =>
      line cast (Vec3.smul (kx : ℝ) bx + Vec3.smul (ky : ℝ) bY) bz kMax kMin (count kMax B.2.2) addAll
        (coin kx ky)))

/-- The 2D branch, `freud/diffraction/StaticStructureFactorDirect.cc:291-354`. -/
noncomputable def kPoints2 (cast : Option ℤ → ℕ) (b : Box ℝ) (kMax kMin : ℝ) (addAll : Bool)
    (coin : ℕ → ℕ → Bool) : List (Vec3 ℝ) :=
  let B := recip2 b
  let bx := Vec3.smul (2 * Real.pi) B.1
  let bY := Vec3.smul (2 * Real.pi) B.2
  (List.range (count kMax B.1)).flatMap (fun kx : ℕ =>
    line cast (Vec3.smul (kx : ℝ) bx) bY kMax kMin (count kMax B.2) addAll (coin kx))

/-- The test for an infinite pruning distance,
`freud/diffraction/StaticStructureFactorDirect.cc:197-203, 216-222`. -/
noncomputable def addAll (b : Box ℝ) (kMax : ℝ) (num : ℕ) : Bool :=
  let q := kMax / (2 * Real.pi)
  if b.is2D then
    let B := recip2 b
    decide ((num : ℝ) > Real.pi * q ^ 2 / (4 * (Vec3.norm B.1 * Vec3.norm B.2))) || decide (num = 0)
  else
    let B := recip3 b
    decide ((num : ℝ) > Real.pi * q ^ 3 / (6 * (Vec3.norm B.1 * Vec3.norm B.2.1 * Vec3.norm B.2.2))) ||
      decide (num = 0)

/-- `reciprocal_isotropic`, `freud/diffraction/StaticStructureFactorDirect.cc:274-425`. -/
noncomputable def sample (cast : Option ℤ → ℕ) (b : Box ℝ) (kMax kMin : ℝ) (num : ℕ)
    (coin : ℕ → ℕ → ℕ → Bool) : List (Vec3 ℝ) :=
  if b.is2D then kPoints2 cast b kMax kMin (addAll b kMax num) (fun i j => coin i j 0)
  else kPoints3 cast b kMax kMin (addAll b kMax num) coin

end Freud.KPoints
