import Verif.Model.Voxel

/-!
# The grid argument and the arrays of `SphereVoxelization` and `GaussianDensity`

Model of the Python side of these classes in `freud/density.py`.
-/

namespace Freud

/-- What may be given for `width`: a Python integer, a sequence (list or tuple) of integers, or something else, such as
a NumPy array or a float. -/
inductive WidthArg
  | int (n : ℤ)
  | seq (l : List ℤ)
  | other

/-- `width_vector`, `freud/density.py:217-229` and `freud/density.py:336-348`; `none` is the `ValueError`. -/
def widthVector : WidthArg → Option (Vec3 ℤ)
  | .int n => some ⟨n, n, n⟩
  | .seq [a, b] => some ⟨a, b, 1⟩
  | .seq [a, b, c] => some ⟨a, b, c⟩
  | .seq _ => none
  | .other => none

/-- The conversion of an integer to `unsigned int` by the binding layer; `none` is the `TypeError`. -/
def asUInt (n : ℤ) : Option ℕ := if 0 ≤ n ∧ n < 2 ^ 32 then some n.toNat else none

/-- The three widths as they reach C++, `freud/density.py:231-233` and `freud/density.py:350-352`. -/
def gridWidth (a : WidthArg) : Option (Vec3 ℕ) :=
  (widthVector a).bind fun v => (asUInt v.x).bind fun x => (asUInt v.y).bind fun y =>
    (asUInt v.z).map fun z => ⟨x, y, z⟩

/-- `np.squeeze`: axes of length one are dropped. -/
def squeezeArray {α : Type*} (a : MArray α) : MArray α := ⟨a.shape.filter (· ≠ 1), a.data⟩

section
variable {K : Type*} [Field K] [LinearOrder K] [IsStrictOrderedRing K] [FloorRing K]

/-- `SphereVoxelization.__init__`, `freud/density.py:335-352`. -/
def pySphereVoxelization (a : WidthArg) (rMax : K) : Option (SphereVoxelization K) :=
  (gridWidth a).bind fun w => SphereVoxelization.new w rMax

/-- `SphereVoxelization.voxels`, `freud/density.py:371-378`; `none` is the `AttributeError` before the first
computation. -/
def pyVoxels (s : SphereVoxelization K) : Option (MArray ℕ) :=
  s.box.map fun b => if b.is2D then squeezeArray s.voxels else s.voxels

/-- `GaussianDensity.__init__`, `freud/density.py:216-233`. -/
def pyGaussianDensity (a : WidthArg) (rMax : K) : Option (GaussianDensity K) :=
  (gridWidth a).bind fun w => GaussianDensity.new w rMax

/-- `GaussianDensity.density`, `freud/density.py:263-269`. -/
def pyDensity (s : GaussianDensity K) : Option (MArray K) :=
  s.box.map fun b => if b.is2D then squeezeArray s.density else s.density

end
end Freud
