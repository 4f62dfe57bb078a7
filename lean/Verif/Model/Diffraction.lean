import Verif.Model.BoxReal
import Verif.Model.Quat
import Mathlib.Data.Real.Basic
import Mathlib.Data.Complex.Basic
import Mathlib.Analysis.SpecialFunctions.Trigonometric.Basic
import Mathlib.LinearAlgebra.Matrix.NonsingularInverse
import Mathlib.LinearAlgebra.Matrix.Notation

/-!
# `DiffractionPattern` (freud/diffraction.py:521-903)

In exact arithmetic. Square arrays are functions of two indices; their size is that of the object.
rowan's `rotate` is the rotation of `Quat`, and numpy and scipy functions are written out from their
documentation: `histogram2d`, `fft2`, `fourier_gaussian`, `fftshift`, `fftfreq`, `affine_transform` with
`order=1` and `mode="constant"`.
-/

namespace Freud.Diffraction
open Matrix

/-- `np.allclose(a, b)` with the tolerances of freud/box.py:548-554: `|a - b| <= atol + rtol |b|`. -/
def allclose (a b : ℝ) : Prop := |a - b| ≤ 1 / 100000 + 1 / 100000 * |b|

/-- `Box.cubic` (freud/box.py:543-555). -/
def cubic (b : Box ℝ) : Prop :=
  b.is2D = false ∧
    (allclose b.L.x b.L.y ∧ allclose b.L.x b.L.z ∧ allclose b.L.y b.L.x ∧ allclose b.L.y b.L.z ∧
      allclose b.L.z b.L.x ∧ allclose b.L.z b.L.y) ∧
    allclose 0 b.xy ∧ allclose 0 b.yz ∧ allclose 0 b.xz

/-- `box.to_matrix()` (freud/box.py:628-648). -/
noncomputable def boxMatrix (b : Box ℝ) : Matrix (Fin 3) (Fin 3) ℝ :=
  let c := toMatrix b
  !![c.1.x, c.2.1.x, c.2.2.x; c.1.y, c.2.1.y, c.2.2.y; c.1.z, c.2.1.z, c.2.2.z]

/-- `rowan.rotate(view_orientation, m)`: rowan rotates the vectors along the last axis, the rows
(freud/diffraction.py:592). -/
noncomputable def rotateRows (q : Quat ℝ) (m : Matrix (Fin 3) (Fin 3) ℝ) : Matrix (Fin 3) (Fin 3) ℝ :=
  fun i j =>
    let r := Quat.rotate q ⟨m i 0, m i 1, m i 2⟩
    ![r.x, r.y, r.z] j

/-- The component along the view axis of the normal of face `j` (freud/diffraction.py:594-601): the
columns before and after `j`, which `np.roll` brings to place `j`, are multiplied. -/
noncomputable def faceNormalZ (m : Matrix (Fin 3) (Fin 3) ℝ) (j : Fin 3) : ℝ :=
  m 0 (j - 1) * m 1 (j + 1) - m 1 (j - 1) * m 0 (j + 1)

/-- `np.argmax` of three numbers: the first maximum (freud/diffraction.py:605). -/
noncomputable def argmax3 (f : Fin 3 → ℝ) : Fin 3 :=
  if f 1 ≤ f 0 ∧ f 2 ≤ f 0 then 0 else if f 2 ≤ f 1 then 1 else 2

/-- `_calc_proj` (freud/diffraction.py:577-614); `none`: `np.linalg.inv` raises for singular
matrices. -/
noncomputable def calcProj (q : Quat ℝ) (b : Box ℝ) : Option (Matrix (Fin 2) (Fin 2) ℝ) :=
  open Classical in
  let m := rotateRows q (boxMatrix b)
  let best := argmax3 fun j => |faceNormalZ m j|
  let shear : Matrix (Fin 2) (Fin 2) ℝ := !![m 0 (best + 1), m 0 (best + 2); m 1 (best + 1), m 1 (best + 2)]
  if shear.det = 0 then none else some shear⁻¹

/-- `np.max(box.to_matrix())` (freud/diffraction.py:648-649, 783). -/
noncomputable def maxEntry (b : Box ℝ) : ℝ :=
  let m := boxMatrix b
  [m 0 1, m 0 2, m 1 0, m 1 1, m 1 2, m 2 0, m 2 1, m 2 2].foldl max (m 0 0)

/-- `scipy.ndimage.affine_transform(..., order=1, mode="constant")` at one output index, whose position
in the input is `(x, y)`: bilinear interpolation, and 0 outside the `g` by `g` input
(freud/diffraction.py:669-675). -/
noncomputable def bilinear (g : ℕ) (img : ℕ → ℕ → ℝ) (x y : ℝ) : ℝ :=
  open Classical in
  if x < 0 ∨ (g : ℝ) - 1 < x ∨ y < 0 ∨ (g : ℝ) - 1 < y then 0
  else
    let a := ⌊x⌋₊
    let b := ⌊y⌋₊
    let s := x - a
    let t := y - b
    (1 - s) * (1 - t) * img a b + (1 - s) * t * img a (b + 1) + s * (1 - t) * img (a + 1) b +
      s * t * img (a + 1) (b + 1)

/-- `roll` (freud/diffraction.py:640-642). -/
noncomputable def roll (g : ℕ) : ℝ := if g % 2 = 1 then (g : ℝ) / 2 - 1 / 2 else (g : ℝ) / 2

/-- `roll_shift` (freud/diffraction.py:644-646). -/
noncomputable def rollShift (n : ℕ) (zoom : ℝ) : ℝ :=
  if n % 2 = 1 then (n : ℝ) / zoom / 2 - 1 / 2 / zoom else (n : ℝ) / zoom / 2

/-- `zoom_matrix @ shear_matrix @ shift_matrix` (freud/diffraction.py:648-667). -/
noncomputable def forward (g n : ℕ) (b : Box ℝ) (invShear : Matrix (Fin 2) (Fin 2) ℝ) (zoom : ℝ) :
    Matrix (Fin 3) (Fin 3) ℝ :=
  let ss := maxEntry b • invShear
  let shift : Matrix (Fin 3) (Fin 3) ℝ := !![1, 0, -roll g; 0, 1, -roll g; 0, 0, 1]
  let shear : Matrix (Fin 3) (Fin 3) ℝ :=
    !![ss 1 0, ss 0 0, rollShift n zoom; ss 1 1, ss 0 1, rollShift n zoom; 0, 0, 1]
  let zoomM : Matrix (Fin 3) (Fin 3) ℝ := !![zoom, 0, 0; 0, zoom, 0; 0, 0, 1]
  zoomM * shear * shift

/-- `_transform` (freud/diffraction.py:616-675). -/
noncomputable def transform (g n : ℕ) (img : ℕ → ℕ → ℝ) (b : Box ℝ)
    (invShear : Matrix (Fin 2) (Fin 2) ℝ) (zoom : ℝ) : Option (ℕ → ℕ → ℝ) :=
  open Classical in
  let m := forward g n b invShear zoom
  if m.det = 0 then none
  else some fun i j =>
    let p := m⁻¹ *ᵥ ![(i : ℝ), (j : ℝ), 1]
    bilinear g img (p 0) (p 1)

/-- Bin `a` of `np.histogram2d` with `g` equal bins of `[0, 1]`; the last bin is closed
(freud/diffraction.py:741-746). -/
def inBin (g a : ℕ) (x : ℝ) : Prop :=
  (a : ℝ) / g ≤ x ∧ (x < ((a : ℝ) + 1) / g ∨ (a + 1 = g ∧ x ≤ 1))

/-- `np.histogram2d` of points with weights (freud/diffraction.py:741-746). -/
noncomputable def histogram (g : ℕ) (pts : List ((ℝ × ℝ) × ℝ)) (a b : ℕ) : ℝ :=
  open Classical in
  (pts.map fun p => if inBin g a p.1.1 ∧ inBin g b p.1.2 then p.2 else 0).sum

/-- The rotated and sheared points in `[0, 1)` (freud/diffraction.py:729-740). `xy @ inv_shear.T`
multiplies each point by `inv_shear`. -/
noncomputable def project (q : Quat ℝ) (invShear : Matrix (Fin 2) (Fin 2) ℝ) (p : Vec3 ℝ) : ℝ × ℝ :=
  let r := Quat.rotate q p
  let xy := invShear *ᵥ ![r.x, r.y]
  (Int.fract (xy 0 + 1 / 2), Int.fract (xy 1 + 1 / 2))

/-- `np.fft.fft2` of a `g` by `g` array (freud/diffraction.py:749). -/
noncomputable def fft2 (g : ℕ) (im : ℕ → ℕ → ℝ) (a b : ℕ) : ℂ :=
  ∑ u ∈ Finset.range g, ∑ v ∈ Finset.range g,
    (im u v : ℂ) * Complex.exp (-(2 * Real.pi * ((a * u + b * v : ℕ) : ℝ) / (g : ℝ) : ℝ) * Complex.I)

/-- The frequency that index `j` of a transform of length `g` stands for, `g` times
`np.fft.fftfreq(g)[j]`. -/
def freq (g j : ℕ) : ℤ := if j < (g + 1) / 2 then (j : ℤ) else (j : ℤ) - g

/-- `scipy.ndimage.fourier_gaussian` multiplies by the transform of a Gaussian of width `sigma` pixels
(freud/diffraction.py:750-752). -/
noncomputable def gaussian (g : ℕ) (sigma : ℝ) (f : ℕ → ℕ → ℂ) (a b : ℕ) : ℂ :=
  f a b * (Real.exp (-2 * Real.pi ^ 2 * sigma ^ 2 * (((freq g a : ℝ) ^ 2 + (freq g b : ℝ) ^ 2) / (g : ℝ) ^ 2)) : ℝ)

/-- The index that `np.fft.fftshift` brings to place `a` (freud/diffraction.py:753, 773). -/
def shiftIndex (g a : ℕ) : ℕ := (a + (g - g / 2)) % g

/-- The arguments of `compute`. -/
structure Args where
  box : Box ℝ
  points : List (Vec3 ℝ)
  view : Option (Quat ℝ)
  zoom : ℝ
  peakWidth : ℝ
  weights : Option (List ℝ)

/-- The view orientation that is used (freud/diffraction.py:722-724). -/
noncomputable def Args.q (a : Args) : Quat ℝ := a.view.getD Quat.one

/-- The normalized weights (freud/diffraction.py:733-746): `histogram2d` refuses weights of
another length; without weights each point counts one. The inner `none` stands for the non-finite
weights that a vanishing sum gives. -/
noncomputable def Args.w (a : Args) : Option (Option (List ℝ)) :=
  open Classical in
  match a.weights with
  | none => some (some (List.replicate a.points.length 1))
  | some w =>
    if w.length ≠ a.points.length then none
    else if w.sum = 0 then some none
    else some (some (w.map fun x => x * (w.length : ℝ) / w.sum))

/-- The squared modulus of the transform, before `_transform` (freud/diffraction.py:729-756). -/
noncomputable def intensity (g : ℕ) (a : Args) (invShear : Matrix (Fin 2) (Fin 2) ℝ) (w : List ℝ) :
    ℕ → ℕ → ℝ :=
  let pts := (a.points.map (project a.q invShear)).zip w
  let f := gaussian g (a.peakWidth / a.zoom) (fft2 g (histogram g pts))
  fun i j => Complex.normSq (f (shiftIndex g i) (shiftIndex g j))

/-- One frame (freud/diffraction.py:716-764). `none`: an exception; the inner `none`: not finite. A system
has at least one point (freud/locality/NeighborQuery.h). -/
noncomputable def frame (g n : ℕ) (a : Args) : Option (Option (ℕ → ℕ → ℝ)) :=
  open Classical in
  if a.points = [] then none
  else if ¬ cubic a.box then none
  else (calcProj a.q a.box).bind fun invShear =>
    a.w.bind fun w =>
      match w with
      | none => some none
      | some w =>
        (transform g n (intensity g a invShear w) a.box invShear a.zoom).map fun t =>
          some fun i j => t i j / (a.points.length : ℝ)

/-- The object. `sum` is `_diffraction`; its `none` stands for values that are not finite. -/
structure State where
  called : Bool
  sum : Option (ℕ → ℕ → ℝ)
  frames : ℕ
  kValuesOrig : ℕ → ℝ
  kVectorsOrig : ℕ → ℕ → Vec3 ℝ
  kScale : ℝ
  view : Quat ℝ
  nPoints : ℕ
  kValues : ℕ → ℝ
  kValuesCached : Bool
  kVectors : ℕ → ℕ → Vec3 ℝ
  kVectorsCached : Bool

/-- `__init__` (freud/diffraction.py:562-575). The arrays of `np.empty` hold anything. -/
noncomputable def new (junk : ℕ → ℝ) (junk' : ℕ → ℕ → Vec3 ℝ) : State :=
  ⟨false, some fun _ _ => 0, 0, junk, junk', 0, Quat.one, 0, junk, false, junk', false⟩

/-- `np.fft.fftshift(np.fft.fftfreq(n))` (freud/diffraction.py:773). -/
noncomputable def kOrig (n i : ℕ) : ℝ := (freq n (shiftIndex n i) : ℝ) / n

/-- `compute` (freud/diffraction.py:677-791) on an object with grid size `g` and output size `n`. Returns
the new state also if the call raises (second component). The flag `_called_compute` is set by the
wrapper of freud/util.py:39-53 after the method returned. -/
noncomputable def compute (g n : ℕ) (a : Args) (reset : Bool) (s : State) : State × Bool :=
  let s := if reset then { s with sum := some fun _ _ => 0, frames := 0 } else s
  match frame g n a with
  | none => (s, true)
  | some fr =>
    let sum := s.sum.bind fun x => fr.map fun y i j => x i j + y i j
    let s := { s with nPoints := a.points.length, sum := sum, frames := s.frames + 1 }
    let s := if s.called then s else
      { s with
        kValuesOrig := kOrig n
        kVectorsOrig := fun i j => ⟨kOrig n i, kOrig n j, 0⟩ }
    ({ s with
        kScale := 2 * Real.pi * n / (maxEntry a.box * a.zoom)
        view := a.q
        kValuesCached := false
        kVectorsCached := false
        called := true }, false)

/-- The property `diffraction` (freud/diffraction.py:803-809). `none`: AttributeError; the inner `none`:
not finite, since no frame was added or a frame was not finite. -/
noncomputable def State.diffraction (s : State) : Option (Option (ℕ → ℕ → ℝ)) :=
  if s.called then
    some (if s.frames = 0 then none else s.sum.map fun x i j => x i j / (s.frames : ℝ))
  else none

/-- The property `k_values` (freud/diffraction.py:816-822). -/
noncomputable def State.readKValues (s : State) : State × Option (ℕ → ℝ) :=
  if s.called then
    let s := if s.kValuesCached then s else
      { s with kValues := fun i => s.kValuesOrig i * s.kScale, kValuesCached := true }
    (s, some s.kValues)
  else (s, none)

/-- The property `k_vectors` (freud/diffraction.py:824-834). -/
noncomputable def State.readKVectors (s : State) : State × Option (ℕ → ℕ → Vec3 ℝ) :=
  if s.called then
    let s := if s.kVectorsCached then s else
      { s with
        kVectors := fun i j => Vec3.smul s.kScale (Quat.rotate s.view (s.kVectorsOrig i j))
        kVectorsCached := true }
    (s, some s.kVectors)
  else (s, none)

/-- What a user does with the object. -/
inductive Op where
  | compute (a : Args) (reset : Bool)
  | readKValues
  | readKVectors

/-- One operation; exceptions are caught by the caller. -/
noncomputable def State.step (g n : ℕ) (s : State) : Op → State
  | .compute a r => (Diffraction.compute g n a r s).1
  | .readKValues => s.readKValues.1
  | .readKVectors => s.readKVectors.1

end Freud.Diffraction
