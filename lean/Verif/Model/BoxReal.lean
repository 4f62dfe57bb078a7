import Verif.Model.Box
import Mathlib.Analysis.SpecialFunctions.Sqrt
import Mathlib.Analysis.SpecialFunctions.Trigonometric.Inverse
import Mathlib.Analysis.SpecialFunctions.Complex.Arg
import Mathlib.Analysis.Complex.Trigonometric

/-!
# The parts of the box that use square roots and trigonometry

Model of `freud/box/Box.h` and `freud/box.py` over the real numbers.
-/

namespace Freud

/-- Length of a vector (`std::sqrt(dot(v, v))`). -/
noncomputable def Vec3.norm (v : Vec3 ℝ) : ℝ := Real.sqrt (Vec3.dot v v)

namespace Box

/-- `Box::getNearestPlaneDistance`, `freud/box/Box.h:489-497`. -/
noncomputable def getNearestPlaneDistance (b : Box ℝ) : Vec3 ℝ :=
  ⟨b.L.x / Real.sqrt (1 + b.xy * b.xy + (b.xy * b.yz - b.xz) * (b.xy * b.yz - b.xz)),
   b.L.y / Real.sqrt (1 + b.yz * b.yz),
   b.L.z⟩

/-- `Box::computeDistance`, `freud/box/Box.h:416-420`. -/
noncomputable def computeDistance (b : Box ℝ) (ri rj : Vec3 ℝ) : ℝ :=
  Vec3.norm (b.wrap (rj - ri))

end Box

/-- `Box.__init__`, `freud/box.py:58-75`, with `is2D` given; `none` is the raised
`ValueError`. -/
def pyBox {K : Type*} [Field K] [DecidableEq K] (Lx Ly Lz xy xz yz : K) (is2D : Bool) :
    Option (Box K) :=
  if is2D then
    if Lx = 0 ∨ Ly = 0 then none else some (Box.mk' Lx Ly Lz xy xz yz true)
  else
    if Lx = 0 ∨ Ly = 0 ∨ Lz = 0 then none else some (Box.mk' Lx Ly Lz xy xz yz false)

/-- `Box.from_box(box)` applied to a `freud.box.Box`, without a `dimensions` argument,
`freud/box.py:786-843`: the attributes `Lx .. yz` and `dimensions` are read and passed to
the constructor. -/
def fromBox {K : Type*} [Field K] [DecidableEq K] (b : Box K) : Option (Box K) :=
  pyBox b.L.x b.L.y b.L.z b.xy b.xz b.yz b.is2D

/-- `Box.__mul__` and `__rmul__`, `freud/box.py:700-715`; `none` is the `ValueError`. -/
def mulBox {K : Type*} [Field K] [LinearOrder K] (b : Box K) (scale : K) : Option (Box K) :=
  if 0 < scale then
    pyBox (b.L.x * scale) (b.L.y * scale) (b.L.z * scale) b.xy b.xz b.yz b.is2D
  else none

/-- `BoxFromCPP`, `freud/box.py:981-992`. -/
def boxFromCPP {K : Type*} [Field K] [DecidableEq K] (b : Box K) : Option (Box K) :=
  (pyBox b.L.x b.L.y b.L.z b.xy b.xz b.yz b.is2D).map (·.setPeriodic b.px b.py b.pz)

/-- `Box.to_matrix`, `freud/box.py:628-648`; the three columns of the matrix. -/
def toMatrix {K : Type*} [Field K] (b : Box K) : Vec3 K × Vec3 K × Vec3 K :=
  (⟨b.L.x, 0, 0⟩, ⟨b.xy * b.L.y, b.L.y, 0⟩, ⟨b.xz * b.L.z, b.yz * b.L.z, b.L.z⟩)

/-- `Box.from_matrix`, `freud/box.py:862-882`, on the three columns. `dims` is the
`dimensions` argument (`some true` for 2). -/
noncomputable def fromMatrix (v0 v1 v2 : Vec3 ℝ) (dims : Option Bool) : Option (Box ℝ) :=
  let Lx := Real.sqrt (Vec3.dot v0 v0)
  let a2x := Vec3.dot v0 v1 / Lx
  let Ly := Real.sqrt (Vec3.dot v1 v1 - a2x * a2x)
  let xy := a2x / Ly
  let c := Vec3.cross v0 v1
  let cmag := Real.sqrt (Vec3.dot c c)
  let Lz := Vec3.dot v2 c / cmag
  let a3x := Vec3.dot v0 v2 / Lx
  let xz := if Lz ≠ 0 then a3x / Lz else 0
  let yz := if Lz ≠ 0 then (Vec3.dot v1 v2 - a2x * a3x) / (Ly * Lz) else 0
  let is2D := dims.getD (decide (Lz = 0))
  pyBox Lx Ly Lz xy xz yz is2D

/-- The result of `Box.to_box_lengths_and_angles`, `freud/box.py:668-687`. -/
structure LengthsAngles where
  L1 : ℝ
  L2 : ℝ
  L3 : ℝ
  alpha : ℝ
  beta : ℝ
  gamma : ℝ

/-- `Box.to_box_lengths_and_angles`, `freud/box.py:668-687`. -/
noncomputable def toLengthsAngles (b : Box ℝ) : LengthsAngles where
  alpha := Real.arccos ((b.xy * b.xz + b.yz) /
    (Real.sqrt (1 + b.xy ^ 2) * Real.sqrt (1 + b.xz ^ 2 + b.yz ^ 2)))
  beta := Real.arccos (b.xz / Real.sqrt (1 + b.xz ^ 2 + b.yz ^ 2))
  gamma := Real.arccos (b.xy / Real.sqrt (1 + b.xy ^ 2))
  L1 := b.L.x
  L2 := Vec3.norm ⟨b.L.y * b.xy, b.L.y, 0⟩
  L3 := Vec3.norm ⟨b.L.z * b.xz, b.L.z * b.yz, b.L.z⟩

/-- `Box.from_box_lengths_and_angles`, `freud/box.py:921-978`; `none` stands for the raised
`ValueError`s. -/
noncomputable def fromLengthsAngles (p : LengthsAngles) (dims : Option Bool) :
    Option (Box ℝ) :=
  if ¬ (0 < p.alpha ∧ p.alpha < Real.pi) then none
  else if ¬ (0 < p.beta ∧ p.beta < Real.pi) then none
  else if ¬ (0 < p.gamma ∧ p.gamma < Real.pi) then none
  else
    let a1 : Vec3 ℝ := ⟨p.L1, 0, 0⟩
    let a2 : Vec3 ℝ := ⟨p.L2 * Real.cos p.gamma, p.L2 * Real.sin p.gamma, 0⟩
    let a3x := Real.cos p.beta
    let a3y := (Real.cos p.alpha - Real.cos p.beta * Real.cos p.gamma) / Real.sin p.gamma
    let under := 1 - a3x ^ 2 - a3y ^ 2
    if under < 0 then none
    else
      let a3z := Real.sqrt under
      let a3 : Vec3 ℝ := ⟨p.L3 * a3x, p.L3 * a3y, p.L3 * a3z⟩
      fromMatrix a1 a2 a3 (some (dims.getD (decide (p.L3 = 0))))

end Freud
