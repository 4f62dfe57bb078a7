import Verif.Model.BoxReal

/-!
# Attribute assignments on a box, and periodic centres of mass

Model of the property setters of `freud/box.py` and of `Box::centerOfMass`/`Box::center`.
-/

namespace Freud

/-- One attribute assignment on a `freud.box.Box` object. -/
inductive BoxOp (K : Type*) where
  /-- `box.L = [x, y, z]`, `freud/box.py:85-100` -/
  | L (x y z : K)
  /-- `box.Lx = x`, `freud/box.py:107-109` -/
  | Lx (x : K)
  /-- `box.Ly = x`, `freud/box.py:116-118` -/
  | Ly (x : K)
  /-- `box.Lz = x`, `freud/box.py:125-127` -/
  | Lz (x : K)
  /-- `box.xy = x`, `freud/box.py:134-136` -/
  | xy (x : K)
  /-- `box.xz = x`, `freud/box.py:143-145` -/
  | xz (x : K)
  /-- `box.yz = x`, `freud/box.py:152-154` -/
  | yz (x : K)
  /-- `box.dimensions = 2` (`true`) or `3` (`false`), `freud/box.py:177-180` -/
  | dimensions (two : Bool)
  /-- `box.periodic = [x, y, z]`, `freud/box.py:569-576` -/
  | periodic (x y z : Bool)
  /-- `box.periodic_x = x`, `freud/box.py:583-585` -/
  | periodicX (x : Bool)
  /-- `box.periodic_y = x`, `freud/box.py:592-594` -/
  | periodicY (x : Bool)
  /-- `box.periodic_z = x`, `freud/box.py:601-603` -/
  | periodicZ (x : Bool)

/-- Effect of one assignment, calling the C++ setters of `freud/box/Box.h:100-123, 180-195,
524-545`. -/
def BoxOp.apply {K : Type*} [Field K] (b : Box K) : BoxOp K → Box K
  | .L x y z => b.setL x y z
  | .Lx x => b.setL x b.L.y b.L.z
  | .Ly y => b.setL b.L.x y b.L.z
  | .Lz z => b.setL b.L.x b.L.y z
  | .xy v => b.setTilts v b.xz b.yz
  | .xz v => b.setTilts b.xy v b.yz
  | .yz v => b.setTilts b.xy b.xz v
  | .dimensions two => b.set2D two
  | .periodic x y z => b.setPeriodic x y z
  | .periodicX x => b.setPeriodic x b.py b.pz
  | .periodicY y => b.setPeriodic b.px y b.pz
  | .periodicZ z => b.setPeriodic b.px b.py z

/-- A sequence of assignments, in order. -/
def BoxOp.run {K : Type*} [Field K] (b : Box K) (ops : List (BoxOp K)) : Box K :=
  ops.foldl BoxOp.apply b

open Complex in
/-- One component of `xi_mean` before the division in `Box::centerOfMass`,
`freud/box/Box.h:377-390`: the mass-weighted sum of `polar(1, 2 pi f)` over the fractional
coordinates `f` of the particles. -/
noncomputable def phaseSum (l : List (ℝ × ℝ)) : ℂ :=
  (l.map (fun fm => (fm.2 : ℂ) * exp (((2 * Real.pi * fm.1 : ℝ) : ℂ) * I))).sum

/-- `Box::centerOfMass`, `freud/box/Box.h:373-395`, on a list of (position, mass) pairs.
Without masses the Python layer passes ones (`freud/box.py:399-405`). `std::arg` of zero is
zero, as `Complex.arg`. A zero total mass is a division by zero in the code and is excluded in
the theorems. -/
noncomputable def Box.centerOfMass (b : Box ℝ) (l : List (Vec3 ℝ × ℝ)) : Vec3 ℝ :=
  let total : ℝ := (l.map Prod.snd).sum
  let xi (c : Vec3 ℝ → ℝ) : ℂ :=
    phaseSum (l.map (fun p => (c (b.makeFractional p.1), p.2))) / (total : ℂ)
  b.wrap (b.makeAbsolute
    ⟨(xi Vec3.x).arg / (2 * Real.pi), (xi Vec3.y).arg / (2 * Real.pi),
     (xi Vec3.z).arg / (2 * Real.pi)⟩)

/-- `Box::center`, `freud/box/Box.h:401-410`. The parallel loop writes each element once
from its own old value, so it is a map. -/
noncomputable def Box.center (b : Box ℝ) (l : List (Vec3 ℝ × ℝ)) : List (Vec3 ℝ × ℝ) :=
  l.map (fun p => (b.wrap (p.1 - b.centerOfMass l), p.2))

end Freud
