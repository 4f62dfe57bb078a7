import Verif.Model.Vec3

/-!
# Simulation box

Model of `freud/box/Box.h` (class `Box`) and of `modulusPositive` in
`freud/util/utils.h`. `float` is replaced by a linearly ordered field with floor.
-/

namespace Freud
variable {K : Type*} [Field K] [LinearOrder K] [IsStrictOrderedRing K] [FloorRing K]

/-- A C++ cast from floating point to integer: truncation towards zero. Overflow of the
32-bit target type is not modelled. -/
def trunc (x : K) : ℤ := if 0 ≤ x then ⌊x⌋ else ⌈x⌉

/-- `std::fmod`: remainder of the truncating division. -/
def fmod (a b : K) : K := a - b * (trunc (a / b) : ℤ)

/-- `modulusPositive`, `freud/util/utils.h:29-32`. -/
def modulusPositive (a b : K) : K := fmod (fmod a b + b) b

/-- Data members of `Box`, `freud/box/Box.h:596-605`. `m_hi` is left out: it is only
returned by `getMaxCoord`. -/
@[ext] structure Box (K : Type*) where
  lo : Vec3 K
  L : Vec3 K
  Linv : Vec3 K
  xy : K
  xz : K
  yz : K
  px : Bool
  py : Bool
  pz : Bool
  is2D : Bool
deriving DecidableEq, Repr

namespace Box

/-- `Box::setL`, `freud/box/Box.h:100-115`. -/
def setL (b : Box K) (Lx Ly Lz : K) : Box K :=
  let L : Vec3 K := if b.is2D then ⟨Lx, Ly, 0⟩ else ⟨Lx, Ly, Lz⟩
  let Linv : Vec3 K := if b.is2D then ⟨1 / Lx, 1 / Ly, 0⟩ else ⟨1 / Lx, 1 / Ly, 1 / Lz⟩
  { b with L := L, Linv := Linv, lo := ⟨-(L.x / 2), -(L.y / 2), -(L.z / 2)⟩ }

/-- The triclinic constructor, `freud/box/Box.h:75-83`. -/
def mk' (Lx Ly Lz xy xz yz : K) (is2D : Bool) : Box K :=
  setL { lo := 0, L := 0, Linv := 0, xy := xy, xz := xz, yz := yz,
         px := true, py := true, pz := true, is2D := is2D } Lx Ly Lz

/-- `Box::set2D`, `freud/box/Box.h:118-123`. It clears `L.z` whatever its argument and
does not touch `m_lo`. -/
def set2D (b : Box K) (d : Bool) : Box K :=
  { b with is2D := d, L := { b.L with z := 0 }, Linv := { b.Linv with z := 0 } }

/-- `setTiltFactorXY/XZ/YZ`, `freud/box/Box.h:180-195`. -/
def setTilts (b : Box K) (xy xz yz : K) : Box K := { b with xy := xy, xz := xz, yz := yz }

/-- `Box::setPeriodic`, `freud/box/Box.h:524-527`. -/
def setPeriodic (b : Box K) (x y z : Bool) : Box K := { b with px := x, py := y, pz := z }

/-- `Box::getVolume`, `freud/box/Box.h:198-205`. -/
def getVolume (b : Box K) : K := if b.is2D then b.L.x * b.L.y else b.L.x * b.L.y * b.L.z

/-- `Box::makeAbsolute`, `freud/box/Box.h:212-222`. -/
def makeAbsolute (b : Box K) (f : Vec3 K) : Vec3 K :=
  let v := b.lo + Vec3.cmul f b.L
  let v := { v with x := v.x + (b.xy * v.y + b.xz * v.z) }
  let v := { v with y := v.y + b.yz * v.z }
  if b.is2D then { v with z := 0 } else v

/-- `Box::makeFractional`, `freud/box/Box.h:243-255`. Dividing by `m_L.z = 0` in 2D gives
an infinity or NaN in C++ that is overwritten by `0` in the next statement; here `x / 0 = 0`
is overwritten as well. -/
def makeFractional (b : Box K) (v : Vec3 K) : Vec3 K :=
  let d := v - b.lo
  let d := { d with x := d.x - ((b.xz - b.yz * b.xy) * v.z + b.xy * v.y) }
  let d := { d with y := d.y - b.yz * v.z }
  let d : Vec3 K := ⟨d.x / b.L.x, d.y / b.L.y, d.z / b.L.z⟩
  if b.is2D then { d with z := 0 } else d

/-- Rounding used for each component in `getImage`, `freud/box/Box.h:283-285`. -/
def imageOf (f : K) : ℤ := trunc (if 0 ≤ f then f + 1 / 2 else f - 1 / 2)

/-- `Box::getImage`, `freud/box/Box.h:276-286`. -/
def getImage (b : Box K) (v : Vec3 K) : Vec3 ℤ :=
  let f := makeFractional b v - ⟨1 / 2, 1 / 2, 1 / 2⟩
  let f := if b.is2D then { f with z := 0 } else f
  ⟨imageOf f.x, imageOf f.y, imageOf f.z⟩

/-- `Box::wrap`, `freud/box/Box.h:307-329`. -/
def wrap (b : Box K) (v : Vec3 K) : Vec3 K :=
  if !b.px && !b.py && !b.pz then v
  else
    let f := makeFractional b v
    let f := if b.px then { f with x := modulusPositive f.x 1 } else f
    let f := if b.py then { f with y := modulusPositive f.y 1 } else f
    let f := if b.pz then { f with z := modulusPositive f.z 1 } else f
    makeAbsolute b f

/-- `Box::getLatticeVector`, `freud/box/Box.h:503-518`; `none` is the thrown
`std::out_of_range`. -/
def getLatticeVector (b : Box K) (i : ℕ) : Option (Vec3 K) :=
  if i = 0 then some ⟨b.L.x, 0, 0⟩
  else if i = 1 then some ⟨b.L.y * b.xy, b.L.y, 0⟩
  else if i = 2 ∧ b.is2D = false then some ⟨b.L.z * b.xz, b.L.z * b.yz, b.L.z⟩
  else none

/-- `Box::unwrap` for one vector, `freud/box/Box.h:352-366`. The lattice vectors are
written out because index 0, 1 (and 2 in 3D) never throw. -/
def unwrap (b : Box K) (v : Vec3 K) (n : Vec3 ℤ) : Vec3 K :=
  let r := v + Vec3.smul (n.x : K) ⟨b.L.x, 0, 0⟩ + Vec3.smul (n.y : K) ⟨b.L.y * b.xy, b.L.y, 0⟩
  if b.is2D then r else r + Vec3.smul (n.z : K) ⟨b.L.z * b.xz, b.L.z * b.yz, b.L.z⟩

/-- `Box::contains` for one point, `freud/box/Box.h:469-480`. -/
def contains (b : Box K) (v : Vec3 K) : Bool := getImage b v == ⟨0, 0, 0⟩

/-- The square of `Box::computeDistance`, `freud/box/Box.h:416-420`. -/
def distSq (b : Box K) (ri rj : Vec3 K) : K :=
  let r := wrap b (rj - ri)
  Vec3.dot r r

end Box
end Freud
