import Verif.Spec.Lattice
import Verif.Model.Voxel

/-!
# Specification of voxel grids
-/

namespace Freud.Spec
open Freud
variable {K : Type*} [Field K] [LinearOrder K]

/-- The center of voxel `n` of a grid of `w` voxels over an orthorhombic box centred on the
origin; in 2D it lies in the plane. -/
def voxelCenter (b : Box K) (w n : Vec3 ℕ) : Vec3 K :=
  ⟨-(b.L.x / 2) + ((n.x : K) + 1 / 2) * (b.L.x / (w.x : K)),
   -(b.L.y / 2) + ((n.y : K) + 1 / 2) * (b.L.y / (w.y : K)),
   if b.is2D then 0 else -(b.L.z / 2) + ((n.z : K) + 1 / 2) * (b.L.z / (w.z : K))⟩

/-- `n` is a voxel of the grid. -/
def IsVoxel (w n : Vec3 ℕ) : Prop := n.x < w.x ∧ n.y < w.y ∧ n.z < w.z

/-- `d` is the squared minimum-image distance of `c` and `p`: that of some periodic image, and of
no image less. -/
def IsMinDistSq (b : Box K) (c p : Vec3 K) (d : K) : Prop :=
  (∃ m, AllowedShift b m ∧ d = Vec3.dot (c - p + lattice b m) (c - p + lattice b m)) ∧
    ∀ m, AllowedShift b m → d ≤ Vec3.dot (c - p + lattice b m) (c - p + lattice b m)

/-- The center of the voxel is less than `r` from `p` in the minimum image convention. -/
def Covers (b : Box K) (w n : Vec3 ℕ) (r : K) (p : Vec3 K) : Prop :=
  ∃ d, IsMinDistSq b (voxelCenter b w n) p d ∧ d < r ^ 2

/-- What the theorems on grids assume: an orthorhombic box, at least one voxel per direction (and
not more than a third of the 32-bit range), a radius not larger than the box. -/
structure GridOK (b : Box K) (w : Vec3 ℕ) (r : K) : Prop where
  valid : Valid b
  ortho : b.xy = 0 ∧ b.xz = 0 ∧ b.yz = 0
  posx : 0 < b.L.x
  posy : 0 < b.L.y
  posz : b.is2D = false → 0 < b.L.z
  wx : 1 ≤ w.x
  wy : 1 ≤ w.y
  wz : 1 ≤ w.z
  wz2D : b.is2D = true → w.z = 1
  small : 3 * w.x ≤ 2 ^ 32 ∧ 3 * w.y ≤ 2 ^ 32 ∧ 3 * w.z ≤ 2 ^ 32
  rpos : 0 < r
  rx : r ≤ b.L.x
  ry : r ≤ b.L.y
  rz : b.is2D = false → r ≤ b.L.z

/-- The point is in the box (and in the plane in 2D). -/
structure InGridBox (b : Box K) (p : Vec3 K) : Prop where
  x : -(b.L.x / 2) ≤ p.x ∧ p.x < b.L.x / 2
  y : -(b.L.y / 2) ≤ p.y ∧ p.y < b.L.y / 2
  z : b.is2D = false → -(b.L.z / 2) ≤ p.z ∧ p.z < b.L.z / 2
  plane : b.is2D = true → p.z = 0

variable [IsStrictOrderedRing K] [FloorRing K]

/-- The radius is a whole number of voxels and at most half a voxel more, in every direction. -/
def RadiusFits (b : Box K) (w : Vec3 ℕ) (r : K) : Prop :=
  Int.fract (r / (b.L.x / (w.x : K))) ≤ 1 / 2 ∧ Int.fract (r / (b.L.y / (w.y : K))) ≤ 1 / 2 ∧
    (b.is2D = false → Int.fract (r / (b.L.z / (w.z : K))) ≤ 1 / 2)

end Freud.Spec
