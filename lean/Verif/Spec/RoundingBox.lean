import Verif.Spec.Rounding

/-!
# Specification: a box of floating-point numbers
-/

namespace Freud.Spec
open Freud

/-- A box whose numbers have `p` digits: positive lengths, centered at the origin (half of a length is
exact). -/
structure FloatBox (p : ℕ) (b : Box ℚ) : Prop where
  Lx : IsFloat p b.L.x ∧ 0 < b.L.x
  Ly : IsFloat p b.L.y ∧ 0 < b.L.y
  Lz : b.is2D = false → IsFloat p b.L.z ∧ 0 < b.L.z
  Lz_2D : b.is2D = true → b.L.z = 0
  lo : b.lo = ⟨-(b.L.x / 2), -(b.L.y / 2), -(b.L.z / 2)⟩
  tilts : IsFloat p b.xy ∧ IsFloat p b.xz ∧ IsFloat p b.yz

/-- A vector of numbers with `p` digits. -/
def FloatVec (p : ℕ) (v : Vec3 ℚ) : Prop := IsFloat p v.x ∧ IsFloat p v.y ∧ IsFloat p v.z

/-- All tilt factors are zero. -/
def Untilted (b : Box ℚ) : Prop := b.xy = 0 ∧ b.xz = 0 ∧ b.yz = 0

/-- `M` bounds the lengths of the box and the components of `v`, `T` bounds the tilt factors. -/
structure Sized (b : Box ℚ) (v : Vec3 ℚ) (M T : ℚ) : Prop where
  one_le : 1 ≤ T
  L : b.L.x ≤ M ∧ b.L.y ≤ M ∧ b.L.z ≤ M
  tilts : |b.xy| ≤ T ∧ |b.xz| ≤ T ∧ |b.yz| ≤ T
  v : |v.x| ≤ M ∧ |v.y| ≤ M ∧ |v.z| ≤ M

/-- The vectors `v` and `w` differ by at most `e` in each component. -/
def ErrorAtMost (e : ℚ) (v w : Vec3 ℚ) : Prop := |v.x - w.x| ≤ e ∧ |v.y - w.y| ≤ e ∧ |v.z - w.z| ≤ e

end Freud.Spec

namespace Freud.Spec
open Freud

/-- No box coordinate of `v` (from zero to one inside the box) is closer to an integer than the length
`d` measured along that box vector: `v` is not close to a face of the box or of one of its images. -/
def OffFaces (b : Box ℚ) (v : Vec3 ℚ) (d : ℚ) : Prop :=
  ∃ f, HasCoords b v f ∧ ∀ m : ℤ, d < |f.x - m| * b.L.x ∧ d < |f.y - m| * b.L.y ∧
    (b.is2D = false → d < |f.z - m| * b.L.z)

end Freud.Spec
