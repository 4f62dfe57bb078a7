import Mathlib.Algebra.Order.Field.Basic
import Mathlib.Algebra.Order.Floor.Ring

/-!
# Three component vectors

Model of `vec3` (`freud/util/VectorMath.h`). Only the operations used by the modelled
code are present. Scalars are a field `K` instead of `float` (exact arithmetic).
-/

namespace Freud

/-- `vec3<Real>`, `freud/util/VectorMath.h:27-55`. -/
@[ext] structure Vec3 (K : Type*) where
  x : K
  y : K
  z : K
deriving DecidableEq, Repr

namespace Vec3
variable {K : Type*}

/-- `operator+`, `freud/util/VectorMath.h:65-68`. -/
instance [Add K] : Add (Vec3 K) := ⟨fun a b => ⟨a.x + b.x, a.y + b.y, a.z + b.z⟩⟩
/-- `operator-`, `freud/util/VectorMath.h:77-80`. -/
instance [Sub K] : Sub (Vec3 K) := ⟨fun a b => ⟨a.x - b.x, a.y - b.y, a.z - b.z⟩⟩
/-- unary `operator-`, `freud/util/VectorMath.h:112-115`. -/
instance [Neg K] : Neg (Vec3 K) := ⟨fun a => ⟨-a.x, -a.y, -a.z⟩⟩
/-- The zero vector (default constructor, `freud/util/VectorMath.h:42,52-54`). -/
instance [Zero K] : Zero (Vec3 K) := ⟨⟨0, 0, 0⟩⟩
/-- Multiplication by a scalar, `freud/util/VectorMath.h:184-187, 196-199`. -/
def smul [Mul K] (c : K) (a : Vec3 K) : Vec3 K := ⟨c * a.x, c * a.y, c * a.z⟩
/-- Component-wise product, `freud/util/VectorMath.h:89-92`. -/
def cmul [Mul K] (a b : Vec3 K) : Vec3 K := ⟨a.x * b.x, a.y * b.y, a.z * b.z⟩
/-- `dot`, `freud/util/VectorMath.h:270-273`. -/
def dot [Mul K] [Add K] (a b : Vec3 K) : K := a.x * b.x + a.y * b.y + a.z * b.z
/-- `cross`, `freud/util/VectorMath.h:281-284`. -/
def cross [Mul K] [Sub K] (a b : Vec3 K) : Vec3 K :=
  ⟨a.y * b.z - a.z * b.y, a.z * b.x - a.x * b.z, a.x * b.y - a.y * b.x⟩

section simps
variable (a b : Vec3 K)
@[simp] theorem add_x [Add K] : (a + b).x = a.x + b.x := rfl
@[simp] theorem add_y [Add K] : (a + b).y = a.y + b.y := rfl
@[simp] theorem add_z [Add K] : (a + b).z = a.z + b.z := rfl
@[simp] theorem sub_x [Sub K] : (a - b).x = a.x - b.x := rfl
@[simp] theorem sub_y [Sub K] : (a - b).y = a.y - b.y := rfl
@[simp] theorem sub_z [Sub K] : (a - b).z = a.z - b.z := rfl
@[simp] theorem neg_x [Neg K] : (-a).x = -a.x := rfl
@[simp] theorem neg_y [Neg K] : (-a).y = -a.y := rfl
@[simp] theorem neg_z [Neg K] : (-a).z = -a.z := rfl
@[simp] theorem zero_x [Zero K] : (0 : Vec3 K).x = 0 := rfl
@[simp] theorem zero_y [Zero K] : (0 : Vec3 K).y = 0 := rfl
@[simp] theorem zero_z [Zero K] : (0 : Vec3 K).z = 0 := rfl
@[simp] theorem smul_x [Mul K] (c : K) : (smul c a).x = c * a.x := rfl
@[simp] theorem smul_y [Mul K] (c : K) : (smul c a).y = c * a.y := rfl
@[simp] theorem smul_z [Mul K] (c : K) : (smul c a).z = c * a.z := rfl
end simps

end Vec3
end Freud
