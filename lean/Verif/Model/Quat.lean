import Verif.Model.Vec3

/-!
# Quaternions and rotation matrices

Model of `quat`, `rotmat2` and `rotmat3` in `freud/util/VectorMath.h`, in exact arithmetic.
-/

namespace Freud

/-- `quat<Real>`, `freud/util/VectorMath.h:594-629`. -/
@[ext] structure Quat (K : Type*) where
  s : K
  v : Vec3 K
deriving DecidableEq, Repr

namespace Quat
variable {K : Type*} [Field K]

/-- The default constructor, `freud/util/VectorMath.h:609`. -/
def one : Quat K := ⟨1, ⟨0, 0, 0⟩⟩

/-- `operator*`, `freud/util/VectorMath.h:719-722`. -/
def mul (a b : Quat K) : Quat K :=
  ⟨a.s * b.s - Vec3.dot a.v b.v, Vec3.smul a.s b.v + Vec3.smul b.s a.v + Vec3.cross a.v b.v⟩

/-- `conj`, `freud/util/VectorMath.h:765-768`. -/
def conj (a : Quat K) : Quat K := ⟨a.s, -a.v⟩

/-- `norm2`, `freud/util/VectorMath.h:755-758`. -/
def norm2 (a : Quat K) : K := a.s * a.s + Vec3.dot a.v a.v

/-- `dot`, `freud/util/VectorMath.h:855-858`. -/
def dot (a b : Quat K) : K := a.s * b.s + Vec3.dot a.v b.v

/-- `rotate`, `freud/util/VectorMath.h:810-823`. -/
def rotate (a : Quat K) (b : Vec3 K) : Vec3 K :=
  Vec3.smul (a.s * a.s - Vec3.dot a.v a.v) b + Vec3.smul (2 * a.s) (Vec3.cross a.v b) +
    Vec3.smul (2 * Vec3.dot a.v b) a.v

end Quat

/-- `rotmat3<Real>`, `freud/util/VectorMath.h:966-1029`. -/
@[ext] structure Mat3 (K : Type*) where
  row0 : Vec3 K
  row1 : Vec3 K
  row2 : Vec3 K
deriving DecidableEq, Repr

namespace Mat3
variable {K : Type*} [Field K]

/-- The default constructor, `freud/util/VectorMath.h:1005`. -/
def one : Mat3 K := ⟨⟨1, 0, 0⟩, ⟨0, 1, 0⟩, ⟨0, 0, 1⟩⟩

/-- The constructor from a quaternion, `freud/util/VectorMath.h:983-1002`. -/
def ofQuat (q : Quat K) : Mat3 K :=
  let a := q.s
  let b := q.v.x
  let c := q.v.y
  let d := q.v.z
  ⟨⟨a * a + b * b - c * c - d * d, 2 * b * c - 2 * a * d, 2 * b * d + 2 * a * c⟩,
   ⟨2 * b * c + 2 * a * d, a * a - b * b + c * c - d * d, 2 * c * d - 2 * a * b⟩,
   ⟨2 * b * d - 2 * a * c, 2 * c * d + 2 * a * b, a * a - b * b - c * c + d * d⟩⟩

/-- `det`, `freud/util/VectorMath.h:1020-1024`. -/
def det (m : Mat3 K) : K :=
  m.row0.x * (m.row1.y * m.row2.z - m.row1.z * m.row2.y) -
    m.row0.y * (m.row1.x * m.row2.z - m.row1.z * m.row2.x) +
    m.row0.z * (m.row1.x * m.row2.y - m.row1.y * m.row2.x)

/-- `operator*` with a vector, `freud/util/VectorMath.h:1038-1041`. -/
def mulVec (m : Mat3 K) (b : Vec3 K) : Vec3 K :=
  ⟨Vec3.dot m.row0 b, Vec3.dot m.row1 b, Vec3.dot m.row2 b⟩

/-- `transpose`, `freud/util/VectorMath.h:1071-1075`. -/
def transpose (m : Mat3 K) : Mat3 K :=
  ⟨⟨m.row0.x, m.row1.x, m.row2.x⟩, ⟨m.row0.y, m.row1.y, m.row2.y⟩, ⟨m.row0.z, m.row1.z, m.row2.z⟩⟩

/-- `operator*` of matrices, `freud/util/VectorMath.h:1048-1062`. -/
def mul (a b : Mat3 K) : Mat3 K :=
  let t := transpose b
  ⟨⟨Vec3.dot a.row0 t.row0, Vec3.dot a.row0 t.row1, Vec3.dot a.row0 t.row2⟩,
   ⟨Vec3.dot a.row1 t.row0, Vec3.dot a.row1 t.row1, Vec3.dot a.row1 t.row2⟩,
   ⟨Vec3.dot a.row2 t.row0, Vec3.dot a.row2 t.row1, Vec3.dot a.row2 t.row2⟩⟩

end Mat3
end Freud
