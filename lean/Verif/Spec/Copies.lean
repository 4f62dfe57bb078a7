import Verif.Spec.Lattice

/-!
# Specification of periodic copies
-/

namespace Freud.Spec
variable {K : Type*} [Field K] [LinearOrder K]

/-- `v` lies in the box, lower faces included and upper faces excluded. -/
def InHalfOpen (b : Box K) (v : Vec3 K) : Prop :=
  ∃ f, HasCoords b v f ∧ (0 ≤ f.x ∧ f.x < 1) ∧ (0 ≤ f.y ∧ f.y < 1) ∧ (0 ≤ f.z ∧ f.z < 1)

/-- The lengths of the box are positive. -/
def Positive (b : Box K) : Prop := 0 < b.L.x ∧ 0 < b.L.y ∧ (b.is2D = false → 0 < b.L.z)

/-- `w` is the copy of `p` moved by `n` box vectors along each of the three directions (in 2D along
the first two), whatever the periodicity flags of the box. -/
def IsCopy (b : Box K) (p w : Vec3 K) (n : Vec3 ℤ) : Prop :=
  (b.is2D = true → n.z = 0) ∧ w = p + lattice b n

end Freud.Spec
