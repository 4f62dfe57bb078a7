import Verif.Model.Box

/-!
# Specification of a periodic box

What a user means by lattice vectors, lattice translations and "inside the box",
written without the conversion functions of the code.
-/

namespace Freud.Spec
variable {K : Type*} [Field K]

/-- First box vector `(Lx, 0, 0)` (documented at `freud/box.py`, `Box.v1`). -/
def a1 (b : Box K) : Vec3 K := ⟨b.L.x, 0, 0⟩
/-- Second box vector `(xy Ly, Ly, 0)` (`Box.v2`). -/
def a2 (b : Box K) : Vec3 K := ⟨b.xy * b.L.y, b.L.y, 0⟩
/-- Third box vector `(xz Lz, yz Lz, Lz)` (`Box.v3`); zero in 2D where `Lz = 0`. -/
def a3 (b : Box K) : Vec3 K := ⟨b.xz * b.L.z, b.yz * b.L.z, b.L.z⟩

/-- The combination `s a1 + t a2 + u a3`. -/
def comb (b : Box K) (s t u : K) : Vec3 K :=
  ⟨s * (a1 b).x + t * (a2 b).x + u * (a3 b).x,
   s * (a1 b).y + t * (a2 b).y + u * (a3 b).y,
   s * (a1 b).z + t * (a2 b).z + u * (a3 b).z⟩

/-- The lattice translation with integer coefficients `n`. -/
def lattice (b : Box K) (n : Vec3 ℤ) : Vec3 K := comb b n.x n.y n.z

/-- `n` only moves along periodic axes (and in 2D never along the third). -/
def AllowedShift (b : Box K) (n : Vec3 ℤ) : Prop :=
  (b.px = false → n.x = 0) ∧ (b.py = false → n.y = 0) ∧
    ((b.pz = false ∨ b.is2D = true) → n.z = 0)

/-- `v` has box coordinates `f`, measured from the lower corner `-(a1+a2+a3)/2`. -/
def HasCoords (b : Box K) (v f : Vec3 K) : Prop :=
  v = comb b (f.x - 1 / 2) (f.y - 1 / 2) (f.z - 1 / 2) ∧ (b.is2D = true → f.z = 0)

/-- A box as produced by the constructor and by `setL`: centred on the origin, with
non-zero lengths (`freud/box.py:58-72` rejects zero lengths) and `Lz = 0` in 2D. -/
structure Valid (b : Box K) : Prop where
  lo_eq : b.lo = ⟨-(b.L.x / 2), -(b.L.y / 2), -(b.L.z / 2)⟩
  Lx_ne : b.L.x ≠ 0
  Ly_ne : b.L.y ≠ 0
  Lz_ne : b.is2D = false → b.L.z ≠ 0
  Lz_2D : b.is2D = true → b.L.z = 0

/-- Points of a 2D system have `z = 0`. -/
def Planar (b : Box K) (v : Vec3 K) : Prop := b.is2D = true → v.z = 0

end Freud.Spec
