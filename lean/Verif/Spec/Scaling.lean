import Verif.Spec.Renumber

/-!
# Specification: the same system in another unit of length
-/

namespace Freud.Spec
open Freud

/-- `b'` is the box `b` with all lengths multiplied by `c`. -/
structure ScaledBox (c : ℝ) (b b' : Box ℝ) : Prop where
  L : b'.L = ⟨c * b.L.x, c * b.L.y, c * b.L.z⟩
  tilts : b'.xy = b.xy ∧ b'.xz = b.xz ∧ b'.yz = b.yz
  periodic : b'.px = b.px ∧ b'.py = b.py ∧ b'.pz = b.pz
  dims : b'.is2D = b.is2D
  valid : Valid b'

/-- All positions multiplied by `c`. -/
def scaledPoints (c : ℝ) (pts : List (Vec3 ℝ)) : List (Vec3 ℝ) :=
  pts.map fun p => ⟨c * p.x, c * p.y, c * p.z⟩

/-- The bond with its length and its vector multiplied by `c`; ends and weight are kept. -/
def scaledBond (c : ℝ) (bd : Bond ℝ) : Bond ℝ :=
  ⟨bd.q, bd.p, c * bd.dist, bd.weight, ⟨c * bd.vec.x, c * bd.vec.y, c * bd.vec.z⟩⟩

/-- The neighbor list `nl'` holds the bonds of `nl`, scaled, perhaps in another order. -/
def ScaledList (c : ℝ) (nl nl' : NList ℝ) : Prop := nl'.bonds.Perm (nl.bonds.map (scaledBond c))

end Freud.Spec
