import Verif.Model.LocalDescriptors
import Verif.Spec.BondOrder
import Verif.Spec.Nematic
import Verif.Model.NeighborList
import Mathlib.Data.Complex.Basic

/-!
# Specification of local descriptors
-/

namespace Freud.Spec
open Freud

/-- How many bonds of the same query point come before bond `k`. -/
def rank (bonds : List (Bond ℝ)) (k : ℕ) (b : Bond ℝ) : ℕ :=
  ((bonds.take k).filter (fun c => decide (c.q = b.q))).length

/-- The bonds of point `i` that are used: all, or the first `maxNum`. -/
def usedBonds (bonds : List (Bond ℝ)) (maxNum i : ℕ) : List (Bond ℝ) :=
  let l := bonds.filter (fun c => decide (c.q = i))
  if maxNum = 0 then l else l.take maxNum

/-- Whether bond `k` is used. -/
def Used (bonds : List (Bond ℝ)) (maxNum k : ℕ) (b : Bond ℝ) : Prop :=
  maxNum = 0 ∨ rank bonds k b < maxNum

/-- The harmonics as a function of the direction, and their number. -/
structure SphOK (sph : ℝ → ℝ → List ℂ) (Y : Vec3 ℝ → List ℂ) (count : ℕ) : Prop where
  length : ∀ polar azimuth, (sph polar azimuth).length = count
  value : ∀ polar azimuth, sph polar azimuth = Y (spherical 1 azimuth polar)

/-- The direction of a vector; a vector of length zero counts as pointing down. -/
noncomputable def directionOf (v : Vec3 ℝ) : Vec3 ℝ :=
  if v = ⟨0, 0, 0⟩ then ⟨0, 0, -1⟩ else Vec3.smul (1 / Real.sqrt (Vec3.dot v v)) v

/-- The bonds carry the length of their vector. -/
def TrueDistances (bonds : List (Bond ℝ)) : Prop :=
  ∀ b ∈ bonds, b.dist = Real.sqrt (Vec3.dot b.vec b.vec)

/-- The inertia tensor of unit masses at the ends of the bonds, about the point. -/
noncomputable def inertiaOf (bonds : List (Bond ℝ)) (a c : ℕ) : ℝ :=
  (bonds.map fun b => (if a = c then Vec3.dot b.vec b.vec else 0) - coord b.vec a * coord b.vec c).sum

/-- The coordinates of `v` along three axes. -/
noncomputable def along (axes : ℕ → Vec3 ℝ) (v : Vec3 ℝ) : Vec3 ℝ :=
  ⟨Vec3.dot (axes 0) v, Vec3.dot (axes 1) v, Vec3.dot (axes 2) v⟩

/-- The three coordinate axes. -/
noncomputable def cartesian : ℕ → Vec3 ℝ
  | 0 => ⟨1, 0, 0⟩
  | 1 => ⟨0, 1, 0⟩
  | _ => ⟨0, 0, 1⟩

/-- The axes in which the bonds of a point with the bonds `bonds` and the orientation `o` are
described: the principal axes of inertia of the bonds in ascending order of the moments, the axes of
the particle, or the coordinate axes. -/
def AxesOf (mode : LocalDescriptors.Mode) (bonds : List (Bond ℝ)) (o : Option (Quat ℝ))
    (axes : ℕ → Vec3 ℝ) : Prop :=
  match mode with
  | .neighborhood => ∃ moments, Decomposition (inertiaOf bonds) moments axes
  | .particleLocal => ∃ q, o = some q ∧ ∀ j < 3, axes j = Quat.rotate q (cartesian j)
  | .global => ∀ j < 3, axes j = cartesian j

/-- All moments of inertia differ. -/
def DistinctMoments (bonds : List (Bond ℝ)) : Prop :=
  ∃ moments axes, Decomposition (inertiaOf bonds) moments axes ∧ moments 0 < moments 1 ∧
    moments 1 < moments 2

/-- The coordinates `v` with some signs changed. -/
noncomputable def signFlip (s : ℕ → ℝ) (v : Vec3 ℝ) : Vec3 ℝ := ⟨s 0 * v.x, s 1 * v.y, s 2 * v.z⟩

/-- Three signs. -/
def Signs (s : ℕ → ℝ) : Prop := ∀ j, s j = 1 ∨ s j = -1

/-- The bond after a rotation of the system. -/
noncomputable def rotatedBond (R : Quat ℝ) (b : Bond ℝ) : Bond ℝ := { b with vec := Quat.rotate R b.vec }

end Freud.Spec
