import Verif.Model.PMFTArgs
import Mathlib.Analysis.SpecialFunctions.Trigonometric.Basic

/-!
# Specification: orientations in the plane
-/

namespace Freud.Spec
open Freud PMFT

/-- The rotation of the quaternion `q` is the counterclockwise rotation by `θ` about the z axis. -/
def RotatesBy (q : Quat ℝ) (θ : ℝ) : Prop :=
  ∀ v : Vec3 ℝ, Quat.rotate q v =
    ⟨Real.cos θ * v.x - Real.sin θ * v.y, Real.sin θ * v.x + Real.cos θ * v.y, v.z⟩

/-- A unit quaternion that is a rotation about the z axis. -/
def AboutZ (q : Quat ℝ) : Prop := Quat.norm2 q = 1 ∧ q.v.x = 0 ∧ q.v.y = 0

/-- The entries of a list of quaternions, row by row. -/
def quatEntries (l : List (Quat ℝ)) : List ℝ := l.flatMap fun q => [q.s, q.v.x, q.v.y, q.v.z]

/-- The array of shape `(N, 4)` that holds the quaternions `l`. -/
def quatArray (l : List (Quat ℝ)) : OriArray := ⟨[l.length, 4], quatEntries l⟩

/-- All bonds a source gives to a compute class. -/
def allBonds (src : Source) : List (Bond ℝ) :=
  (List.range src.iterations).flatMap fun i => (src.bonds i).getD []

end Freud.Spec
