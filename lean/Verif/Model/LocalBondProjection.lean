import Verif.Model.BondLoop
import Verif.Model.Quat
import Mathlib.Data.Real.Basic

/-!
# Local bond projection (freud/environment/LocalBondProjection.cc)
-/

namespace Freud.LBP

/-- `computeMaxProjection` (LocalBondProjection.cc:29-55); `none` for an empty array of equivalent
orientations, whose first entry is read. -/
noncomputable def maxProj (proj localBond : Vec3 ℝ) (equiv : List (Quat ℝ)) : Option ℝ :=
  equiv.head?.map fun qconst =>
    equiv.foldl (fun m qe =>
      let qtest := Quat.mul (Quat.conj qconst) qe
      let t := Vec3.dot (Quat.rotate qtest proj) localBond
      if t > m then t else m) (Vec3.dot proj localBond)

/-- The bond vector in the local frame of point `j` (LocalBondProjection.cc:88-91). -/
noncomputable def localBond (o : Quat ℝ) (v : Vec3 ℝ) : Vec3 ℝ := Quat.rotate (Quat.conj o) v

/-- The rows of `m_local_bond_proj` and `m_local_bond_proj_norm` for a bond
(LocalBondProjection.cc:86-103). -/
noncomputable def row (orientations : List (Quat ℝ)) (projVecs : List (Vec3 ℝ)) (equiv : List (Quat ℝ))
    (_i : ℕ) (b : Bond ℝ) : Option (List (ℝ × ℝ)) :=
  orientations[b.p]?.bind fun o =>
    projVecs.mapM fun p => (maxProj p (localBond o b.vec) equiv).map fun m => (m, m / b.dist)

/-- `LocalBondProjection::compute` (LocalBondProjection.cc:57-106) after the neighbor list has been made;
`split N` are the blocks into which TBB divides a loop of `N` iterations. -/
noncomputable def compute (nQuery : ℕ) (orientations : List (Quat ℝ)) (projVecs : List (Vec3 ℝ))
    (equiv : List (Quat ℝ)) (n : NList ℝ) (split : ℕ → List (ℕ × ℕ)) : Option (List (List (ℝ × ℝ))) :=
  (BondLoop.run n (row orientations projVecs equiv) (split nQuery)
    (fun _ => List.replicate projVecs.length (0, 0))).map
      fun arr => (List.range n.bonds.length).map arr

end Freud.LBP
