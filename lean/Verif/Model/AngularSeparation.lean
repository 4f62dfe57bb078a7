import Verif.Model.BondLoop
import Verif.Model.Quat
import Mathlib.Analysis.SpecialFunctions.Trigonometric.Inverse

/-!
# Angular separation (freud/environment/AngularSeparation.cc)

Exact real arithmetic.
-/

namespace Freud.AngSep

/-- `computeSeparationAngle` (AngularSeparation.cc:23-28), with `util::clamp` (freud/util/utils.h:18-21). -/
noncomputable def sepAngle (ref q : Quat ℝ) : ℝ :=
  2 * Real.arccos (max (-1) (min (Quat.mul q (Quat.conj ref)).s 1))

/-- `computeMinSeparationAngle` (AngularSeparation.cc:34-59).  `equiv_qs[0]` is read whatever the length:
`none` for an empty array. -/
noncomputable def minSep (ref q : Quat ℝ) (equiv : List (Quat ℝ)) : Option ℝ :=
  equiv.head?.map fun qconst =>
    let qtemp := Quat.mul q (Quat.conj qconst)
    equiv.foldl (fun m qe =>
      let angleTest := sepAngle ref (Quat.mul qtemp qe)
      if angleTest < m then angleTest else m) (sepAngle ref q)

/-- `AngularSeparationNeighbor::compute` (AngularSeparation.cc:61-94) after the neighbor list has been
made: the loop runs over the `nPoints` points of the system, `orientations[i]` is read with the first
column of the bond and `query_orientations[j]` with the second.  `split N` are the blocks into which TBB
divides a loop of `N` iterations, in the order of their execution.  The array starts with zeros
(freud/util/ManagedArray.h). -/
noncomputable def neighborAngles (nPoints : ℕ) (orientations queryOrientations equiv : List (Quat ℝ))
    (n : NList ℝ) (split : ℕ → List (ℕ × ℕ)) : Option (List ℝ) :=
  (BondLoop.run n (fun i b =>
      orientations[i]?.bind fun q => queryOrientations[b.p]?.bind fun qq => minSep q qq equiv)
    (split nPoints) (fun _ => 0)).map fun arr => (List.range n.bonds.length).map arr

/-- The Python front end (freud/environment.py:95-123): the orientations must have one row per point; the
query orientations default to the orientations and must otherwise have one row per query point. -/
noncomputable def computeNeighbor (nPoints nQuery : ℕ) (orientations : List (Quat ℝ))
    (queryOrientations : Option (List (Quat ℝ))) (equiv : List (Quat ℝ)) (n : NList ℝ)
    (split : ℕ → List (ℕ × ℕ)) : Option (List ℝ) :=
  if orientations.length ≠ nPoints then none
  else match queryOrientations with
    | none => neighborAngles nPoints orientations orientations equiv n split
    | some qo => if qo.length ≠ nQuery then none
      else neighborAngles nPoints orientations qo equiv n split

/-- One row of `AngularSeparationGlobal` (AngularSeparation.cc:108-116). -/
noncomputable def globalRow (globals equiv : List (Quat ℝ)) (q : Quat ℝ) : Option (List ℝ) :=
  globals.mapM fun g => minSep q g equiv

/-- `AngularSeparationGlobal::compute` (AngularSeparation.cc:96-119); `order` is the order in which the rows
are written. -/
noncomputable def globalAngles (globals orientations equiv : List (Quat ℝ)) :
    List ℕ → (ℕ → List ℝ) → Option (ℕ → List ℝ)
  | [], arr => some arr
  | i :: is, arr => orientations[i]?.bind fun q => (globalRow globals equiv q).bind fun row =>
      globalAngles globals orientations equiv is (Function.update arr i row)

end Freud.AngSep
