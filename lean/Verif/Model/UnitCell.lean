import Verif.Model.PeriodicBuffer
import Verif.Model.BoxReal

/-!
# Systems generated from a unit cell

Model of `UnitCell.generate_system` in `freud/data.py`. Exceptions are `none`.
-/

namespace Freud
variable {K : Type*} [Field K] [LinearOrder K] [IsStrictOrderedRing K] [FloorRing K]
set_option linter.unusedSectionVars false

/-- `UnitCell`, `freud/data.py:38-42`; `basis` holds fractional coordinates. -/
structure UnitCell (K : Type*) where
  box : Box K
  basis : List (Vec3 K)

namespace UnitCell

/-- `UnitCell.__init__`, `freud/data.py:38-42`, for a `freud.box.Box`. -/
def new (b : Box K) (basis : List (Vec3 K)) : Option (UnitCell K) :=
  (fromBox b).map fun b => ⟨b, basis⟩

/-- The replicated box and the positions before shift and scale, `freud/data.py:124-137`. The
neighbor query that `PeriodicBuffer.compute` builds raises without points. -/
def replicate (u : UnitCell K) (n : Vec3 ℤ) (scale : K) : Option (Box K × List (Vec3 K)) :=
  let absolute := u.basis.map u.box.makeAbsolute
  if n.x > 1 ∨ n.y > 1 ∨ n.z > 1 then
    if absolute = [] then none
    else
      (PeriodicBuffer.compute u.box absolute ⟨((n.x - 1 : ℤ) : K), ((n.y - 1 : ℤ) : K), ((n.z - 1 : ℤ) : K)⟩
        true true).bind fun B => (boxFromCPP B.box).bind fun bb =>
          (mulBox bb scale).map fun b' => (b', B.points.map Prod.fst)
  else (mulBox u.box scale).map fun b' => (b', absolute)

/-- `shift_vec * self.box.make_absolute([1, 1, 1])`, `freud/data.py:139-141`: a product of
components. -/
def shift (u : UnitCell K) (n : Vec3 ℤ) : Vec3 K :=
  Vec3.cmul ⟨(((n.x + 1) % 2 : ℤ) : K), (((n.y + 1) % 2 : ℤ) : K), (((n.z + 1) % 2 : ℤ) : K)⟩
    (u.box.makeAbsolute ⟨1, 1, 1⟩)

/-- `generate_system`, `freud/data.py:110-153`, for integer numbers of replicas (other numbers
raise). `noise` holds the random displacements that are added if `sigma_noise` is not zero. -/
def generateSystem (u : UnitCell K) (n : Vec3 ℤ) (scale : K) (noise : Option (List (Vec3 K))) :
    Option (Box K × List (Vec3 K)) :=
  if ¬ (0 < n.x ∧ 0 < n.y ∧ 0 < n.z) then none
  else if u.box.is2D = true ∧ n.z ≠ 1 then none
  else
    (u.replicate n scale).map fun r =>
      let positions := r.2.map fun p => r.1.wrap (Vec3.smul scale (p + u.shift n))
      let positions := match noise with
        | none => positions
        | some d => List.zipWith (· + ·) positions d
      (r.1, positions.map r.1.wrap)

end UnitCell
end Freud
