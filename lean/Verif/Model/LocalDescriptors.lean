import Verif.Model.BondOrder
import Verif.Model.Nematic
import Verif.Model.Quat

/-!
# Local descriptors

Model of `freud/environment/LocalDescriptors.cc`, `LocalDescriptors.h` and
`freud/environment.py:427-495` on a given neighbor list. Exact arithmetic over the reals and complex
numbers (the code uses `float`). Spherical harmonics (fsph) and the eigenvalue solver (Eigen) are
parameters. The index of a row, computed with `unsigned int` at line 123, is assumed not to overflow.
-/

namespace Freud
namespace LocalDescriptors

/-- `LocalDescriptorOrientation`, `freud/environment/LocalDescriptors.h:22-27`. -/
inductive Mode
  | neighborhood
  | global
  | particleLocal
deriving DecidableEq

/-- `fsph::PointSPHEvaluator` (external): all values up to `l_max` for a polar angle and an azimuth, in
the order of its iterator. -/
abbrev Sph := ℝ → ℝ → List ℂ

/-- `fsph::sphCount` (external): the number of pairs `0 ≤ m ≤ l ≤ lMax`. -/
def sphCount (lMax : ℕ) : ℕ := (lMax + 1) * (lMax + 2) / 2

/-- `getSphWidth`, `freud/environment/LocalDescriptors.h:71-74`. -/
def width (lMax : ℕ) (negativeM : Bool) : ℕ :=
  sphCount lMax + if lMax > 0 && negativeM then sphCount (lMax - 1) else 0

/-- The bonds that the loops at `freud/environment/LocalDescriptors.cc:66-69` and `117-120` visit for
point `i`, beginning at `bond`. -/
def visited {K : Type*} (n : NList K) (i maxN bond count : ℕ) : List ℕ :=
  if h : bond < n.bonds.length then
    if n.bonds[bond].q = i ∧ count < maxN then bond :: visited n i maxN (bond + 1) (count + 1) else []
  else []
termination_by n.bonds.length - bond

/-- One bond in the sum of the inertia tensor, `freud/environment/LocalDescriptors.cc:71-88`; the nine
entries in row-major order. -/
noncomputable def addTensor (t : List ℝ) (r : Vec3 ℝ) : List ℝ :=
  let rsq := Vec3.dot r r
  [t.getD 0 0 + rsq - r.x * r.x, t.getD 1 0 - r.x * r.y, t.getD 2 0 - r.x * r.z,
   t.getD 3 0 - r.x * r.y, t.getD 4 0 + rsq - r.y * r.y, t.getD 5 0 - r.y * r.z,
   t.getD 6 0 - r.x * r.z, t.getD 7 0 - r.y * r.z, t.getD 8 0 + rsq - r.z * r.z]

/-- The vector of bond `k`; only used for bonds of the list. -/
noncomputable def vec (n : NList ℝ) (k : ℕ) : Vec3 ℝ := (n.bonds.getD k ⟨0, 0, 0, 0, ⟨0, 0, 0⟩⟩).vec

/-- The rotation for point `i`, `freud/environment/LocalDescriptors.cc:59-114`. `none` is a read
outside the orientations. -/
noncomputable def frame (solve : Nematic.Solver) (mode : Mode) (orientations : List (Quat ℝ)) (n : NList ℝ)
    (maxN i : ℕ) : Option (Mat3 ℝ) :=
  match mode with
  | .neighborhood =>
    let t := (visited n i maxN (n.findFirstIndex i) 0).foldl (fun t k => addTensor t (vec n k))
      (List.replicate 9 0)
    let e := (Nematic.diagonalize solve t).2
    some ⟨⟨e.getD 0 0, e.getD 1 0, e.getD 2 0⟩, ⟨e.getD 3 0, e.getD 4 0, e.getD 5 0⟩,
      ⟨e.getD 6 0, e.getD 7 0, e.getD 8 0⟩⟩
  | .particleLocal => orientations[i]?.map fun o => Mat3.ofQuat (Quat.conj o)
  | .global => some ⟨⟨1, 0, 0⟩, ⟨0, 1, 0⟩, ⟨0, 0, 1⟩⟩

/-- `phi`, `freud/environment/LocalDescriptors.cc:134-141`: outside the range of the arccosine, and
for a distance of zero, the value is not a number and is replaced. -/
noncomputable def polar (v : Vec3 ℝ) (dist : ℝ) : ℝ :=
  if dist = 0 ∨ 1 < |v.z / dist| then (if v.z > 0 then 0 else Real.pi) else Real.arccos (v.z / dist)

/-- The row of bond `k`, `freud/environment/LocalDescriptors.cc:122-146`; the azimuth is computed as
in `BondOrder`. -/
noncomputable def row (sph : Sph) (m : Mat3 ℝ) (n : NList ℝ) (k : ℕ) : List ℂ :=
  let r := vec n k
  let b : Vec3 ℝ := ⟨Vec3.dot m.row0 r, Vec3.dot m.row1 r, Vec3.dot m.row2 r⟩
  sph (polar b (n.bonds.getD k ⟨0, 0, 0, 0, ⟨0, 0, 0⟩⟩).dist) (BondOrder.theta b)

/-- `LocalDescriptors::compute`, `freud/environment/LocalDescriptors.cc:34-153`. `order` is the order
in which the threads take the points `0, …, nq->getNPoints() - 1`. -/
noncomputable def compute (sph : Sph) (solve : Nematic.Solver) (lMax : ℕ) (negativeM : Bool)
    (mode : Mode) (orientations : List (Quat ℝ)) (n : NList ℝ) (maxNum : ℕ)
    (order : List ℕ) : Option (List (List ℂ)) :=
  let maxN := if maxNum = 0 then 0xffffffff else maxNum
  (order.foldlM (fun (arr : ℕ → List ℂ) i => (frame solve mode orientations n maxN i).map fun m =>
      (visited n i maxN (n.findFirstIndex i) 0).foldl
        (fun arr k => Function.update arr k (row sph m n k)) arr)
    (fun _ => List.replicate (width lMax negativeM) 0)).map fun arr =>
      (List.range n.bonds.length).map arr

/-- The exceptions raised in Python. -/
inductive Error
  | value
  | runtime
deriving DecidableEq

/-- `known_modes` and the constructor, `freud/environment.py:421-434`. -/
def modeOf (s : String) : Except Error Mode :=
  if s = "neighborhood" then .ok .neighborhood
  else if s = "global" then .ok .global
  else if s = "particle_local" then .ok .particleLocal
  else .error .value

/-- The checks of the orientations, `freud/environment.py:473-484`: what is given to C++. -/
def checked (mode : Mode) (nPoints : ℕ) (orientations : Option (List (Quat ℝ))) :
    Except Error (List (Quat ℝ)) :=
  if mode = .particleLocal then
    match orientations with
    | none => .error .runtime
    | some o => if o.length = nPoints then .ok o else .error .value
  else .ok (orientations.getD [])

end LocalDescriptors
end Freud
