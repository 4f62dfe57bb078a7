import Verif.Model.Schedule
import Verif.Model.Vec3
import Mathlib.Analysis.Real.Sqrt

/-!
# The nematic order parameter

Model of `freud/order/Nematic.cc`, `freud/order/Nematic.h` and `freud/util/diagonalize.cc`
(the python wrapper `freud/order.py:166-202` refuses arrays that do not have three columns). Numbers are reals (the code uses `float`). The eigenvalue
solver of the Eigen library is not modelled: it is a parameter (`Solver`).
-/

namespace Freud
namespace Nematic

/-- `Eigen::SelfAdjointEigenSolver::compute` (external library): from the matrix `m(row, column)`
either the three eigenvalues and the columns of eigenvectors, or `none` when `info()` is not
`Success`, `freud/util/diagonalize.cc:16-21`. -/
abbrev Solver := (ℕ → ℕ → ℝ) → Option ((ℕ → ℝ) × (ℕ → Vec3 ℝ))

/-- Component `0`, `1`, `2` of a vector. -/
def comp (v : Vec3 ℝ) (a : ℕ) : ℝ := if a = 0 then v.x else if a = 1 then v.y else v.z

/-- `diagonalize33SymmetricMatrix`, `freud/util/diagonalize.cc:13-41`: Eigen reads the row-major
data in column-major order (line 16) and its columns are stored in column-major order into the
row-major result (line 38), so eigenvector `c` becomes row `c`. On failure the identity and zero
eigenvalues are returned (lines 21-28). -/
def diagonalize (solve : Solver) (mat : List ℝ) : List ℝ × List ℝ :=
  match solve (fun r c => mat.getD (3 * c + r) 0) with
  | none => ([0, 0, 0], [1, 0, 0, 0, 1, 0, 0, 0, 1])
  | some (vals, vecs) =>
    ((List.range 3).map vals,
      (List.range 9).map (fun k => comp (vecs (k / 3)) (k % 3)))

/-- `u_i / sqrt(dot(u_i, u_i))`, `freud/order/Nematic.cc:60-61`, with `operator/` of
`freud/util/VectorMath.h:208-212`. -/
noncomputable def normalize (o : Vec3 ℝ) : Vec3 ℝ := Vec3.smul (1 / Real.sqrt (Vec3.dot o o)) o

/-- The nine entries of `Q_ab`, `freud/order/Nematic.cc:63-73`. -/
noncomputable def qab (o : Vec3 ℝ) : List ℝ :=
  let u := normalize o
  [1.5 * u.x * u.x - 0.5, 1.5 * u.x * u.y, 1.5 * u.x * u.z,
   1.5 * u.y * u.x, 1.5 * u.y * u.y - 0.5, 1.5 * u.y * u.z,
   1.5 * u.z * u.x, 1.5 * u.z * u.y, 1.5 * u.z * u.z - 0.5]

/-- `pt[j] = Q_ab[j]` for the nine entries, with `pt = pt_base + i*9`,
`freud/order/Nematic.cc:76-80`. -/
def writeRow (base : ℕ) (q : List ℝ) (a : MArray ℝ) : Option (MArray ℝ) :=
  q.zipIdx.foldlM (fun a p => a.set? (base + p.2) p.1) a

/-- `Nematic`, data members, `freud/order/Nematic.h:51-60`. -/
structure State where
  n : ℕ
  order : ℝ
  director : Vec3 ℝ
  tensor : MArray ℝ
  locals : TLS (MArray ℝ)
  particle : Option (MArray ℝ)

/-- The constructor, `freud/order/Nematic.h:26-31`. -/
def new : State := ⟨0, 0, ⟨0, 0, 0⟩, MArray.mk' [3, 3], ⟨MArray.mk' [3, 3], []⟩, none⟩

/-- The arguments of one `compute`, with the execution `ev` of its parallel loop and the order
in which `reduceInto` visits the cells. -/
structure Call where
  orientations : List (Vec3 ℝ)
  ev : List (ℕ × ℕ)
  order : List ℕ

/-- `Nematic::compute`, `freud/order/Nematic.cc:47-104`. The iterations of the parallel loop write
disjoint rows of the shared particle tensor, here in the order of the execution, and add to the
array of their own thread. -/
noncomputable def compute (solve : Solver) (s : State) (c : Call) : Option State :=
  let n := c.orientations.length
  let q := fun i => qab (c.orientations.getD i ⟨0, 0, 0⟩)
  (c.ev.foldlM (fun a e => writeRow (e.2 * 9) (q e.2) a) (MArray.mk' [n, 3, 3])).bind fun pt =>
  ((s.locals.resetWith MArray.reset).parallelFor
      (fun i a => addCells ((q i).zipIdx.map (fun p => (p.2, p.1))) a) c.ev).bind fun loc =>
  (storageReduceInto loc c.order (MArray.mk' [3, 3])).map fun r =>
    let nt : MArray ℝ := { r with data := r.data.map (· * (1 / (n : ℝ))) }
    let d := diagonalize solve nt.data
    { n := n
      order := d.1.getD 2 0
      director := ⟨d.2.getD 6 0, d.2.getD 7 0, d.2.getD 8 0⟩
      tensor := nt
      locals := loc
      particle := some pt }

/-- A history of `compute` calls on one object. -/
noncomputable def run (solve : Solver) (calls : List Call) : Option State :=
  calls.foldlM (compute solve) new

end Nematic
end Freud
