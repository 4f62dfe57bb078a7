import Verif.Model.PairFrames
import Mathlib.Analysis.SpecialFunctions.Trigonometric.Inverse

/-!
# The arguments of the PMFT classes

Model of what `freud/pmft.py` does with its arguments before the C++ code runs: orientations of
two-dimensional systems, which may be angles or quaternions, the default range of the neighbors, and
`shiftvec`. Angles are reals; conversions to single precision are not modelled.
-/

namespace Freud.PMFT

/-- What the code sees of a `numpy` array of orientations: its shape and its entries in row-major
order. -/
structure OriArray where
  shape : List ℕ
  data : List ℝ

/-- `np.allclose` for one pair of numbers, with the default tolerances: `|a - b| ≤ atol + rtol |b|`. -/
noncomputable def close (a b : ℝ) : Bool := decide (|a - b| ≤ 1 / 10 ^ 8 + 1 / 10 ^ 5 * |b|)

/-- The rows of an array with four columns. -/
def rows4 : List ℝ → List (Quat ℝ)
  | s :: x :: y :: z :: r => ⟨s, ⟨x, y, z⟩⟩ :: rows4 r
  | _ => []

/-- `rowan.to_axis_angle` for one quaternion (a dependency, described here from its documentation and
not part of `/repo`): the angle is `2 arccos s` and the axis the vector part divided by the sine of
half the angle; the axis of a rotation by 0 is the zero vector. `none` is the exception for
quaternions that are not of unit length, and stands for the `nan` that `arccos` gives outside
`[-1, 1]`, for which the test in `_quat_to_z_angle` fails. -/
noncomputable def toAxisAngle (q : Quat ℝ) : Option (Vec3 ℝ × ℝ) :=
  if close (Real.sqrt (Quat.norm2 q)) 1 = false then none
  else if 1 < |q.s| then none
  else
    let angle := 2 * Real.arccos q.s
    let axis := if angle ≠ 0 then
        let h := if Real.sin (angle / 2) = 0 then 1 else Real.sin (angle / 2)
        ⟨q.v.x / h, q.v.y / h, q.v.z / h⟩
      else ⟨0, 0, 0⟩
    some (axis, angle)

/-- `np.ndarray.squeeze`: axes of length one are removed. -/
def squeeze (a : OriArray) : OriArray := ⟨a.shape.filter (· ≠ 1), a.data⟩

/-- `np.atleast_1d`. -/
def atleast1d (a : OriArray) : OriArray := if a.shape = [] then ⟨[1], a.data⟩ else a

/-- `_quat_to_z_angle`, `freud/pmft.py:58-81`; `none` is a raised exception. The result of
`to_axis_angle` for a single quaternion is given the shape `(1,)`, which `np.atleast_1d` gives it
anyway. -/
noncomputable def quatToZAngle (a : OriArray) (numPoints : ℕ) : Option OriArray :=
  let isQuat := (a.shape.length = 1 ∧ a.shape.getD 0 0 = 4 ∧ numPoints ≠ 4) ∨
    (a.shape.length = 2 ∧ a.shape.getD 1 0 = 4)
  if isQuat then
    ((rows4 a.data).mapM toAxisAngle).bind fun aa =>
      let angles := aa.map Prod.snd
      let zeroAngles := angles.all fun t => close t 0
      let zAxes := aa.all fun r => close r.1.x 0 && close r.1.y 0 && close r.1.z 1
      if zeroAngles || zAxes then
        some ⟨if a.shape.length = 1 then [1] else [a.shape.getD 0 0], angles⟩
      else none
  else some a

/-- `_gen_angle_array`, `freud/pmft.py:84-94`, with the shape test of `_convert_array`,
`freud/util.py:126-139`: the angles handed to the C++ code. -/
noncomputable def genAngleArray (a : OriArray) (numPoints : ℕ) : Option (List ℝ) :=
  (quatToZAngle (squeeze a) numPoints).bind fun a =>
    let a := atleast1d a
    if a.shape = [numPoints] then some a.data else none

/-! ### The default range of the neighbors -/

/-- `self.r_max` of `PMFTXYT` and `PMFTXY`, `freud/pmft.py:250, 358`. Without `neighbors`,
`_SpatialHistogram.default_query_args` (`freud/locality.py:1012-1016`) makes a ball query with it. -/
noncomputable def rMaxXY (xMax yMax : ℝ) : ℝ := Real.sqrt (xMax ^ 2 + yMax ^ 2)

/-- `self.r_max` of `PMFTXYZ`, `freud/pmft.py:497`. -/
noncomputable def rMaxXYZ (xMax yMax zMax : ℝ) : ℝ := Real.sqrt (xMax ^ 2 + yMax ^ 2 + zMax ^ 2)

/-! ### `shiftvec` -/

/-- The `neighbors` argument of `PMFTXYZ.compute`: a neighbor list or query arguments. -/
inductive Neighbors
  | list (nl : NList ℝ)
  | args (rMax rMin : ℝ) (excl : Bool)

/-- What the C++ code loops over in `PMFTXYZ.compute`, `freud/pmft.py:550-573`: the query points are
moved by `shiftvec` (line 553) before they are handed on; a neighbor list is handed on as it is. -/
def ShiftedSource (s : System) (qpts : List (Vec3 ℝ)) (shiftvec : Vec3 ℝ) :
    Neighbors → Source → Prop
  | .list nl, src => src = .list nl
  | .args rMax rMin excl, src => ∃ found,
      s.Finds (qpts.map fun q => q - shiftvec) rMax rMin excl found ∧
        src = .query found (qpts.map fun q => q - shiftvec).length

/-- The vectors that are binned, in the order of the loop: `freud/pmft/PMFTXYZ.cc:126-143`. -/
noncomputable def binned (queryOri : ℕ → Quat ℝ) (equiv : List (Quat ℝ)) (src : Source) : List (List ℝ) :=
  (List.range src.iterations).flatMap fun i =>
    ((src.bonds i).getD []).flatMap (samplesXYZ queryOri equiv)

end Freud.PMFT
