import Verif.Model.Filter

/-!
# The radii given to FilterRAD

Model of the checks of `points_radii` and `query_points_radii` in `FilterRAD.compute`, `freud/locality.py:1466-1505`.
-/

namespace Freud.FilterRAD

variable {K : Type*} [Field K] [LinearOrder K]

/-- What becomes of one of the arguments `points_radii` and `query_points_radii` for `n` particles,
`freud/locality.py:1470-1495`: nothing given means ones, then come the shape test of `_convert_array`
(`freud/util.py:126-139`) and the tests that all values are finite and positive. An entry `none` is a value that is not
finite; the result `none` is a `ValueError`. The conversion to `float32` is not modelled. -/
def radiiArg (n : ℕ) (arg : Option (List (Option K))) : Option (List K) :=
  let a := arg.getD (List.replicate n (some 1))
  if a.length ≠ n then none
  else if a.any (fun x => x.isNone) then none
  else if a.any (fun x => x.any fun r => decide (¬ 0 < r)) then none
  else some (a.filterMap id)

/-- `FilterRAD.compute(system, neighbors, query_points, points_radii, query_points_radii)` after the preprocessing that
gives the unfiltered list `n`, `freud/locality.py:1466-1505`, with `(void) query_points_radii` in
`freud/locality/FilterRAD.cc:26`. -/
def PyCompute [FloorRing K] (box : Box K) (qpt pt : ℕ → Vec3 K) (closed : Bool) (n : NList K) (nq np : ℕ)
    (allow : Bool) (pointsRadii queryRadii : Option (List (Option K))) (ev : List (ℕ × ℕ)) (r : Option (NList K)) :
    Prop :=
  match radiiArg np pointsRadii, radiiArg nq queryRadii with
  | some radii, some _ => Compute box qpt pt (fun j => radii.getD j 0) closed n nq np allow ev r
  | _, _ => r = none

end Freud.FilterRAD
