import Verif.Model.Sources
import Verif.Model.Filter

/-!
# The unfiltered list of a neighbor filter

Model of what `Filter.compute` gives to the C++ filters, `freud/locality.py:1296-1335`.
-/

namespace Freud

/-- `NeighborQuery.box`, `freud/locality/NeighborQuery.h:157-161`. -/
def System.box : System → Box ℝ
  | .raw aq => aq.box
  | .aabb aq => aq.box
  | .linkCell lc => lc.box
  | .cell o => o.box

/-- `NeighborQuery.points`, `freud/locality/NeighborQuery.h:163-173`. -/
def System.points : System → List (Vec3 ℝ)
  | .raw aq => aq.pts
  | .aabb aq => aq.pts
  | .linkCell lc => lc.pts
  | .cell o => o.pts

/-- The argument `neighbors` of `compute`: nothing, a dictionary asking for a ball query (with
`exclude_ii` given or not), or a list. -/
inductive NeighborsArg
  | nothing
  | ball (rMax rMin : ℝ) (excludeII : Option Bool)
  | list (nl : NList ℝ)

/-- `nl` is a possible unfiltered list of `compute(system, neighbors, query_points)`:
`Filter._preprocess_arguments` (`freud/locality.py:1296-1301`) with `NeighborList.all_pairs`
(`freud/locality.py:582-598`), `_resolve_neighbors` (`freud/locality.py:970-983`) and
`makeDefaultNlist` (`freud/locality/NeighborComputeFunctional.cc:16-33`), before its size check. The
order in which the rows of the all-pairs list are filled and the schedule of the query are free. -/
def Filter.Unfiltered (s : System) (queryPoints : Option (List (Vec3 ℝ))) :
    NeighborsArg → NList ℝ → Prop
  | .nothing, nl =>
    let qpts := queryPoints.getD s.points
    ∃ order : List ℕ, order.Perm (List.range qpts.length) ∧
      nl = NList.allPairs s.box (fun i => qpts.getD i 0) (fun j => s.points.getD j 0) queryPoints.isNone
        qpts.length s.points.length order
  | .ball rMax rMin ex, nl =>
    let qpts := queryPoints.getD s.points
    ∃ found ev, s.Finds qpts rMax rMin (ex.getD queryPoints.isNone) found ∧
      Spec.IsExecution qpts.length ev ∧
      ToNeighborList found qpts.length s.points.length false ev nl
  | .list l, nl => nl = l

end Freud
