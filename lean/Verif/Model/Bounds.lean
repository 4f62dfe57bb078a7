import Mathlib.Data.List.Basic
import Mathlib.Data.List.Count
import Mathlib.Data.Nat.Basic

/-!
# What a call reads through bare pointers

The compiled code receives the arrays of a call as bare pointers and indexes them without a check; what
keeps the indices inside the arrays are the shape checks of the Python layer and
`NeighborList::validate`.  Each definition below models one `compute` method: the checks it makes (`none`
is an exception) and the list of all elements it then reads.  Only the lengths of the arrays and the pairs
of indices of the bonds matter here, so only these are modelled; the order of the reads is that of a
sequential run.
-/

namespace Freud.Bounds

/-- Reading (or writing) element `index` of an array that has `size` elements. -/
structure Access where
  array : String
  size : ℕ
  index : ℕ
deriving DecidableEq, Repr

/-- The neighbors of a call (freud/locality.py:970-1007): either a search, which returns the index pairs it
finds for a given number of query points, or a `NeighborList` object with its two sizes. -/
inductive Nbrs where
  | search (find : ℕ → List (ℕ × ℕ))
  | list (numQueryPoints numPoints : ℕ) (bonds : List (ℕ × ℕ))

/-- `loopOverNeighbors` (freud/locality/NeighborComputeFunctional.h:174-212): the bonds handed to the
compute function.  The sizes of a list are not looked at. -/
def Nbrs.bonds (n : Nbrs) (numQuery : ℕ) : List (ℕ × ℕ) :=
  match n with
  | .search find => find numQuery
  | .list _ _ bonds => bonds

/-- The reads of the query points: a search reads all `numQuery` of them, a list needs none
(NeighborComputeFunctional.h:174-212). -/
def Nbrs.queryReads (n : Nbrs) (numQuery size : ℕ) : List Access :=
  match n with
  | .search _ => (List.range numQuery).map fun k => ⟨"query_points", size, k⟩
  | .list _ _ _ => []

/-- `makeDefaultNlist` (freud/locality/NeighborComputeFunctional.cc:16-33) with `NeighborList::validate`
(freud/locality/NeighborList.cc:359-369): a list whose sizes are not those of the call is refused. -/
def Nbrs.validated (n : Nbrs) (numQuery numPoints : ℕ) : Option (List (ℕ × ℕ)) :=
  match n with
  | .search find => some (find numQuery)
  | .list a b bonds => if a = numQuery ∧ b = numPoints then some bonds else none

/-- The common shape of `CorrelationFunction.compute`, `PMFTR12.compute` and `PMFTXYT.compute`: one array
with a value per point and one with a value per query point, which defaults to the first one. -/
def pairValues (first second : String) (numPoints : ℕ) (queryPoints : Option ℕ) (n : Nbrs) (values : ℕ)
    (queryValues : Option ℕ) : Option (List Access) :=
  let numQuery := queryPoints.getD numPoints
  if values ≠ numPoints then none
  else if ∃ m, queryValues = some m ∧ m ≠ numQuery then none
  else some (n.queryReads numQuery numQuery ++ (n.bonds numQuery).flatMap fun b =>
    [⟨first, values, b.2⟩, ⟨second, queryValues.getD values, b.1⟩])

/-- `CorrelationFunction.compute` (freud/density.py:105-135, freud/density/CorrelationFunction.cc:81-96). -/
def correlation := pairValues "values" "query_values"

/-- `PMFTR12.compute` (freud/pmft.py:194-213, freud/pmft/PMFTR12.cc:90-111).  The conversion of
quaternions to angles is not modelled here. -/
def pmftR12 := pairValues "orientations" "query_orientations"

/-- `PMFTXYT.compute` (freud/pmft.py:296-315, freud/pmft/PMFTXYT.cc:78-101). -/
def pmftXYT := pairValues "orientations" "query_orientations"

/-- `PMFTXY.compute` (freud/pmft.py:398-412, freud/pmft/PMFTXY.cc:69-89). -/
def pmftXY (numPoints : ℕ) (queryPoints : Option ℕ) (n : Nbrs) (queryOrientations : ℕ) :
    Option (List Access) :=
  let numQuery := queryPoints.getD numPoints
  if queryOrientations ≠ numQuery then none
  else some (n.queryReads numQuery numQuery ++
    (n.bonds numQuery).map fun b => ⟨"query_orientations", queryOrientations, b.1⟩)

/-- `PMFTXYZ.compute` (freud/pmft.py:550-573, freud/pmft/PMFTXYZ.cc:106-145). -/
def pmftXYZ (numPoints : ℕ) (queryPoints : Option ℕ) (n : Nbrs) (queryOrientations equiv : ℕ) :
    Option (List Access) :=
  let numQuery := queryPoints.getD numPoints
  if queryOrientations ≠ numQuery then none
  else some (n.queryReads numQuery numQuery ++ (n.bonds numQuery).flatMap fun b =>
    ⟨"query_orientations", queryOrientations, b.1⟩ ::
      (List.range equiv).map fun k => ⟨"equiv_orientations", equiv, k⟩)

/-- `BondOrder.compute` (freud/environment.py:338-365, freud/environment/BondOrder.cc:105-150): the query
orientations default to the orientations *before* the shapes are checked. -/
def bondOrder (numPoints : ℕ) (queryPoints : Option ℕ) (n : Nbrs) (orientations queryOrientations : Option ℕ) :
    Option (List Access) :=
  let numQuery := queryPoints.getD numPoints
  let o := orientations.getD numPoints
  let qo := queryOrientations.getD o
  if o ≠ numPoints then none
  else if qo ≠ numQuery then none
  else some (n.queryReads numQuery numQuery ++ (n.bonds numQuery).flatMap fun b =>
    [⟨"orientations", o, b.2⟩, ⟨"query_orientations", qo, b.1⟩])

/-- `AngularSeparationNeighbor.compute` (freud/environment.py:95-123, the wrapper
freud/environment/export-AngularSeparationNeighbor.cc:24-44 and
freud/environment/AngularSeparation.cc:34-94).  The wrapper takes the number of query points from the
length of the *query orientations*; the loop runs over the points and stops at bonds of later query
points. -/
def angularSeparation (numPoints : ℕ) (queryPoints : Option ℕ) (n : Nbrs) (orientations : ℕ)
    (queryOrientations : Option ℕ) (equiv : ℕ) : Option (List Access) :=
  let numQuery := queryPoints.getD numPoints
  if orientations ≠ numPoints then none
  else if ∃ m, queryOrientations = some m ∧ m ≠ numQuery then none
  else
    let qo := queryOrientations.getD orientations
    (n.validated qo numPoints).map fun bonds => n.queryReads qo numQuery ++
      ((List.range numPoints).map fun i => ⟨"orientations", orientations, i⟩) ++
      (bonds.filter fun b => b.1 < numPoints).flatMap fun b =>
        ⟨"query_orientations", qo, b.2⟩ :: ⟨"equiv_orientations", equiv, 0⟩ ::
          (List.range equiv).map fun k => ⟨"equiv_orientations", equiv, k⟩

/-- `LocalBondProjection.compute` (freud/environment.py:1053-1074,
freud/environment/LocalBondProjection.cc:31-107): the number of orientations is not checked. -/
def localBondProjection (numPoints : ℕ) (queryPoints : Option ℕ) (n : Nbrs) (orientations proj equiv : ℕ) :
    Option (List Access) :=
  let numQuery := queryPoints.getD numPoints
  (n.validated numQuery numPoints).map fun bonds => n.queryReads numQuery numQuery ++
    (bonds.filter fun b => b.1 < numQuery).flatMap fun b =>
      ⟨"orientations", orientations, b.2⟩ :: (List.range proj).flatMap fun k =>
        ⟨"proj_vecs", proj, k⟩ :: ⟨"equiv_orientations", equiv, 0⟩ ::
          (List.range equiv).map fun m => ⟨"equiv_orientations", equiv, m⟩

/-- `LocalDescriptors.compute` (freud/environment.py:469-495,
freud/environment/LocalDescriptors.cc:36-154); `particleLocal` is the mode that uses orientations. -/
def localDescriptors (numPoints : ℕ) (queryPoints : Option ℕ) (n : Nbrs) (particleLocal : Bool)
    (orientations : Option ℕ) : Option (List Access) :=
  let numQuery := queryPoints.getD numPoints
  if particleLocal ∧ orientations ≠ some numPoints then none
  else (n.validated numQuery numPoints).map fun _ => n.queryReads numQuery numQuery ++
    if particleLocal then
      (List.range numPoints).map fun i => ⟨"orientations", orientations.getD 0, i⟩
    else []

/-- `Cluster.compute` (freud/cluster.py:69-78, freud/cluster/Cluster.cc:21-98): both indices of a bond
select elements of the disjoint sets, which has one element per point. -/
def cluster (numPoints : ℕ) (n : Nbrs) (keys : Option ℕ) : Option (List Access) :=
  if ∃ m, keys = some m ∧ m ≠ numPoints then none
  else some (n.queryReads numPoints numPoints ++
    ((n.bonds numPoints).flatMap fun b => [⟨"sets", numPoints, b.2⟩, ⟨"sets", numPoints, b.1⟩]) ++
    match keys with
    | none => []
    | some m => (List.range numPoints).map fun i => ⟨"keys", m, i⟩)

/-- `ClusterProperties.compute` (freud/cluster.py:177-185,
freud/cluster/ClusterProperties.cc:30-80): `*std::max_element` is read whatever the number of points, the
masses are read in the order of the points and again, cluster by cluster, from a running offset.  The
length of the masses is not checked. -/
def clusterProperties (numPoints : ℕ) (clusterIdx : List ℕ) (masses : Option ℕ) : Option (List Access) :=
  if clusterIdx.length ≠ numPoints then none
  else
    let numClusters := clusterIdx.foldl max 0 + 1
    let size := fun c => clusterIdx.count c
    let offset := fun c => ((List.range c).map size).sum
    some (⟨"cluster_idx", numPoints, 0⟩ ::
      ((List.range numPoints).map fun i => ⟨"cluster_idx", numPoints, i⟩) ++
      (clusterIdx.map fun c => ⟨"clusters", numClusters, c⟩) ++
      match masses with
      | none => []
      | some m => ((List.range numPoints).map fun i => ⟨"masses", m, i⟩) ++
          (List.range numClusters).flatMap fun c =>
            (List.range (size c)).map fun i => ⟨"masses", m, offset c + i⟩)

/-- `Hexatic.compute` and the neighbor loop of `Steinhardt.compute`
(freud/order/HexaticTranslational.cc:24-60, freud/order/Steinhardt.cc:136-190): the loop runs over the
points; points are read with the checked `NeighborQuery::operator[]`
(freud/locality/NeighborQuery.h:178-185), which throws. -/
def hexatic (numPoints : ℕ) (n : Nbrs) : Option (List Access) :=
  let bonds := (n.bonds numPoints).filter fun b => b.1 < numPoints
  if bonds.any fun b => numPoints ≤ b.2 then none
  else some (n.queryReads numPoints numPoints ++
    ((List.range numPoints).map fun i => ⟨"points", numPoints, i⟩) ++
    bonds.flatMap fun b => [⟨"points", numPoints, b.2⟩, ⟨"psi", numPoints, b.1⟩])

/-- `SolidLiquid.compute` (freud/order/SolidLiquid.cc:31-117), after `makeDefaultNlist`. -/
def solidLiquid (numPoints : ℕ) (n : Nbrs) : Option (List Access) :=
  (n.validated numPoints numPoints).map fun bonds => n.queryReads numPoints numPoints ++
    bonds.flatMap fun b => [⟨"qlm", numPoints, b.1⟩, ⟨"qlm", numPoints, b.2⟩,
      ⟨"number_of_connections", numPoints, b.1⟩, ⟨"number_of_connections", numPoints, b.2⟩,
      ⟨"sets", numPoints, b.1⟩, ⟨"sets", numPoints, b.2⟩]

/-- `EnvironmentCluster.compute` (freud/environment.py:786-803,
freud/environment/MatchEnv.cc:524-590): both lists are validated. -/
def environmentCluster (numPoints : ℕ) (n env : Nbrs) : Option (List Access) :=
  (n.validated numPoints numPoints).bind fun bonds => (env.validated numPoints numPoints).map fun _ =>
    n.queryReads numPoints numPoints ++ env.queryReads numPoints numPoints ++
      bonds.flatMap fun b => [⟨"environments", numPoints, b.1⟩, ⟨"environments", numPoints, b.2⟩]

/-- `FilterRAD.compute` (freud/locality.py:1472-1503, freud/locality/FilterRAD.cc:22-110); the values of
the radii are not modelled here. -/
def filterRAD (numPoints : ℕ) (queryPoints : Option ℕ) (n : Nbrs) (pointsRadii queryPointsRadii : Option ℕ) :
    Option (List Access) :=
  let numQuery := queryPoints.getD numPoints
  let r := pointsRadii.getD numPoints
  if r ≠ numPoints then none
  else if queryPointsRadii.getD numQuery ≠ numQuery then none
  else (n.validated numQuery numPoints).map fun bonds => n.queryReads numQuery numQuery ++
    bonds.flatMap fun b => [⟨"query_points", numQuery, b.1⟩, ⟨"points", numPoints, b.2⟩,
      ⟨"points_radii", r, b.2⟩]

/-- `GaussianDensity.compute` (freud/density.py:253-261, freud/density/GaussianDensity.cc:46-140): one
value per point. -/
def gaussianDensity (numPoints : ℕ) (values : Option ℕ) : Option (List Access) :=
  match values with
  | none => some ((List.range numPoints).map fun i => ⟨"points", numPoints, i⟩)
  | some m => if m ≠ numPoints then none
    else some ((List.range numPoints).flatMap fun i => [⟨"points", numPoints, i⟩, ⟨"values", m, i⟩])

/-- `RotationalAutocorrelation.compute` (freud/order.py:852-865,
freud/order/RotationalAutocorrelation.cc:61-88, export-RotationalAutocorrelation.cc:20-31). -/
def rotationalAutocorrelation (ref orientations : ℕ) : Option (List Access) :=
  if ref ≠ orientations then none
  else some ((List.range orientations).flatMap fun i =>
    [⟨"ref_orientations", ref, i⟩, ⟨"orientations", orientations, i⟩])

end Freud.Bounds
