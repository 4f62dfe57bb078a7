import Verif.Model.NearestQuery
import Verif.Model.NeighborList

/-!
# The forms in which a system and its neighbors are handed over

Model of `NeighborQuery.from_system` and `_PairCompute._preprocess_arguments` in
`freud/locality.py`, of `_convert_array` and `_convert_box` in `freud/util.py` and of `Box.from_box`
in `freud/box.py`. Exceptions are `none`. Numbers are real: the conversion to single precision is
not modelled.
-/

namespace Freud

/-- A NumPy array: its shape and its entries in row-major order. -/
structure Arr where
  shape : List ℕ
  data : List ℝ

/-- `_convert_array`, `freud/util.py:86-141`, with a shape whose entries may be left open (`none`),
for an array that is given. Conversions of the element type and of the memory layout keep the
entries. -/
def convertArray (a : Arr) (shape : List (Option ℕ)) : Option Arr :=
  if a.shape.length ≠ shape.length then none
  else if (a.shape.zip shape).any fun (n, s) => s.any (· ≠ n) then none
  else some a

/-- `np.atleast_2d`, used in `freud/locality.py:410-412`. -/
def atleast2d (a : Arr) : Arr :=
  match a.shape with
  | [] => ⟨[1, 1], a.data⟩
  | [n] => ⟨[1, n], a.data⟩
  | _ => a

/-- The rows of an array of shape `(n, 3)`, read as vectors: how the binding layer hands an array of
points to C++. -/
def Arr.rows (a : Arr) : List (Vec3 ℝ) :=
  (List.range (a.shape.headD 0)).map fun i =>
    ⟨a.data.getD (3 * i) 0, a.data.getD (3 * i + 1) 0, a.data.getD (3 * i + 2) 0⟩

/-- The points in an array given by a user: `_convert_array(points, shape=(None, 3))`,
`freud/locality.py:846-848, 868, 891, 920, 966`. -/
def pointsOf (a : Arr) : Option (List (Vec3 ℝ)) := (convertArray a [none, some 3]).map Arr.rows

/-- A 3 by 3 matrix, by row and column. -/
abbrev CellMat := Fin 3 → Fin 3 → ℝ

/-- `box_matrix[:, j]`, `freud/box.py:863-865`. -/
def CellMat.col (m : CellMat) (j : Fin 3) : Vec3 ℝ := ⟨m 0 j, m 1 j, m 2 j⟩

/-- The named entries of a box-like object or dictionary; `none` is an entry that is missing. -/
structure Named where
  Lx : Option ℝ := none
  Ly : Option ℝ := none
  Lz : Option ℝ := none
  xy : Option ℝ := none
  xz : Option ℝ := none
  yz : Option ℝ := none
  dimensions : Option ℕ := none

/-- What may be given for a box, `freud/box.py:760-781`: a `freud.box.Box`, a 3 by 3 matrix, an object
with attributes, a dictionary or a list of numbers. -/
inductive BoxLike
  | box (b : Box ℝ)
  | matrix (m : CellMat)
  | attributes (n : Named)
  | dict (n : Named)
  | list (l : List ℝ)

/-- The attributes of a `freud.box.Box`; `dimensions` is `freud/box.py:172-175`. -/
def namedOf (b : Box ℝ) : Named :=
  ⟨some b.L.x, some b.L.y, some b.L.z, some b.xy, some b.xz, some b.yz,
    some (if b.is2D then 2 else 3)⟩

/-- The end of `Box.from_box`, `freud/box.py:839-843`. -/
noncomputable def boxOf (Lx Ly Lz xy xz yz : ℝ) (dimensions : Option ℕ) : Option (Box ℝ) :=
  pyBox Lx Ly Lz xy xz yz (decide (dimensions.getD (if Lz = 0 then 2 else 3) = 2))

/-- The reading of attributes or dictionary entries, `freud/box.py:791-804, 808-822`: missing entries
other than `Lx` and `Ly` are 0, and a `dimensions` entry that contradicts the argument raises. An
object or dictionary without `Lx` or `Ly` is tried as a list, which fails as well. -/
noncomputable def fromNamed (n : Named) (dimensions : Option ℕ) : Option (Box ℝ) :=
  n.Lx.bind fun Lx => n.Ly.bind fun Ly =>
    let z := n.Lz.getD 0
    let xy := n.xy.getD 0
    let xz := n.xz.getD 0
    let yz := n.yz.getD 0
    match dimensions with
    | none => boxOf Lx Ly z xy xz yz n.dimensions
    | some d => if d ≠ n.dimensions.getD d then none else boxOf Lx Ly z xy xz yz (some d)

/-- The reading of a list, `freud/box.py:824-834`. -/
noncomputable def fromList (l : List ℝ) (dimensions : Option ℕ) : Option (Box ℝ) :=
  match l with
  | [Lx, Ly] => boxOf Lx Ly 0 0 0 0 dimensions
  | [Lx, Ly, Lz] => boxOf Lx Ly Lz 0 0 0 dimensions
  | [Lx, Ly, Lz, xy, xz, yz] => boxOf Lx Ly Lz xy xz yz dimensions
  | _ => none

/-- `Box.from_box`, `freud/box.py:786-843`. -/
noncomputable def fromBoxLike (x : BoxLike) (dimensions : Option ℕ) : Option (Box ℝ) :=
  match x with
  | .matrix m => fromMatrix (m.col 0) (m.col 1) (m.col 2) (dimensions.map fun d => decide (d = 2))
  | .box b => fromNamed (namedOf b) dimensions
  | .attributes n => fromNamed n dimensions
  | .dict n => fromNamed n dimensions
  | .list l => fromList l dimensions

/-- `_convert_box`, `freud/util.py:144-168`: a `freud.box.Box` is used as it is. -/
noncomputable def convertBox (x : BoxLike) (dimensions : Option ℕ) : Option (Box ℝ) :=
  (match x with
    | .box b => some b
    | x => fromBoxLike x none).bind fun b =>
  match dimensions with
  | none => some b
  | some d => if (if b.is2D then 2 else 3) ≠ d then none else some b

/-- The forms of a system that `from_system` knows, `freud/locality.py:313-375`. -/
inductive SystemForm
  /-- an object of one of the query classes, with its box and points -/
  | query (box : Box ℝ) (points : List (Vec3 ℝ))
  /-- an MDAnalysis `Timestep`: `triclinic_dimensions` and `positions` -/
  | mdanalysis (triclinic : CellMat) (positions : Arr)
  /-- a GSD or HOOMD snapshot: `configuration.box`, `configuration.dimensions`, `particles.position` -/
  | snapshot (box : List ℝ) (dimensions : ℕ) (position : Arr)
  /-- a garnett frame: `box` and `position` (or `positions`) -/
  | garnett (box : BoxLike) (position : Arr)
  /-- an OVITO data collection: `cell.matrix[:, :3]`, `cell.is2D`, `particles.positions` -/
  | ovito (cell : CellMat) (is2D : Bool) (positions : Arr)
  /-- an object with `box` and `particles.position`, such as a HOOMD state -/
  | state (box : Named) (position : Arr)
  /-- an object with `box` and `points` -/
  | object (box : BoxLike) (points : Arr)
  /-- a tuple `(box, points)` -/
  | pair (box : BoxLike) (points : Arr)

/-- `_RawPoints.__init__`, `freud/locality.py:843-849`; the constructors of the other query classes
(`freud/locality.py:865-869, 889-892, 917-921`) convert their arguments in the same way. -/
noncomputable def rawPoints (box : BoxLike) (points : Arr) : Option (Box ℝ × List (Vec3 ℝ)) :=
  (convertBox box none).bind fun b => (pointsOf points).map fun p => (b, p)

/-- `NeighborQuery.from_system`, `freud/locality.py:268-382`: the box and points of the object it
returns. In a two-dimensional snapshot the entries 2, 4 and 5 of the box are set to 0, which raises if
there are fewer than 6. -/
noncomputable def fromSystem : SystemForm → Option (Box ℝ × List (Vec3 ℝ))
  | .query b p => some (b, p)
  | .mdanalysis m p => rawPoints (.matrix m) p
  | .snapshot l d p =>
    if d = 2 then
      if l.length < 6 then none
      else rawPoints (.list (((l.set 2 0).set 4 0).set 5 0)) p
    else rawPoints (.list l) p
  | .garnett x p => rawPoints x p
  | .ovito m is2D p =>
    (fromBoxLike (.matrix m) (some (if is2D then 2 else 3))).bind fun b => rawPoints (.box b) p
  | .state n p =>
    n.dimensions.bind fun d =>
      if d = 2 then
        n.Lx.bind fun Lx => n.Ly.bind fun Ly => n.xy.bind fun xy =>
          (pyBox Lx Ly 0 xy 0 0 true).bind fun b => rawPoints (.box b) p
      else rawPoints (.attributes n) p
  | .object x p => rawPoints x p
  | .pair x p => rawPoints x p

/-- What may be given for `neighbors`; `other` is a value of any other type. Dictionary values are
taken to be different from `None`. -/
inductive Neighbors
  | list (nl : NList ℝ)
  | dict (p : PyArgs)
  | none
  | other

/-- `query_args.setdefault("exclude_ii", query_points is None)`, `freud/locality.py:982`. -/
def setDefault (p : PyArgs) (noQueryPoints : Bool) : PyArgs :=
  { p with excludeII := some (p.excludeII.getD noQueryPoints) }

/-- `_PairCompute._resolve_neighbors`, `freud/locality.py:970-993`: the neighbor list or the
arguments of the query. `default` is `default_query_args`, `none` if the class has none
(`freud/locality.py:995-1000`). The arguments are checked by `_QueryArgs` (`PyArgs.toArgs`). -/
noncomputable def resolveNeighbors (default : Option PyArgs) (noQueryPoints : Bool) :
    Neighbors → Option (NList ℝ ⊕ PyArgs)
  | .list nl => some (.inl nl)
  | .dict p =>
    let p := setDefault p noQueryPoints
    p.toArgs.map fun _ => .inr p
  | .none => default.bind fun p =>
    let p := setDefault p noQueryPoints
    p.toArgs.map fun _ => .inr p
  | .other => Option.none

/-- `_SpatialHistogram.default_query_args`, `freud/locality.py:1012-1016`. -/
noncomputable def spatialHistogramArgs (rMax : ℝ) : PyArgs :=
  { mode := some "ball", rMax := some (rMax : WithTop ℝ) }

/-- What a compute class hands to C++. -/
structure Prepared where
  box : Box ℝ
  points : List (Vec3 ℝ)
  queryPoints : List (Vec3 ℝ)
  neighbors : NList ℝ ⊕ PyArgs

/-- `_PairCompute._preprocess_arguments`, `freud/locality.py:935-968`. -/
noncomputable def preprocess (default : Option PyArgs) (system : SystemForm)
    (queryPoints : Option Arr) (neighbors : Neighbors) : Option Prepared :=
  (fromSystem system).bind fun (b, pts) =>
    (resolveNeighbors default queryPoints.isNone neighbors).bind fun n =>
      (match queryPoints with
        | none => some pts
        | some a => pointsOf a).map fun q => ⟨b, pts, q, n⟩

/-- The bonds that the call of a compute class loops over (`freud/locality/RawPoints.h:49-77`,
`freud/locality/NeighborComputeFunctional.h:176-218`): those of the neighbor list, or those found by
the query for each query point. The system is taken to be none of the query classes, so that
`from_system` makes a `_RawPoints` of it. -/
def Prepared.Bonds (c : Prepared) (all : List (Bond ℝ)) : Prop :=
  match c.neighbors with
  | .inl nl => all = nl.bonds
  | .inr p => ∃ aq found, AABBQuery.new c.box c.points = some aq ∧
      (∀ i q, c.queryPoints[i]? = some q → aq.Query true p q i (found i)) ∧
      all = (List.range c.queryPoints.length).flatMap found

end Freud
