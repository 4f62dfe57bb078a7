import Verif.Model.BoxReal
import Mathlib.Order.WithBot
import Mathlib.Analysis.SpecialFunctions.Pow.Real

/-!
# Query arguments

Model of `QueryArgs` and its validation in `freud/locality/NeighborQuery.h` and of `_QueryArgs` in
`freud/locality.py`. Exceptions are `none`. `r_max` may be infinite, so it is a `WithTop ℝ`.
-/

namespace Freud

/-- `QueryType`, `freud/locality/NeighborQuery.h:36-42`. -/
inductive QueryType
  | none
  | ball
  | nearest
deriving DecidableEq

/-- `QueryArgs`, `freud/locality/NeighborQuery.h:62-75`. -/
structure QueryArgs where
  mode : QueryType
  numNeighbors : ℕ
  rMax : WithTop ℝ
  rMin : ℝ
  rGuess : ℝ
  scale : ℝ
  excludeII : Bool

/-- `DEFAULT_NUM_NEIGHBORS`, `freud/locality/NeighborQuery.h:45`. -/
def DEFAULT_NUM_NEIGHBORS : ℕ := 0xffffffff
/-- `DEFAULT_R_MAX`, `freud/locality/NeighborQuery.h:46`. -/
noncomputable def DEFAULT_R_MAX : WithTop ℝ := ((-1 : ℝ) : WithTop ℝ)
/-- `DEFAULT_R_GUESS`, `freud/locality/NeighborQuery.h:48`. -/
noncomputable def DEFAULT_R_GUESS : ℝ := -1
/-- `DEFAULT_SCALE`, `freud/locality/NeighborQuery.h:49`. -/
noncomputable def DEFAULT_SCALE : ℝ := -1

/-- A default constructed `QueryArgs`, `freud/locality/NeighborQuery.h:64-74`. -/
noncomputable def QueryArgs.new : QueryArgs :=
  ⟨.none, DEFAULT_NUM_NEIGHBORS, DEFAULT_R_MAX, 0, DEFAULT_R_GUESS, DEFAULT_SCALE, false⟩

/-- `std::min` of a finite and a possibly infinite number. -/
noncomputable def minTop (r : ℝ) : WithTop ℝ → ℝ
  | ⊤ => r
  | (m : ℝ) => min r m

/-- `NeighborQuery::inferMode`, `freud/locality/NeighborQuery.h:279-293`. -/
noncomputable def inferMode (a : QueryArgs) : QueryArgs :=
  if a.mode = .none then
    if a.numNeighbors ≠ DEFAULT_NUM_NEIGHBORS then { a with mode := .nearest }
    else if a.rMax ≠ DEFAULT_R_MAX then { a with mode := .ball }
    else a
  else a

/-- `NeighborQuery::validateQueryArgs`, `freud/locality/NeighborQuery.h:187-221`. -/
noncomputable def validateQueryArgs (a : QueryArgs) : Option QueryArgs :=
  let a := inferMode a
  match a.mode with
  | .ball =>
    if a.rMax = DEFAULT_R_MAX then none
    else if a.numNeighbors ≠ DEFAULT_NUM_NEIGHBORS then none
    else some a
  | .nearest =>
    if a.numNeighbors = DEFAULT_NUM_NEIGHBORS then none
    else if a.rMax = DEFAULT_R_MAX then some { a with rMax := ⊤ }
    else some a
  | .none => none

/-- The smallest nearest-plane distance, `freud/locality/NeighborQuery.h:257-262` and
`freud/locality/AABBQuery.cc:153-160`. -/
noncomputable def minPlane (b : Box ℝ) : ℝ :=
  let d := b.getNearestPlaneDistance
  if b.is2D then min d.x d.y else min (min d.x d.y) d.z

/-- The largest nearest-plane distance, `freud/locality/AABBQuery.cc:153-160`. -/
noncomputable def maxPlane (b : Box ℝ) : ℝ :=
  let d := b.getNearestPlaneDistance
  if b.is2D then max d.x d.y else max (max d.x d.y) d.z

/-- `NeighborQuery::validateNearestNeighborArgs`, `freud/locality/NeighborQuery.h:228-267`, for a
box and a number of points. -/
noncomputable def validateNearestNeighborArgs (b : Box ℝ) (nPoints : ℕ) (a : QueryArgs) :
    Option QueryArgs :=
  if a.scale ≠ DEFAULT_SCALE ∧ a.scale ≤ 1 then none
  else
    let a := if a.scale = DEFAULT_SCALE then { a with scale := 11 / 10 } else a
    let guess : ℝ := (3 * (a.numNeighbors : ℝ) * b.getVolume / (4 * Real.pi * nPoints)) ^ (1 / 3 : ℝ)
    let a := if a.rGuess = DEFAULT_R_GUESS then { a with rGuess := min guess (minPlane b / 2) }
      else a
    some { a with rGuess := minTop a.rGuess a.rMax }

/-- `AABBQuery::validateQueryArgs`, `freud/locality/AABBQuery.h:62-69`. -/
noncomputable def validateAABB (b : Box ℝ) (nPoints : ℕ) (a : QueryArgs) : Option QueryArgs :=
  (validateQueryArgs a).bind fun a =>
    if a.mode = .nearest then validateNearestNeighborArgs b nPoints a else some a

/-- `CellQuery::validateQueryArgs`, `freud/locality/CellQuery.h:177-193`. -/
noncomputable def validateCellQuery (b : Box ℝ) (a : QueryArgs) : Option QueryArgs :=
  (validateQueryArgs a).bind fun a =>
    if a.mode = .nearest then none
    else
      let d := b.getNearestPlaneDistance
      if ((d.x / 2 : ℝ) : WithTop ℝ) ≤ a.rMax ∨ ((d.y / 2 : ℝ) : WithTop ℝ) ≤ a.rMax ∨
          (b.is2D = false ∧ ((d.z / 2 : ℝ) : WithTop ℝ) ≤ a.rMax) then none
      else some a

/-- The keyword arguments of a query; `none` is an argument that is not given. `other` lists the
names of arguments that `_QueryArgs` does not know. -/
structure PyArgs where
  mode : Option String := none
  rMin : Option ℝ := none
  rMax : Option (WithTop ℝ) := none
  rGuess : Option ℝ := none
  numNeighbors : Option ℕ := none
  excludeII : Option Bool := none
  scale : Option ℝ := none
  other : List String := []

/-- The setter of `mode`, `freud/locality.py:106-116`. -/
def modeOf : Option String → Option QueryType
  | none => some .none
  | some s =>
    if s = "none" then some .none
    else if s = "ball" then some .ball
    else if s = "nearest" then some .nearest
    else none

/-- `_QueryArgs.__init__`, `freud/locality.py:49-78`. Conversion errors of the binding layer (for
example a negative `num_neighbors`) are not modelled. -/
noncomputable def PyArgs.toArgs (p : PyArgs) : Option QueryArgs :=
  (modeOf p.mode).bind fun m =>
    if p.other ≠ [] then none
    else some
      { mode := m
        numNeighbors := p.numNeighbors.getD QueryArgs.new.numNeighbors
        rMax := p.rMax.getD QueryArgs.new.rMax
        rMin := p.rMin.getD QueryArgs.new.rMin
        rGuess := p.rGuess.getD QueryArgs.new.rGuess
        scale := p.scale.getD QueryArgs.new.scale
        excludeII := p.excludeII.getD QueryArgs.new.excludeII }

end Freud
