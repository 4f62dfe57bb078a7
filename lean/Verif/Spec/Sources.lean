import Verif.Model.Sources
import Verif.Props.CellQuery
import Mathlib.Data.Set.Card

/-!
# Specification: the pairs a ball query is about
-/

namespace Freud.Spec
open Freud

/-- The system was made from this box and these points; a `CellQuery` may have been used before
(queries replace its grid). -/
def MadeFrom : System → Box ℝ → List (Vec3 ℝ) → Prop
  | .raw aq, b, pts => AABBQuery.new b pts = some aq
  | .aabb aq, b, pts => AABBQuery.new b pts = some aq
  | .linkCell lc, b, pts => ∃ width, 0 ≤ width ∧ LinkCell.new b pts width = some lc
  | .cell o, b, pts => ∃ o₀, CellQuery.new b pts = some o₀ ∧ o.box = o₀.box ∧ o.pts = o₀.pts

/-- A periodic system: box with positive lengths, periodic in all directions, points and query points
in the box. -/
structure PeriodicSystem (b : Box ℝ) (pts qpts : List (Vec3 ℝ)) : Prop where
  inBox : InBox b pts
  periodic : FullyPeriodic b
  query : ∀ q ∈ qpts, InCell b q

/-- The pairs (query point `i`, point `j`), `i ≠ j` if self-pairs are excluded, whose minimum-image
distance lies in `[lo, hi)`. -/
def pairsIn (b : Box ℝ) (pts qpts : List (Vec3 ℝ)) (excl : Bool) (lo hi : ℝ) : Set (ℕ × ℕ) :=
  {ij | (excl = true → ij.2 ≠ ij.1) ∧ ∃ q p w, qpts[ij.1]? = some q ∧ pts[ij.2]? = some p ∧
    NearestImage b (p - q) w ∧ lo ≤ Vec3.norm w ∧ Vec3.norm w < hi}

/-- `src` is a way to hand the neighbors within `[rMin, rMax)` to a compute class: query arguments
with any of the systems, or a neighbor list made by any of the systems under any schedule, sorted
either way. -/
def IsSource (b : Box ℝ) (pts qpts : List (Vec3 ℝ)) (rMax rMin : ℝ) (excl : Bool)
    (src : Source) : Prop :=
  ∃ (s : System) (found : ℕ → List (Bond ℝ)), MadeFrom s b pts ∧
    s.Finds qpts rMax rMin excl found ∧
    (src = .query found qpts.length ∨ ∃ d ev nl, IsExecution qpts.length ev ∧
      ToNeighborList found qpts.length pts.length d ev nl ∧ src = .list nl)

end Freud.Spec
