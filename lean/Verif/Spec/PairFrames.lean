import Verif.Spec.Scaling
import Verif.Model.PairFrames

/-!
# Specification: frames with data of the particles, described twice
-/

namespace Freud.Spec
open Freud

/-- A frame given to `compute`: a system and the query points, an orientation or a value for each of
them (`data`, `queryData`), the range of the neighbors, a source of neighbors, and a thread
schedule. -/
structure DataFrame (D : Type*) where
  box : Box ℝ
  pts : List (Vec3 ℝ)
  qpts : List (Vec3 ℝ)
  data : ℕ → D
  queryData : ℕ → D
  excl : Bool
  cutoff : ℝ
  inner : ℝ
  src : Source
  ev : List (ℕ × ℕ)

variable {D : Type*}

/-- The frame is a periodic system with at least one point and one query point, the neighbors are those
in the range, by any engine and in any form, and the schedule is one. -/
structure DataFrame.OK (f : DataFrame D) : Prop where
  points : f.pts ≠ []
  queries : f.qpts ≠ []
  system : PeriodicSystem f.box f.pts f.qpts
  half : BelowHalf f.box f.cutoff
  inner0 : 0 ≤ f.inner
  source : IsSource f.box f.pts f.qpts f.cutoff f.inner f.excl f.src
  exec : IsExecution f.src.iterations f.ev

/-- What a compute class remembers of a frame. -/
def DataFrame.info (f : DataFrame D) : FrameInfo ℝ := ⟨f.box, f.pts.length, f.qpts.length⟩

/-- `f'` is the frame `f` with other numbers for the particles and the query points (with the same
change of numbers for both if self-pairs are excluded), another origin, other images, perhaps another
source of neighbors and another schedule. -/
structure SameSystem (f f' : DataFrame D) : Prop where
  box : f'.box = f.box
  excl : f'.excl = f.excl
  cutoff : f'.cutoff = f.cutoff
  inner : f'.inner = f.inner
  moved : ∃ t σ τ, (f.excl = true → σ = τ) ∧ Renumbered f.box t τ f.pts f'.pts ∧
    Renumbered f.box t σ f.qpts f'.qpts ∧ (∀ i < f.pts.length, f'.data i = f.data (τ i)) ∧
    ∀ i < f.qpts.length, f'.queryData i = f.queryData (σ i)

/-- `f'` is the frame `f` with all lengths multiplied by `c`, perhaps with another source of neighbors
and another schedule. -/
structure ScaledSystem (c : ℝ) (f f' : DataFrame D) : Prop where
  box : ScaledBox c f.box f'.box
  pts : f'.pts = scaledPoints c f.pts
  qpts : f'.qpts = scaledPoints c f.qpts
  data : ∀ i < f.pts.length, f'.data i = f.data i
  queryData : ∀ i < f.qpts.length, f'.queryData i = f.queryData i
  excl : f'.excl = f.excl
  cutoff : f'.cutoff = c * f.cutoff
  inner : f'.inner = c * f.inner

end Freud.Spec
