import Verif.Spec.PairFrames
import Verif.Spec.RDF
import Verif.Spec.PMFT

/-!
# Specification: two analyses of the same frames
-/

namespace Freud.Spec
open Freud

/-- The mean of `n` numbers. -/
noncomputable def binMean (n : ℕ) (v : ℕ → ℝ) : ℝ := (∑ k ∈ Finset.range n, v k) / n

/-- The number in cell `k` of a flat array (an array with fewer cells has no such number). -/
def CellIs (out : List ℝ) (k : ℕ) (v : ℝ) : Prop := out[k]? = some v

/-- Frames that both analyses accept: two-dimensional boxes, at least one frame, and the last one with
points, query points and an area. The first analysis executes its loops by the schedules of the frames,
the second one by the schedules `sched`. -/
structure Accepted2D {D : Type*} (fs : List (DataFrame D)) (sched : DataFrame D → List (ℕ × ℕ)) : Prop where
  flat : ∀ f ∈ fs, f.box.is2D = true
  first : ∀ f ∈ fs, IsExecution f.src.iterations f.ev
  second : ∀ f ∈ fs, IsExecution f.src.iterations (sched f)
  last : ∃ f, fs.getLast? = some f ∧ PairFrameOK f.info

/-- Frames a correlation function and an `RDF` both accept: the bonds are between existing particles. -/
structure AcceptedValues {D : Type*} (fs : List (DataFrame D)) (sched : DataFrame D → List (ℕ × ℕ)) : Prop where
  ends : ∀ f ∈ fs, ∀ bd ∈ bondsFrom f.src, bd.q < f.qpts.length ∧ bd.p < f.pts.length
  first : ∀ f ∈ fs, IsExecution f.src.iterations f.ev
  second : ∀ f ∈ fs, IsExecution f.src.iterations (sched f)
  last : ∃ f, fs.getLast? = some f ∧ PairFrameOK f.info

end Freud.Spec
