import Verif.Spec.HistCompute
import Verif.Model.PMFT

/-!
# Specification of the positional correlation functions

Which calls count, and what the value of a bin should be, without reference to how the object works.
-/

namespace Freud.Spec
open Freud PMFT
variable {K : Type*} [Field K] [LinearOrder K] [IsStrictOrderedRing K] [FloorRing K]

/-- The frame of a call: what is remembered of it and its samples. -/
def frameOf (a : Attempt K) : FrameInfo K × List (List K) := (a.info, (List.range a.n).flatMap a.samples)

/-- The calls since the last reset that had a two-dimensional box. -/
def frames2D : List (PMFT.Op K) → List (FrameInfo K × List (List K)) →
    List (FrameInfo K × List (List K))
  | [], acc => acc
  | .reset :: os, _ => frames2D os []
  | .accumulate a :: os, acc => frames2D os (if a.info.box.is2D then acc ++ [frameOf a] else acc)
  | .read _ :: os, acc => frames2D os acc

/-- The number of equivalent orientations given in the first call after the last reset. -/
def firstNumber : List (PMFT.Op K) → Option ℕ → Option ℕ
  | [], k => k
  | .reset :: os, _ => firstNumber os none
  | .accumulate a :: os, k => firstNumber os (some (k.getD a.numEquiv))
  | .read _ :: os, k => firstNumber os k

/-- The calls since the last reset that had a three-dimensional box and as many equivalent
orientations as the first call after that reset (`k`, if there was one). -/
def framesXYZ : List (PMFT.Op K) → Option ℕ → List (FrameInfo K × List (List K)) →
    List (FrameInfo K × List (List K))
  | [], _, acc => acc
  | .reset :: os, _, _ => framesXYZ os none []
  | .accumulate a :: os, k, acc => framesXYZ os (some (k.getD a.numEquiv))
      (if k.getD a.numEquiv = a.numEquiv ∧ a.info.box.is2D = false then acc ++ [frameOf a] else acc)
  | .read _ :: os, k, acc => framesXYZ os k acc

/-- What a user can do: loops are executed by some schedule, samples have the right dimension,
reductions process every cell once, and the number of equivalent orientations is that of an array
(the sentinel value is no such number). -/
def PMFTLegal (axes : List (RegularAxis K)) : PMFT.Op K → Prop
  | .accumulate a => IsExecution a.n a.ev ∧ (∀ i < a.n, ∀ s ∈ a.samples i, s.length = axes.length) ∧
      a.numEquiv ≠ NO_NUMBER
  | .read order => order.Perm (List.range (axes.map (·.nbins)).prod)
  | .reset => True

/-- The length of bin `i` of an axis. -/
def binLength (lo hi : K) (n i : ℕ) : K := edge lo hi n (i + 1) - edge lo hi n i

/-- The area between the circles with radii `r` and `r'` and between two rays at angle `dt`. -/
def sectorArea (r r' dt : K) : K := dt * (r' ^ 2 - r ^ 2) / 2

/-- The number of pairs expected in a bin for uncorrelated particles: all (point, query point)
pairs of all frames, times the probability `p` that a pair falls in the bin. -/
def idealCount (frames : ℕ) (f : FrameInfo K) (p : K) : K :=
  (frames : K) * (f.nPoints : K) * (f.nQuery : K) * p

/-- A frame that can be normalised. -/
structure PairFrameOK (f : FrameInfo K) : Prop where
  points : 1 ≤ f.nPoints
  query : 1 ≤ f.nQuery
  volume : 0 < f.box.getVolume

end Freud.Spec
