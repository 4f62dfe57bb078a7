import Verif.Model.Schedule
import Mathlib.Algebra.Star.Basic

/-!
# CorrelationFunction

Model of `freud/density/CorrelationFunction.cc` and of `CorrelationFunction` in
`freud/density.py`. Values are elements of a field `V` with a conjugation (`star`), exact; a read
outside of an array is `none`.
-/

namespace Freud
variable {K : Type*} [Field K] [LinearOrder K] [IsStrictOrderedRing K] [FloorRing K]
variable {V : Type*} [Field V] [StarRing V]

set_option linter.unusedSectionVars false

/-- What `accumulate` reads of a `NeighborBond`, `freud/density/CorrelationFunction.cc:91-97`. -/
structure CFBond (K : Type*) where
  query : ℕ
  point : ℕ
  distance : K

/-- Data members, `freud/density/CorrelationFunction.h:82-86` and those of
`BondHistogramCompute`, and the attribute `is_complex` of the Python object. -/
structure CorrelationFunction (K V : Type*) where
  bhc : BHC K ℕ
  corr : MArray V
  locals : TLS (Histogram K V)
  isComplex : Bool

namespace CorrelationFunction

/-- The guards of the constructor and the axis, `freud/density/CorrelationFunction.cc:26-40`. -/
def mkAxis (bins : ℕ) (rMax : K) : Option (RegularAxis K) :=
  if bins = 0 then none else if rMax ≤ 0 then none else some ⟨bins, 0, rMax⟩

/-- The constructor, `freud/density/CorrelationFunction.cc:41-46`. -/
def new (a : RegularAxis K) : CorrelationFunction K V :=
  ⟨BHC.new [a], MArray.mk' [a.nbins], ⟨Histogram.mk' [a], []⟩, false⟩

/-- `reset`, `freud/density/CorrelationFunction.cc:63-68`, `freud/density.py` `compute`. -/
def reset (s : CorrelationFunction K V) : CorrelationFunction K V :=
  { bhc := s.bhc.reset
    corr := MArray.mk' (s.bhc.histogram.axes.map (·.nbins))
    locals := s.locals.resetWith Histogram.reset
    isComplex := false }

/-- The body of the loop over bonds, the part that adds to the correlation function,
`freud/density/CorrelationFunction.cc:91-97`. The bin is looked up on the shared histogram in the
code and on the thread's copy here; both have the same axes. -/
def addBond (values queryValues : List V) (h : Histogram K V) (b : CFBond K) :
    Option (Histogram K V) :=
  values[b.point]?.bind (fun v => queryValues[b.query]?.bind (fun w =>
    h.add [b.distance] (star v * w)))

/-- `accumulate`, `freud/density/CorrelationFunction.cc:82-98`, and the computation of
`is_complex`, `freud/density.py` `compute`. -/
def accumulate [DecidableEq V] (s : CorrelationFunction K V) (values queryValues : List V)
    (bonds : ℕ → List (CFBond K)) (ev : List (ℕ × ℕ)) : Option (CorrelationFunction K V) :=
  (s.bhc.accumulate (fun i => (bonds i).map (fun b => ([b.distance], 1))) ev).bind (fun bhc =>
    (s.locals.parallelFor (fun i h => (bonds i).foldlM (addBond values queryValues) h) ev).map
      (fun locals =>
        { s with
          bhc := bhc
          locals := locals
          isComplex := s.isComplex || values.any (fun v => decide (star v ≠ v)) ||
            queryValues.any (fun v => decide (star v ≠ v)) }))

/-- The division of the reduced sums by the counts, `freud/density/CorrelationFunction.cc:54-60`. -/
def normalize (counts : List ℕ) (sums : List V) : List V :=
  (counts.zip sums).map (fun p => if p.1 ≠ 0 then p.2 / (p.1 : V) else p.2)

/-- `getCorrelation`: `reduceAndReturn` with `reduce`, `freud/density/CorrelationFunction.cc:50-61`,
`freud/locality/BondHistogramCompute.h:61-69`. -/
def getCorrelation (s : CorrelationFunction K V) (order : List ℕ) :
    Option (CorrelationFunction K V) :=
  if s.bhc.needReduce then
    (s.bhc.getBinCounts order).bind (fun p =>
      (histReduceInto s.locals order s.corr).map (fun c =>
        { s with bhc := p.1, corr := { c with data := normalize p.2.data c.data } }))
  else some s

/-- The property `correlation`, `freud/density.py`: the real part unless `is_complex`. -/
def output (s : CorrelationFunction K V) : List V :=
  if s.isComplex then s.corr.data else s.corr.data.map (fun v => (v + star v) / 2)

/-- What a user can do. -/
inductive Op (K V : Type*)
  | reset
  | frame (values queryValues : List V) (n : ℕ) (bonds : ℕ → List (CFBond K)) (ev : List (ℕ × ℕ))
  | read (order : List ℕ)

/-- One operation. -/
def step [DecidableEq V] (s : CorrelationFunction K V) : Op K V → Option (CorrelationFunction K V)
  | .reset => some s.reset
  | .frame v w _ bonds ev => s.accumulate v w bonds ev
  | .read order => s.getCorrelation order

/-- A history. -/
def run [DecidableEq V] (s : CorrelationFunction K V) :
    List (Op K V) → Option (CorrelationFunction K V)
  | [] => some s
  | o :: os => (s.step o).bind (fun s' => run s' os)

end CorrelationFunction
end Freud
