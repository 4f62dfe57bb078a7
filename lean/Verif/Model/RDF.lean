import Verif.Model.HistCompute

/-!
# Radial distribution function

Model of `freud/density/RDF.cc` and of `RDF` in `freud/density.py`, on top of `HistCompute`.
Arithmetic is exact; the constant `M_PI` is the parameter `pi`. Division by zero is not modelled
as in floating point: theorems state that the divisors are not zero.
-/

namespace Freud
variable {K : Type*} [Field K] [LinearOrder K] [IsStrictOrderedRing K] [FloorRing K]

set_option linter.unusedSectionVars false

/-- `NormalizationMode`, `freud/density/RDF.h:21-25`. -/
inductive NormalizationMode
  | exact
  | finiteSize
deriving DecidableEq, Repr

/-- What an `RDF` or a `PMFT` remembers of a frame: `m_box`, `m_n_points`, `m_n_query_points`,
`freud/locality/BondHistogramCompute.h:120-125, 129-132`. -/
structure FrameInfo (K : Type*) where
  box : Box K
  nPoints : ℕ
  nQuery : ℕ

namespace RDF

/-- The constructor arguments that are accepted, and the axis made from them,
`freud/density/RDF.cc:25-45`; `none` is a thrown exception. -/
def mkAxis (bins : ℕ) (rMax rMin : K) : Option (RegularAxis K) :=
  if bins = 0 then none
  else if rMax ≤ 0 then none
  else if rMin < 0 then none
  else if rMax ≤ rMin then none
  else some ⟨bins, rMin, rMax⟩

/-- `m_vol_array2D`, `freud/density/RDF.cc:54-61`. -/
def vol2D (pi : K) (a : RegularAxis K) : List K :=
  (List.range a.nbins).map (fun i =>
    let r := a.binEdges.getD i 0
    let nextr := a.binEdges.getD (i + 1) 0
    pi * (nextr * nextr - r * r))

/-- `m_vol_array3D`, `freud/density/RDF.cc:53-62`. -/
def vol3D (pi : K) (a : RegularAxis K) : List K :=
  (List.range a.nbins).map (fun i =>
    let r := a.binEdges.getD i 0
    let nextr := a.binEdges.getD (i + 1) 0
    4 / 3 * pi * (nextr * nextr * nextr - r * r * r))

/-- `number_density`, `freud/density/RDF.cc:76-81`. The subtraction `m_n_query_points - 1` is
unsigned in the code; it is exact when there is at least one query point. -/
def numberDensity (mode : NormalizationMode) (f : FrameInfo K) : K :=
  let d := (f.nQuery : K) / f.box.getVolume
  if mode = .finiteSize then d * (((f.nQuery - 1 : ℕ) : K) / (f.nQuery : K)) else d

/-- The loop that fills `m_N_r`, `freud/density/RDF.cc:92-98`: a running sum. -/
def cumulative (prefactor : K) : K → List ℕ → List K
  | _, [] => []
  | acc, c :: cs => (acc + (c : K) * prefactor) :: cumulative prefactor (acc + (c : K) * prefactor) cs

/-- `RDF::reduce`, `freud/density/RDF.cc:73-99`: the new `m_pcf` and `m_N_r`. -/
def fill (pi : K) (a : RegularAxis K) (mode : NormalizationMode) (f : FrameInfo K) (frames : ℕ)
    (counts : List ℕ) : List K × List K :=
  let prefactor := 1 / ((f.nPoints : K) * numberDensity mode f * (frames : K))
  let vol := if f.box.is2D then vol2D pi a else vol3D pi a
  ((counts.zip vol).map (fun p => (p.1 : K) * prefactor / p.2),
    cumulative (1 / ((f.nQuery : K) * (frames : K))) 0 counts)

/-- The result arrays after construction or `reset`, `freud/density/RDF.cc:48-49, 66-71`. -/
def zero (a : RegularAxis K) : List K × List K :=
  (List.replicate a.nbins 0, List.replicate a.nbins 0)

/-- An `RDF` object. The remembered frame of a new object is a default box and no points
(`freud/locality/BondHistogramCompute.h:32, 130-132`); `box0` is that default box. -/
def new (a : RegularAxis K) (mode : NormalizationMode) (box0 : Box K) :
    HistCompute K NormalizationMode (FrameInfo K) (List K × List K) :=
  HistCompute.new [a] mode ⟨box0, 0, 0⟩ (zero a)

/-- `RDF::accumulate`, `freud/density/RDF.cc:101-110`: the samples are the bond distances.
`dists i` are the distances of the bonds processed by iteration `i` of the parallel loop. -/
def frame (info : FrameInfo K) (n : ℕ) (dists : ℕ → List K) (ev : List (ℕ × ℕ)) :
    HistCompute.Op K NormalizationMode (FrameInfo K) :=
  .frame info n (fun i => (dists i).map (fun d => [d])) ev

end RDF
end Freud
