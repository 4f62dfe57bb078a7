import Verif.Model.Schedule

/-!
# Histogram computes with a normalised result

The part shared by the classes derived from `BondHistogramCompute` whose `reduce` turns bin
counts into a normalised array: `RDF`, the `PMFT` classes, `BondOrder`. The result array and the
counts live in one object, `m_reduce` says whether the counts (and so the result) are out of date.

`C` is the configuration a user can change between calls (the `mode` of an `RDF`), `F` what
`accumulateGeneral` remembers of the last frame (box, numbers of points), `R` the result.
`fill cfg info frames counts` is what the `reduce` of the class computes from them, in a parallel
loop over bins that follows the reduction of the counts (`freud/util/Histogram.h:434-443`); each
iteration writes its own bin only.
-/

namespace Freud
variable {K : Type*} [Field K] [LinearOrder K] [IsStrictOrderedRing K] [FloorRing K]
variable {C F R : Type*}

set_option linter.unusedSectionVars false

/-- Data members of a class derived from `BondHistogramCompute`,
`freud/locality/BondHistogramCompute.h:128-140`. `info` stands for `m_box`, `m_n_points` and
`m_n_query_points`, `out` for the result arrays of the derived class. -/
structure HistCompute (K C F R : Type*) where
  bhc : BHC K ℕ
  cfg : C
  info : F
  out : R

namespace HistCompute

/-- What a user does: reset, one more frame (with what is remembered of it), a change of
configuration, or a read of the results. A frame is a parallel loop of `n` iterations; iteration
`i` adds the samples `samples i` with weight 1 (one sample per bond and, for `PMFTXYZ`, equivalent
orientation). -/
inductive Op (K C F : Type*)
  | reset
  | frame (info : F) (n : ℕ) (samples : ℕ → List (List K)) (ev : List (ℕ × ℕ))
  | setCfg (c : C)
  | read (order : List ℕ)

/-- A new object. -/
def new (axes : List (RegularAxis K)) (cfg : C) (info : F) (out : R) : HistCompute K C F R :=
  ⟨BHC.new axes, cfg, info, out⟩

/-- `reduceAndReturn`, `freud/locality/BondHistogramCompute.h:61-69`, with the `reduce` of the
derived class: nothing is recomputed unless `m_reduce` is set. -/
def refresh (fill : C → F → ℕ → List ℕ → R) (s : HistCompute K C F R) (order : List ℕ) :
    Option (HistCompute K C F R) :=
  if s.bhc.needReduce then
    (s.bhc.getBinCounts order).map (fun p =>
      { s with bhc := p.1, out := fill s.cfg s.info p.1.frameCounter p.2.data })
  else some s

/-- One operation. `reset` makes new result arrays (`zero`) and keeps the remembered frame
(`freud/locality/BondHistogramCompute.h:39-49`, `freud/density/RDF.cc:66-71`); a frame replaces
it (`freud/locality/BondHistogramCompute.h:116-126`). Assigning the configuration does not set
`m_reduce` (`freud/density.py:605-613`, `freud/density/export-RDF.cc:46`). -/
def step (fill : C → F → ℕ → List ℕ → R) (zero : R) (s : HistCompute K C F R) :
    Op K C F → Option (HistCompute K C F R)
  | .reset => some { s with bhc := s.bhc.reset, out := zero }
  | .frame info _ f ev => (s.bhc.accumulate (fun i => (f i).map (fun v => (v, 1))) ev).map
      (fun b => { s with bhc := b, info := info })
  | .setCfg c => some { s with cfg := c }
  | .read order => s.refresh fill order

/-- A history of operations. -/
def run (fill : C → F → ℕ → List ℕ → R) (zero : R) (s : HistCompute K C F R) :
    List (Op K C F) → Option (HistCompute K C F R)
  | [] => some s
  | o :: os => (s.step fill zero o).bind (fun s' => run fill zero s' os)

end HistCompute
end Freud
