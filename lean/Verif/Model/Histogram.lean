import Verif.Model.MArray
import Verif.Model.Box

/-!
# Histograms

Model of `freud/util/Histogram.h`: `RegularAxis` and `Histogram`.
-/

namespace Freud
variable {K : Type*} [Field K] [LinearOrder K] [IsStrictOrderedRing K] [FloorRing K]

/-- `Axis::OVERFLOW_BIN`, `freud/util/Histogram.h:107`. -/
def OVERFLOW_BIN : ℕ := 0xffffffff

/-- Parameters of a `RegularAxis`, `freud/util/Histogram.h:109-114, 126`. -/
structure RegularAxis (K : Type*) where
  nbins : ℕ
  min : K
  max : K

namespace RegularAxis

/-- `m_bin_width`, `freud/util/Histogram.h:129`. -/
def binWidth (a : RegularAxis K) : K := (a.max - a.min) / (a.nbins : K)

/-- `m_inverse_bin_width`, `freud/util/Histogram.h:130`. -/
def invWidth (a : RegularAxis K) : K := 1 / a.binWidth

/-- `m_bin_edges`, `freud/util/Histogram.h:132-137`, and `getBinEdges`, 81-84. -/
def binEdges (a : RegularAxis K) : List K :=
  (List.range (a.nbins + 1)).map (fun i : ℕ => a.min + (i : K) * a.binWidth)

/-- `getBinCenters`, `freud/util/Histogram.h:87-95`. -/
def binCenters (a : RegularAxis K) : List K :=
  (List.range a.nbins).map (fun i : ℕ => (a.binEdges.getD i 0 + a.binEdges.getD (i + 1) 0) / 2)

/-- `RegularAxis::bin`, `freud/util/Histogram.h:152-174`. The conversion to an integer is
exact truncation (the SSE path converts to a 32-bit integer; axes with more than `2^31` bins
are not modelled). -/
def bin (a : RegularAxis K) (v : K) : ℕ :=
  if v < a.min ∨ v ≥ a.max then OVERFLOW_BIN
  else
    let b := (trunc ((v - a.min) * a.invWidth)).toNat
    if b = a.nbins then b - 1 else b

end RegularAxis

/-- `Histogram`, `freud/util/Histogram.h:193-...`: the axes and the bin counts. -/
structure Histogram (K T : Type*) where
  axes : List (RegularAxis K)
  counts : MArray T

namespace Histogram
variable {T : Type*}

/-- The constructor, `freud/util/Histogram.h:289-295`. -/
def mk' [Zero T] (axes : List (RegularAxis K)) : Histogram K T :=
  ⟨axes, MArray.mk' (axes.map (·.nbins))⟩

/-- The loop over axes in `Histogram::bin`, `freud/util/Histogram.h:338-348`; `none` stands for
the early return of the sentinel. -/
def axisBins : List (RegularAxis K) → List K → Option (List ℕ)
  | a :: as, v :: vs =>
    let b := a.bin v
    if b = OVERFLOW_BIN then none else (axisBins as vs).map (b :: ·)
  | _, _ => some []

/-- `Histogram::bin`, `freud/util/Histogram.h:327-351`; `none` is a thrown exception. -/
def bin (h : Histogram K T) (values : List K) : Option ℕ :=
  if values.length ≠ h.axes.length then none
  else match axisBins h.axes values with
    | none => some OVERFLOW_BIN
    | some l => h.counts.getIndex l

/-- `Histogram::increment`, `freud/util/Histogram.h:313-320`. -/
def increment [Add T] (h : Histogram K T) (b : ℕ) (w : T) : Option (Histogram K T) :=
  if b ≠ OVERFLOW_BIN then
    (h.counts.get? b).bind (fun x =>
      (h.counts.set? b (x + w)).map (fun c => { h with counts := c }))
  else some h

/-- `Histogram::operator()`, `freud/util/Histogram.h:301-310`. -/
def add [Add T] (h : Histogram K T) (values : List K) (w : T) : Option (Histogram K T) :=
  (h.bin values).bind (fun b => h.increment b w)

/-- `Histogram::reset`, `freud/util/Histogram.h:372-375`. -/
def reset [Zero T] (h : Histogram K T) : Histogram K T := { h with counts := h.counts.reset }

/-- Adding a sequence of samples. -/
def addAll [Add T] (h : Histogram K T) (samples : List (List K × T)) : Option (Histogram K T) :=
  samples.foldlM (fun h s => h.add s.1 s.2) h

end Histogram
end Freud
