import Verif.Spec.PairFrames
import Verif.Props.Sources

/-!
# Specification: systems put together from parts
-/

namespace Freud.Spec
open Freud

/-- The bond with `m` added to the number of the query point and `n` to that of the point. -/
def shifted (m n : ℕ) (bd : Bond ℝ) : Bond ℝ := ⟨bd.q + m, bd.p + n, bd.dist, bd.weight, bd.vec⟩

/-- Three frames: the points of the first are those of the second and those of the third; the query points
are the same, and no pairs are excluded. -/
structure SplitPoints (f fA fB : RDFFrame) : Prop where
  boxA : fA.box = f.box
  boxB : fB.box = f.box
  pts : f.pts = fA.pts ++ fB.pts
  qptsA : fA.qpts = f.qpts
  qptsB : fB.qpts = f.qpts
  excl : f.excl = false
  exclA : fA.excl = false
  exclB : fB.excl = false

/-- A system of two kinds of particles and its four parts: `f` is the system with itself, `fXY` has the
particles of kind `Y` as points and those of kind `X` as query points. The pairs of a particle with itself
may be excluded. -/
structure TwoKinds (f fAA fAB fBA fBB : RDFFrame) : Prop where
  boxes : fAA.box = f.box ∧ fAB.box = f.box ∧ fBA.box = f.box ∧ fBB.box = f.box
  self : f.qpts = f.pts
  pts : f.pts = fAA.pts ++ fBB.pts
  selfA : fAA.qpts = fAA.pts
  selfB : fBB.qpts = fBB.pts
  ab : fAB.qpts = fAA.pts ∧ fAB.pts = fBB.pts
  ba : fBA.qpts = fBB.pts ∧ fBA.pts = fAA.pts
  excls : fAA.excl = f.excl ∧ fBB.excl = f.excl ∧ fAB.excl = false ∧ fBA.excl = false

/-- `RDF(bins, r_max, r_min, normalization_mode)` with `compute` called for the frames one after the other
(accumulating) has `g` in `rdf` and `c` in `n_r`, whatever the object was used for before and in whichever
order the bins are normalized. -/
def RDFGives (pi : ℝ) (bins : ℕ) (rMax rMin : ℝ) (mode : NormalizationMode) (fs : List RDFFrame)
    (g c : ℕ → ℝ) : Prop :=
  ∀ a, RDF.mkAxis bins rMax rMin = some a → ∀ box0 order, order.Perm (List.range bins) →
    ∃ s s1, (RDF.new a mode box0).run (RDF.fill pi a) (RDF.zero a)
        (fs.map fun f => RDF.frameFrom ⟨f.box, f.pts.length, f.qpts.length⟩ f.src f.ev) = some s ∧
      s.refresh (RDF.fill pi a) order = some s1 ∧
      ∀ k < bins, s1.out.1[k]? = some (g k) ∧ s1.out.2[k]? = some (c k)

/-- `SplitPoints` for frames with data. -/
structure SplitData {D : Type*} (f fA fB : DataFrame D) : Prop where
  boxA : fA.box = f.box
  boxB : fB.box = f.box
  pts : f.pts = fA.pts ++ fB.pts
  qptsA : fA.qpts = f.qpts
  qptsB : fB.qpts = f.qpts
  dataA : ∀ i < fA.pts.length, fA.data i = f.data i
  dataB : ∀ i < fB.pts.length, fB.data i = f.data (i + fA.pts.length)
  queryA : ∀ i < f.qpts.length, fA.queryData i = f.queryData i
  queryB : ∀ i < f.qpts.length, fB.queryData i = f.queryData i
  excl : f.excl = false
  exclA : fA.excl = false
  exclB : fB.excl = false
  cutoffA : fA.cutoff = f.cutoff
  cutoffB : fB.cutoff = f.cutoff
  innerA : fA.inner = f.inner
  innerB : fB.inner = f.inner

/-- A two-dimensional PMFT class with the histogram `g` has, after the calls of `compute` (accumulating), the
value `w idx` in the bin with the numbers `idx` of its pair correlation function, whatever the object was
used for before and in whichever order the bins are normalized. -/
def PMFT2DGives (g : PMFT.Grid ℝ) (calls : List (PMFT.Attempt ℝ)) (w : List ℕ → ℝ) : Prop :=
  ∀ box0 order, order.Perm (List.range (g.axes.map (·.nbins)).prod) →
    ∃ s s1, PMFT.run PMFT.check2D () (fun _ => PMFT.fill g.jf) (PMFT.zero g) (PMFT.new g () box0)
        (calls.map .accumulate) = some s ∧
      s.refresh (fun _ => PMFT.fill g.jf) order = some s1 ∧
      ∀ idx, ValidIndex idx (g.axes.map (·.nbins)) →
        s1.out[rowMajor idx (g.axes.map (·.nbins))]? = some (w idx)

end Freud.Spec
