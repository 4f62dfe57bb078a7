import Verif.Model.Sources
import Verif.Model.BondOrder
import Verif.Model.CorrelationFunction

/-!
# Calls of the histogram computes with the bonds of a source

`accumulate` of `CorrelationFunction`, the `PMFT` classes and `BondOrder`, given where the bonds come
from: `accumulateGeneral`, `freud/locality/BondHistogramCompute.h:116-126`, calls `loopOverNeighbors`.
-/

namespace Freud

/-- `CorrelationFunction::accumulate`, `freud/density/CorrelationFunction.cc:82-98`. -/
def CorrelationFunction.frameFrom {V : Type*} (values queryValues : List V) (src : Source)
    (ev : List (ℕ × ℕ)) : CorrelationFunction.Op ℝ V :=
  .frame values queryValues src.iterations
    (fun i => ((src.bonds i).getD []).map (fun b => ⟨b.q, b.p, b.dist⟩)) ev

/-- `BondOrder::accumulate`, `freud/environment/BondOrder.cc:102-150`. -/
def BondOrder.callFrom (box : Box ℝ) (ori queryOri : ℕ → Quat ℝ) (src : Source)
    (ev : List (ℕ × ℕ)) : BondOrder.Call :=
  ⟨box, ori, queryOri, src.iterations, fun i => (src.bonds i).getD [], ev⟩

namespace PMFT

/-- `accumulate` of a two-dimensional class with the loop body `sample`; the number of equivalent
orientations is not used. -/
def attemptFrom (sample : Bond ℝ → List ℝ) (info : FrameInfo ℝ) (src : Source) (ev : List (ℕ × ℕ)) :
    Attempt ℝ :=
  ⟨info, 0, src.iterations, fun i => ((src.bonds i).getD []).map sample, ev⟩

/-- `PMFTXY::accumulate`, `freud/pmft/PMFTXY.cc:69-88`. -/
noncomputable def xyFrom (T : Trig ℝ) (info : FrameInfo ℝ) (queryOri : ℕ → ℝ) (src : Source) (ev : List (ℕ × ℕ)) :
    Attempt ℝ :=
  attemptFrom (sampleXY T queryOri) info src ev

/-- `PMFTXYT::accumulate`, `freud/pmft/PMFTXYT.cc:78-100`. -/
noncomputable def xytFrom (T : Trig ℝ) (info : FrameInfo ℝ) (ori queryOri : ℕ → ℝ) (src : Source)
    (ev : List (ℕ × ℕ)) : Attempt ℝ :=
  attemptFrom (sampleXYT T ori queryOri) info src ev

/-- `PMFTR12::accumulate`, `freud/pmft/PMFTR12.cc:90-110`. -/
noncomputable def r12From (T : Trig ℝ) (info : FrameInfo ℝ) (ori queryOri : ℕ → ℝ) (src : Source)
    (ev : List (ℕ × ℕ)) : Attempt ℝ :=
  attemptFrom (sampleR12 T ori queryOri) info src ev

/-- `PMFTXYZ::accumulate`, `freud/pmft/PMFTXYZ.cc:106-144`. -/
noncomputable def xyzFrom (info : FrameInfo ℝ) (queryOri : ℕ → Quat ℝ) (equiv : List (Quat ℝ)) (src : Source)
    (ev : List (ℕ × ℕ)) : Attempt ℝ :=
  ⟨info, equiv.length, src.iterations,
    fun i => ((src.bonds i).getD []).flatMap (samplesXYZ queryOri equiv), ev⟩

end PMFT
end Freud
