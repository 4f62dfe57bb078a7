import Verif.Model.HistCompute
import Verif.Props.Schedule

/-!
# What a history of a histogram compute means

Written without reference to how the object works: a history is a list of operations, and these
functions say which samples count, how many frames there were, and which frame and configuration
the result refers to.
-/

namespace Freud
open Spec
variable {K : Type*} [Field K] [LinearOrder K] [IsStrictOrderedRing K] [FloorRing K]
variable {C F : Type*}

set_option linter.unusedSectionVars false

namespace Spec
open HistCompute

/-- The samples of the frames since the last reset, frame by frame. -/
def frames : List (Op K C F) → List (F × List (List K)) → List (F × List (List K))
  | [], acc => acc
  | .reset :: os, _ => frames os []
  | .frame info n f _ :: os, acc => frames os (acc ++ [(info, (List.range n).flatMap f)])
  | _ :: os, acc => frames os acc

/-- What is remembered of the last frame of the history (`info0` if there is none). -/
def lastInfo : List (Op K C F) → F → F
  | [], i => i
  | .frame info _ _ _ :: os, _ => lastInfo os info
  | _ :: os, i => lastInfo os i

/-- The configuration in force at the first read after the last frame or reset, or, if there
was no such read, the current one. The state is the current configuration and, if the results
were read since the last frame or reset, the configuration at that read. -/
def cfgUsed : List (Op K C F) → C → Option C → C
  | [], cur, used => used.getD cur
  | .reset :: os, cur, _ => cfgUsed os cur none
  | .frame _ _ _ _ :: os, cur, _ => cfgUsed os cur none
  | .setCfg c :: os, _, used => cfgUsed os c used
  | .read _ :: os, cur, used => cfgUsed os cur (some (used.getD cur))

/-- What a user can do: frames are executed by some schedule and have samples of the right
dimension, reductions process every cell once. -/
def HCLegalOp (axes : List (RegularAxis K)) : Op K C F → Prop
  | .frame _ n f ev => IsExecution n ev ∧ ∀ i < n, ∀ s ∈ f i, s.length = axes.length
  | .read order => order.Perm (List.range (axes.map (·.nbins)).prod)
  | _ => True

open Classical in
/-- How many of the samples fall in the (multi-dimensional) bin `idx`. -/
noncomputable def countIn (axes : List (RegularAxis K)) (idx : List ℕ) (samples : List (List K)) :
    ℕ :=
  (samples.filter (fun s => decide (InBins axes idx s))).length

end Spec
end Freud
