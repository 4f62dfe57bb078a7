import Verif.Model.Box
import Mathlib.Data.Real.Basic

/-!
# Specification of the mean squared displacement
-/

namespace Freud.Spec
open Freud

/-- The squared distance between two points. -/
def sqDist (a b : Vec3 ℝ) : ℝ := (a.x - b.x) ^ 2 + (a.y - b.y) ^ 2 + (a.z - b.z) ^ 2

/-- The position in frame `k`. -/
def posAt (r : List (Vec3 ℝ)) (k : ℕ) : Vec3 ℝ := r.getD k ⟨0, 0, 0⟩

/-- The mean, over all `N - m` windows of length `m` of a trajectory with `N` frames, of the squared
displacement over the window. -/
noncomputable def windowMSD (r : List (Vec3 ℝ)) (m : ℕ) : ℝ :=
  ((List.range (r.length - m)).map (fun k => sqDist (posAt r (k + m)) (posAt r k))).sum /
    ((r.length - m : ℕ) : ℝ)

/-- The squared displacement from the first frame. -/
noncomputable def directMSD (r : List (Vec3 ℝ)) (m : ℕ) : ℝ := sqDist (posAt r m) (posAt r 0)

/-- The mean of a list. -/
noncomputable def meanOf (l : List ℝ) : ℝ := l.sum / (l.length : ℝ)

end Freud.Spec
