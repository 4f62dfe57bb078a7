import Verif.Spec.Periodic

/-!
# The same box with all axes periodic
-/

namespace Freud.Spec

/-- The box `b` with all three axes made periodic. -/
def allPeriodic (b : Box ℝ) : Box ℝ := { b with px := true, py := true, pz := true }

end Freud.Spec
