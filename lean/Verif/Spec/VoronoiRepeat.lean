import Verif.Spec.VoronoiDiagram
import Verif.Spec.Repeat

/-!
# Specification: what a particle sees of its Voronoi neighbors
-/

namespace Freud.Spec
open Freud

/-- A bond as its query particle sees it: which particle the other one is (`φ` gives its number in the smaller cell),
the distance, the weight (area or, in 2D, length of the ridge) and the vector. -/
def seen (φ : ℕ → ℕ) (nb : Bond ℝ) : ℕ × ℝ × ℝ × Vec3 ℝ := (φ nb.p, nb.dist, nb.weight, nb.vec)

end Freud.Spec
