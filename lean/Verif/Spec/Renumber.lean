import Verif.Spec.Sources

/-!
# Specification: two descriptions of the same particles
-/

namespace Freud.Spec
open Freud

/-- `pts'` describes the same particles as `pts` with other numbers, another origin and other
periodic images: particle `i` of `pts'` is particle `σ i` of `pts`, moved by `t` and then by a
lattice vector, which may be another one for each particle. -/
structure Renumbered (b : Box ℝ) (t : Vec3 ℝ) (σ : Equiv.Perm ℕ) (pts pts' : List (Vec3 ℝ)) : Prop where
  length : pts'.length = pts.length
  point : ∀ i p', pts'[i]? = some p' → ∃ p, pts[σ i]? = some p ∧ IsImage b (p + t) p'

/-- The bond with the numbers of its ends replaced. -/
def relabel (σ τ : ℕ → ℕ) (bd : Bond ℝ) : Bond ℝ := ⟨σ bd.q, τ bd.p, bd.dist, bd.weight, bd.vec⟩

/-- The bonds a compute class is given by a source. -/
def bondsFrom (src : Source) : List (Bond ℝ) :=
  (List.range src.iterations).flatMap fun i => (src.bonds i).getD []

end Freud.Spec
