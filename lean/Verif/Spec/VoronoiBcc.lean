import Verif.Spec.VoronoiOrder

/-!
# Specification: order parameters of the bcc crystal with its 14 Voronoi neighbors
-/

namespace Freud.Spec
open Freud Voronoi

/-- `Steinhardt` of this `l`, without weights, gives the value `q` to every particle and to the system, in every
crystal that was made from the cell, with its Voronoi neighbors: with or without averaging, after any other calls and
for every order in which the threads run. The box is more than twice as large as the distance `d` of the farthest
neighbors. -/
def SteinhardtUnweighted (cell : Option (UnitCell ℝ)) (d : ℝ) (l : ℕ) (q : ℝ) : Prop :=
  ∃ u, cell = some u ∧ ∀ c : Steinhardt.Call, VoronoiNeighbors u d c.box c.points c.nlist →
    IsExecution c.points.length c.ev → IsExecution c.points.length c.evAve →
    c.reduceOrder.Perm (List.range (2 * l + 1)) →
    ∀ sph, FsphOK sph l (sphericalHarmonic l) → ∀ history, (∀ c ∈ history, LegalSteinhardt l c) →
    ∀ average normalize, ∃ res,
      Steinhardt.resultAfter sph ⟨l, average, false, false, normalize⟩ history c = some res ∧
      res.particleOrder ⟨l, average, false, false, normalize⟩ = List.replicate c.points.length (some q) ∧
      res.order = some q

/-- The same with weights, in a crystal with neighbors at two distances: all closer neighbors have the same weight, all
farther ones have the same weight, and the order parameters are the given function of these two weights. -/
def SteinhardtWeighted (cell : Option (UnitCell ℝ)) (d : ℝ) (l : ℕ) (value : ℝ → ℝ → ℝ) : Prop :=
  ∃ u, cell = some u ∧ ∀ c : Steinhardt.Call, VoronoiNeighbors u d c.box c.points c.nlist →
    IsExecution c.points.length c.ev → IsExecution c.points.length c.evAve →
    c.reduceOrder.Perm (List.range (2 * l + 1)) →
    ∃ near far : ℝ, 0 < near ∧ 0 < far ∧
      (∃ nb ∈ c.nlist.bonds, ∃ nb' ∈ c.nlist.bonds, nb.dist < nb'.dist) ∧
      (∀ nb ∈ c.nlist.bonds, ∀ nb' ∈ c.nlist.bonds, nb.dist < nb'.dist → nb.weight = near ∧ nb'.weight = far) ∧
      ∀ sph, FsphOK sph l (sphericalHarmonic l) → ∀ history, (∀ c ∈ history, LegalSteinhardt l c) →
      ∀ average normalize, ∃ res,
        Steinhardt.resultAfter sph ⟨l, average, false, true, normalize⟩ history c = some res ∧
        res.particleOrder ⟨l, average, false, true, normalize⟩ =
          List.replicate c.points.length (some (value near far)) ∧
        res.order = some (value near far)

end Freud.Spec
