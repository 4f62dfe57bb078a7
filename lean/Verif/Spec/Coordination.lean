import Verif.Spec.Voronoi
import Verif.Model.Coordination

/-!
# Specification of continuous coordination numbers

Written with the pyramids of a Voronoi cell: the base of a pyramid is a ridge, its apex the particle.
-/

namespace Freud.Spec
open Freud Coordination

/-- Volume of a pyramid in `d` dimensions: base times height divided by `d`. -/
noncomputable def pyramid (d : ℕ) (base height : ℝ) : ℝ := base * height / d

/-- The fractions of the volume of a cell that belong to the bonds; the ridge is half way to the
neighbor. -/
noncomputable def fractions (d : ℕ) (volume : ℝ) (bonds : List (Bond ℝ)) : List ℝ :=
  bonds.map fun nb => pyramid d nb.weight (nb.dist / 2) / volume

/-- `N^(2 - m) / sum (V_i / V)^m` with `N` the number of neighbors. -/
noncomputable def coordPower (m : ℝ) (xs : List ℝ) : ℝ :=
  (xs.length : ℝ) ^ (2 - m) / (xs.map (· ^ m)).sum

/-- `-1 / log N * sum log (V_i / V)`. -/
noncomputable def coordLog (xs : List ℝ) : ℝ :=
  -1 / Real.log xs.length * (xs.map Real.log).sum

/-- `sum exp (V_i / V - 1 / N)`. -/
noncomputable def coordExp (xs : List ℝ) : ℝ := (xs.map fun x => Real.exp (x - 1 / xs.length)).sum

/-- The coordination numbers in the order powers, logarithm, exponential; the logarithmic number of a
particle with a single neighbor is not finite. -/
noncomputable def coordRow (p : Params) (xs : List ℝ) : List (Option ℝ) :=
  p.powers.map (fun m => some (coordPower m xs)) ++
    (if p.log then [if xs.length = 1 then none else some (coordLog xs)] else []) ++
    (if p.exp then [some (coordExp xs)] else [])

/-- The bonds of a particle. -/
def bondsOfPoint (n : NList ℝ) (i : ℕ) : List (Bond ℝ) := n.bonds.filter (fun nb => decide (nb.q = i))

/-- The dimension of a system. -/
def dimension (is2D : Bool) : ℕ := if is2D then 2 else 3

/-- Every particle has a neighbor and a cell with positive volume, and bonds have positive length and
ridges positive area, as in a Voronoi diagram of a periodic system of distinct points. -/
structure ProperDiagram (s : Voronoi.State) : Prop where
  good : GoodList s.nlist
  fresh : s.nlist.segUpdated = false
  volumes : s.volumes.length = s.nlist.numQueryPoints
  pos : ∀ v ∈ s.volumes, 0 < v
  some_neighbor : ∀ i < s.nlist.numQueryPoints, bondsOfPoint s.nlist i ≠ []
  bonds : ∀ nb ∈ s.nlist.bonds, 0 < nb.weight ∧ 0 < nb.dist

/-- The pyramids over the ridges of a particle fill its cell. -/
def Fills (is2D : Bool) (s : Voronoi.State) (i : ℕ) : Prop :=
  ∃ v, s.volumes[i]? = some v ∧
    ((bondsOfPoint s.nlist i).map fun nb => pyramid (dimension is2D) nb.weight (nb.dist / 2)).sum = v

/-- All elements of a list are equal. -/
def AllEqual (xs : List ℝ) : Prop := ∀ x ∈ xs, ∀ y ∈ xs, x = y

end Freud.Spec
