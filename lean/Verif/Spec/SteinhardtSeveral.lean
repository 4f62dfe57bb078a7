import Verif.Model.SteinhardtSeveral

/-!
# Specification: several `l` at once (C107)

The arrays of `Steinhardt(l=[l0, l1, ...])`, compared with the results of an object that was made for one
of the `l` alone.
-/

namespace Freud.Steinhardt.Several

/-- A value that may be missing, as an entry of an array of numbers that need not be finite. -/
def asTop : Option ℝ → WithTop ℝ
  | none => ⊤
  | some x => (x : WithTop ℝ)

/-- The number with index `k` of a row, as an entry of an array. -/
noncomputable def value (row : Row) (k : ℕ) : WithTop ℂ :=
  match row with
  | none => ⊤
  | some r => (r k : WithTop ℂ)

end Freud.Steinhardt.Several

namespace Freud.Spec
open Freud

/-- The call with the same arguments and thread schedule on an object for the `l` in place `j` alone. -/
def alone (c : Steinhardt.Several.Call) (j : ℕ) : Steinhardt.Call :=
  ⟨c.box, c.points, c.nlist, c.ev, c.evAve, c.reduceOrders.getD j []⟩

/-- Column `j` of all arrays holds the results `r` for `l`. -/
structure ColumnIs (f : Steinhardt.Several.Flags) (l n j : ℕ) (R : Steinhardt.Several.Results)
    (r : Steinhardt.Result) : Prop where
  harmonics : ∃ a, R.qlmi[j]? = some a ∧ a.shape = [n, 2 * l + 1] ∧
    ∀ i < n, ∀ k < 2 * l + 1, a.at? [i, k] = some (Steinhardt.Several.value (r.qlmi.getD i none) k)
  ql : ∀ i < n, (R.getQl f).at? [i, j] = some (Steinhardt.Several.asTop ((r.getQl (f.at l)).getD i none))
  particleOrder : ∀ i < n, (R.getParticleOrder f).at? [i, j] =
    some (Steinhardt.Several.asTop ((r.particleOrder (f.at l)).getD i none))
  order : R.norm[j]? = some r.order

/-- The arrays have the shapes that belong to `n` particles and the list `ls`. -/
structure ShapesAre (f : Steinhardt.Several.Flags) (ls : List ℕ) (n : ℕ) (R : Steinhardt.Several.Results) : Prop where
  harmonics : R.qlmi.map (·.shape) = ls.map fun l => [n, 2 * l + 1]
  ql : (R.getQl f).shape = [n, ls.length] ∧ (R.getQl f).data.length = n * ls.length
  particleOrder : (R.getParticleOrder f).shape = [n, ls.length] ∧ (R.getParticleOrder f).data.length = n * ls.length
  order : R.norm.length = ls.length

end Freud.Spec
