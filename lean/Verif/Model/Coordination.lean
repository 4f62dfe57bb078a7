import Verif.Model.NeighborLoop
import Verif.Model.Voronoi
import Mathlib.Analysis.SpecialFunctions.Pow.Real

/-!
# Continuous coordination numbers

Model of `freud/order/ContinuousCoordination.cc` and `freud/order.py:888-990`. Exact arithmetic over
the reals (the code uses `float`). An entry of the result is an `Option`: `none` stands for a value
that is not covered because a step towards it divides by zero, takes the logarithm of a number that
is not positive, or a power of a negative number or a negative power of zero.
-/

namespace Freud
namespace Coordination

/-- Members `m_powers`, `m_compute_log`, `m_compute_exp`,
`freud/order/ContinuousCoordination.h:62-66`. -/
structure Params where
  powers : List ℝ
  log : Bool
  exp : Bool

/-- `getNumberOfCoordinations`, `freud/order/ContinuousCoordination.cc:81-84`. -/
def Params.number (p : Params) : ℕ := p.powers.length + p.log.toNat + p.exp.toNat

/-- `i_volumes`, `freud/order/ContinuousCoordination.cc:45-51`. -/
noncomputable def parts (is2D : Bool) (volume : ℝ) (bonds : List (Bond ℝ)) : Option (List ℝ) :=
  let prefactor := 1 / ((if is2D then 2 else 3) * 2 * volume)
  if bonds = [] then some []
  else if volume = 0 then none
  else some (bonds.map fun nb => prefactor * nb.weight * nb.dist)

/-- `std::pow`. -/
noncomputable def power (v p : ℝ) : Option ℝ := if v < 0 ∨ (v = 0 ∧ p < 0) then none else some (v ^ p)

/-- One power, `freud/order/ContinuousCoordination.cc:54-61`. -/
noncomputable def powerNumber (n : ℕ) (vols : List ℝ) (p : ℝ) : Option ℝ :=
  (vols.mapM (power · p)).bind fun ts =>
    (power n (2 - p)).bind fun num => if ts.sum = 0 then none else some (num / ts.sum)

/-- The logarithm, `freud/order/ContinuousCoordination.cc:62-68`. Without neighbors the code computes
`-0 / -inf`, which is zero. -/
noncomputable def logNumber (n : ℕ) (vols : List ℝ) : Option ℝ :=
  if ∃ v ∈ vols, v ≤ 0 then none
  else if n = 1 then none
  else if n = 0 then some 0
  else some (-(vols.map Real.log).sum / Real.log n)

/-- The exponential, `freud/order/ContinuousCoordination.cc:69-76`. -/
noncomputable def expNumber (n : ℕ) (vols : List ℝ) : Option ℝ :=
  if n = 0 ∧ vols ≠ [] then none
  else some (vols.map fun v => Real.exp (v - 1 / n)).sum

/-- Columns 0, 1, … of a row are assigned one after another; columns past the end of the row would
belong to the next one (or lie outside the array): `none`. -/
def writeRow (row vals : List (Option ℝ)) : Option (List (Option ℝ)) :=
  if vals.length ≤ row.length then some (vals ++ row.drop vals.length) else none

/-- The function called for one particle, `freud/order/ContinuousCoordination.cc:41-77`: row
`particle_index` of the result is written. -/
noncomputable def point (p : Params) (is2D : Bool) (volumes : List ℝ) (counts : List ℕ) (i : ℕ)
    (bonds : List (Bond ℝ)) (row : List (Option ℝ)) : Option (List (Option ℝ)) :=
  (volumes[i]?).bind fun volume =>
    (counts[i]?).bind fun n =>
      let vols := parts is2D volume bonds
      writeRow row (p.powers.map (fun k => vols.bind (powerNumber n · k)) ++
        (if p.log then [vols.bind (logNumber n)] else []) ++
        (if p.exp then [vols.bind (expNumber n)] else []))

/-- `ContinuousCoordination::compute`, `freud/order/ContinuousCoordination.cc:28-79`: the rows of the
result. `order` is the order in which the threads take the particles. -/
noncomputable def compute (p : Params) (is2D : Bool) (s : Voronoi.State) (order : List ℕ) :
    Option (List (List (Option ℝ))) :=
  (s.nlist.updateSegmentCounts).bind fun n =>
    (loopOverNeighborsIterator n (point p is2D s.volumes n.counts) order
      ⟨[n.numQueryPoints, p.number],
        List.replicate n.numQueryPoints (List.replicate p.number (some 0))⟩).map (·.data)

/-- The exceptions of `ContinuousCoordination.compute` in Python. -/
inductive Error
  | value
  | runtime

/-- The arguments of `ContinuousCoordination.compute`, `freud/order.py:960-973`: the diagram that is
used. A Voronoi object that has not been computed is `some none`; `fresh` computes the diagram of a
system. -/
def diagram {S : Type*} (fresh : S → Voronoi.State) (system : Option S)
    (voronoi : Option (Option Voronoi.State)) : Except Error Voronoi.State :=
  match system, voronoi with
  | none, none => .error .value
  | some sys, none => .ok (fresh sys)
  | _, some none => .error .runtime
  | _, some (some v) => .ok v

end Coordination
end Freud
