import Verif.Spec.NamedCells
import Verif.Props.SolidLiquidRun
import Verif.Props.Hexatic

/-!
# Specification: order parameters of crystals
-/

namespace Freud.Spec
open Freud

/-- A crystal of any size and scale that was made from the cell, and a neighbor list made with a cutoff above the
distance `d` of the nearest neighbors and not above the distance `d₂` of the next ones. -/
structure NearestNeighbors (u : UnitCell ℝ) (d d₂ : ℝ) (box : Box ℝ) (points : List (Vec3 ℝ)) (nl : NList ℝ) :
    Prop where
  made : ∃ (n : Vec3 ℤ) (scale : ℝ), u.generateSystem n scale none = some (box, points) ∧
    ∃ r, scale * d < r ∧ r ≤ scale * d₂ ∧ BelowHalf box r ∧ IsSource box points points r 0 true (.list nl)
  size : points.length ≤ 0xffffffff

/-- `Steinhardt` of this `l` gives the value `q` to every particle and to the system, in every crystal that was made
from the cell, with its nearest neighbors: with or without averaging, with or without weights, after any other calls
and for every order in which the threads run. -/
def SteinhardtIs (cell : Option (UnitCell ℝ)) (d d₂ : ℝ) (l : ℕ) (q : ℝ) : Prop :=
  ∃ u, cell = some u ∧ ∀ c : Steinhardt.Call, NearestNeighbors u d d₂ c.box c.points c.nlist →
    IsExecution c.points.length c.ev → IsExecution c.points.length c.evAve →
    c.reduceOrder.Perm (List.range (2 * l + 1)) →
    ∀ sph, FsphOK sph l (sphericalHarmonic l) → ∀ history, (∀ c ∈ history, LegalSteinhardt l c) →
    ∀ average weighted normalize, ∃ res,
      Steinhardt.resultAfter sph ⟨l, average, false, weighted, normalize⟩ history c = some res ∧
      res.particleOrder ⟨l, average, false, weighted, normalize⟩ = List.replicate c.points.length (some q) ∧
      res.order = some q

/-- `SolidLiquid` with `l`, in every crystal that was made from the cell, with its nearest neighbors: all normalized
bond values are 1, so for every threshold below 1 all `z` bonds of every particle are solid-like. -/
def SolidIs (cell : Option (UnitCell ℝ)) (d d₂ : ℝ) (l z : ℕ) : Prop :=
  ∃ u, cell = some u ∧ ∀ c : Steinhardt.Call, NearestNeighbors u d d₂ c.box c.points c.nlist →
    IsExecution c.points.length c.ev → IsExecution c.points.length c.evAve →
    c.reduceOrder.Perm (List.range (2 * l + 1)) → ∀ order : List ℕ, order.Perm (List.range c.points.length) →
    ∀ sph, FsphOK sph l (sphericalHarmonic l) → ∀ history, (∀ c ∈ history, LegalSteinhardt l c) →
    ∀ threshold solidThreshold, 0 ≤ threshold → threshold < 1 →
    ∃ r, SolidLiquid.run sph ⟨l, threshold, solidThreshold, true⟩ history c order = some r ∧
      r.qlij = List.replicate c.nlist.bonds.length (some 1) ∧
      r.connections = List.replicate c.points.length z ∧
      r.clusterBonds.bonds = if solidThreshold ≤ z then c.nlist.bonds else []

/-- `Hexatic` of this `k` gives the value to every particle, in every crystal that was made from the cell, with its
nearest neighbors, with or without weights and for every order in which the threads run. -/
def HexaticIs (cell : Option (UnitCell ℝ)) (d d₂ : ℝ) (k : ℕ) (value : ℂ) : Prop :=
  ∃ u, cell = some u ∧ ∀ box points nl, NearestNeighbors u d d₂ box points nl →
    ∀ order : List ℕ, order.Perm (List.range points.length) → ∀ weighted,
    Hexatic.compute ⟨k, weighted⟩ box points nl order = some (List.replicate points.length (some value))

/-- Whatever the threads do and however ties are sorted, the particles are found to be one cluster, number 0. -/
def OneCluster (n : ℕ) (bonds : List (Bond ℝ)) : Prop :=
  ∀ (work : List (List (ℕ × ℕ))), work.flatten.Perm (bonds.map (fun b => (b.p, b.q))) →
    ∀ s : DSet.DState, DSet.Reachable n work s → (∀ t ∈ s.threads, t.finished) →
    ∀ key res, Cluster.Finish n s.mem key res →
      res.num = 1 ∧ ∀ i < n, res.clusterIdx.getD i 0 = 0

/-- In every crystal that was made from the cell, any two particles are joined by a chain of nearest neighbors: a
cluster search with these bonds finds one cluster. -/
def ClusterIs (cell : Option (UnitCell ℝ)) (d d₂ : ℝ) : Prop :=
  ∃ u, cell = some u ∧ ∀ box points nl, NearestNeighbors u d d₂ box points nl →
    (∀ i < points.length, ∀ j < points.length,
      Relation.ReflTransGen (fun i j => ∃ nb ∈ nl.bonds, nb.q = i ∧ nb.p = j) i j) ∧
    OneCluster points.length nl.bonds

end Freud.Spec
