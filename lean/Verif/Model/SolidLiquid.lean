import Verif.Model.NeighborList
import Verif.Model.Cluster

/-!
# Solid-liquid order parameter

Model of `freud/order/SolidLiquid.cc`. The Steinhardt arrays `qlm` (real and imaginary parts) and
`ql` are inputs.
-/

namespace Freud
namespace SolidLiquid

variable {K : Type*} [Field K] [LinearOrder K]

/-- The parameters: number of `m` values, thresholds, whether to normalise, and the constant
`4 pi / (2 l + 1)`, `freud/order/SolidLiquid.cc:20-29, 46`. -/
structure Params (K : Type*) where
  numMs : ℕ
  qThreshold : K
  solidThreshold : ℕ
  normalizeQ : Bool
  factor : K

/-- The constructor refuses a negative threshold, `freud/order/SolidLiquid.cc:24-28`. -/
def mk? (p : Params K) : Option (Params K) := if p.qThreshold < 0 then none else some p

/-- The value written for a bond from `i` to `j`: the real part of the sum of
`qlm(i, k) * conj(qlm(j, k))`, optionally scaled, `freud/order/SolidLiquid.cc:60-74`. Scaling by a
real number and taking the real part commute. -/
def product (p : Params K) (qlm : ℕ → ℕ → K × K) (ql : ℕ → K) (i j : ℕ) : K :=
  let s := ((List.range p.numMs).map (fun k =>
    (qlm i k).1 * (qlm j k).1 + (qlm i k).2 * (qlm j k).2)).sum
  if p.normalizeQ then s * (p.factor / (ql i * ql j)) else s

/-- The inner loop over the bonds of `i`, `freud/order/SolidLiquid.cc:55-75`. -/
def bondLoop (n : NList K) (f : ℕ → ℕ → K) (i bond : ℕ) (arr : List K) : List K :=
  if h : bond < n.bonds.length then
    if n.bonds[bond].q = i then
      bondLoop n f i (bond + 1) (arr.set bond (f i n.bonds[bond].p))
    else arr
  else arr
termination_by n.bonds.length - bond

/-- The parallel loop over query points, `freud/order/SolidLiquid.cc:50-78`; `order` is the order in
which the iterations run. -/
def bondProducts (n : NList K) (f : ℕ → ℕ → K) (order : List ℕ) : List K :=
  order.foldl (fun arr i => bondLoop n f i (n.findFirstIndex i) arr)
    (List.replicate n.bonds.length 0)

/-- A checked read of an array, `freud/util/ManagedArray.h:124-133`. -/
def getChecked (l : List ℕ) (i : ℕ) : Option ℕ := l[i]?

/-- The loop over the solid-like bonds, `freud/order/SolidLiquid.cc:102-108`. -/
def countMask (conn : List ℕ) (thr : ℕ) : List (Bond K) → Option (List Bool)
  | [] => some []
  | b :: bs =>
    (getChecked conn b.q).bind fun ci =>
    (getChecked conn b.p).bind fun cj =>
    (countMask conn thr bs).map ((decide (ci ≥ thr) && decide (cj ≥ thr)) :: ·)

/-- What `compute` keeps: `ql_ij`, `num_connections` and the bonds that are given to the cluster
algorithm. -/
structure Result (K : Type*) where
  qlij : List K
  connections : List ℕ
  clusterBonds : NList K

/-- `SolidLiquid::compute` up to the call of `Cluster::compute`,
`freud/order/SolidLiquid.cc:31-110`. `none` is an out-of-range access (an exception). -/
def compute (p : Params K) (n : NList K) (qlm : ℕ → ℕ → K × K) (ql : ℕ → K) (order : List ℕ) :
    Option (Result K) :=
  let qlij := bondProducts n (product p qlm ql) order
  (n.filter (qlij.map (fun x => decide (x > p.qThreshold)))).bind fun solid =>
  solid.1.updateSegmentCounts.bind fun solid' =>
  ((List.range n.numQueryPoints).mapM (getChecked solid'.counts)).bind fun conn =>
  (countMask conn p.solidThreshold solid'.bonds).bind fun mask =>
  (solid'.filter mask).map fun final => ⟨qlij, conn, final.1⟩

end SolidLiquid
end Freud
