import Verif.Model.SolidLiquid
import Verif.Model.Steinhardt
import Verif.Model.GridArgs

/-!
# `SolidLiquid` from the points to its results

Model of `freud/order/SolidLiquid.cc`, `SolidLiquid.h` and `freud/order.py:684-760` with the Steinhardt computation that
the class runs first. Real numbers are exact.
-/

namespace Freud.SolidLiquid

/-- The arguments of an object, `freud/order/SolidLiquid.h:148-152`. -/
structure Args where
  l : ℕ
  qThreshold : ℝ
  solidThreshold : ℕ
  normalizeQ : Bool

/-- `SolidLiquid.__init__`, `freud/order.py:684-694`, with the check of `freud/order/SolidLiquid.cc:24-28`: the number of
bonds is rounded down and must be an `unsigned int`. An integer is its own floor. `none` is an exception. -/
noncomputable def new (l : ℕ) (qThreshold solidThreshold : ℝ) (normalizeQ : Bool) : Option Args :=
  (asUInt ⌊solidThreshold⌋).bind fun k =>
    if qThreshold < 0 then none else some ⟨l, qThreshold, k, normalizeQ⟩

/-- The constants of `compute`, `freud/order/SolidLiquid.cc:20-22, 46`. -/
noncomputable def Args.params (a : Args) : Params ℝ :=
  ⟨2 * a.l + 1, a.qThreshold, a.solidThreshold, a.normalizeQ, 4 * Real.pi / (2 * a.l + 1 : ℕ)⟩

/-- The `Steinhardt` object, `freud/order/SolidLiquid.cc:22` with the defaults of `freud/order/Steinhardt.h:60-62`. -/
def Args.steinhardt (a : Args) : Steinhardt.Params := ⟨a.l, false, false, false, false⟩

/-- `getQlm()[0]`, real and imaginary parts, `freud/order/SolidLiquid.cc:42`. Numbers that are not finite are replaced by
zero: they only enter products that are not finite, see `shown`. -/
noncomputable def harmonics (rows : List Steinhardt.Row) (i k : ℕ) : ℝ × ℝ :=
  match rows.getD i none with
  | none => (0, 0)
  | some r => ((r k).re, (r k).im)

/-- `getQl()`, `freud/order/SolidLiquid.cc:43`. -/
noncomputable def norms (q : List (Option ℝ)) (i : ℕ) : ℝ := (q.getD i none).getD 0

/-- What is found in `ql_ij` for a bond: the product is not a number (`none`) if one of the factors is not, or if it was
divided by zero, `freud/order/SolidLiquid.cc:60-74`. A number that is not finite is not above a threshold that is not
negative, and neither is the zero that stands for it in the model of the comparison. (If a norm is zero, then so is
the product: the code divides `0` by `0`.) -/
noncomputable def shown (a : Args) (rows : List Steinhardt.Row) (q : List (Option ℝ)) (i j : ℕ) (x : ℝ) : Option ℝ :=
  match rows.getD i none, rows.getD j none with
  | some _, some _ => if a.normalizeQ ∧ norms q i * norms q j = 0 then none else some x
  | _, _ => none

/-- The properties that can be read, `freud/order.py:729-760`, and the bonds that are given to the cluster algorithm.
`nlist` is the list of the computation, `freud/order/SolidLiquid.h:129-133`. -/
structure Output where
  qlij : List (Option ℝ)
  connections : List ℕ
  clusterBonds : NList ℝ
  nlist : NList ℝ

/-- `SolidLiquid::compute` up to the call of `Cluster::compute`, `freud/order/SolidLiquid.cc:31-110`, on an object on
which the calls `history` were made before. -/
noncomputable def run (sph : Steinhardt.Sph) (a : Args) (history : List Steinhardt.Call) (c : Steinhardt.Call)
    (order : List ℕ) : Option Output :=
  (Steinhardt.resultAfter sph a.steinhardt history c).bind fun r =>
  (compute a.params c.nlist (harmonics r.qlmi) (norms (r.getQl a.steinhardt)) order).map fun s =>
    { qlij := List.zipWith (fun b x => shown a r.qlmi (r.getQl a.steinhardt) b.q b.p x) c.nlist.bonds s.qlij
      connections := s.connections
      clusterBonds := s.clusterBonds
      nlist := c.nlist }

end Freud.SolidLiquid
