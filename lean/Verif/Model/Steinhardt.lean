import Verif.Model.NeighborLoop
import Verif.Model.Schedule
import Verif.Model.Box
import Verif.Model.WignerTable
import Mathlib.Analysis.SpecialFunctions.Complex.Arg
import Mathlib.Analysis.SpecialFunctions.Trigonometric.Inverse
import Mathlib.Algebra.Order.Monoid.WithTop

/-!
# Steinhardt order parameters

Model of `freud/order/Steinhardt.cc`, `Steinhardt.h`, `Wigner3j.cc` and `freud/order.py:489-588`. Real and
complex numbers are exact (the code uses `float`). The spherical harmonics come from the external
library fsph and are a parameter. This is the computation for one `l`; `Verif.Model.SteinhardtSeveral` has
the loops over `l_index`, and C107 shows that they do this computation for every `l`.

A row is the part of an array that belongs to one particle and one `l`: its `2 l + 1` complex numbers
as a function of the index, or `none` if they are not finite numbers (the total weight by which the
code divides is zero). Outer `none`s are exceptions or reads outside an array.
-/

namespace Freud.Steinhardt

/-- `fsph::PointSPHEvaluator` (external): the value for `l`, polar angle, azimuth and the index of `m`
in the order `0, 1, ..., l, -1, ..., -l`. -/
abbrev Sph := ℕ → ℝ → ℝ → ℕ → ℂ

/-- The numbers of one particle and one `l`. -/
abbrev Row := Option (ℕ → ℂ)

/-- The flags and `l`, `freud/order/Steinhardt.h:198-205`. -/
structure Params where
  l : ℕ
  average : Bool
  wl : Bool
  weighted : Bool
  wlNormalize : Bool

/-- `computeYlm`, `freud/order/Steinhardt.cc:30-52`: fsph with the Condon-Shortley phase added. -/
noncomputable def ylm (sph : Sph) (l : ℕ) (theta phi : ℝ) (mIndex : ℕ) : ℂ :=
  (if mIndex ≤ l ∧ mIndex % 2 = 1 then -1 else 1) * sph l theta phi mIndex

/-- `phi`, `freud/order/Steinhardt.cc:161`. -/
noncomputable def phi (delta : Vec3 ℝ) : ℝ := Complex.arg ⟨delta.x, delta.y⟩

/-- `theta`, `freud/order/Steinhardt.cc:163-174`, with `util::clamp` of `freud/util/utils.h:18-21`. -/
noncomputable def theta (delta : Vec3 ℝ) (dist : ℝ) : ℝ :=
  if dist = 0 then 0 else Real.arccos (max (-1) (min (delta.z / dist) 1))

/-- The loop over the bonds of one particle, `freud/order/Steinhardt.cc:153-192`: the sums in the array
and `total_weight`. -/
noncomputable def sumBonds (sph : Sph) (p : Params) (b : Box ℝ) (points : List (Vec3 ℝ)) (ref : Vec3 ℝ) :
    List (Bond ℝ) → (ℕ → ℂ) × ℝ → Option ((ℕ → ℂ) × ℝ)
  | [], acc => some acc
  | nb :: bonds, acc =>
    points[nb.p]?.bind fun pt =>
      let delta := b.wrap (pt - ref)
      let weight := if p.weighted then nb.weight else 1
      sumBonds sph p b points ref bonds
        (fun k => acc.1 k + (weight : ℂ) * ylm sph p.l (theta delta nb.dist) (phi delta) k,
          acc.2 + weight)

/-- The row of `m_qlmi` for one particle, `freud/order/Steinhardt.cc:138-210`. -/
noncomputable def basePoint (sph : Sph) (p : Params) (b : Box ℝ) (points : List (Vec3 ℝ)) (i : ℕ)
    (bonds : List (Bond ℝ)) : Option Row :=
  points[i]?.bind fun ref =>
  (sumBonds sph p b points ref bonds (fun _ => 0, 0)).map fun r =>
    if r.2 = 0 then none else some fun k => r.1 k / (r.2 : ℂ)

/-- `ql` of a row: the norms are added up, scaled by `4 pi / (2 l + 1)` and the root is taken,
`freud/order/Steinhardt.cc:210-219, 283-286, 297-305`. -/
noncomputable def ql (l : ℕ) (row : ℕ → ℂ) : ℝ :=
  Real.sqrt (((List.range (2 * l + 1)).map fun k => Complex.normSq (row k)).sum *
    (4 * Real.pi / (2 * l + 1 : ℕ)))

/-- The sum over the neighbors in `computeAve`, `freud/order/Steinhardt.cc:243-261`, with
`neighborcount`; `none` inside is a value that is not finite. -/
noncomputable def aveSum (rows : List Row) : List (Bond ℝ) → Row × ℕ → Option (Row × ℕ)
  | [], acc => some acc
  | nb :: bonds, acc =>
    rows[nb.p]?.bind fun r =>
      aveSum rows bonds (acc.1.bind fun a => r.map fun r k => a k + r k, acc.2 + 1)

/-- The row of `m_qlmiAve` for one particle, `freud/order/Steinhardt.cc:242-287`. -/
noncomputable def avePoint (rows : List Row) (i : ℕ) (bonds : List (Bond ℝ)) : Option Row :=
  (aveSum rows bonds (some fun _ => 0, 1)).bind fun s =>
  rows[i]?.map fun own =>
    s.1.bind fun a => own.map fun r k => (a k + r k) / (s.2 : ℂ)

/-- What an iteration adds to the array of its thread, `freud/order/Steinhardt.cc:212-216, 281`: the
numbers of the row over the number of particles. -/
noncomputable def cells (l n : ℕ) (row : Row) : List (ℕ × WithTop ℂ) :=
  (List.range (2 * l + 1)).map fun k =>
    (k, match row with | none => ⊤ | some r => ((r k / (n : ℂ) : ℂ) : WithTop ℂ))

/-- The reduced array as a row. -/
noncomputable def toRow (a : MArray (WithTop ℂ)) : Row :=
  if ∃ x ∈ a.data, x = ⊤ then none else some fun k => ((a.data.getD k 0).untopD 0)

/-- The integers `a, a + 1, ..., b`. -/
def intRange (a b : ℤ) : List ℤ := (List.range (b + 1 - a).toNat).map fun k : ℕ => a + k

/-- The values of `m1`, `m2`, `m3` in the order of the loops, `freud/order/Wigner3j.cc:43-50`. -/
def triples (l : ℕ) : List (ℤ × ℤ × ℤ) :=
  (intRange (-l) l).flatMap fun m1 =>
    (intRange (max (-l - m1) (-l)) (min (l - m1) l)).map fun m2 => (m1, m2, -m1 - m2)

/-- `lmIndex`, `freud/order/Wigner3j.cc:17-20`. -/
def lmIndex (l : ℕ) (m : ℤ) : ℕ := (if m < 0 then l - m else m).toNat

/-- `reduceWigner3j`, `freud/order/Wigner3j.cc:22-57`; `counter` is the second component of `zipIdx`. -/
noncomputable def reduceWigner3j (source : ℕ → ℂ) (l : ℕ) (wigner3j : List ℝ) : Option ℝ :=
  (triples l).zipIdx.foldlM (fun result p =>
    (wigner3j[p.2]?).map fun w : ℝ => result +
      ((w : ℂ) * source (lmIndex l p.1.1) * source (lmIndex l p.1.2.1) * source (lmIndex l p.1.2.2)).re) 0

/-- `getWigner3j`, `freud/order/Wigner3j.cc:59-5833`. -/
noncomputable def getWigner3j (l : ℕ) : Option (List ℝ) :=
  (Wigner.table l).map fun t => t.map fun z : ℤ => (z : ℝ) / 10 ^ 21

/-- `wl` of a row, `freud/order/Steinhardt.cc:307-319, 340-355`: the outer `none` is the exception for
`l > 20`, the inner `none` a value that is not finite. -/
noncomputable def wlValue (p : Params) (row : Row) : Option (Option ℝ) :=
  (getWigner3j p.l).bind fun t =>
  match row with
  | none => some none
  | some r => (reduceWigner3j r p.l t).map fun w =>
    if p.wlNormalize then
      if ql p.l r = 0 then none
      else
        let f := Real.sqrt (4 * Real.pi / (2 * p.l + 1 : ℕ)) / ql p.l r
        some (w * (f * f * f))
    else some w

/-- The results for one `l`. `order` is the value in `m_norm`. -/
structure Result where
  qlmi : List Row
  qli : List (Option ℝ)
  qliAve : List (Option ℝ)
  wli : List (Option ℝ)
  order : Option ℝ

/-- The arguments of a `compute`, with the executions of the two loops over the particles and the order
in which `reduceInto` visits the cells. -/
structure Call where
  box : Box ℝ
  points : List (Vec3 ℝ)
  nlist : NList ℝ
  ev : List (ℕ × ℕ)
  evAve : List (ℕ × ℕ)
  reduceOrder : List ℕ

/-- The storage of a new object, `freud/order/Steinhardt.h:74-75`. -/
noncomputable def newLocals (l : ℕ) : TLS (MArray (WithTop ℂ)) := ⟨MArray.mk' [2 * l + 1], []⟩

/-- The rows of `m_qlmi`, `freud/order/Steinhardt.cc:136-221`. -/
noncomputable def baseRows (sph : Sph) (p : Params) (c : Call) : Option (List Row) :=
  (loopOverNeighborsIterator c.nlist (fun i bonds _ => basePoint sph p c.box c.points i bonds)
    (c.ev.map (·.2)) ⟨[c.points.length], List.replicate c.points.length (some fun _ => 0)⟩).map (·.data)

/-- The rows of `m_qlmiAve`, `freud/order/Steinhardt.cc:240-288`. -/
noncomputable def aveRows (rows : List Row) (c : Call) : Option (List Row) :=
  (loopOverNeighborsIterator c.nlist (fun i bonds _ => avePoint rows i bonds)
    (c.evAve.map (·.2)) ⟨[c.points.length], List.replicate c.points.length (some fun _ => 0)⟩).map (·.data)

/-- `compute` for one `l`, `freud/order/Steinhardt.cc:85-118`, from the thread storage left by earlier
calls. An iteration adds its row to the array of its thread after it has written the row; it reads no
other row that the same loop writes, so both are done in the order of the execution. -/
noncomputable def compute (sph : Sph) (p : Params) (locals : TLS (MArray (WithTop ℂ))) (c : Call) :
    Option (TLS (MArray (WithTop ℂ)) × Result) :=
  let n := c.points.length
  (baseRows sph p c).bind fun rows =>
  (if p.average then aveRows rows c else some rows).bind fun used =>
  ((locals.resetWith MArray.reset).parallelFor
      (fun i a => addCells (cells p.l n (used.getD i none)) a) (if p.average then c.evAve else c.ev)).bind
    fun loc =>
  (storageReduceInto loc c.reduceOrder (MArray.mk' [2 * p.l + 1])).bind fun qlm =>
  (if p.wl then used.mapM (wlValue p) else some []).bind fun wli =>
  (if p.wl then wlValue p (toRow qlm) else some ((toRow qlm).map (ql p.l))).map fun norm =>
    (loc,
      { qlmi := rows
        qli := rows.map (Option.map (ql p.l))
        qliAve := if p.average then used.map (Option.map (ql p.l)) else []
        wli := wli
        order := norm })

/-- `getQl`, `freud/order/Steinhardt.h:106-114`, the property `ql` of `freud/order.py:542-551`. -/
def Result.getQl (p : Params) (r : Result) : List (Option ℝ) := if p.average then r.qliAve else r.qli

/-- `getParticleOrder`, `freud/order/Steinhardt.h:96-104`. -/
def Result.particleOrder (p : Params) (r : Result) : List (Option ℝ) :=
  if p.wl then r.wli else r.getQl p

/-- A history of calls on one object. -/
noncomputable def run (sph : Sph) (p : Params) : List Call → TLS (MArray (WithTop ℂ)) → Option (TLS (MArray (WithTop ℂ)))
  | [], loc => some loc
  | c :: cs, loc => (compute sph p loc c).bind fun r => run sph p cs r.1

/-- What can be read from an object after a history of calls and one more call. -/
noncomputable def resultAfter (sph : Sph) (p : Params) (history : List Call) (c : Call) : Option Result :=
  (run sph p history (newLocals p.l)).bind fun loc => (compute sph p loc c).map (·.2)

end Freud.Steinhardt
