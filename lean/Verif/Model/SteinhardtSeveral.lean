import Verif.Model.Steinhardt
import Verif.Model.GridArgs

/-!
# Steinhardt order parameters for several l at once

Model of `freud/order/Steinhardt.cc` and `freud/order.py:489-588` with the arrays as they are in memory:
one array of shape `(N, number of l)` for the order parameters of all `l`, one array of shape
`(N, 2 l + 1)` of complex numbers and one thread storage for every `l`, and the loops over `l_index` inside
the loops over the particles. `Verif.Model.Steinhardt` is the computation for one `l` with rows instead of
flat arrays; the theorems of C107 relate the two.

Numbers are exact; `⊤` is a number that is not finite.
-/

namespace Freud.Steinhardt.Several

/-- The flags, `freud/order/Steinhardt.h:202-205`. -/
structure Flags where
  average : Bool
  wl : Bool
  weighted : Bool
  wlNormalize : Bool

/-- The parameters that belong to one of the `l`. -/
def Flags.at (f : Flags) (l : ℕ) : Params := ⟨l, f.average, f.wl, f.weighted, f.wlNormalize⟩

/-- The argument `l`: a number, or a sequence of numbers. -/
inductive LArg
  | one (l : ℤ)
  | seq (ls : List ℤ)

/-- `__init__`, `freud/order.py:489-495`, with the conversion to `std::vector<unsigned int>` of the binding
(`freud/order/export-Steinhardt.cc:26`): `none` is the exception. -/
def new (l : LArg) : Option (List ℕ) :=
  let ls := match l with
    | .one l => [l]
    | .seq ls => ls
  if ls.length = 0 then none else ls.mapM asUInt

/-- The data members that a `compute` writes, `freud/order/Steinhardt.h:207-221`; the lists have one array
for every `l`. -/
structure Mem where
  qlmi : List (MArray (WithTop ℂ))
  qli : MArray (WithTop ℝ)
  qlmiAve : List (MArray (WithTop ℂ))
  qliAve : MArray (WithTop ℝ)
  locals : List (TLS (MArray (WithTop ℂ)))

/-- The arguments of a `compute`, with the executions of the three loops over the particles and the orders
in which `reduceInto` visits the cells of the arrays of each `l`. -/
structure Call where
  box : Box ℝ
  points : List (Vec3 ℝ)
  nlist : NList ℝ
  ev : List (ℕ × ℕ)
  evAve : List (ℕ × ℕ)
  evWl : List (ℕ × ℕ)
  reduceOrders : List (List ℕ)

/-- `a[i] = f(a[i])`. -/
def modify {T : Type*} (a : MArray T) (i : ℕ) (f : T → T) : Option (MArray T) :=
  (a.get? i).bind fun x => a.set? i (f x)

/-- `as[j]` is replaced by `f as[j]`. -/
def onArray {A : Type*} (j : ℕ) (f : A → Option A) (as : List A) : Option (List A) :=
  as[j]?.bind fun a => (f a).map fun a' => as.set j a'

/-- `for (l_index = 0; l_index < m_ls.size(); ++l_index)`, with `l = m_ls[l_index]`. -/
def forLs {S : Type*} (ls : List ℕ) (body : ℕ → ℕ → S → Option S) (s : S) : Option S :=
  (List.range ls.length).foldlM (fun s j => body j (ls.getD j 0) s) s

/-- `for (k = 0; k < m_num_ms[l_index]; ++k)`. -/
def forMs {S : Type*} (l : ℕ) (body : ℕ → S → Option S) (s : S) : Option S :=
  (List.range (2 * l + 1)).foldlM (fun s k => body k s) s

/-- Division by a real number. -/
noncomputable def divReal (x : WithTop ℂ) (w : ℝ) : WithTop ℂ :=
  if w = 0 then ⊤ else x.map fun z => z / (w : ℂ)

/-- `std::norm`. -/
noncomputable def norm (x : WithTop ℂ) : WithTop ℝ := x.map Complex.normSq

/-- `local()[k] += x` on the storage of thread `t`, `freud/util/ThreadStorage.h:93-96`. -/
noncomputable def addLocal (t k : ℕ) (x : WithTop ℂ) (s : TLS (MArray (WithTop ℂ))) :
    Option (TLS (MArray (WithTop ℂ))) :=
  (TLS.upd s.exemplar (fun a => modify a k (· + x)) t s.locals).map fun l => { s with locals := l }

/-- `reallocateArrays`, `freud/order/Steinhardt.cc:55-83`, on the members left by earlier calls. -/
noncomputable def reallocate (f : Flags) (ls : List ℕ) (n : ℕ) (m : Mem) : Mem :=
  { qlmi := ls.map fun l => MArray.mk' [n, 2 * l + 1]
    qli := MArray.mk' [n, ls.length]
    qlmiAve := if f.average then ls.map fun l => MArray.mk' [n, 2 * l + 1] else m.qlmiAve
    qliAve := if f.average then MArray.mk' [n, ls.length] else m.qliAve
    locals := m.locals }

/-- The harmonics of one bond are added to the rows of particle `i`,
`freud/order/Steinhardt.cc:176-189`. -/
noncomputable def addBond (sph : Sph) (ls : List ℕ) (i : ℕ) (weight theta phi : ℝ)
    (qlmi : List (MArray (WithTop ℂ))) : Option (List (MArray (WithTop ℂ))) :=
  forLs ls (fun j l => onArray j fun a =>
    (a.getIndex [i, 0]).bind fun index =>
      forMs l (fun k a => modify a (index + k) (· + (((weight : ℂ) * ylm sph l theta phi k : ℂ) : WithTop ℂ))) a) qlmi

/-- The loop over the bonds of particle `i`, `freud/order/Steinhardt.cc:153-192`. -/
noncomputable def bondLoop (sph : Sph) (f : Flags) (ls : List ℕ) (b : Box ℝ) (points : List (Vec3 ℝ)) (i : ℕ)
    (ref : Vec3 ℝ) : List (Bond ℝ) → List (MArray (WithTop ℂ)) × ℝ → Option (List (MArray (WithTop ℂ)) × ℝ)
  | [], s => some s
  | nb :: bonds, s =>
    points[nb.p]?.bind fun pt =>
      let delta := b.wrap (pt - ref)
      let weight := if f.weighted then nb.weight else 1
      (addBond sph ls i weight (theta delta nb.dist) (phi delta) s.1).bind fun q =>
        bondLoop sph f ls b points i ref bonds (q, s.2 + weight)

/-- One pass of the loop over `k` in the normalization, `freud/order/Steinhardt.cc:204-216`. -/
noncomputable def baseEntry (f : Flags) (n t j first qi : ℕ) (total : ℝ) (k : ℕ) (m : Mem) : Option Mem :=
  (m.qlmi[j]?).bind fun a =>
  (a.get? (first + k)).bind fun x0 =>
  let x := divReal x0 total
  (a.set? (first + k) x).bind fun a' =>
  (modify m.qli qi (· + norm x)).bind fun q =>
  (if f.average then some m.locals else onArray j (addLocal t k (divReal x n)) m.locals).map fun loc =>
    { m with qlmi := m.qlmi.set j a', qli := q, locals := loc }

/-- The work on one `l` after the loop over the bonds, `freud/order/Steinhardt.cc:196-220`. -/
noncomputable def baseForL (f : Flags) (n t i start : ℕ) (total : ℝ) (j l : ℕ) (m : Mem) : Option Mem :=
  (m.qlmi[j]?).bind fun a => (a.getIndex [i, 0]).bind fun first =>
  (forMs l (baseEntry f n t j first (start + j) total) m).bind fun m =>
  (modify m.qli (start + j) (fun x => x.map (· * (4 * Real.pi / (2 * l + 1 : ℕ))))).bind fun q =>
  (modify q (start + j) (fun x => x.map Real.sqrt)).map fun q => { m with qli := q }

/-- The iteration of `baseCompute` for particle `i` on thread `t`, `freud/order/Steinhardt.cc:138-221`. -/
noncomputable def baseIteration (sph : Sph) (f : Flags) (ls : List ℕ) (c : Call) (t i : ℕ) (m : Mem) : Option Mem :=
  c.points[i]?.bind fun ref =>
  (bondLoop sph f ls c.box c.points i ref ((PPIter.new c.nlist i).collect c.nlist) (m.qlmi, 0)).bind fun s =>
  (m.qli.getIndex [i, 0]).bind fun start =>
  forLs ls (baseForL f c.points.length t i start s.2) { m with qlmi := s.1 }

/-- The rows of a neighbor are added to those of particle `i`, `freud/order/Steinhardt.cc:245-259`. -/
noncomputable def addNeighbor (ls : List ℕ) (i p : ℕ) (qlmi : List (MArray (WithTop ℂ)))
    (qlmiAve : List (MArray (WithTop ℂ))) : Option (List (MArray (WithTop ℂ))) :=
  forLs ls (fun j l => onArray j fun a =>
    qlmi[j]?.bind fun src =>
    (a.getIndex [i, 0]).bind fun aveIndex => (src.getIndex [p, 0]).bind fun nbIndex =>
      forMs l (fun k a => (src.get? (nbIndex + k)).bind fun x => modify a (aveIndex + k) (· + x)) a) qlmiAve

/-- The loop over the bonds of particle `i` in `computeAve`, `freud/order/Steinhardt.cc:242-261`. -/
noncomputable def aveLoop (ls : List ℕ) (i : ℕ) (qlmi : List (MArray (WithTop ℂ))) :
    List (Bond ℝ) → List (MArray (WithTop ℂ)) × ℕ → Option (List (MArray (WithTop ℂ)) × ℕ)
  | [], s => some s
  | nb :: bonds, s =>
    (addNeighbor ls i nb.p qlmi s.1).bind fun q => aveLoop ls i qlmi bonds (q, s.2 + 1)

/-- One pass of the loop over `k`, `freud/order/Steinhardt.cc:274-284`. -/
noncomputable def aveEntry (n t j first qi count : ℕ) (k : ℕ) (m : Mem) : Option Mem :=
  (m.qlmiAve[j]?).bind fun a => (m.qlmi[j]?).bind fun src =>
  (a.get? (first + k)).bind fun x0 => (src.get? (first + k)).bind fun own =>
  let x := divReal (x0 + own) count
  (a.set? (first + k) x).bind fun a' =>
  (onArray j (addLocal t k (divReal x n)) m.locals).bind fun loc =>
  (modify m.qliAve qi (· + norm x)).map fun q =>
    { m with qlmiAve := m.qlmiAve.set j a', qliAve := q, locals := loc }

/-- The work on one `l` after the loop over the bonds, `freud/order/Steinhardt.cc:264-287`. -/
noncomputable def aveForL (n t i start count : ℕ) (j l : ℕ) (m : Mem) : Option Mem :=
  (m.qlmiAve[j]?).bind fun a => (a.getIndex [i, 0]).bind fun first =>
  (forMs l (aveEntry n t j first (start + j) count) m).bind fun m =>
  (modify m.qliAve (start + j) (fun x => x.map (· * (4 * Real.pi / (2 * l + 1 : ℕ))))).bind fun q =>
  (modify q (start + j) (fun x => x.map Real.sqrt)).map fun q => { m with qliAve := q }

/-- The iteration of `computeAve` for particle `i` on thread `t`, `freud/order/Steinhardt.cc:240-288`. -/
noncomputable def aveIteration (ls : List ℕ) (c : Call) (t i : ℕ) (m : Mem) : Option Mem :=
  (aveLoop ls i m.qlmi ((PPIter.new c.nlist i).collect c.nlist) (m.qlmiAve, 1)).bind fun s =>
  (m.qliAve.getIndex [i, 0]).bind fun start =>
  forLs ls (aveForL c.points.length t i start s.2) { m with qlmiAve := s.1 }

/-- The `2 l + 1` numbers that start at an address. -/
noncomputable def rowAt (a : MArray (WithTop ℂ)) (start l : ℕ) : Row :=
  toRow ⟨[2 * l + 1], (List.range (2 * l + 1)).map fun k => a.data.getD (start + k) ⊤⟩

/-- One value of `aggregatewl`, `freud/order/Steinhardt.cc:342-355`; `q` is the value of
`normalization_source`. -/
noncomputable def wlEntry (f : Flags) (l : ℕ) (row : Row) (q : WithTop ℝ) : Option (WithTop ℝ) :=
  (getWigner3j l).bind fun t =>
  match row with
  | none => some ⊤
  | some r => (reduceWigner3j r l t).map fun w =>
    if f.wlNormalize then
      if q = 0 then ⊤
      else q.map fun q =>
        let s := Real.sqrt (4 * Real.pi / (2 * l + 1 : ℕ)) / q
        w * (s * s * s)
    else (w : WithTop ℝ)

/-- `aggregatewl`, `freud/order/Steinhardt.cc:329-358`. -/
noncomputable def aggregate (f : Flags) (ls : List ℕ) (source : List (MArray (WithTop ℂ)))
    (normalization : MArray (WithTop ℝ)) (order : List ℕ) (target : MArray (WithTop ℝ)) :
    Option (MArray (WithTop ℝ)) :=
  order.foldlM (fun target i =>
    (target.getIndex [i, 0]).bind fun ti => (normalization.getIndex [i, 0]).bind fun ni =>
    forLs ls (fun j l target =>
      source[j]?.bind fun a => (normalization.get? (ni + j)).bind fun q =>
      (wlEntry f l (rowAt a (MArray.linIndex a.shape [i, 0]) l) q).bind fun w => target.set? (ti + j) w) target) target

/-- What can be read after a `compute`: `m_qlmi`, `m_qli`, `m_qliAve`, `m_wli` and `m_norm`. -/
structure Results where
  qlmi : List (MArray (WithTop ℂ))
  qli : MArray (WithTop ℝ)
  qliAve : MArray (WithTop ℝ)
  wli : MArray (WithTop ℝ)
  norm : List (Option ℝ)

/-- `normalizeSystem`, `freud/order/Steinhardt.cc:291-327`, from the reduced arrays. -/
noncomputable def normalizeSystem (f : Flags) (ls : List ℕ) (qlm : List (MArray (WithTop ℂ))) :
    Option (List (Option ℝ)) :=
  (List.range ls.length).mapM fun j =>
    let l := ls.getD j 0
    qlm[j]?.bind fun a => if f.wl then wlValue (f.at l) (toRow a) else some ((toRow a).map (ql l))

/-- `compute`, `freud/order/Steinhardt.cc:85-134`, from the members left by earlier calls. -/
noncomputable def compute (sph : Sph) (f : Flags) (ls : List ℕ) (m : Mem) (c : Call) : Option (Mem × Results) :=
  let m := reallocate f ls c.points.length m
  let m := { m with locals := m.locals.map fun s => s.resetWith MArray.reset }
  (c.ev.foldlM (fun m e => baseIteration sph f ls c e.1 e.2 m) m).bind fun m =>
  (if f.average then c.evAve.foldlM (fun m e => aveIteration ls c e.1 e.2 m) m else some m).bind fun m =>
  ((List.range ls.length).mapM fun j => m.locals[j]?.bind fun s =>
    storageReduceInto s (c.reduceOrders.getD j []) (MArray.mk' [2 * ls.getD j 0 + 1])).bind fun qlm =>
  (if f.wl then
      if f.average then aggregate f ls m.qlmiAve m.qliAve (c.evWl.map (·.2)) (MArray.mk' [c.points.length, ls.length])
      else aggregate f ls m.qlmi m.qli (c.evWl.map (·.2)) (MArray.mk' [c.points.length, ls.length])
    else some (MArray.mk' [0])).bind fun wli =>
  (normalizeSystem f ls qlm).map fun norm => (m, ⟨m.qlmi, m.qli, m.qliAve, wli, norm⟩)

/-- The members of a new object, `freud/order/Steinhardt.h:66-76`. -/
noncomputable def newMem (ls : List ℕ) : Mem :=
  { qlmi := []
    qli := MArray.mk' [0]
    qlmiAve := []
    qliAve := MArray.mk' [0]
    locals := ls.map newLocals }

/-- A history of calls on one object. -/
noncomputable def run (sph : Sph) (f : Flags) (ls : List ℕ) : List Call → Mem → Option Mem
  | [], m => some m
  | c :: cs, m => (compute sph f ls m c).bind fun r => run sph f ls cs r.1

/-- What can be read from an object after a history of calls and one more call. -/
noncomputable def resultAfter (sph : Sph) (f : Flags) (ls : List ℕ) (history : List Call) (c : Call) :
    Option Results :=
  (run sph f ls history (newMem ls)).bind fun m => (compute sph f ls m c).map (·.2)

/-- `getQl`, `freud/order/Steinhardt.h:106-114`. -/
def Results.getQl (f : Flags) (r : Results) : MArray (WithTop ℝ) := if f.average then r.qliAve else r.qli

/-- `getParticleOrder`, `freud/order/Steinhardt.h:96-104`. -/
def Results.getParticleOrder (f : Flags) (r : Results) : MArray (WithTop ℝ) := if f.wl then r.wli else r.getQl f

/-- A Python value that is one `A` if there is one `l` and a list otherwise. -/
inductive OneOrMany (A : Type*)
  | one (a : A)
  | many (as : List A)

/-- `x[0] if len(x) == 1 else x`, as in `freud/order.py:521-522, 531-532, 558-559`. -/
def unpack {A : Type*} : List A → OneOrMany A
  | [a] => .one a
  | as => .many as

/-- The property `l`, `freud/order.py:518-522`. -/
def pyL (ls : List ℕ) : OneOrMany ℕ := unpack ls

/-- The property `order`, `freud/order.py:524-532`. -/
def Results.pyOrder (r : Results) : OneOrMany (Option ℝ) := unpack r.norm

/-- The property `particle_harmonics`, `freud/order.py:553-559`. -/
def Results.pyHarmonics (r : Results) : OneOrMany (MArray (WithTop ℂ)) := unpack r.qlmi

/-- `np.ravel(a) if a.shape[1] == 1 else a`, `freud/order.py:539-540, 550-551`. -/
def ravel1 {T : Type*} (a : MArray T) : MArray T :=
  if a.shape.getD 1 0 = 1 then ⟨[a.data.length], a.data⟩ else a

/-- The property `particle_order`, `freud/order.py:534-540`. -/
def Results.pyParticleOrder (f : Flags) (r : Results) : MArray (WithTop ℝ) := ravel1 (r.getParticleOrder f)

/-- The property `ql`, `freud/order.py:542-551`. -/
def Results.pyQl (f : Flags) (r : Results) : MArray (WithTop ℝ) := ravel1 (r.getQl f)

end Freud.Steinhardt.Several
