import Verif.Model.Schedule
import Verif.Model.BoxReal
import Mathlib.Analysis.SpecialFunctions.Exp
import Mathlib.MeasureTheory.Integral.IntervalIntegral.Basic

/-!
# Static structure factors

Model of `freud/diffraction/StaticStructureFactor.{h,cc}`, `StaticStructureFactorDebye.{h,cc}`,
`StaticStructureFactorDirect.{h,cc}` and of the two classes of `freud/diffraction.py`, over the real
and complex numbers. `none` is an access outside of an array. The special functions are exact.
-/

namespace Freud

/-- `util::sinc`, `freud/util/utils.h:39-46`. -/
noncomputable def sincFn (x : ℝ) : ℝ := if x = 0 then 1 else Real.sin x / x

/-- `std::cyl_bessel_j(0, x)`: the Bessel function of the first kind of order zero, by its integral
representation. -/
noncomputable def besselJ0 (x : ℝ) : ℝ :=
  (∫ t in (0 : ℝ)..Real.pi, Real.cos (x * Real.sin t)) / Real.pi

/-- The smallest side length, `freud/diffraction/StaticStructureFactorDebye.cc:69-71` and
`freud/diffraction/StaticStructureFactorDirect.cc:77-79`. -/
noncomputable def minBoxLength (b : Box ℝ) : ℝ :=
  if b.is2D then min b.L.x b.L.y else min b.L.x (min b.L.y b.L.z)

/-- What the constructors do: raise, make an axis whose bounds are not finite numbers, or make an
axis. -/
inductive SFNew
  | raised
  | notFinite
  | ok (a : RegularAxis ℝ)

/-- The arguments of `compute` after conversion: the system, the optional query points and the
optional `N_total`. -/
structure SFArgs where
  box : Box ℝ
  points : List (Vec3 ℝ)
  queryPoints : Option (List (Vec3 ℝ))
  nTotal : Option ℕ

/-- What a call of the user gives: it raises, returns, or returns an array; `notNumbers` is an array
of quotients `0/0`. -/
inductive SFOut
  | raised
  | done
  | notNumbers
  | value (l : List ℝ)

/-! ### Debye -/

/-- Data members, `freud/diffraction/StaticStructureFactor.h:89-94`,
`freud/diffraction/StaticStructureFactorDebye.h:55`, and the flag of `_Compute`
(`freud/util.py:36-58`). `⊤` is infinity. -/
structure Debye where
  sf : Histogram ℝ ℝ
  locals : TLS (Histogram ℝ ℝ)
  frames : ℕ
  needReduce : Bool
  minValidK : WithTop ℝ
  called : Bool

namespace Debye

/-- The constructor's axis and guards, `freud/diffraction/StaticStructureFactorDebye.cc:28-61`. The
offset is computed before the guards; with one bin its divisor is zero and both bounds are
infinite. -/
noncomputable def mkAxis (bins : ℕ) (kMax kMin : ℝ) : SFNew :=
  if bins = 0 then .raised
  else if kMax ≤ 0 then .raised
  else if kMin < 0 then .raised
  else if kMax ≤ kMin then .raised
  else if 2 * (bins - 1) = 0 then .notFinite
  else
    .ok ⟨bins, kMin - (kMax - kMin) / ((2 * (bins - 1) : ℕ) : ℝ),
      kMax + (kMax - kMin) / ((2 * (bins - 1) : ℕ) : ℝ)⟩

/-- The constructed object, `freud/diffraction/StaticStructureFactor.cc:15-24`,
`freud/diffraction/StaticStructureFactor.h:89-94`. -/
noncomputable def new (a : RegularAxis ℝ) : Debye :=
  ⟨Histogram.mk' [a], ⟨Histogram.mk' [a], []⟩, 0, true, ⊤, false⟩

/-- `reset`, `freud/diffraction/StaticStructureFactorDebye.h:43-50`. -/
noncomputable def reset (s : Debye) : Debye :=
  { s with
    sf := Histogram.mk' s.sf.axes
    locals := s.locals.resetWith Histogram.reset
    frames := 0
    minValidK := ⊤
    needReduce := true }

/-- `Box::computeAllDistances`, `freud/box/Box.h:449-462`; the loop is parallel, each iteration
writes one element. -/
noncomputable def allDistances (b : Box ℝ) (ps qs : List (Vec3 ℝ)) : List ℝ :=
  ps.flatMap (fun p => qs.map (fun q => b.computeDistance p q))

/-- One term of the sum, `freud/diffraction/StaticStructureFactorDebye.cc:90-113`. -/
noncomputable def term (is2D : Bool) (k d : ℝ) : ℝ :=
  if is2D then besselJ0 (max 0 k * d) else sincFn (k * d)

/-- The value for one `k`, `freud/diffraction/StaticStructureFactorDebye.cc:86-115`. -/
noncomputable def value (is2D : Bool) (ds : List ℝ) (nTotal : ℕ) (k : ℝ) : ℝ :=
  ds.foldl (fun s d => s + term is2D k d) 0 / (nTotal : ℝ)

/-- `accumulate`, `freud/diffraction/StaticStructureFactorDebye.cc:63-121`. `ev` is the execution of
the loop over `k` values. -/
noncomputable def accumulate (s : Debye) (b : Box ℝ) (ps qs : List (Vec3 ℝ)) (nTotal : ℕ)
    (ev : List (ℕ × ℕ)) : Option Debye :=
  let ds := allDistances b ps qs
  s.sf.axes[0]?.bind (fun a =>
    (s.locals.parallelFor (fun i h => a.binCenters[i]?.bind (fun k =>
      h.increment i (value b.is2D ds nTotal k))) ev).map (fun l =>
        { s with
          locals := l
          frames := s.frames + 1
          minValidK := min s.minValidK (2 * (2 * Real.pi) / minBoxLength b : ℝ)
          needReduce := true }))

/-- `compute`, `freud/diffraction.py:216-238`: the guard, the reset, the defaults. -/
noncomputable def compute (s : Debye) (reset : Bool) (f : SFArgs) (ev : List (ℕ × ℕ)) :
    Option (Debye × SFOut) :=
  if f.queryPoints.isNone ≠ f.nTotal.isNone then some (s, .raised)
  else
    let s1 := if reset then s.reset else s
    let qs := f.queryPoints.getD f.points
    let n := f.nTotal.getD qs.length
    (s1.accumulate f.box f.points qs n ev).map (fun s2 => ({ s2 with called := true }, .done))

/-- `reduce`, `freud/diffraction/StaticStructureFactorDebye.cc:123-128`, with
`freud/util/Histogram.h:434-444`; the division is a loop over bins. -/
noncomputable def reduce (s : Debye) (order : List ℕ) : Option Debye :=
  (histReduceInto s.locals order s.sf.counts).map (fun c =>
    { s with sf := { s.sf with counts := { c with data := c.data.map (· / (s.frames : ℝ)) } } })

/-- The property `S_k`, `freud/diffraction.py:44-48`,
`freud/diffraction/StaticStructureFactor.h:44-50, 76-84`. -/
noncomputable def read (s : Debye) (order : List ℕ) : Option (Debye × SFOut) :=
  if s.called then
    (if s.needReduce then s.reduce order else some s).map (fun s' =>
      ({ s' with needReduce := false },
        if s'.frames = 0 then .notNumbers else .value s'.sf.counts.data))
  else some (s, .raised)

/-- What a user does: a `compute`, a `compute` whose system or query points cannot be converted
(`freud/diffraction.py:227-232`, after the reset), or a read. -/
inductive Op
  | compute (reset : Bool) (f : SFArgs) (ev : List (ℕ × ℕ))
  | failed (reset : Bool)
  | read (order : List ℕ)

/-- One operation. -/
noncomputable def step (s : Debye) : Op → Option (Debye × SFOut)
  | .compute r f ev => s.compute r f ev
  | .failed r => some (if r then s.reset else s, .raised)
  | .read order => s.read order

/-- A history of operations. -/
noncomputable def run (s : Debye) : List Op → Option Debye
  | [] => some s
  | o :: os => (s.step o).bind (fun p => run p.1 os)

end Debye

/-! ### Direct -/

/-- `Box::operator==`, `freud/box/Box.h:85-92`. -/
noncomputable def boxEq (a b : Box ℝ) : Bool :=
  decide (a.L = b.L ∧ a.xy = b.xy ∧ a.xz = b.xz ∧ a.yz = b.yz ∧ a.px = b.px ∧ a.py = b.py ∧
    a.pz = b.pz)

/-- Data members, `freud/diffraction/StaticStructureFactor.h:89-94`,
`freud/diffraction/StaticStructureFactorDirect.h:104-110`; `prevBox` is `some` exactly when
`box_assigned`. -/
structure Direct where
  sf : Histogram ℝ ℝ
  locals : TLS (Histogram ℝ ℝ)
  kHist : Histogram ℝ ℕ
  kLocals : TLS (Histogram ℝ ℕ)
  needReduce : Bool
  minValidK : WithTop ℝ
  prevBox : Option (Box ℝ)
  kPoints : List (Vec3 ℝ)
  called : Bool

namespace Direct

/-- The constructor's axis and guards, `freud/diffraction/StaticStructureFactorDirect.cc:32-55`. -/
noncomputable def mkAxis (bins : ℕ) (kMax kMin : ℝ) : SFNew :=
  if bins = 0 then .raised
  else if kMax ≤ 0 then .raised
  else if kMin < 0 then .raised
  else if kMax ≤ kMin then .raised
  else .ok ⟨bins, kMin, kMax⟩

/-- The constructed object. -/
noncomputable def new (a : RegularAxis ℝ) : Direct :=
  ⟨Histogram.mk' [a], ⟨Histogram.mk' [a], []⟩, Histogram.mk' [a], ⟨Histogram.mk' [a], []⟩, true, ⊤,
    none, [], false⟩

/-- `reset`, `freud/diffraction/StaticStructureFactorDirect.h:57-65`. -/
noncomputable def reset (s : Direct) : Direct :=
  { s with
    sf := Histogram.mk' s.sf.axes
    locals := s.locals.resetWith Histogram.reset
    kLocals := s.kLocals.resetWith Histogram.reset
    minValidK := ⊤
    needReduce := true
    prevBox := none }

/-- `compute_F_k` for one `k`, `freud/diffraction/StaticStructureFactorDirect.cc:127-150`. -/
noncomputable def amplitude (ps : List (Vec3 ℝ)) (nTotal : ℕ) (k : Vec3 ℝ) : ℂ :=
  ps.foldl (fun F r => F + Complex.exp ⟨0, Vec3.dot k r⟩) 0 *
    ((1 / Real.sqrt (nTotal : ℝ) : ℝ) : ℂ)

/-- `compute_S_k` for one `k`, `freud/diffraction/StaticStructureFactorDirect.cc:152-166`. -/
noncomputable def value (ps qs : List (Vec3 ℝ)) (nTotal : ℕ) (k : Vec3 ℝ) : ℝ :=
  (star (amplitude ps nTotal k) * amplitude qs nTotal k).re

/-- `accumulate`, `freud/diffraction/StaticStructureFactorDirect.cc:57-108`. `sampled` is what
`reciprocal_isotropic` would return at this call. The bins are looked up on the shared histogram in
the code and on the thread's copy here; both have the same axes. The two histograms are filled in one
loop in the code; they are separate here and see the same execution. -/
noncomputable def accumulate (s : Direct) (b : Box ℝ) (ps qs : List (Vec3 ℝ)) (nTotal : ℕ)
    (sampled : List (Vec3 ℝ)) (ev : List (ℕ × ℕ)) : Option Direct :=
  let s1 := if s.prevBox.any (fun b' => boxEq b b') then s
    else { s with prevBox := some b, kPoints := sampled }
  let S := s1.kPoints.map (value ps qs nTotal)
  (s1.locals.parallelFor (fun i h => s1.kPoints[i]?.bind (fun k => S[i]?.bind (fun x =>
      h.add [Vec3.norm k] x))) ev).bind (fun l =>
    (s1.kLocals.parallelFor (fun i h => s1.kPoints[i]?.bind (fun k =>
      h.add [Vec3.norm k] 1)) ev).map (fun kl =>
        { s1 with
          locals := l
          kLocals := kl
          minValidK := min s1.minValidK (2 * Real.pi / minBoxLength b : ℝ)
          needReduce := true }))

/-- `compute`, `freud/diffraction.py:440-462`. `N_total` defaults to the number of points. -/
noncomputable def compute (s : Direct) (reset : Bool) (f : SFArgs) (sampled : List (Vec3 ℝ))
    (ev : List (ℕ × ℕ)) : Option (Direct × SFOut) :=
  if f.queryPoints.isNone ≠ f.nTotal.isNone then some (s, .raised)
  else
    let s1 := if reset then s.reset else s
    let qs := f.queryPoints.getD f.points
    let n := f.nTotal.getD f.points.length
    (s1.accumulate f.box f.points qs n sampled ev).map
      (fun s2 => ({ s2 with called := true }, .done))

/-- The division of the sums by the counts, `freud/diffraction/StaticStructureFactorDirect.cc:119-124`. -/
noncomputable def normalize (counts : List ℕ) (sums : List ℝ) : List ℝ :=
  (counts.zip sums).map (fun p => if p.1 ≠ 0 then p.2 / (p.1 : ℝ) else p.2)

/-- `reduce`, `freud/diffraction/StaticStructureFactorDirect.cc:110-125`. -/
noncomputable def reduce (s : Direct) (order : List ℕ) : Option Direct :=
  let kh : Histogram ℝ ℕ := Histogram.mk' s.kHist.axes
  (histReduceInto s.kLocals order kh.counts).bind (fun kc =>
    (histReduceInto s.locals order s.sf.counts).map (fun c =>
      { s with
        kHist := { kh with counts := kc }
        sf := { s.sf with counts := { c with data := normalize kc.data c.data } } }))

/-- The property `S_k`, `freud/diffraction.py:44-48`. -/
noncomputable def read (s : Direct) (order : List ℕ) : Option (Direct × SFOut) :=
  if s.called then
    (if s.needReduce then s.reduce order else some s).map (fun s' =>
      ({ s' with needReduce := false }, .value s'.sf.counts.data))
  else some (s, .raised)

/-- What a user does; see `Debye.Op`. -/
inductive Op
  | compute (reset : Bool) (f : SFArgs) (sampled : List (Vec3 ℝ)) (ev : List (ℕ × ℕ))
  | failed (reset : Bool)
  | read (order : List ℕ)

/-- One operation. -/
noncomputable def step (s : Direct) : Op → Option (Direct × SFOut)
  | .compute r f sampled ev => s.compute r f sampled ev
  | .failed r => some (if r then s.reset else s, .raised)
  | .read order => s.read order

/-- A history of operations. -/
noncomputable def run (s : Direct) : List Op → Option Direct
  | [] => some s
  | o :: os => (s.step o).bind (fun p => run p.1 os)

end Direct
end Freud
