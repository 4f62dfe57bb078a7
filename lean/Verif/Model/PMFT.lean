import Verif.Model.RDF
import Verif.Model.Quat
import Verif.Model.NeighborList

/-!
# Potentials of mean force and torque

Model of `freud/pmft/PMFT.h`, `PMFTXY.cc`, `PMFTXYT.cc`, `PMFTR12.cc` and `PMFTXYZ.cc`. Arithmetic
is exact. The functions `cos`, `sin`, `atan2` and the constant `TWO_PI` are parameters, collected in
`Trig`.
-/

namespace Freud
variable {K : Type*} [Field K] [LinearOrder K] [IsStrictOrderedRing K] [FloorRing K]
variable {C : Type*}

set_option linter.unusedSectionVars false

/-- `std::cos`, `std::sin`, `std::atan2` (its first argument is `y`) and `constants::TWO_PI`. -/
structure Trig (K : Type*) where
  cos : K → K
  sin : K → K
  atan2 : K → K → K
  twoPi : K

/-- `rotmat2`, `freud/util/VectorMath.h:922-924`, as its two rows. -/
@[ext] structure Mat2 (K : Type*) where
  row0x : K
  row0y : K
  row1x : K
  row1y : K

namespace Mat2

/-- `rotmat2::fromAngle`, `freud/util/VectorMath.h:912-921`. -/
def fromAngle (T : Trig K) (theta : K) : Mat2 K :=
  ⟨T.cos theta, -T.sin theta, T.sin theta, T.cos theta⟩

/-- `operator*(rotmat2, vec2)`, `freud/util/VectorMath.h:934-937`. -/
def mulVec (A : Mat2 K) (x y : K) : K × K :=
  (A.row0x * x + A.row0y * y, A.row1x * x + A.row1y * y)

end Mat2

namespace PMFT

/-- What distinguishes a `PMFT` class once it is constructed: the axes of `m_histogram` and the
factor `jf` that `reduce` multiplies the count of (flat) bin `i` with. -/
structure Grid (K : Type*) where
  axes : List (RegularAxis K)
  jf : ℕ → K

/-- The constructor of `PMFTXY`, `freud/pmft/PMFTXY.cc:25-61`, and its factor, 63-67; `none` is a
thrown exception. -/
def mkXY (xMax yMax : K) (nx ny : ℕ) : Option (Grid K) :=
  if nx < 1 then none
  else if ny < 1 then none
  else if xMax < 0 then none
  else if yMax < 0 then none
  else
    let dx := 2 * xMax / (nx : K)
    let dy := 2 * yMax / (ny : K)
    let jacobian := dx * dy
    some ⟨[⟨nx, -xMax, xMax⟩, ⟨ny, -yMax, yMax⟩], fun _ => 1 / jacobian⟩

/-- The constructor of `PMFTXYT`, `freud/pmft/PMFTXYT.cc:28-70`, and its factor, 72-76. -/
def mkXYT (T : Trig K) (xMax yMax : K) (nx ny nt : ℕ) : Option (Grid K) :=
  if nx < 1 then none
  else if ny < 1 then none
  else if nt < 1 then none
  else if xMax < 0 then none
  else if yMax < 0 then none
  else
    let dx := 2 * xMax / (nx : K)
    let dy := 2 * yMax / (ny : K)
    let dt := 1 / (nt : K)
    let jacobian := dx * dy * dt
    some ⟨[⟨nx, -xMax, xMax⟩, ⟨ny, -yMax, yMax⟩, ⟨nt, 0, T.twoPi⟩], fun _ => 1 / jacobian⟩

/-- The constructor of `PMFTR12`, `freud/pmft/PMFTR12.cc:28-83`, and its factor, 85-88. The three
nested loops that fill `m_inv_jacobian_array` write every element `(i, j, k)` once with a value that
depends on `i` only; here it is written as a function of the row-major index `l`, for which
`i = l / (n_t1 n_t2)`. -/
def mkR12 (T : Trig K) (rMax : K) (nr nt1 nt2 : ℕ) : Option (Grid K) :=
  if nr < 1 then none
  else if nt1 < 1 then none
  else if nt2 < 1 then none
  else if rMax < 0 then none
  else
    let ar : RegularAxis K := ⟨nr, 0, rMax⟩
    let dr := rMax / (nr : K)
    let dt1 := T.twoPi / (nt1 : K)
    let dt2 := 1 / (nt2 : K)
    let product := dr * dt1 * dt2
    some ⟨[ar, ⟨nt1, 0, T.twoPi⟩, ⟨nt2, 0, T.twoPi⟩],
      fun l => 1 / (ar.binCenters.getD (l / (nt1 * nt2)) 0 * product)⟩

/-- The constructor of `PMFTXYZ`, `freud/pmft/PMFTXYZ.cc:24-83`, and `jacobian_factor`, 94. -/
def mkXYZ (xMax yMax zMax : K) (nx ny nz : ℕ) : Option (Grid K) :=
  if nx < 1 then none
  else if ny < 1 then none
  else if nz < 1 then none
  else if xMax < 0 then none
  else if yMax < 0 then none
  else if zMax < 0 then none
  else
    let dx := 2 * xMax / (nx : K)
    let dy := 2 * yMax / (ny : K)
    let dz := 2 * zMax / (nz : K)
    let jacobian := dx * dy * dz
    some ⟨[⟨nx, -xMax, xMax⟩, ⟨ny, -yMax, yMax⟩, ⟨nz, -zMax, zMax⟩], fun _ => 1 / jacobian⟩

/-- `PMFT::reduce`, `freud/pmft/PMFT.h:74-84`: the new `m_pcf_array`. -/
def fill (jf : ℕ → K) (f : FrameInfo K) (frames : ℕ) (counts : List ℕ) : List K :=
  let invNumDens := f.box.getVolume / (f.nQuery : K)
  let normFactor := 1 / ((frames : K) * (f.nPoints : K))
  let prefactor := invNumDens * normFactor
  (List.range counts.length).map (fun i => (counts.getD i 0 : K) * prefactor * jf i)

/-- `PMFTXYZ::reduce`, `freud/pmft/PMFTXYZ.cc:87-98`; `numEquiv` is `m_num_equiv_orientations`. -/
def fillXYZ (jf : ℕ → K) (numEquiv : ℕ) (f : FrameInfo K) (frames : ℕ) (counts : List ℕ) : List K :=
  let invNumDens := f.box.getVolume / (f.nQuery : K)
  let normFactor := 1 / ((frames : K) * (f.nPoints : K) * (numEquiv : K))
  let prefactor := invNumDens * normFactor
  (List.range counts.length).map (fun i => (counts.getD i 0 : K) * prefactor * jf i)

/-- The result array after construction or `reset`, `freud/pmft/PMFT.h:43-50`. -/
def zero (g : Grid K) : List K := List.replicate (g.axes.map (·.nbins)).prod 0

/-! ### The coordinates of a bond -/

/-- The loop body of `PMFTXY::accumulate`, `freud/pmft/PMFTXY.cc:79-87`: the values added to the
histogram. `queryOri` are the angles of the query points. -/
def sampleXY (T : Trig K) (queryOri : ℕ → K) (b : Bond K) : List K :=
  let m := Mat2.fromAngle T (-queryOri b.q)
  let v := m.mulVec b.vec.x b.vec.y
  [v.1, v.2]

/-- The loop body of `PMFTXYT::accumulate`, `freud/pmft/PMFTXYT.cc:87-99`. -/
def sampleXYT (T : Trig K) (ori queryOri : ℕ → K) (b : Bond K) : List K :=
  let m := Mat2.fromAngle T (-queryOri b.q)
  let v := m.mulVec b.vec.x b.vec.y
  let dTheta := T.atan2 (-b.vec.y) (-b.vec.x)
  [v.1, v.2, modulusPositive (ori b.p - dTheta) T.twoPi]

/-- The loop body of `PMFTR12::accumulate`, `freud/pmft/PMFTR12.cc:99-109`. -/
def sampleR12 (T : Trig K) (ori queryOri : ℕ → K) (b : Bond K) : List K :=
  let dTheta1 := T.atan2 b.vec.y b.vec.x
  let dTheta2 := T.atan2 (-b.vec.y) (-b.vec.x)
  [b.dist, modulusPositive (ori b.p - dTheta1) T.twoPi,
    modulusPositive (queryOri b.q - dTheta2) T.twoPi]

/-- The loop body of `PMFTXYZ::accumulate`, `freud/pmft/PMFTXYZ.cc:126-143`: one sample for each
equivalent orientation. -/
def samplesXYZ (queryOri : ℕ → Quat K) (equiv : List (Quat K)) (b : Bond K) : List (List K) :=
  equiv.map (fun e =>
    let v := Quat.rotate (Quat.conj (queryOri b.q)) b.vec
    let v := Quat.rotate e v
    [v.x, v.y, v.z])

/-! ### Calls to `compute`, with what they check first -/

/-- One call to `accumulate`: the remembered data of the frame, the number of equivalent
orientations (`PMFTXYZ` only), and the parallel loop over bonds. -/
structure Attempt (K : Type*) where
  info : FrameInfo K
  numEquiv : ℕ
  n : ℕ
  samples : ℕ → List (List K)
  ev : List (ℕ × ℕ)

/-- What a user does with a `PMFT` object. `compute(reset=True)` is `reset` followed by
`accumulate` (for example `freud/pmft.py:193-194, 205-217`). -/
inductive Op (K : Type*)
  | reset
  | accumulate (a : Attempt K)
  | read (order : List ℕ)

/-- The check of the two-dimensional classes, `enforce2D` at `freud/pmft/PMFTXY.cc:74`,
`PMFTXYT.cc:84`, `PMFTR12.cc:96`: new configuration (there is none) and whether it passes. -/
def check2D (c : Unit) (a : Attempt K) : Unit × Bool := (c, a.info.box.is2D)

/-- The sentinel value of `m_num_equiv_orientations`, `freud/pmft/PMFTXYZ.cc:25, 103, 114`. -/
def NO_NUMBER : ℕ := 0xffffffff

/-- The checks of `PMFTXYZ::accumulate`, `freud/pmft/PMFTXYZ.cc:112-123`: the number of equivalent
orientations is set or compared, then `enforce3D`. -/
def checkXYZ (c : ℕ) (a : Attempt K) : ℕ × Bool :=
  if c = NO_NUMBER then (a.numEquiv, !a.info.box.is2D)
  else if c ≠ a.numEquiv then (c, false)
  else (c, !a.info.box.is2D)

/-- One call. The result says whether it raised. `c0` is the configuration after `reset`
(`freud/pmft/PMFTXYZ.cc:100-104`). -/
def step (check : C → Attempt K → C × Bool) (c0 : C) (fill : C → FrameInfo K → ℕ → List ℕ → List K)
    (zero : List K) (s : HistCompute K C (FrameInfo K) (List K)) :
    Op K → Option (HistCompute K C (FrameInfo K) (List K) × Bool)
  | .reset => (s.step fill zero .reset).map (fun s => ({ s with cfg := c0 }, false))
  | .accumulate a =>
    let r := check s.cfg a
    let s' := { s with cfg := r.1 }
    if r.2 then (s'.step fill zero (.frame a.info a.n a.samples a.ev)).map (fun s => (s, false))
    else some (s', true)
  | .read order => (s.refresh fill order).map (fun s => (s, false))

/-- A history of calls, some of which may raise. -/
def run (check : C → Attempt K → C × Bool) (c0 : C) (fill : C → FrameInfo K → ℕ → List ℕ → List K)
    (zero : List K) (s : HistCompute K C (FrameInfo K) (List K)) :
    List (Op K) → Option (HistCompute K C (FrameInfo K) (List K))
  | [] => some s
  | o :: os => (step check c0 fill zero s o).bind (fun p => run check c0 fill zero p.1 os)

/-- A new object. -/
def new (g : Grid K) (c0 : C) (box0 : Box K) : HistCompute K C (FrameInfo K) (List K) :=
  HistCompute.new g.axes c0 ⟨box0, 0, 0⟩ (zero g)

end PMFT
end Freud
