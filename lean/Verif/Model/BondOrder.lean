import Verif.Model.PMFT
import Mathlib.Analysis.SpecialFunctions.Complex.Arg
import Mathlib.Analysis.SpecialFunctions.Trigonometric.Inverse

/-!
# Bond orientational order diagrams

Model of `freud/environment/BondOrder.cc`, in exact arithmetic over the reals. `std::atan2` is the
argument of the complex number (0 at the origin), `std::acos` and `std::cos` are the real functions.
-/

namespace Freud
namespace BondOrder

/-- `BondOrderMode`, `freud/environment/BondOrder.h:22-29`. -/
inductive Mode
  | bod
  | lbod
  | obcd
  | oocd
deriving DecidableEq

/-- What the constructor leaves: the axes of the histogram and `m_sa_array` in row-major order. -/
structure Grid where
  axes : List (RegularAxis ℝ)
  sa : List ℝ

/-- The constructor, `freud/environment/BondOrder.cc:31-77`; `none` is a thrown exception. -/
noncomputable def mk (nTheta nPhi : ℕ) : Option Grid :=
  if nTheta < 2 then none
  else if nPhi < 2 then none
  else
    let dt := 2 * Real.pi / (nTheta : ℝ)
    let dp := Real.pi / (nPhi : ℝ)
    if dt > 2 * Real.pi then none
    else if dp > Real.pi then none
    else some ⟨[⟨nTheta, 0, 2 * Real.pi⟩, ⟨nPhi, 0, Real.pi⟩],
      (List.range nTheta).flatMap (fun _ => (List.range nPhi).map (fun j : ℕ =>
        let phi := (j : ℝ) * dp
        dt * (Real.cos phi - Real.cos (phi + dp))))⟩

/-- `BondOrder::reduce`, `freud/environment/BondOrder.cc:85-90`: the new `m_bo_array`. -/
noncomputable def fill (g : Grid) (frames : ℕ) (counts : List ℕ) : List ℝ :=
  (List.range counts.length).map (fun i =>
    (counts.getD i 0 : ℝ) / g.sa.getD i 0 / (frames : ℝ))

/-- The array after construction or `reset`, `freud/environment/BondOrder.cc:79-83`. -/
noncomputable def zero (g : Grid) : List ℝ := List.replicate (g.axes.map (·.nbins)).prod 0

/-- The vector whose direction is binned, `freud/environment/BondOrder.cc:110-136`. `ori` are the
orientations of the points, `queryOri` those of the query points. -/
noncomputable def direction (mode : Mode) (ori queryOri : ℕ → Quat ℝ) (b : Bond ℝ) : Vec3 ℝ :=
  let refQ := ori b.p
  let v := b.vec
  let q := queryOri b.q
  match mode with
  | .obcd => Quat.rotate q (Quat.rotate (Quat.conj refQ) v)
  | .lbod => Quat.rotate (Quat.conj refQ) v
  | .oocd => Quat.rotate (Quat.conj refQ) (Quat.rotate q ⟨0, 0, 1⟩)
  | .bod => v

/-- `theta`, `freud/environment/BondOrder.cc:141-142`. -/
noncomputable def theta (v : Vec3 ℝ) : ℝ :=
  modulusPositive (Complex.arg ⟨v.x, v.y⟩) (2 * Real.pi)

/-- `phi`, `freud/environment/BondOrder.cc:145`. -/
noncomputable def phi (v : Vec3 ℝ) : ℝ := Real.arccos (v.z / Real.sqrt (Vec3.dot v v))

open Classical in
/-- The loop body, `freud/environment/BondOrder.cc:109-148`: the values added to the histogram. For
a zero vector `phi` is not a number, and its bin is the result of converting that to an integer:
undefined, `none`. -/
noncomputable def sample (mode : Mode) (ori queryOri : ℕ → Quat ℝ) (b : Bond ℝ) :
    Option (List ℝ) :=
  let v := direction mode ori queryOri b
  if v = ⟨0, 0, 0⟩ then none else some [theta v, phi v]

/-- One call to `accumulate`, `freud/environment/BondOrder.cc:102-150`: the box (all that a later
call can read), a parallel loop of `n` iterations, the bonds that iteration `i` visits, and the
execution of the loop. -/
structure Call where
  box : Box ℝ
  ori : ℕ → Quat ℝ
  queryOri : ℕ → Quat ℝ
  n : ℕ
  bonds : ℕ → List (Bond ℝ)
  ev : List (ℕ × ℕ)

/-- What a user does. `compute(reset=True)` is `reset` followed by `accumulate`
(`freud/environment.py:335-336, 358-365`). -/
inductive Op
  | reset
  | accumulate (c : Call)
  | read (order : List ℕ)

open Classical in
/-- A call in terms of the base class (`accumulateGeneral`,
`freud/locality/BondHistogramCompute.h:116-126`); `none` if the direction of some bond is
undefined. -/
noncomputable def toOp (mode : Mode) : Op → Option (HistCompute.Op ℝ Unit (Box ℝ))
  | .reset => some .reset
  | .accumulate c =>
    if ∀ i < c.n, ∀ b ∈ c.bonds i, (sample mode c.ori c.queryOri b).isSome then
      some (.frame c.box c.n (fun i => (c.bonds i).filterMap (sample mode c.ori c.queryOri)) c.ev)
    else none
  | .read order => some (.read order)

/-- A new object. -/
noncomputable def new (g : Grid) (box0 : Box ℝ) : HistCompute ℝ Unit (Box ℝ) (List ℝ) :=
  HistCompute.new g.axes () box0 (zero g)

/-- A history of calls; `none` if one of them is undefined. -/
noncomputable def run (g : Grid) (mode : Mode) (s : HistCompute ℝ Unit (Box ℝ) (List ℝ)) :
    List Op → Option (HistCompute ℝ Unit (Box ℝ) (List ℝ))
  | [] => some s
  | o :: os => (toOp mode o).bind (fun o' =>
      (s.step (fun _ _ => fill g) (zero g) o').bind (fun s' => run g mode s' os))

/-- `getBondOrder`, `freud/environment/BondOrder.cc:97-100`: the object after the read, and the
array. -/
noncomputable def bondOrder (g : Grid) (s : HistCompute ℝ Unit (Box ℝ) (List ℝ)) (order : List ℕ) :
    Option (HistCompute ℝ Unit (Box ℝ) (List ℝ) × List ℝ) :=
  (s.refresh (fun _ _ => fill g) order).map (fun s' => (s', s'.out))

end BondOrder
end Freud
