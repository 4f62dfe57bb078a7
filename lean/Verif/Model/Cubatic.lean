import Verif.Model.NeighborLoop
import Verif.Model.Quat
import Mathlib.Analysis.SpecialFunctions.Trigonometric.Inverse
import Mathlib.Analysis.SpecialFunctions.Exp

/-!
# The cubatic order parameter

Model of `freud/order/Cubatic.cc`, `Cubatic.h`. Exact arithmetic over the reals. The random number
generator is a parameter: `rng begin` is the sequence of numbers that the generator gives for the block
of replicates that starts at `begin` (the seed of the object is fixed). For no orientations the code
divides by zero; the theorems assume that there is at least one. Exceptions are `none`.
-/

namespace Freud
namespace Cubatic

/-- The four indices in the order of the loops at `freud/order/Cubatic.cc:29-40, 115-123`. -/
def quads : List (ℕ × ℕ × ℕ × ℕ) :=
  (List.range 3).flatMap fun i => (List.range 3).flatMap fun j => (List.range 3).flatMap fun k =>
    (List.range 3).map fun l => (i, j, k, l)

/-- Component of a vector, the array `v` at `freud/order/Cubatic.cc:28`. -/
def comp (v : Vec3 ℝ) : ℕ → ℝ
  | 0 => v.x
  | 1 => v.y
  | _ => v.z

/-- The constructor of `tensor4` from a vector, `freud/order/Cubatic.cc:25-42`. -/
noncomputable def tensor4 (v : Vec3 ℝ) : List ℝ :=
  quads.map fun q => comp v q.1 * comp v q.2.1 * comp v q.2.2.1 * comp v q.2.2.2

/-- The default `tensor4`, `freud/order/Cubatic.h:24, 33`. -/
noncomputable def zero4 : List ℝ := List.replicate 81 0

/-- `operator+=`, `freud/order/Cubatic.cc:50-57`. -/
noncomputable def add4 (a b : List ℝ) : List ℝ := List.zipWith (· + ·) a b

/-- `operator-`, `freud/order/Cubatic.cc:59-67`. -/
noncomputable def sub4 (a b : List ℝ) : List ℝ := List.zipWith (· - ·) a b

/-- `operator*`, `freud/order/Cubatic.cc:69-77`. -/
noncomputable def scale4 (a : List ℝ) (c : ℝ) : List ℝ := a.map (· * c)

/-- `dot`, `freud/order/Cubatic.cc:90-98`. -/
noncomputable def dot4 (a b : List ℝ) : ℝ := (List.zipWith (· * ·) a b).foldl (· + ·) 0

/-- `identity`, `freud/order/Cubatic.cc:109-112`. -/
noncomputable def delta (i j : ℕ) : ℝ := if i = j then 1 else 0

/-- `genR4Tensor`, `freud/order/Cubatic.cc:106-135`. -/
noncomputable def r4 : List ℝ :=
  quads.map fun q => (delta q.1 q.2.1 * delta q.2.2.1 q.2.2.2 + delta q.1 q.2.2.1 * delta q.2.1 q.2.2.2 +
    delta q.1 q.2.2.2 * delta q.2.1 q.2.2.1) * (2.0 / 5.0)

/-- `m_system_vectors`, `freud/order/Cubatic.cc:156-158`. -/
noncomputable def systemVectors : List (Vec3 ℝ) := [⟨1, 0, 0⟩, ⟨0, 1, 0⟩, ⟨0, 0, 1⟩]

/-- The sum over the system vectors, `freud/order/Cubatic.cc:163-167, 202-210`. -/
noncomputable def vectorSum (o : Quat ℝ) : List ℝ :=
  systemVectors.foldl (fun t v => add4 t (tensor4 (Quat.rotate o v))) zero4

/-- `calcCubaticTensor`, `freud/order/Cubatic.cc:161-169`. -/
noncomputable def cubaticTensor (o : Quat ℝ) : List ℝ := sub4 (scale4 (vectorSum o) 2.0) r4

/-- `calcCubaticOrderParameter`, `freud/order/Cubatic.cc:171-175`. -/
noncomputable def orderParameter (cubatic global : List ℝ) : ℝ :=
  1.0 - dot4 (sub4 global cubatic) (sub4 global cubatic) / dot4 cubatic cubatic

/-- `calcRandomQuaternion`, `freud/order/Cubatic.cc:177-187`, with `fromAxisAngle` of
`freud/util/VectorMath.h:621-625`: the quaternion, and the number of random numbers used so far. -/
noncomputable def randomQuat (s : ℕ → ℝ) (k : ℕ) (multiplier : ℝ) : Quat ℝ × ℕ :=
  let theta := 2.0 * Real.pi * s k
  let phi := Real.arccos (2.0 * s (k + 1) - 1.0)
  let axis : Vec3 ℝ :=
    ⟨Real.cos theta * Real.sin phi, Real.sin theta * Real.sin phi, Real.cos phi⟩
  let axis' := Vec3.smul (1 / Real.sqrt (Vec3.dot axis axis)) axis
  let angle := multiplier * s (k + 2)
  (⟨Real.cos (angle / 2.0), Vec3.smul (Real.sin (angle / 2.0)) axis'⟩, k + 3)

/-- The state of a replicate. -/
structure Rep where
  orientation : Quat ℝ
  tensor : List ℝ
  order : ℝ

/-- The state for an orientation, `freud/order/Cubatic.cc:280-281, 292-293`. -/
noncomputable def Rep.of (global : List ℝ) (o : Quat ℝ) : Rep :=
  ⟨o, cubaticTensor o, orderParameter (cubaticTensor o) global⟩

/-- The arguments of the constructor. -/
structure Params where
  tInitial : ℝ
  tFinal : ℝ
  scale : ℝ
  nReplicates : ℕ

/-- The constructor, `freud/order/Cubatic.cc:137-159`. -/
noncomputable def construct (p : Params) : Option Params :=
  if p.tInitial < p.tFinal then none
  else if p.tFinal < 1e-6 then none
  else if p.scale ≥ 1 ∨ p.scale ≤ 0 then none
  else some p

/-- The annealing loop, `freud/order/Cubatic.cc:288-320`; the first argument is the number of
iterations that `loop_count < 10000` still allows. -/
noncomputable def anneal (p : Params) (global : List ℝ) (s : ℕ → ℝ) :
    ℕ → ℝ → Rep → ℕ → Rep × ℕ
  | 0, _, r, k => (r, k)
  | fuel + 1, t, r, k =>
    if t > p.tFinal then
      let rq := randomQuat s k 0.1
      let new := Rep.of global (Quat.mul rq.1 r.orientation)
      if new.order > r.order then anneal p global s fuel (t * p.scale) new rq.2
      else if Real.exp (-(r.order - new.order) / t) ≥ s rq.2 then
        anneal p global s fuel (t * p.scale) new (rq.2 + 1)
      else anneal p global s fuel t r (rq.2 + 1)
    else (r, k)

/-- One replicate, `freud/order/Cubatic.cc:275-326`. -/
noncomputable def replicate (p : Params) (global : List ℝ) (s : ℕ → ℝ) (k : ℕ) : Rep × ℕ :=
  let rq := randomQuat s k 1.0
  anneal p global s 10000 p.tInitial (Rep.of global rq.1) rq.2

/-- The replicates of one block, `freud/order/Cubatic.cc:259-327`. The three arrays, which are written
together, are one array here. -/
noncomputable def block (p : Params) (global : List ℝ) (s : ℕ → ℝ) :
    List ℕ → ℕ → MArray Rep → Option (MArray Rep)
  | [], _, a => some a
  | i :: is, k, a =>
    let r := replicate p global s k
    (a.set? i r.1).bind (block p global s is r.2)

/-- The results. -/
structure Result where
  globalTensor : MArray ℝ
  cubaticTensor : MArray ℝ
  orientation : Quat ℝ
  order : ℝ
  particleOrder : MArray ℝ

/-- The schedules of the four parallel loops: over the particles, over the 81 entries, over blocks of
replicates, and over the particles again. -/
structure Sched where
  particles : List ℕ
  entries : List ℕ
  blocks : List (ℕ × ℕ)
  last : List ℕ

/-- `calculatePerParticleTensor` and `calculateGlobalTensor`, `freud/order/Cubatic.cc:189-243`. -/
noncomputable def globalTensor (os : List (Quat ℝ)) (sch : Sched) : Option (List ℝ) :=
  ((⟨[os.length], List.replicate os.length zero4⟩ : MArray (List ℝ)).forEach sch.particles
      (fun i _ => os[i]?.map fun o => scale4 (vectorSum o) 2.0)).bind fun pt =>
    ((⟨[81], zero4⟩ : MArray ℝ).forEach sch.entries (fun i _ =>
      ((List.range os.length).foldlM (fun acc j => (pt.get? j).bind fun t =>
        t[i]?.map fun x => acc + x) 0).map fun v => v * (1.0 / (os.length : ℝ)))).map fun g =>
      sub4 g.data r4

/-- The replicate with the highest order parameter, `freud/order/Cubatic.cc:330-339`. -/
noncomputable def best (a : MArray Rep) (nReplicates : ℕ) : Option ℕ :=
  (a.get? 0).bind fun r0 =>
    ((List.range' 1 (nReplicates - 1)).foldlM (fun (m : ℕ × ℝ) i => (a.get? i).map fun r =>
      if r.order > m.2 then (i, r.order) else m) (0, r0.order)).map (·.1)

/-- `Cubatic::compute`, `freud/order/Cubatic.cc:245-358`. -/
noncomputable def compute (p : Params) (rng : ℕ → ℕ → ℝ) (os : List (Quat ℝ)) (sch : Sched) :
    Option Result :=
  (globalTensor os sch).bind fun g =>
    (sch.blocks.foldlM (fun a be => block p g (rng be.1) (List.range' be.1 (be.2 - be.1)) 0 a)
      (⟨[p.nReplicates], List.replicate p.nReplicates ⟨⟨0, ⟨0, 0, 0⟩⟩, zero4, 0⟩⟩ : MArray Rep)).bind
      fun a => (best a p.nReplicates).bind fun m => (a.get? m).bind fun r =>
        ((MArray.mk' [os.length] : MArray ℝ).forEach sch.last (fun i _ => os[i]?.map fun o =>
          orderParameter (cubaticTensor o) g)).map fun po =>
          ⟨⟨[3, 3, 3, 3], g⟩, ⟨[3, 3, 3, 3], r.tensor⟩, r.orientation, r.order, po⟩

end Cubatic
end Freud
