import Verif.Model.Box
import Mathlib.Analysis.SpecialFunctions.Complex.Log

/-!
# Mean squared displacement

Model of `freud/msd.py`. Arithmetic is exact: numbers are real, and the FFT libraries
(`freud/msd.py:26-57`) are replaced by the discrete Fourier transform they compute. NumPy works on
all particles (columns) at once; the operations on different columns do not interact, and the model
computes one column at a time.
-/

namespace Freud
namespace MSD

/-- `fft(x, n=M)`: the discrete Fourier transform of `x`, padded with zeros to length `M`. -/
noncomputable def fft (M : ℕ) (x : List ℂ) : List ℂ :=
  (List.range M).map (fun k => ((List.range M).map (fun j =>
    x.getD j 0 * Complex.exp (-(2 * Real.pi * Complex.I * ((j * k : ℕ) : ℂ) / (M : ℂ))))).sum)

/-- `ifft(X)`. -/
noncomputable def ifft (X : List ℂ) : List ℂ :=
  (List.range X.length).map (fun t => ((List.range X.length).map (fun k =>
    X.getD k 0 * Complex.exp (2 * Real.pi * Complex.I * ((k * t : ℕ) : ℂ) / (X.length : ℂ)))).sum /
      (X.length : ℂ))

/-- `_autocorrelation`, `freud/msd.py:60-68`, for one column. -/
noncomputable def autocorrelation (x : List ℝ) : List ℝ :=
  let N := x.length
  let F := fft (2 * N) (x.map (fun a : ℝ => (a : ℂ)))
  let PSD := F.map (fun z => z * (starRingEnd ℂ) z)
  let res := ifft PSD
  let res := (res.take N).map Complex.re
  let n := (List.range N).map (fun i => (N - i : ℕ))
  List.zipWith (fun a (b : ℕ) => a / (b : ℝ)) res n

/-- Python indexing of an array of length `l` with `m - 1`: index `-1` is the last element. -/
def pyPred (l m : ℕ) : ℕ := if m = 0 then l - 1 else m - 1

/-- One pass of the loop `freud/msd.py:221-223`: new `Q` and the new `S1[m]`. -/
noncomputable def s1Step (N : ℕ) (D : List ℝ) (st : ℝ × List ℝ) (m : ℕ) : ℝ × List ℝ :=
  let Q := st.1 - (D.getD (pyPred D.length m) 0 + D.getD (N - m) 0)
  (Q, st.2 ++ [Q / ((N - m : ℕ) : ℝ)])

/-- The window mode, `freud/msd.py:214-231`, for one particle with positions `r` in the frames. -/
noncomputable def windowColumn (r : List (Vec3 ℝ)) : List ℝ :=
  let N := r.length
  let D := r.map (fun v => v.x ^ 2 + v.y ^ 2 + v.z ^ 2)
  let D := D ++ List.replicate N 0
  let Q := 2 * D.sum
  let S1 := ((List.range N).foldl (s1Step N D) (Q, [])).2
  let cx := autocorrelation (r.map (·.x))
  let cy := autocorrelation (r.map (·.y))
  let cz := autocorrelation (r.map (·.z))
  let S2 := List.zipWith (· + ·) (List.zipWith (· + ·) cx cy) cz
  List.zipWith (fun a b => a - 2 * b) S1 S2

/-- The direct mode, `freud/msd.py:232-236`, for one particle. -/
def directColumn (r : List (Vec3 ℝ)) : List ℝ :=
  r.map (fun v => Vec3.dot (v - r.headD 0) (v - r.headD 0))

/-- `mode`, `freud/msd.py:159-162`. -/
inductive Mode
  | window
  | direct
deriving DecidableEq

/-- The branch on the mode, `freud/msd.py:214-236`, for one particle. -/
noncomputable def column (mode : Mode) (r : List (Vec3 ℝ)) : List ℝ :=
  match mode with
  | .window => windowColumn r
  | .direct => directColumn r

/-- The arguments of a call to `compute`: the number of frames, the positions of each particle in
the frames, and (optionally) its image in each frame. `positions` has shape
`(nFrames, particles.length, 3)` in the code. -/
structure Arg where
  nFrames : ℕ
  particles : List (List (Vec3 ℝ))
  images : Option (List (List (Vec3 ℤ)))

/-- What `_convert_array` checks, `freud/msd.py:199-203`: the arrays are rectangular and the images
have the shape of the positions. -/
def Arg.ok (a : Arg) : Bool :=
  a.particles.all (fun r => r.length = a.nFrames) &&
    (match a.images with
      | none => true
      | some im => decide (im.length = a.particles.length) && im.all (fun r => r.length = a.nFrames))

/-- `freud/msd.py:205-212`: positions are unwrapped if there are a box and images. -/
noncomputable def Arg.unwrapped (box : Option (Box ℝ)) (a : Arg) : List (List (Vec3 ℝ)) :=
  match box, a.images with
  | some b, some im =>
    List.zipWith (fun r ir => List.zipWith (fun v i => b.unwrap v i) r ir) a.particles im
  | _, _ => a.particles

/-- An element of `_particle_msd`: an array with `nFrames` rows, here given by its columns. -/
structure Batch where
  nFrames : ℕ
  cols : List (List ℝ)

/-- Data members of `MSD`, `freud/msd.py:151-162`. `called` is `_called_compute`; before the first
call the attribute does not exist, because `__init__` does not call that of the parent class. -/
structure State where
  box : Option (Box ℝ)
  mode : Mode
  batches : List Batch
  called : Option Bool

/-- The constructor, `freud/msd.py:151-162`. -/
def new (box : Option (Box ℝ)) (mode : Mode) : State := ⟨box, mode, [], none⟩

/-- `compute`, `freud/msd.py:164-238`: the new state and whether the call raised. With no frames
the FFT (or the indexing with `[0]`) raises. -/
noncomputable def compute (s : State) (a : Arg) (reset : Bool) : State × Bool :=
  let s := if reset then { s with batches := [] } else s
  let s := { s with called := some true }
  if a.ok = false then (s, true)
  else if a.nFrames = 0 then (s, true)
  else
    let ps := a.unwrapped s.box
    ({ s with batches := s.batches ++ [⟨a.nFrames, ps.map (column s.mode)⟩] }, false)

/-- What reading a property gives. -/
inductive Read (α : Type*)
  | value (a : α)
  | attributeError
  | valueError

/-- `np.concatenate(self._particle_msd, axis=1)`: raises for no arrays, and for arrays with different
numbers of rows. -/
def concatenate : List Batch → Option Batch
  | [] => none
  | b :: bs => if bs.all (fun c => c.nFrames = b.nFrames) then
      some ⟨b.nFrames, (b :: bs).flatMap (·.cols)⟩ else none

/-- `particle_msd`, `freud/msd.py:251-255`, by columns. -/
def particleMsd (s : State) : Read (List (List ℝ)) :=
  match s.called with
  | some true => match concatenate s.batches with
    | some b => .value b.cols
    | none => .valueError
  | _ => .attributeError

/-- `msd`, `freud/msd.py:245-249`: the mean of every row. With no particles this is not a number in
the code (and 0 here). -/
noncomputable def msd (s : State) : Read (List ℝ) :=
  match s.called with
  | some true => match concatenate s.batches with
    | some b => .value ((List.range b.nFrames).map (fun m =>
        (b.cols.map (fun c => c.getD m 0)).sum / (b.cols.length : ℝ)))
    | none => .valueError
  | _ => .attributeError

end MSD
end Freud
