import Verif.Spec.PairFrames

/-!
# Specification: a periodic system described by a larger cell
-/

namespace Freud.Spec
open Freud

/-- Every lattice vector of the box `b'` is one of the box `b`: `b'` holds a number of cells `b`. -/
structure CoarserLattice (b b' : Box ℝ) : Prop where
  dims : b'.is2D = b.is2D
  sub : ∀ n', AllowedShift b' n' → ∃ n, AllowedShift b n ∧ lattice b' n' = lattice b n

/-- In the box `b'` the particles `pts'` describe the same periodic system as the particles `pts` in the
box `b`, moved by `t`: particle `i` of `pts'` is a periodic image of particle `φ i` of `pts` (`point`),
and every periodic image of a particle of `pts` is there (`all`), once (`once`). -/
structure Repeated (b b' : Box ℝ) (t : Vec3 ℝ) (φ : ℕ → ℕ) (pts pts' : List (Vec3 ℝ)) : Prop where
  point : ∀ (i : ℕ) p', pts'[i]? = some p' → ∃ p, pts[φ i]? = some p ∧ IsImage b (p + t) p'
  all : ∀ (j : ℕ) p v, pts[j]? = some p → IsImage b (p + t) v →
    ∃ i p', φ i = j ∧ pts'[i]? = some p' ∧ IsImage b' v p'
  once : ∀ (i k : ℕ) p v, pts'[i]? = some p → pts'[k]? = some v → φ i = φ k → IsImage b' p v → i = k

/-- `f'` is the frame `f` in a larger cell, with the data of the particles repeated, and perhaps with
another source of neighbors and another schedule. Points and query points have the densities they had.
If self-pairs are excluded, the query points are the points. -/
structure RepeatedSystem {D : Type*} (f f' : DataFrame D) : Prop where
  lattice : CoarserLattice f.box f'.box
  excl : f'.excl = f.excl
  cutoff : f'.cutoff = f.cutoff
  inner : f'.inner = f.inner
  moved : ∃ t φ ψ, (f.excl = true → f.qpts = f.pts ∧ f'.qpts = f'.pts ∧ φ = ψ) ∧
    Repeated f.box f'.box t ψ f.pts f'.pts ∧ Repeated f.box f'.box t φ f.qpts f'.qpts ∧
    (∀ i < f'.pts.length, f'.data i = f.data (ψ i)) ∧
    ∀ i < f'.qpts.length, f'.queryData i = f.queryData (φ i)

/-- The cell of `f'` holds `m` cells of `f`. -/
structure HoldsCells (m : ℕ) {D : Type*} (f f' : DataFrame D) : Prop where
  pos : 1 ≤ m
  volume : f'.box.getVolume = m * f.box.getVolume
  points : f'.pts.length = m * f.pts.length
  queries : f'.qpts.length = m * f.qpts.length

end Freud.Spec
