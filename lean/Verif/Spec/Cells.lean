import Verif.Spec.PairFrames

/-!
# Specification: the same system in another unit cell, turned
-/

namespace Freud.Spec
open Freud

/-- A rotation, or a rotation with a reflection: scalar products are kept. -/
def Rigid (Q : Vec3 ℝ → Vec3 ℝ) : Prop := ∀ u v, Vec3.dot (Q u) (Q v) = Vec3.dot u v

/-- The lattice of `b'` is the lattice of `b` turned by `Q`. The boxes may be different cells of it. -/
structure SameLattice (Q : Vec3 ℝ → Vec3 ℝ) (b b' : Box ℝ) : Prop where
  dims : b'.is2D = b.is2D
  sub : ∀ n, AllowedShift b n → ∃ n', AllowedShift b' n' ∧ lattice b' n' = Q (lattice b n)
  sup : ∀ n', AllowedShift b' n' → ∃ n, AllowedShift b n ∧ lattice b' n' = Q (lattice b n)

/-- `pts'` describes the particles `pts` turned by `Q`, with other numbers, another origin and other
periodic images: particle `i` of `pts'` is particle `σ i` of `pts`, turned, moved by `t` and then by a
lattice vector of the box `b'`, which may be another one for each particle. -/
structure Turned (b' : Box ℝ) (Q : Vec3 ℝ → Vec3 ℝ) (t : Vec3 ℝ) (σ : Equiv.Perm ℕ)
    (pts pts' : List (Vec3 ℝ)) : Prop where
  length : pts'.length = pts.length
  point : ∀ i p', pts'[i]? = some p' → ∃ p, pts[σ i]? = some p ∧ IsImage b' (Q p + t) p'

/-- The bond with its vector turned. -/
def turnedBond (Q : Vec3 ℝ → Vec3 ℝ) (bd : Bond ℝ) : Bond ℝ := ⟨bd.q, bd.p, bd.dist, bd.weight, Q bd.vec⟩

/-- `f'` is the frame `f` in another cell, turned by `Q`, with other numbers, another origin, other
images, and perhaps another source of neighbors and another schedule. The data of the particles are
changed by `act`. -/
structure TurnedSystem {D : Type*} (act : D → D) (Q : Vec3 ℝ → Vec3 ℝ) (f f' : DataFrame D) : Prop where
  lattice : SameLattice Q f.box f'.box
  excl : f'.excl = f.excl
  cutoff : f'.cutoff = f.cutoff
  inner : f'.inner = f.inner
  moved : ∃ t σ τ, (f.excl = true → σ = τ) ∧ Turned f'.box Q t τ f.pts f'.pts ∧
    Turned f'.box Q t σ f.qpts f'.qpts ∧ (∀ i < f.pts.length, f'.data i = act (f.data (τ i))) ∧
    ∀ i < f.qpts.length, f'.queryData i = act (f.queryData (σ i))

/-- The rotation of the plane by the angle `a`. -/
noncomputable def planeTurn (a : ℝ) (v : Vec3 ℝ) : Vec3 ℝ :=
  ⟨Real.cos a * v.x - Real.sin a * v.y, Real.sin a * v.x + Real.cos a * v.y, v.z⟩

/-- `f'` is the two-dimensional frame `f` in another cell, turned by some angle, with the orientations. -/
def TurnedPlane (f f' : DataFrame ℝ) : Prop := ∃ a, TurnedSystem (· + a) (planeTurn a) f f'

/-- `f'` is the frame `f` in another cell, turned by some rotation, with the orientations. -/
def TurnedSpace (f f' : DataFrame (Quat ℝ)) : Prop :=
  ∃ r, Quat.norm2 r = 1 ∧ TurnedSystem (Quat.mul r) (Quat.rotate r) f f'

/-- `f'` is the frame `f` in another cell, turned or reflected; the values keep to the particles. -/
def TurnedValues {D : Type*} (f f' : DataFrame D) : Prop := ∃ Q, Rigid Q ∧ TurnedSystem id Q f f'

end Freud.Spec
