import Verif.Spec.PairFrames
import Verif.Model.Diffraction

/-!
# Specification: two descriptions of the same orientations
-/

namespace Freud.Spec
open Freud

/-- Two quaternions of the same rotation: all four components may have the opposite sign. -/
def SameRotation (q q' : Quat ℝ) : Prop :=
  q' = q ∨ q' = ⟨-q.s, ⟨-q.v.x, -q.v.y, -q.v.z⟩⟩

/-- Two angles of the same direction in the plane: they differ by full turns. -/
def SameAngle (a a' : ℝ) : Prop := ∃ k : ℤ, a' = a + k * (2 * Real.pi)

/-- `f'` is the frame `f` with other descriptions of the orientations, perhaps with another source of
neighbors and another schedule. -/
structure Redescribed {D : Type*} (R : D → D → Prop) (f f' : DataFrame D) : Prop where
  box : f'.box = f.box
  pts : f'.pts = f.pts
  qpts : f'.qpts = f.qpts
  excl : f'.excl = f.excl
  cutoff : f'.cutoff = f.cutoff
  inner : f'.inner = f.inner
  data : ∀ i < f.pts.length, R (f.data i) (f'.data i)
  queryData : ∀ i < f.qpts.length, R (f.queryData i) (f'.queryData i)

/-- Two calls of a `DiffractionPattern` object that differ in the sign of the quaternion of the view. -/
inductive SameView : Diffraction.Op → Diffraction.Op → Prop
  | same (o : Diffraction.Op) : SameView o o
  | view (a : Diffraction.Args) (reset : Bool) {q q' : Quat ℝ} (h : SameRotation q q') :
    SameView (.compute { a with view := some q } reset) (.compute { a with view := some q' } reset)

end Freud.Spec
