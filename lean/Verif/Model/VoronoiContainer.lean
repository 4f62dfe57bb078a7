import Verif.Model.Box
import Mathlib.Data.Real.Basic

/-!
# The container given to voro++

Model of the first part of `Voronoi::compute` in `freud/locality/Voronoi.cc`. The numbers of blocks
(lines 48-53) only steer how voro++ searches and are left out.
-/

namespace Freud
namespace Voronoi

/-- The arguments of `voro::container_periodic` that describe the periodic cell,
`freud/locality/Voronoi.cc:55`: the vectors `(bx, 0, 0)`, `(bxy, by, 0)` and `(bxz, byz, bz)`. -/
structure Container where
  bx : ℝ
  bxy : ℝ
  by' : ℝ
  bxz : ℝ
  byz : ℝ
  bz : ℝ

/-- `freud/locality/Voronoi.cc:39-41, 55`: the lattice vectors of the box, of which the third is of
length 1 along z in 2D. `none` is an exception of `getLatticeVector`. -/
noncomputable def container (b : Box ℝ) : Option Container :=
  (b.getLatticeVector 0).bind fun v1 =>
    (b.getLatticeVector 1).bind fun v2 =>
      (if b.is2D then some (⟨0, 0, 1⟩ : Vec3 ℝ) else b.getLatticeVector 2).map fun v3 =>
        ⟨v1.x, v2.x, v2.y, v3.x, v3.y, v3.z⟩

end Voronoi
end Freud
