import Verif.Model.BoxOps
import Verif.Model.SystemForm

/-!
# Comparing boxes and writing them out

Model of `Box.__eq__`, `Box.to_dict`, `Box.to_box_params`, `Box.__repr__`, `Box.cube` and `Box.square` in
`freud/box.py`.
-/

namespace Freud

/-- `Box.__eq__` with another box, `freud/box.py:156-170`. -/
def pyEq {K : Type*} [DecidableEq K] (b c : Box K) : Bool :=
  decide (b.L.x = c.L.x) && decide (b.L.y = c.L.y) && decide (b.L.z = c.L.z) && decide (b.xy = c.xy) &&
    decide (b.xz = c.xz) && decide (b.yz = c.yz) && decide (b.is2D = c.is2D) && decide (b.px = c.px) &&
    decide (b.py = c.py) && decide (b.pz = c.pz)

/-- `Box.to_dict`, `freud/box.py:605-626`. -/
def toDict (b : Box ℝ) : Named where
  Lx := some b.L.x
  Ly := some b.L.y
  Lz := some b.L.z
  xy := some b.xy
  xz := some b.xz
  yz := some b.yz
  dimensions := some (if b.is2D then 2 else 3)

/-- `Box.to_box_params`, `freud/box.py:650-666`. -/
def toBoxParams (b : Box ℝ) : List ℝ := [b.L.x, b.L.y, b.L.z, b.xy, b.xz, b.yz]

/-- The call that `Box.__repr__` writes, `freud/box.py:689-695`, executed. (The printing of numbers with fewer digits
is not modelled.) -/
noncomputable def evalRepr (b : Box ℝ) : Option (Box ℝ) := pyBox b.L.x b.L.y b.L.z b.xy b.xz b.yz b.is2D

/-- The matrix that `Box.to_matrix` returns, by row and column, `freud/box.py:628-648`. -/
def matrixOf (b : Box ℝ) : CellMat :=
  ![![b.L.x, b.xy * b.L.y, b.xz * b.L.z], ![0, b.L.y, b.yz * b.L.z], ![0, 0, b.L.z]]

/-- `Box.cube`, `freud/box.py:884-899`. -/
noncomputable def Box.cube (L : ℝ) : Option (Box ℝ) := pyBox L L L 0 0 0 false

/-- `Box.square`, `freud/box.py:901-916`. -/
noncomputable def Box.square (L : ℝ) : Option (Box ℝ) := pyBox L L 0 0 0 0 true

end Freud
