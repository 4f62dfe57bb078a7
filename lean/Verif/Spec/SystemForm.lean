import Verif.Model.SystemForm
import Verif.Spec.Lattice
import Verif.Spec.Sources

/-!
# What the forms of a system mean

The simulation cell and the particle positions that each form of a system describes, by the
documentation of `Box.from_box` (`freud/box.py:760-781`) and of the libraries the forms come from.
-/

namespace Freud.Spec

/-- A simulation cell: its three vectors and whether it is flat (two-dimensional). A flat cell has no
third vector; it is 0. -/
structure PeriodCell where
  v1 : Vec3 ℝ
  v2 : Vec3 ℝ
  v3 : Vec3 ℝ
  flat : Bool

/-- The cell with lengths `Lx, Ly, Lz` and tilt factors `xy, xz, yz`. In a flat cell the numbers that
concern z have no meaning. -/
noncomputable def PeriodCell.ofNumbers (Lx Ly Lz xy xz yz : ℝ) (flat : Bool) : PeriodCell :=
  ⟨⟨Lx, 0, 0⟩, ⟨xy * Ly, Ly, 0⟩, if flat then ⟨0, 0, 0⟩ else ⟨xz * Lz, yz * Lz, Lz⟩, flat⟩

/-- The cell whose periodic images a box stands for. -/
noncomputable def cellOf (b : Box ℝ) : PeriodCell := ⟨a1 b, a2 b, a3 b, b.is2D⟩

/-- The cell that a box-like value describes. Numbers that are not given are 0; a cell with `Lz = 0` is
flat unless `dimensions` says something else. -/
def BoxLike.Describes : BoxLike → PeriodCell → Prop
  | .box b, c => Spec.Valid b ∧ c = cellOf b
  | .matrix m, c => c = ⟨⟨m 0 0, m 1 0, m 2 0⟩, ⟨m 0 1, m 1 1, m 2 1⟩, ⟨m 0 2, m 1 2, m 2 2⟩,
      decide (m 2 2 = 0)⟩
  | .attributes n, c => ∃ Lx Ly, n.Lx = some Lx ∧ n.Ly = some Ly ∧
      c = .ofNumbers Lx Ly (n.Lz.getD 0) (n.xy.getD 0) (n.xz.getD 0) (n.yz.getD 0)
        (decide (n.dimensions = some 2 ∨ n.dimensions = none ∧ n.Lz.getD 0 = 0))
  | .dict n, c => ∃ Lx Ly, n.Lx = some Lx ∧ n.Ly = some Ly ∧
      c = .ofNumbers Lx Ly (n.Lz.getD 0) (n.xy.getD 0) (n.xz.getD 0) (n.yz.getD 0)
        (decide (n.dimensions = some 2 ∨ n.dimensions = none ∧ n.Lz.getD 0 = 0))
  | .list l, c =>
      (∃ Lx Ly, l = [Lx, Ly] ∧ c = .ofNumbers Lx Ly 0 0 0 0 true) ∨
      (∃ Lx Ly Lz, l = [Lx, Ly, Lz] ∧ c = .ofNumbers Lx Ly Lz 0 0 0 (decide (Lz = 0))) ∨
      (∃ Lx Ly Lz xy xz yz, l = [Lx, Ly, Lz, xy, xz, yz] ∧
        c = .ofNumbers Lx Ly Lz xy xz yz (decide (Lz = 0)))

/-- The points in an array: an array of `n` rows with three entries each, row `i` being point `i`. -/
def Arr.Holds (a : Arr) (pts : List (Vec3 ℝ)) : Prop :=
  a.shape = [pts.length, 3] ∧ a.data = pts.flatMap fun p => [p.x, p.y, p.z]

/-- The cell and the positions that a form of a system describes. The vectors are the rows of
`triclinic_dimensions` of MDAnalysis and the columns of `cell.matrix` of OVITO. The box of a snapshot
is the list of the lengths and tilt factors. -/
def SystemForm.Describes : SystemForm → PeriodCell → List (Vec3 ℝ) → Prop
  | .query b p, c, pts => Spec.Valid b ∧ c = cellOf b ∧ p = pts
  | .mdanalysis m a, c, pts =>
      c = ⟨⟨m 0 0, m 0 1, m 0 2⟩, ⟨m 1 0, m 1 1, m 1 2⟩, ⟨m 2 0, m 2 1, m 2 2⟩,
        decide (m 2 2 = 0)⟩ ∧ Arr.Holds a pts
  | .snapshot l d a, c, pts => (∃ Lx Ly Lz xy xz yz, l = [Lx, Ly, Lz, xy, xz, yz] ∧
      (d = 2 ∨ d = 3 ∧ Lz ≠ 0) ∧ c = .ofNumbers Lx Ly Lz xy xz yz (decide (d = 2))) ∧
      Arr.Holds a pts
  | .garnett x a, c, pts => BoxLike.Describes x c ∧ Arr.Holds a pts
  | .ovito m flat a, c, pts =>
      c = ⟨⟨m 0 0, m 1 0, m 2 0⟩, ⟨m 0 1, m 1 1, m 2 1⟩,
        if flat then ⟨0, 0, 0⟩ else ⟨m 0 2, m 1 2, m 2 2⟩, flat⟩ ∧ Arr.Holds a pts
  | .state n a, c, pts => (∃ Lx Ly Lz xy xz yz d, n = ⟨some Lx, some Ly, some Lz, some xy, some xz,
      some yz, some d⟩ ∧ (d = 2 ∨ d = 3) ∧ c = .ofNumbers Lx Ly Lz xy xz yz (decide (d = 2))) ∧
      Arr.Holds a pts
  | .object x a, c, pts => BoxLike.Describes x c ∧ Arr.Holds a pts
  | .pair x a, c, pts => BoxLike.Describes x c ∧ Arr.Holds a pts

/-- A cell in the orientation of a `freud.box.Box`: the first vector along x, the second in the
upper half of the xy plane, the third above it. -/
structure Standard (c : PeriodCell) : Prop where
  x : 0 < c.v1.x ∧ c.v1.y = 0 ∧ c.v1.z = 0
  y : 0 < c.v2.y ∧ c.v2.z = 0
  z : if c.flat then c.v3 = ⟨0, 0, 0⟩ else 0 < c.v3.z

/-- The form contains a `freud.box.Box`, whose periodicity is not for `from_system` to decide. -/
def SystemForm.hasBox : SystemForm → Bool
  | .query _ _ => true
  | .garnett (.box _) _ => true
  | .object (.box _) _ => true
  | .pair (.box _) _ => true
  | _ => false

end Freud.Spec
