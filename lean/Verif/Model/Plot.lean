import Verif.Model.Box
import Mathlib.Algebra.Order.Floor.Ring
import Mathlib.Data.Sym.Sym2
import Mathlib.Data.List.Sort

/-! # The plots (`freud/plot.py`)

What a plot consists of: the lines, the points, the limits of the axes, the bars, the pixels of an image.
matplotlib itself is outside the model: an image is given by its rows, its columns, its entries and the
rectangle it is stretched over, and `Image.shown` is matplotlib's documented rule for `imshow` with its
default `origin='upper'`. -/

set_option linter.unusedSectionVars false

namespace Freud.Plot

variable {K : Type*} [Field K] [LinearOrder K] [IsStrictOrderedRing K] [FloorRing K]

/-! ### Boxes and systems -/

/-- The eight corners in fractional coordinates, in the order of freud/plot.py:122-133. -/
def corners3 : List (ℕ × ℕ × ℕ) :=
  [(0, 0, 0), (0, 0, 1), (0, 1, 0), (0, 1, 1), (1, 0, 0), (1, 0, 1), (1, 1, 0), (1, 1, 1)]

/-- `corners[[...]]` of the six paths, freud/plot.py:136-143. -/
def paths3 : List (List ℕ) := [[0, 1, 3, 2, 0], [4, 5, 7, 6, 4], [0, 4], [1, 5], [2, 6], [3, 7]]

/-- The five corners of the closed polygon of a 2D box, freud/plot.py:109-111, the same in
freud/plot.py:487-489. -/
def corners2 : List (ℕ × ℕ × ℕ) := [(0, 0, 0), (0, 1, 0), (1, 1, 0), (1, 0, 0), (0, 0, 0)]

/-- `box.make_absolute(corner + image)`, freud/plot.py:113-114 and 134-135. -/
def place (b : Box K) (image : Vec3 ℤ) (c : ℕ × ℕ × ℕ) : Vec3 K :=
  b.makeAbsolute ⟨c.1 + image.x, c.2.1 + image.y, c.2.2 + image.z⟩

/-- A path with the color it is drawn in. -/
structure Line (K : Type*) where
  path : List (Vec3 K)
  color : String

/-- `kwargs.pop("color", "k")` in the loop over the paths, freud/plot.py:144-146: the first pass takes the
color out of `kwargs`, the following passes find none. -/
def drawPaths : Option String → List (List (Vec3 K)) → List (Line K)
  | _, [] => []
  | color, p :: ps => ⟨p, color.getD "k"⟩ :: drawPaths none ps

/-- The lines `box_plot` draws, freud/plot.py:107-146. The points of the 2D polygon lose their `z`. -/
def boxLines (b : Box K) (image : Vec3 ℤ) (color : Option String) : List (Line K) :=
  if b.is2D then
    drawPaths color [(corners2.map (place b image)).map fun v => ⟨v.x, v.y, 0⟩]
  else
    drawPaths color (paths3.map fun p => p.map fun i => place b image (corners3.getD i (0, 0, 0)))

/-- `_set_3d_axes_equal`, freud/plot.py:66-70: the new limits of the three axes. -/
def axesEqual (l : Vec3 (K × K)) : Vec3 (K × K) :=
  let radius := 1 / 2 * max (max (l.x.2 - l.x.1) (l.y.2 - l.y.1)) (l.z.2 - l.z.1)
  let around := fun p : K × K => ((p.1 + p.2) / 2 - radius, (p.1 + p.2) / 2 + radius)
  ⟨around l.x, around l.y, around l.z⟩

/-- The limits of the axes of a 3D `box_plot`, freud/plot.py:150-155: those of the first and of the last
corner. -/
def boxLimits (b : Box K) (image : Vec3 ℤ) : Vec3 (K × K) :=
  let c0 := place b image (corners3.getD 0 (0, 0, 0))
  let c7 := place b image (corners3.getD 7 (0, 0, 0))
  axesEqual ⟨(c0.x, c7.x), (c0.y, c7.y), (c0.z, c7.z)⟩

/-- The limits of the axes of a 3D `system_plot`, freud/plot.py:197-205. `none`: `np.min` of an empty array
raises. -/
def systemLimits (b : Box K) (points : List (Vec3 K)) : Option (Vec3 (K × K)) :=
  match points with
  | [] => none
  | p :: ps =>
    let lo := b.makeAbsolute ⟨0, 0, 0⟩
    let hi := b.makeAbsolute ⟨1, 1, 1⟩
    let range := fun f : Vec3 K → K =>
      (min (f lo) ((ps.map f).foldl min (f p)), max (f hi) ((ps.map f).foldl max (f p)))
    some (axesEqual ⟨range (·.x), range (·.y), range (·.z)⟩)

/-! ### Bars -/

/-- `np.unique(values, return_counts=True)`: the distinct values in increasing order, each with its
number of occurrences. -/
def unique (values : List ℕ) : List (ℕ × ℕ) :=
  (values.dedup.mergeSort fun a b => decide (a ≤ b)).map fun v => (v, values.count v)

/-- `clusters_plot`, freud/plot.py:254-258: the pairs of a key and its frequency, sorted by decreasing
frequency with Python's stable `sorted`, and cut. -/
def clusterBars (entries : List (ℕ × ℕ)) (num : ℕ) : List (ℕ × ℕ) :=
  (entries.mergeSort fun a b => decide (b.2 ≤ a.2)).take num

/-- `Cluster.plot` and `EnvironmentCluster.plot`, freud/cluster.py:113-117 and
freud/environment.py:836-843. -/
def clusterPlot (clusterIdx : List ℕ) : List (ℕ × ℕ) := clusterBars (unique clusterIdx) 10

/-! ### Images -/

/-- What is passed to `imshow`: an array with its shape and the rectangle `extent`. -/
structure Image (K α : Type*) where
  rows : ℕ
  cols : ℕ
  entry : ℕ → ℕ → α
  left : K
  right : K
  bottom : K
  top : K

/-- matplotlib's `imshow` (not part of freud): the rectangle is cut into `rows` by `cols` equal pixels; the
first index counts the rows from the top, the second the columns from the left. -/
def Image.shown {α : Type*} (im : Image K α) (x y : K) : Option α :=
  if im.left < x ∧ x < im.right ∧ im.bottom < y ∧ y < im.top then
    some (im.entry ⌊(im.top - y) / (im.top - im.bottom) * im.rows⌋.toNat
      ⌊(x - im.left) / (im.right - im.left) * im.cols⌋.toNat)
  else none

/-- `np.flipud` of an array with `rows` rows. -/
def flipud {α : Type*} (rows : ℕ) (a : ℕ → ℕ → α) : ℕ → ℕ → α := fun r c => a (rows - 1 - r) c

/-- `density_plot`, freud/plot.py:398-410, for a density of shape `(nx, ny)`: `np.flipud(density.T)`. -/
def densityImage {α : Type*} (nx ny : ℕ) (density : ℕ → ℕ → α) (b : Box K) : Image K α :=
  ⟨ny, nx, flipud ny fun r c => density c r, -b.L.x / 2, b.L.x / 2, -b.L.y / 2, b.L.y / 2⟩

/-- `pmft_plot`, freud/plot.py:348-370, for a PMFT of shape `(nx, ny)` with bounds `xlims` and `ylims`:
`np.flipud(pmft_arr)`. Infinities, replaced by NaN so that they stay blank, are not treated apart. -/
def pmftImage {α : Type*} (nx ny : ℕ) (pmft : ℕ → ℕ → α) (xlims ylims : K × K) : Image K α :=
  ⟨nx, ny, flipud nx pmft, xlims.1, xlims.2, ylims.1, ylims.2⟩

/-- `np.min` of an array with the entries `c` and `cs`. -/
def least (c : K) (cs : List K) : K := cs.foldl min c

/-- `np.max` of such an array. -/
def greatest (c : K) (cs : List K) : K := cs.foldl max c

/-- `np.clip`. -/
def clip (lo hi v : K) : K := min (max v lo) hi

/-- `diffraction_plot`, freud/plot.py:538-557, for a pattern of `n` by `n` pixels, `n > 0`. `vmin` and
`vmax` are the limits given by the user, freud/diffraction.py:891-897. -/
def diffractionImage (n : ℕ) (diffraction : ℕ → ℕ → K) (kValues : ℕ → K) (numPoints : ℕ)
    (vmin vmax : Option K) : Image K K :=
  let kmin := least (kValues 0) ((List.range n).map kValues)
  let kmax := greatest (kValues 0) ((List.range n).map kValues)
  ⟨n, n, fun r c => clip (vmin.getD (4 / 1000000 * numPoints)) (vmax.getD (7 / 10 * numPoints))
    (diffraction r c), kmin, kmax, kmin, kmax⟩

/-! ### Colors of a Voronoi diagram -/

/-- matplotlib (not part of freud): the color with which a color map of `num` colors and the limits
`lo`, `hi` shows the value `v`, and likewise the color the color bar has at `v`. -/
def colorOf (num : ℕ) (lo hi v : K) : ℤ := ⌊(v - lo) / (hi - lo) * num⌋

/-- `voronoi_plot`, freud/plot.py:449-454 and 479-483: the number of colors, the limits of the color map and
the values of the cells. `bounds[-1]` of `np.arange(lo, hi + 1)` is the greatest `lo + m` below `hi + 1`.
`colors` are the numbers of sides, with `num` colors, or the areas. -/
structure CellColors (K : Type*) where
  values : List K
  lo : K
  hi : K

/-- freud/plot.py:479-483. `none`: no cells, so that `np.min` raises. -/
def cellColors (colors : List K) : Option (CellColors K) :=
  match colors with
  | [] => none
  | c :: cs =>
    let lo := least c cs
    let last := lo + ((⌈greatest c cs + 1 - lo⌉ - 1 : ℤ) : K)
    some ⟨(c :: cs).map (· - 1 / 2), lo - 1 / 2, last + 1 / 2⟩

/-- `np.ptp(colors) + 1`, freud/plot.py:450-451. -/
def numColors (c : ℕ) (cs : List ℕ) : ℕ := cs.foldl max c - cs.foldl min c + 1

end Freud.Plot
