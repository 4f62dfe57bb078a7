import Verif.Model.Schedule

/-!
# Grids of voxels

Model of `freud/density/SphereVoxelization.cc` and `freud/density/GaussianDensity.cc`. Both run
over the same cells around each point; they differ in what they write. Arithmetic is exact. The
array indices of `GaussianDensity` pass through `float`, which is exact for grids narrower than
`2^24`; this detour is not modelled.
-/

namespace Freud
variable {K : Type*} [Field K] [LinearOrder K] [IsStrictOrderedRing K] [FloorRing K]

set_option linter.unusedSectionVars false

namespace Voxel

/-- The values of one of the nested loop variables that are not skipped,
`freud/density/SphereVoxelization.cc:99-104` (and 108-113, 117-122),
`freud/density/GaussianDensity.cc:114-119` (and 123-128, 132-137). -/
def axisLoop (periodic : Bool) (w : ℕ) (bin cut : ℤ) : List ℤ :=
  ((List.range (2 * cut + 1).toNat).map (fun (t : ℕ) => bin - cut + (t : ℤ))).filter
    (fun i => !(!periodic && (decide (i < 0) || decide (i ≥ (w : ℤ)))))

/-- The component of the vector from the point to the center of cell `i`,
`freud/density/SphereVoxelization.cc:105-106, 114-115, 123-124`. -/
def offset (g : K) (i : ℤ) (x L : K) : K := g * (i : K) + g / 2 - x - L / 2

/-- The storage index of cell `i`, `freud/density/SphereVoxelization.cc:136-138`: `i` is converted
to a 32-bit unsigned number before the addition. -/
def store (i : ℤ) (w : ℕ) : ℕ := ((i + (w : ℤ)) % 2 ^ 32).toNat % w

/-- `m_width` in effect for a box: one layer in 2D, `freud/density/SphereVoxelization.cc:62-65`. -/
def effWidth (b : Box K) (w : Vec3 ℕ) : Vec3 ℕ := if b.is2D then { w with z := 1 } else w

/-- `grid_size_x`, `grid_size_y`, `grid_size_z`, `freud/density/SphereVoxelization.cc:76-78`. -/
def gridSize (b : Box K) (w : Vec3 ℕ) : Vec3 K :=
  ⟨b.L.x / (w.x : K), b.L.y / (w.y : K), if b.is2D then 0 else b.L.z / (w.z : K)⟩

/-- `bin_cut_x`, `bin_cut_y`, `bin_cut_z`, `freud/density/SphereVoxelization.cc:81-83`. -/
def binCut (b : Box K) (w : Vec3 ℕ) (rMax : K) : Vec3 ℤ :=
  let g := gridSize b w
  ⟨trunc (rMax / g.x), trunc (rMax / g.y), if b.is2D then 0 else trunc (rMax / g.z)⟩

/-- `bin_x`, `bin_y`, `bin_z`, `freud/density/SphereVoxelization.cc:92-95`,
`freud/density/GaussianDensity.cc:102-110`. -/
def pointBin (b : Box K) (w : Vec3 ℕ) (p : Vec3 K) : Vec3 ℤ :=
  let g := gridSize b w
  ⟨trunc ((p.x + b.L.x / 2) / g.x), trunc ((p.y + b.L.y / 2) / g.y),
    if b.is2D then 0 else trunc ((p.z + b.L.z / 2) / g.z)⟩

/-- The cells that one point reaches, in the order of the nested loops, as array indices with
the squared distance to the point, `freud/density/SphereVoxelization.cc:91-147`,
`freud/density/GaussianDensity.cc:98-161`. -/
def hits (b : Box K) (w : Vec3 ℕ) (rMax : K) (p : Vec3 K) : List (List ℕ × K) :=
  let g := gridSize b w
  let cut := binCut b w rMax
  let bin := pointBin b w p
  (axisLoop b.pz w.z bin.z cut.z).flatMap (fun k =>
    (axisLoop b.py w.y bin.y cut.y).flatMap (fun j =>
      (axisLoop b.px w.x bin.x cut.x).filterMap (fun i =>
        let delta := b.wrap ⟨offset g.x i p.x b.L.x, offset g.y j p.y b.L.y,
          offset g.z k p.z b.L.z⟩
        let rSq := Vec3.dot delta delta
        if rSq < rMax * rMax then some ([store i w.x, store j w.y, store k w.z], rSq) else none)))

end Voxel

/-- Data members of `SphereVoxelization`, `freud/density/SphereVoxelization.h`. `box` is `none`
until the first compute (`m_has_computed`). -/
structure SphereVoxelization (K : Type*) where
  width : Vec3 ℕ
  rMax : K
  box : Option (Box K)
  voxels : MArray ℕ

namespace SphereVoxelization

/-- The constructor, `freud/density/SphereVoxelization.cc:22-29`. -/
def new (width : Vec3 ℕ) (rMax : K) : Option (SphereVoxelization K) :=
  if rMax ≤ 0 then none else some ⟨width, rMax, none, ⟨[], []⟩⟩

/-- The writes of one point. -/
def mark (a : MArray ℕ) (cells : List (List ℕ × K)) : Option (MArray ℕ) :=
  cells.foldlM (fun a c => a.put? c.1 1) a

/-- `compute`, `freud/density/SphereVoxelization.cc:44-150`. `order` lists the points in the order
in which the threads process them. (Writes of different threads may interleave within a point;
they all write the value 1.) -/
def compute (s : SphereVoxelization K) (b : Box K) (points : List (Vec3 K)) (order : List ℕ) :
    Option (SphereVoxelization K) :=
  if s.box.all (fun b' => decide (b.is2D = b'.is2D)) then
    let w := Voxel.effWidth b s.width
    (order.foldlM (fun a idx => points[idx]?.bind (fun p =>
        mark a (Voxel.hits b w s.rMax p))) (MArray.mk' [w.x, w.y, w.z])).map
      (fun a => { s with width := w, box := some b, voxels := a })
  else none

end SphereVoxelization

/-- Data members of `GaussianDensity`, `freud/density/GaussianDensity.h`. -/
structure GaussianDensity (K : Type*) where
  width : Vec3 ℕ
  rMax : K
  box : Option (Box K)
  density : MArray K

namespace GaussianDensity

/-- The constructor, `freud/density/GaussianDensity.cc:24-31`; `sigma` enters through the function
`gauss` below. -/
def new (width : Vec3 ℕ) (rMax : K) : Option (GaussianDensity K) :=
  if rMax ≤ 0 then none else some ⟨width, rMax, none, ⟨[], []⟩⟩

/-- The contributions of the point number `idx`: pairs of a position in the array and a summand,
`freud/density/GaussianDensity.cc:88-161`. `gauss dimensions rSq` stands for
`normalization * exp(-r_sq / (2 sigma^2))` where the normalization depends on the dimension. A
missing value or point is not read in the code (`values` has one entry per point,
`freud/density.py:255-258`). -/
def contributions (gauss : ℕ → K → K) (b : Box K) (w : Vec3 ℕ) (rMax : K) (points : List (Vec3 K))
    (values : Option (List K)) (idx : ℕ) : List (ℕ × K) :=
  let value := match values with
    | none => 1
    | some v => v.getD idx 0
  (Voxel.hits b w rMax (points.getD idx ⟨0, 0, 0⟩)).map (fun c =>
    (MArray.linIndex [w.x, w.y, w.z] c.1, value * gauss (if b.is2D then 2 else 3) c.2))

/-- `compute`, `freud/density/GaussianDensity.cc:46-170`: a parallel loop over points on
thread-local arrays and a reduction. `ev` is the execution of the loop, `order` the order of the
reduction. -/
def compute (gauss : ℕ → K → K) (s : GaussianDensity K) (b : Box K) (points : List (Vec3 K))
    (values : Option (List K)) (ev : List (ℕ × ℕ)) (order : List ℕ) :
    Option (GaussianDensity K) :=
  if s.box.all (fun b' => decide (b.is2D = b'.is2D)) then
    let w := Voxel.effWidth b s.width
    let shape := [w.x, w.y, w.z]
    ((⟨MArray.mk' shape, []⟩ : TLS (MArray K)).parallelFor
      (fun i a => addCells (contributions gauss b w s.rMax points values i) a) ev).bind (fun t =>
        (storageReduceInto t order (MArray.mk' shape)).map (fun a =>
          { s with width := w, box := some b, density := a }))
  else none

end GaussianDensity
end Freud
