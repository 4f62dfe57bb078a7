import Verif.Model.Voronoi
import Verif.Spec.Lattice
import Verif.Props.NeighborList

/-!
# Specification of Voronoi cells

A cell as a geometric object, how voro++ writes it into arrays, and what makes it a cell of the
periodic Voronoi diagram as far as freud relies on it.
-/

namespace Freud.Spec
open Freud Voronoi

/-- A ridge between a particle and an image of another (or of itself): the numbers of its vertices,
the position of the image, area, outward normal. -/
structure Ridge where
  neighbor : ℕ
  image : Vec3 ℝ
  area : ℝ
  normal : Vec3 ℝ
  verts : List ℕ

/-- A cell around the particle `pid` at `pos`. -/
structure Cell where
  pid : ℕ
  pos : Vec3 ℝ
  verts : List (Vec3 ℝ)
  ridges : List Ridge
  volume : ℝ

/-- The components of a vector. -/
def comps (v : Vec3 ℝ) : List ℝ := [v.x, v.y, v.z]

/-- The arrays in which voro++ returns a cell: `face_vertices` has for each face the number of its
vertices followed by the vertices. -/
def raw (c : Cell) : RawCell where
  pid := c.pid
  pos := c.pos
  faceAreas := c.ridges.map (·.area)
  faceVertices := c.ridges.flatMap (fun r => r.verts.length :: r.verts)
  neighbors := c.ridges.map (·.neighbor)
  normals := c.ridges.flatMap (fun r => comps r.normal)
  vertices := c.verts.flatMap comps
  volume := c.volume

/-- A ridge lies on the plane half way between the particle and the image, which differ: its normal is the unit
vector towards the image, and each of its vertices (there are some) is as far from the particle as
from the image. -/
structure RidgeOK (c : Cell) (r : Ridge) : Prop where
  verts : r.verts ≠ []
  apart : r.image ≠ c.pos
  unit : Vec3.dot r.normal r.normal = 1
  towards : r.image - c.pos = Vec3.smul (Vec3.norm (r.image - c.pos)) r.normal
  bisects : ∀ i ∈ r.verts, ∃ v, c.verts[i]? = some v ∧
    Vec3.norm (v - c.pos) = Vec3.norm (v - r.image)

/-- In two dimensions voro++ works with a slab of height 1, whose cells also have a top and a bottom:
those ridges are not between particles. -/
def Horizontal (is2D : Bool) (r : Ridge) : Prop := is2D = true ∧ 1 / 2 < |r.normal.z|

/-- `w` is `v` moved by a vector of the lattice of the box. -/
def LatticeImage (b : Box ℝ) (v w : Vec3 ℝ) : Prop := ∃ n : Vec3 ℤ, w = v + lattice b n

/-- A cell of the diagram of `points` in the box `b`. -/
structure CellOK (b : Box ℝ) (points : List (Vec3 ℝ)) (c : Cell) : Prop where
  pos : ∃ p, points[c.pid]? = some p ∧ LatticeImage b p c.pos
  ridges : ∀ r ∈ c.ridges, RidgeOK c r
  images : ∀ r ∈ c.ridges, ¬ Horizontal b.is2D r → ∃ p, points[r.neighbor]? = some p ∧
    LatticeImage b p r.image

/-- One cell for each point. -/
structure DiagramOK (b : Box ℝ) (points : List (Vec3 ℝ)) (cells : List Cell) : Prop where
  each : ∀ c ∈ cells, CellOK b points c
  all : (cells.map (·.pid)).Perm (List.range points.length)
  small : points.length ≤ 0xffffffff

open Classical in
/-- The bonds of a cell: for each ridge between particles, the vector to the image of the neighbor,
weighted with the area of the ridge. -/
noncomputable def ridgeBonds (is2D : Bool) (c : Cell) : List (Bond ℝ) :=
  (c.ridges.filter (fun r => decide (¬ Horizontal is2D r))).map (fun r =>
    ⟨c.pid, r.neighbor, Vec3.norm (r.image - c.pos), r.area, r.image - c.pos⟩)

/-- What sorting vertices by angle and bonds by indices and weight means. -/
structure SortsOK (sortV : List (Vec3 ℝ) → List (Vec3 ℝ)) (sortB : List (Bond ℝ) → List (Bond ℝ)) :
    Prop where
  verts : ∀ l, Bond.SortedBy angleLess l (sortV l)
  bonds : ∀ l, Bond.SortedBy lessRefWeight l (sortB l)

end Freud.Spec
