import Verif.Model.Rounding
import Verif.Model.BallQuery

/-!
# The ball query in floating-point arithmetic

`freud/locality/AABBQuery.cc`, `AABB.h`, `AABBTree.h` and `updateImageVectors`, with rounding as in
`Verif.Model.Rounding`. Minima, maxima and comparisons are exact in floating-point arithmetic, so the
boxes of the tree are those of the exact model; the choice of a side and the overlap test round.
-/

namespace Freud
namespace Fl

/-- `AABB::getPosition`, `freud/locality/AABB.h:144-159`. -/
def position (p : ℕ) (a : AABB ℚ) : Vec3 ℚ :=
  ⟨mul p (1 / 2) (add p a.lower.x a.upper.x), mul p (1 / 2) (add p a.lower.y a.upper.y),
    mul p (1 / 2) (add p a.lower.z a.upper.z)⟩

/-- Which side a box goes to, `freud/locality/AABBTree.h:437-507`. -/
def onLeft (p : ℕ) (my a : AABB ℚ) : Bool :=
  let r := subV p my.upper my.lower
  if r.x > r.y ∧ r.x > r.z then decide ((position p a).x < (position p my).x)
  else if r.y > r.z then decide ((position p a).y < (position p my).y)
  else decide ((position p a).z < (position p my).z)

/-- The overlap of a box and a sphere, `freud/locality/AABB.h:299-320`; the SSE version adds the squares
in the same order, `(x² + y²) + (z² + 0)`. -/
def overlapSphere (p : ℕ) (c : Vec3 ℚ) (r : ℚ) (a : AABB ℚ) : Bool :=
  let dr : Vec3 ℚ := ⟨sub p (min (max c.x a.lower.x) a.upper.x) c.x,
    sub p (min (max c.y a.lower.y) a.upper.y) c.y, sub p (min (max c.z a.lower.z) a.upper.z) c.z⟩
  decide (dot p dr dr < mul p r r)

/-- `float(i) * latt_a + float(j) * latt_b + float(k) * latt_c`,
`freud/locality/NeighborQuery.h:528-534, 556`. -/
def imageVector (p : ℕ) (b : Box ℚ) (n : Vec3 ℤ) : Vec3 ℚ :=
  let scaled (c : ℤ) (a : Vec3 ℚ) : Vec3 ℚ := ⟨mul p c a.x, mul p c a.y, mul p c a.z⟩
  let c : Vec3 ℚ := if b.is2D then 0 else ⟨mul p b.L.z b.xz, mul p b.L.z b.yz, b.L.z⟩
  addV p (addV p (scaled n.x ⟨b.L.x, 0, 0⟩) (scaled n.y ⟨mul p b.L.y b.xy, b.L.y, 0⟩)) (scaled n.z c)

/-- The steps of the images in their order, `freud/locality/NeighborQuery.h:512-562`; the first image
vector is zero (line 537). The check of `r_max` is not repeated here. -/
def imageSteps (b : Box ℚ) : List (Vec3 ℤ) :=
  0 :: (Freud.imageSteps.filter (useImage b)).take (numImages b - 1)

/-- The image vectors, `freud/locality/NeighborQuery.h:537, 556`. -/
def imageOfStep (p : ℕ) (b : Box ℚ) (n : Vec3 ℤ) : Vec3 ℚ := if n = 0 then 0 else imageVector p b n

/-- `AABBQuery::querySingle` in ball mode for the query point `q` with number `qi`, run to its end
(`freud/locality/AABBQuery.cc:77-149`): the image steps and point numbers of the bonds, in the order in
which they are found. -/
def ballQuery (p : ℕ) (b : Box ℚ) (pts : List (Vec3 ℚ)) (q : Vec3 ℚ) (qi : ℕ) (rMax rMin : ℚ)
    (excl : Bool) : Option (List (Vec3 ℤ × ℕ)) :=
  (AABBTree.buildTreeBy (onLeft p) (pts.map (flatten b))).map fun nodes =>
    (imageSteps b).flatMap fun n =>
      let im := imageOfStep p b n
      ((AABBTree.traverseBy (overlapSphere p (addV p (flatten b q) im) rMax) nodes 0).filter fun j =>
        !(excl && decide (qi = j)) &&
          inBall p rMax rMin (flatten b q) im (flatten b (pts.getD j 0))).map fun j => (n, j)

end Fl
end Freud
