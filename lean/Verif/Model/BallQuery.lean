import Verif.Model.AABB
import Verif.Model.NeighborList

/-!
# Neighbor queries with the tree of bounding boxes

Model of `freud/locality/AABBQuery.{h,cc}` and of the constructor, `query` and
`updateImageVectors` in `freud/locality/NeighborQuery.h`. Exceptions are `none`.
-/

namespace Freud

/-- In 2D the third component is cleared before use, `freud/locality/AABBQuery.cc:59-62, 85-88,
121-124`. -/
def flatten {K : Type*} [Zero K] (b : Box K) (p : Vec3 K) : Vec3 K := if b.is2D then { p with z := 0 } else p

/-- The number of images, `freud/locality/NeighborQuery.h:513-520`. -/
def numImages {K : Type*} (b : Box K) : ℕ :=
  3 ^ ((if b.px then 1 else 0) + (if b.py then 1 else 0) +
    (if b.is2D then 0 else 1) * (if b.pz then 1 else 0))

/-- The cutoff check, `freud/locality/NeighborQuery.h:502-510`. -/
noncomputable def rMaxTooLarge (b : Box ℝ) (rMax : ℝ) : Bool :=
  let d := b.getNearestPlaneDistance
  decide ((b.px = true ∧ d.x ≤ rMax * 2) ∨ (b.py = true ∧ d.y ≤ rMax * 2) ∨
    (b.is2D = false ∧ b.pz = true ∧ d.z ≤ rMax * 2))

/-- The steps of the three nested loops, `freud/locality/NeighborQuery.h:541-545`. -/
def imageSteps : List (Vec3 ℤ) :=
  [-1, 0, 1].flatMap (fun i => [-1, 0, 1].flatMap (fun j => [-1, 0, 1].map (fun k => ⟨i, j, k⟩)))

/-- The tests in the innermost loop, `freud/locality/NeighborQuery.h:547-554`. -/
def useImage {K : Type*} (b : Box K) (n : Vec3 ℤ) : Bool :=
  (n.x != 0 || n.y != 0 || n.z != 0) &&
    !((n.x != 0 && !b.px) || (n.y != 0 && !b.py) || (n.z != 0 && (b.is2D || !b.pz)))

/-- `float(i) * latt_a + float(j) * latt_b + float(k) * latt_c`,
`freud/locality/NeighborQuery.h:528-534, 556`. -/
noncomputable def imageVector (b : Box ℝ) (n : Vec3 ℤ) : Vec3 ℝ :=
  let c : Vec3 ℝ := if b.is2D then 0 else ⟨b.L.z * b.xz, b.L.z * b.yz, b.L.z⟩
  Vec3.smul (n.x : ℝ) ⟨b.L.x, 0, 0⟩ + Vec3.smul (n.y : ℝ) ⟨b.L.y * b.xy, b.L.y, 0⟩ +
    Vec3.smul (n.z : ℝ) c

/-- `updateImageVectors`, `freud/locality/NeighborQuery.h:495-563`. -/
noncomputable def updateImageVectors (b : Box ℝ) (rMax : ℝ) (check : Bool) :
    Option (List (Vec3 ℝ)) :=
  if check && rMaxTooLarge b rMax then none
  else some (0 :: ((imageSteps.filter (useImage b)).map (imageVector b)).take (numImages b - 1))

/-- `AABBQuery`, `freud/locality/AABBQuery.h:36-82`. -/
structure AABBQuery where
  box : Box ℝ
  pts : List (Vec3 ℝ)
  nodes : List (AABBTree.Node ℝ)

/-- The constructor, `freud/locality/AABBQuery.cc:18-26` with
`freud/locality/NeighborQuery.h:88-111`. -/
noncomputable def AABBQuery.new (b : Box ℝ) (pts : List (Vec3 ℝ)) : Option AABBQuery :=
  if pts = [] then none
  else if b.is2D = true ∧ ∃ p ∈ pts, |p.z| > 1 / 1000000 then none
  else (AABBTree.buildTree (pts.map (flatten b))).map (fun nodes => ⟨b, pts, nodes⟩)

/-- The members of `AABBQueryBallIterator` that do not change, `freud/locality/AABBQuery.h:152-178`
and `freud/locality/NeighborQuery.h:358-366`. -/
structure BallIter where
  aq : AABBQuery
  images : List (Vec3 ℝ)
  qp : Vec3 ℝ
  qi : ℕ
  rMax : ℝ
  rMin : ℝ
  excludeII : Bool

namespace BallIter

/-- The constructor, `freud/locality/AABBQuery.h:157-164` with the checks of
`freud/locality/NeighborQuery.h:332-343`. -/
noncomputable def new (aq : AABBQuery) (qp : Vec3 ℝ) (qi : ℕ) (rMax rMin : ℝ) (excl check : Bool) :
    Option BallIter :=
  if rMax ≤ 0 then none
  else if rMax ≤ rMin then none
  else (updateImageVectors aq.box rMax check).map (fun im => ⟨aq, im, qp, qi, rMax, rMin, excl⟩)

/-- The test of particle `j` against the image `im` of the query point,
`freud/locality/AABBQuery.cc:109-134`. -/
noncomputable def test (it : BallIter) (im : Vec3 ℝ) (j : ℕ) : List (Bond ℝ) :=
  if it.excludeII && decide (it.qi = j) then []
  else
    let rij := flatten it.aq.box (it.aq.pts.getD j 0) - (flatten it.aq.box it.qp + im)
    let rsq := Vec3.dot rij rij
    if rsq < it.rMax * it.rMax ∧ rsq ≥ it.rMin * it.rMin then
      [⟨it.qi, j, Real.sqrt rsq, 1, rij⟩]
    else []

/-- All bonds that successive calls of `AABBQueryBallIterator::next` return from the state
(`cur_image`, `cur_node_idx`, `cur_ref_p`) on, `freud/locality/AABBQuery.cc:77-149`. `next`
returns at a bond with the state saved and the next call continues the same loops from there, so
the sequence of returned bonds is the sequence of bonds found by the loops. -/
noncomputable def run (it : BallIter) (image node ref : ℕ) : List (Bond ℝ) :=
  if hi : image < it.images.length then
    if hn : node < it.aq.nodes.length then
      if (it.aq.nodes[node]).aabb.overlapSphere (flatten it.aq.box it.qp + it.images[image])
          it.rMax then
        if (it.aq.nodes[node]).isLeaf then
          if hr : ref < (it.aq.nodes[node]).tags.length then
            test it it.images[image] (it.aq.nodes[node]).tags[ref] ++ run it image node (ref + 1)
          else run it image (node + 1) 0
        else run it image (node + 1) 0
      else run it image (node + (it.aq.nodes[node]).skip + 1) 0
    else run it (image + 1) 0 ref
  else []
termination_by (it.images.length - image, it.aq.nodes.length - node,
  (it.aq.nodes[node]?).elim 0 (fun n => n.tags.length) - ref)
decreasing_by
  · apply Prod.Lex.right; apply Prod.Lex.right
    simp only [List.getElem?_eq_getElem hn, Option.elim_some]; omega
  · apply Prod.Lex.right; apply Prod.Lex.left; omega
  · apply Prod.Lex.right; apply Prod.Lex.left; omega
  · apply Prod.Lex.right; apply Prod.Lex.left; omega
  · apply Prod.Lex.left; omega

end BallIter

/-- All bonds of the ball query around one query point: `AABBQuery::querySingle` in ball mode
(`freud/locality/AABBQuery.cc:30-37`), run to the end. -/
noncomputable def AABBQuery.ballSingle (aq : AABBQuery) (qp : Vec3 ℝ) (qi : ℕ) (rMax rMin : ℝ)
    (excl : Bool) : Option (List (Bond ℝ)) :=
  (BallIter.new aq qp qi rMax rMin excl true).map (fun it => it.run 0 0 0)

/-- The same through `NeighborQuery::query` (`freud/locality/NeighborQuery.h:128-142`), which
`AABBQuery` inherits and which rejects boxes with a non-periodic axis. `RawPoints::query`
(`freud/locality/RawPoints.h:49-60`), used when the user passes a `(box, points)` tuple, shadows
it without that check and then uses `AABBQuery::querySingle`, that is `ballSingle`. -/
noncomputable def AABBQuery.ball (aq : AABBQuery) (qp : Vec3 ℝ) (qi : ℕ) (rMax rMin : ℝ)
    (excl : Bool) : Option (List (Bond ℝ)) :=
  if !(aq.box.px && aq.box.py && aq.box.pz) then none
  else aq.ballSingle qp qi rMax rMin excl

end Freud
