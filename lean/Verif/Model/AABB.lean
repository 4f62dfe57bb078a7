import Verif.Model.Vec3
import Mathlib.Data.List.Perm.Basic

/-!
# The tree of bounding boxes

Model of `freud/locality/AABB.h` and `freud/locality/AABBTree.h`. The nodes live in a flat array in
the order of their allocation, as in the code; node and particle indices are natural numbers and
`INVALID_NODE` is `none`. Memory growth (`allocateNode`) is appending to a list. `update`, `height`
and `query` of the tree are not called by freud and are not modelled.
-/

namespace Freud
variable {K : Type*} [Field K] [LinearOrder K]

/-- `AABB`, `freud/locality/AABB.h:62-124`. -/
structure AABB (K : Type*) where
  lower : Vec3 K
  upper : Vec3 K
  tag : ℕ

namespace AABB

/-- The box of a single point, `freud/locality/AABB.h:127-141`. -/
def point (p : Vec3 K) (tag : ℕ) : AABB K := ⟨p, p, tag⟩

/-- `getPosition`, `freud/locality/AABB.h:144-155`. -/
def position (a : AABB K) : Vec3 K :=
  ⟨(a.lower.x + a.upper.x) / 2, (a.lower.y + a.upper.y) / 2, (a.lower.z + a.upper.z) / 2⟩

/-- `merge`, `freud/locality/AABB.h:346-365`; the new box has tag 0. -/
def merge (a b : AABB K) : AABB K :=
  ⟨⟨min a.lower.x b.lower.x, min a.lower.y b.lower.y, min a.lower.z b.lower.z⟩,
   ⟨max a.upper.x b.upper.x, max a.upper.y b.upper.y, max a.upper.z b.upper.z⟩, 0⟩

/-- `overlap` of a box and a sphere, `freud/locality/AABB.h:299-320`. -/
def overlapSphere (a : AABB K) (c : Vec3 K) (r : K) : Bool :=
  let dr : Vec3 K := ⟨min (max c.x a.lower.x) a.upper.x - c.x,
    min (max c.y a.lower.y) a.upper.y - c.y, min (max c.z a.lower.z) a.upper.z - c.z⟩
  decide (Vec3.dot dr dr < r * r)

end AABB

namespace AABBTree

/-- `NODE_CAPACITY`, `freud/locality/AABBTree.h:33`. -/
def NODE_CAPACITY : ℕ := 16

/-- `AABBNode`, `freud/locality/AABBTree.h:39-58`. The `particles` array is not used by queries and
left out; `tags` holds the first `num_particles` entries of `particle_tags`. -/
structure Node (K : Type*) where
  aabb : AABB K
  left : Option ℕ
  right : Option ℕ
  parent : Option ℕ
  skip : ℕ
  tags : List ℕ

/-- `isNodeLeaf`, `freud/locality/AABBTree.h:168-171`. -/
def Node.isLeaf (n : Node K) : Bool := n.left.isNone

/-- `std::swap(aabbs[i], aabbs[j])`, `freud/locality/AABBTree.h:454-455`. -/
def swap {α : Type*} (l : List α) (i j : ℕ) : List α :=
  match l[i]?, l[j]? with
  | some a, some b => (l.set i b).set j a
  | _, _ => l

/-- The partition loop, `freud/locality/AABBTree.h:440-459`: `onLeft` is the comparison of the box
position with the middle. Returns the reordered range and `start_right`. (`i--` followed by `++i`
leaves `i` as it is, also when it wraps around.) -/
def split {α : Type*} (onLeft : α → Bool) (l : List α) (i sr : ℕ) : List α × ℕ :=
  if _h : i < sr then
    match l[i]? with
    | none => (l, sr)
    | some a =>
      if onLeft a then split onLeft l (i + 1) sr
      else split onLeft (swap l i (sr - 1)) i (sr - 1)
  else (l, sr)
termination_by sr - i

/-- The box around the range, `freud/locality/AABBTree.h:379-383`. The range is never empty: a
query object has at least one point and both sides of a split are non-empty. -/
def mergeAll (d : AABB K) : List (AABB K) → AABB K
  | [] => d
  | a :: l => l.foldl AABB.merge a

/-- Which side a box goes to, `freud/locality/AABBTree.h:437-507`: the longest edge is halved. -/
def onLeft (my : AABB K) (a : AABB K) : Bool :=
  let rx := my.upper.x - my.lower.x
  let ry := my.upper.y - my.lower.y
  let rz := my.upper.z - my.lower.z
  if rx > ry ∧ rx > rz then decide (a.position.x < my.position.x)
  else if ry > rz then decide (a.position.y < my.position.y)
  else decide (a.position.z < my.position.z)

/-- The range after the partition and the number of boxes on the left,
`freud/locality/AABBTree.h:430-518`, with the correction for an empty side. `side` is the comparison
that decides about the side of a box, `onLeft` in exact arithmetic. -/
def halves (side : AABB K → AABB K → Bool) (my : AABB K) (l : List (AABB K)) : List (AABB K) × ℕ :=
  let p := if l.length ≠ 2 then split (side my) l 0 l.length else (l, l.length)
  let sr := if p.2 = l.length then l.length - 1 else p.2
  (p.1, if sr = 0 then 1 else sr)

theorem swap_length {α : Type*} (l : List α) (i j : ℕ) : (swap l i j).length = l.length := by
  unfold swap; split <;> simp

theorem split_length {α : Type*} (f : α → Bool) (l : List α) (i sr : ℕ) :
    (split f l i sr).1.length = l.length ∧ (split f l i sr).2 ≤ sr := by
  fun_induction split f l i sr with
  | case1 => exact ⟨rfl, le_rfl⟩
  | case2 _ _ _ _ _ _ _ ih => exact ih
  | case3 l i sr h a ha hn ih => exact ⟨by rw [ih.1, swap_length], by omega⟩
  | case4 => exact ⟨rfl, le_rfl⟩

theorem halves_bounds (side : AABB K → AABB K → Bool) (my : AABB K) (l : List (AABB K)) (h : 1 < l.length) :
    (halves side my l).1.length = l.length ∧ 0 < (halves side my l).2 ∧ (halves side my l).2 < l.length := by
  have hs := split_length (side my) l 0 l.length
  refine ⟨?_, ?_, ?_⟩
  · simp only [halves]; split_ifs <;> simp [hs.1]
  · simp only [halves]; split_ifs <;> omega
  · simp only [halves]; split_ifs <;> simp_all <;> omega

/-- `buildNode`, `freud/locality/AABBTree.h:375-536`. `l` is the range `aabbs[start, start+len)`;
the calls for the two sides reorder only their own parts of the array, so each gets its part as a
list. Returns the node array and the index of the new node. -/
def buildNode (side : AABB K → AABB K → Bool) (nodes : List (Node K)) (l : List (AABB K)) (parent : Option ℕ) :
    List (Node K) × ℕ :=
  let my := mergeAll ⟨0, 0, 0⟩ l
  if _h : l.length ≤ NODE_CAPACITY then
    (nodes ++ [⟨my, none, none, parent, 0, l.map AABB.tag⟩], nodes.length)
  else
    let me := nodes.length
    let left := buildNode side (nodes ++ [⟨⟨0, 0, 0⟩, none, none, none, 0, []⟩])
      ((halves side my l).1.take (halves side my l).2) (some me)
    let right := buildNode side left.1 ((halves side my l).1.drop (halves side my l).2) (some me)
    (right.1.set me ⟨my, some left.2, some right.2, parent, 0, []⟩, me)
termination_by l.length
decreasing_by
  · have hb := halves_bounds side (mergeAll ⟨0, 0, 0⟩ l) l (by unfold NODE_CAPACITY at _h; omega)
    rw [List.length_take]; omega
  · have hb := halves_bounds side (mergeAll ⟨0, 0, 0⟩ l) l (by unfold NODE_CAPACITY at _h; omega)
    rw [List.length_drop]; omega

/-- `updateSkip`, `freud/locality/AABBTree.h:544-560`, with a bound on the depth of the recursion;
`none` if it is exceeded or a child index is invalid. -/
def updateSkip : ℕ → List (Node K) → ℕ → Option (List (Node K) × ℕ)
  | 0, _, _ => none
  | fuel + 1, nodes, i => (nodes[i]?).bind (fun n =>
      if n.isLeaf then some (nodes, 1)
      else n.left.bind (fun l => n.right.bind (fun r =>
        (updateSkip fuel nodes l).bind (fun p => (updateSkip fuel p.1 r).bind (fun q =>
          (q.1[i]?).map (fun n' => (q.1.set i { n' with skip := p.2 + q.2 }, p.2 + q.2 + 1)))))))

/-- `AABBQuery::buildTree` and `AABBTree::buildTree`, `freud/locality/AABBQuery.cc:53-69` and
`freud/locality/AABBTree.h:345-357`, for points whose third component has been cleared in 2D. -/
def buildTreeBy (side : AABB K → AABB K → Bool) (pts : List (Vec3 K)) : Option (List (Node K)) :=
  let r := buildNode side [] (pts.zipIdx.map (fun p => AABB.point p.1 p.2)) none
  (updateSkip r.1.length r.1 r.2).map Prod.fst

/-- The tree built in exact arithmetic. -/
def buildTree (pts : List (Vec3 K)) : Option (List (Node K)) := buildTreeBy onLeft pts

/-- The particles tested while the tree is traversed, in order: the stackless traversal of
`freud/locality/AABBQuery.cc:96-142`. `ov` tells whether a node overlaps the sphere. -/
def traverseBy (ov : AABB K → Bool) (nodes : List (Node K)) (i : ℕ) : List ℕ :=
  if h : i < nodes.length then
    if ov (nodes[i]).aabb then
      (if (nodes[i]).isLeaf then (nodes[i]).tags else []) ++ traverseBy ov nodes (i + 1)
    else traverseBy ov nodes (i + (nodes[i]).skip + 1)
  else []
termination_by nodes.length - i

/-- The traversal with a sphere in exact arithmetic. -/
def traverse (nodes : List (Node K)) (c : Vec3 K) (r : K) (i : ℕ) : List ℕ :=
  traverseBy (fun a => a.overlapSphere c r) nodes i

end AABBTree
end Freud
