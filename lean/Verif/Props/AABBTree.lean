import Verif.Lemmas.AABB
import Mathlib.Tactic.Ring

/-!
# Property C21: the tree of bounding boxes loses no point
-/

set_option linter.unusedSectionVars false

namespace Freud
open AABBTree
variable {K : Type*} [Field K] [LinearOrder K] [IsStrictOrderedRing K]

/-- Point `j` lies strictly inside the sphere. -/
def Spec.InSphere (pts : List (Vec3 K)) (c : Vec3 K) (r : K) (j : ℕ) : Prop :=
  ∃ p, pts[j]? = some p ∧ (p.x - c.x) ^ 2 + (p.y - c.y) ^ 2 + (p.z - c.z) ^ 2 < r ^ 2

open Spec

/-- **C21**: building the tree never fails, and its leaves together hold every point exactly
once. -/
theorem C21_every_point_once (pts : List (Vec3 K)) :
    ∃ nodes, buildTree pts = some nodes ∧
      (nodes.flatMap (fun n => if n.isLeaf then n.tags else [])).Perm (List.range pts.length) := by
  obtain ⟨t, e, p, -⟩ := buildTree_spec pts
  refine ⟨_, e, ?_⟩
  rw [flat_tags]
  exact (p.map _).trans (List.Perm.of_eq (tags_range pts))

/-- **C21**: for every sphere, the traversal of the tree tests only points that exist, no point
twice, and every point inside the sphere. -/
theorem C21_traversal (pts : List (Vec3 K)) (nodes : List (Node K))
    (hn : buildTree pts = some nodes) (c : Vec3 K) (r : K) :
    (traverse nodes c r 0).Nodup ∧ (∀ j ∈ traverse nodes c r 0, j < pts.length) ∧
    ∀ j, InSphere pts c r j → j ∈ traverse nodes c r 0 := by
  obtain ⟨h1, h2, h3⟩ := traverseBy_build onLeft (fun a => a.overlapSphere c r) pts nodes hn
  refine ⟨h1, h2, ?_⟩
  rintro j ⟨q, hq, hin⟩
  refine h3 j q hq fun a ha => overlap_of_inside ha rfl ?_
  simp only [AABB.point, Vec3.dot, Vec3.sub_x, Vec3.sub_y, Vec3.sub_z]
  calc _ = (q.x - c.x) ^ 2 + (q.y - c.y) ^ 2 + (q.z - c.z) ^ 2 := by ring
    _ < r ^ 2 := hin
    _ = r * r := sq r

/-- **C21**: testing the visited points is the same as testing all points. -/
theorem C21_equals_brute_force (pts : List (Vec3 K)) (nodes : List (Node K))
    (hn : buildTree pts = some nodes) (c : Vec3 K) (r : K) (f : ℕ → Bool)
    (hf : ∀ j, f j = true → InSphere pts c r j) :
    ((traverse nodes c r 0).filter f).Perm ((List.range pts.length).filter f) := by
  obtain ⟨h1, h2, h3⟩ := C21_traversal pts nodes hn c r
  rw [List.perm_ext_iff_of_nodup (h1.filter _) (List.nodup_range.filter _)]
  intro j
  rw [List.mem_filter, List.mem_filter, List.mem_range]
  constructor
  · exact fun h => ⟨h2 j h.1, h.2⟩
  · exact fun h => ⟨h3 j (hf j h.2), h.2⟩

-- witness: 17 coincident points, where one side of the split is empty, and a sphere around them
example : ∃ nodes, buildTree (List.replicate 17 (⟨0, 0, 0⟩ : Vec3 ℚ)) = some nodes :=
  ⟨_, (buildTree_spec _).choose_spec.1⟩

example : InSphere (List.replicate 17 (⟨0, 0, 0⟩ : Vec3 ℚ)) ⟨1, 0, 0⟩ 2 16 :=
  ⟨⟨0, 0, 0⟩, by simp, by norm_num⟩

end Freud
