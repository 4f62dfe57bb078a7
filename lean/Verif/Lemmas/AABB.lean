import Verif.Model.AABB
import Mathlib.Tactic.Linarith

/-!
# The flat node array represents a binary tree
-/

set_option linter.unusedSectionVars false

namespace Freud
namespace AABBTree
variable {K : Type*} [Field K] [LinearOrder K] [IsStrictOrderedRing K]

/-- The tree that a flat array represents. -/
inductive BT (K : Type*) where
  | leaf (a : AABB K) (items : List (AABB K))
  | node (a : AABB K) (l r : BT K)

namespace BT

def items : BT K → List (AABB K)
  | leaf _ is => is
  | node _ l r => l.items ++ r.items

def size : BT K → ℕ
  | leaf _ _ => 1
  | node _ l r => l.size + r.size + 1

def box : BT K → AABB K
  | leaf a _ => a
  | node a _ _ => a

/-- The array of the tree, in preorder; `sk` tells whether the skip counts are filled in. -/
def flat (sk : Bool) : BT K → ℕ → Option ℕ → List (Node K)
  | leaf a is, _, par => [⟨a, none, none, par, 0, is.map AABB.tag⟩]
  | node a l r, off, par =>
    ⟨a, some (off + 1), some (off + 1 + l.size), par, if sk then l.size + r.size else 0, []⟩ ::
      (flat sk l (off + 1) (some off) ++ flat sk r (off + 1 + l.size) (some off))

theorem flat_length (sk : Bool) (t : BT K) (off : ℕ) (par : Option ℕ) :
    (t.flat sk off par).length = t.size := by
  induction t generalizing off par with
  | leaf => rfl
  | node a l r ihl ihr => simp [flat, size, ihl, ihr]

end BT

/-- `a` encloses `b`. -/
def Encloses (a b : AABB K) : Prop :=
  a.lower.x ≤ b.lower.x ∧ a.lower.y ≤ b.lower.y ∧ a.lower.z ≤ b.lower.z ∧
  b.upper.x ≤ a.upper.x ∧ b.upper.y ≤ a.upper.y ∧ b.upper.z ≤ a.upper.z

/-- Every box encloses everything below it. -/
def BT.Bounded : BT K → Prop
  | .leaf a is => ∀ b ∈ is, Encloses a b
  | .node a l r => (∀ b ∈ l.items ++ r.items, Encloses a b) ∧ l.Bounded ∧ r.Bounded

theorem foldl_merge_encloses (l : List (AABB K)) (a : AABB K) :
    Encloses (l.foldl AABB.merge a) a ∧ ∀ b ∈ l, Encloses (l.foldl AABB.merge a) b := by
  induction l generalizing a with
  | nil => exact ⟨⟨le_rfl, le_rfl, le_rfl, le_rfl, le_rfl, le_rfl⟩, by simp⟩
  | cons c l ih =>
    obtain ⟨h1, h2⟩ := ih (a.merge c)
    rw [List.foldl_cons]
    obtain ⟨x1, x2, x3, x4, x5, x6⟩ := h1
    simp only [AABB.merge, le_min_iff, max_le_iff] at x1 x2 x3 x4 x5 x6
    refine ⟨⟨x1.1, x2.1, x3.1, x4.1, x5.1, x6.1⟩, ?_⟩
    intro b hb
    rcases List.mem_cons.mp hb with rfl | hb
    · exact ⟨x1.2, x2.2, x3.2, x4.2, x5.2, x6.2⟩
    · exact h2 b hb

theorem mergeAll_encloses (d : AABB K) (l : List (AABB K)) : ∀ b ∈ l, Encloses (mergeAll d l) b := by
  cases l with
  | nil => simp
  | cons a l =>
    intro b hb
    rcases List.mem_cons.mp hb with rfl | hb
    · exact (foldl_merge_encloses l b).1
    · exact (foldl_merge_encloses l a).2 b hb

theorem swap_perm {α : Type*} (l : List α) (i j : ℕ) : (swap l i j).Perm l := by
  unfold swap
  split
  · rename_i a b ha hb
    obtain ⟨hi, rfl⟩ := List.getElem?_eq_some_iff.mp ha
    obtain ⟨hj, rfl⟩ := List.getElem?_eq_some_iff.mp hb
    have h := Array.swap_perm (xs := l.toArray) (i := i) (j := j) (by simpa using hi) (by simpa using hj)
    have h' := Array.perm_iff_toList_perm.mp h
    simpa [Array.toList_swap] using h'
  · exact List.Perm.refl _

theorem split_perm {α : Type*} (f : α → Bool) (l : List α) (i sr : ℕ) :
    (split f l i sr).1.Perm l := by
  fun_induction split f l i sr with
  | case1 => exact List.Perm.refl _
  | case2 _ _ _ _ _ _ _ ih => exact ih
  | case3 l i sr h a ha hn ih => exact ih.trans (swap_perm _ _ _)
  | case4 => exact List.Perm.refl _

theorem halves_perm (side : AABB K → AABB K → Bool) (my : AABB K) (l : List (AABB K)) : (halves side my l).1.Perm l := by
  simp only [halves]
  split_ifs
  · exact split_perm _ _ _ _
  · exact List.Perm.refl _

theorem buildNode_spec (side : AABB K → AABB K → Bool) (nodes : List (Node K)) (l : List (AABB K)) (parent : Option ℕ) :
    ∃ t : BT K, buildNode side nodes l parent = (nodes ++ t.flat false nodes.length parent, nodes.length) ∧
      t.items.Perm l ∧ t.Bounded := by
  induction hn : l.length using Nat.strong_induction_on generalizing nodes l parent with
  | _ n ih =>
  rw [buildNode]
  by_cases h : l.length ≤ NODE_CAPACITY
  · simp only [h, dite_true]
    exact ⟨.leaf (mergeAll ⟨0, 0, 0⟩ l) l, rfl, List.Perm.refl _, mergeAll_encloses _ l⟩
  · have hb := halves_bounds side (mergeAll ⟨0, 0, 0⟩ l) l (by unfold NODE_CAPACITY at h; omega)
    simp only [h, dite_false]
    set my := mergeAll (⟨0, 0, 0⟩ : AABB K) l with hmy
    set me := nodes.length with hme
    set left := buildNode side (nodes ++ [⟨⟨0, 0, 0⟩, none, none, none, 0, []⟩])
      ((halves side my l).1.take (halves side my l).2) (some me) with hleft
    set right := buildNode side left.1 ((halves side my l).1.drop (halves side my l).2) (some me) with hright
    have ih1 := ih ((halves side my l).1.take (halves side my l).2).length (by rw [List.length_take]; omega)
      (nodes ++ [⟨⟨0, 0, 0⟩, none, none, none, 0, []⟩]) _ (some me) rfl
    have ih2 := ih ((halves side my l).1.drop (halves side my l).2).length (by rw [List.length_drop]; omega)
      left.1 _ (some me) rfl
    rw [← hleft] at ih1
    rw [← hright] at ih2
    obtain ⟨t1, e1, p1, b1⟩ := ih1
    obtain ⟨t2, e2, p2, b2⟩ := ih2
    have hperm : (t1.items ++ t2.items).Perm l := by
      refine (p1.append p2).trans ?_
      rw [List.take_append_drop]
      exact halves_perm _ _ _
    refine ⟨.node my t1 t2, ?_, hperm, ?_, b1, b2⟩
    · have hl1 : left.1 = nodes ++ [⟨⟨0, 0, 0⟩, none, none, none, 0, []⟩] ++
          t1.flat false (nodes.length + 1) (some me) := by
        rw [e1]; simp [me]
      have hl2 : left.2 = nodes.length + 1 := by rw [e1]; simp [me]
      have hlen : left.1.length = nodes.length + 1 + t1.size := by
        rw [hl1]; simp [BT.flat_length]; omega
      have hr1 : right.1 = left.1 ++ t2.flat false (nodes.length + 1 + t1.size) (some me) := by
        rw [e2, hlen]
      have hr2 : right.2 = nodes.length + 1 + t1.size := by rw [e2, hlen]
      rw [hr1, hl2, hr2, hl1]
      simp [BT.flat, me]
    · intro b hb
      exact mergeAll_encloses _ l b (hperm.mem_iff.mp hb)

theorem updateSkip_spec (t : BT K) : ∀ (fuel : ℕ) (pre post : List (Node K)) (par : Option ℕ),
    t.size ≤ fuel →
    updateSkip fuel (pre ++ t.flat false pre.length par ++ post) pre.length =
      some (pre ++ t.flat true pre.length par ++ post, t.size) := by
  induction t with
  | leaf a is =>
    intro fuel pre post par hf
    obtain ⟨f, rfl⟩ : ∃ f, fuel = f + 1 := ⟨fuel - 1, by simp [BT.size] at hf; omega⟩
    simp [updateSkip, BT.flat, Node.isLeaf, BT.size]
  | node a l r ihl ihr =>
    intro fuel pre post par hf
    simp only [BT.size] at hf
    obtain ⟨f, rfl⟩ : ∃ f, fuel = f + 1 := ⟨fuel - 1, by omega⟩
    have h1 := ihl f (pre ++ [⟨a, some (pre.length + 1), some (pre.length + 1 + l.size), par, 0, []⟩])
      (r.flat false (pre.length + 1 + l.size) (some pre.length) ++ post) (some pre.length) (by omega)
    have h2 := ihr f (pre ++ [⟨a, some (pre.length + 1), some (pre.length + 1 + l.size), par, 0, []⟩] ++
      l.flat true (pre.length + 1) (some pre.length)) post (some pre.length) (by omega)
    simp only [List.length_append, List.length_cons, List.length_nil, Nat.zero_add,
      BT.flat_length, List.append_assoc, List.cons_append, List.nil_append] at h1 h2
    have hoff : pre.length + (l.size + 1) = pre.length + 1 + l.size := by omega
    rw [hoff] at h2
    simp only [updateSkip, BT.flat, List.append_assoc, List.cons_append]
    rw [List.getElem?_append_right le_rfl]
    simp only [Nat.sub_self, List.getElem?_cons_zero, Option.bind_some, Node.isLeaf,
      Option.isNone_some, Bool.false_eq_true, if_false]
    rw [h1]
    simp only [Option.bind_some]
    rw [h2]
    simp only [Option.bind_some]
    rw [List.getElem?_append_right le_rfl]
    simp [BT.size]

theorem buildTreeBy_spec (side : AABB K → AABB K → Bool) (pts : List (Vec3 K)) : ∃ t : BT K,
    buildTreeBy side pts = some (t.flat true 0 none) ∧
      t.items.Perm (pts.zipIdx.map (fun p => AABB.point p.1 p.2)) ∧ t.Bounded := by
  obtain ⟨t, e, p, b⟩ := buildNode_spec side ([] : List (Node K))
    (pts.zipIdx.map (fun p => AABB.point p.1 p.2)) none
  refine ⟨t, ?_, p, b⟩
  have h := updateSkip_spec t t.size [] [] none le_rfl
  simp only [List.nil_append, List.append_nil, List.length_nil] at h e
  unfold buildTreeBy
  simp only [e, BT.flat_length, h, Option.map_some]

theorem buildTree_spec (pts : List (Vec3 K)) : ∃ t : BT K,
    buildTree pts = some (t.flat true 0 none) ∧
      t.items.Perm (pts.zipIdx.map (fun p => AABB.point p.1 p.2)) ∧ t.Bounded :=
  buildTreeBy_spec onLeft pts

/-- What the traversal tests, on the tree. -/
def BT.visit (ov : AABB K → Bool) : BT K → List ℕ
  | .leaf a is => if ov a then is.map AABB.tag else []
  | .node a l r' => if ov a then l.visit ov ++ r'.visit ov else []

theorem traverse_spec (ov : AABB K → Bool) (t : BT K) : ∀ (pre post : List (Node K)) (par : Option ℕ),
    traverseBy ov (pre ++ t.flat true pre.length par ++ post) pre.length =
      t.visit ov ++ traverseBy ov (pre ++ t.flat true pre.length par ++ post) (pre.length + t.size) := by
  induction t with
  | leaf a is =>
    intro pre post par
    rw [traverseBy]
    by_cases h : ov a <;>
      simp [BT.flat, BT.visit, Node.isLeaf, BT.size, h]
  | node a l r' ihl ihr =>
    intro pre post par
    have h1 := ihl (pre ++ [⟨a, some (pre.length + 1), some (pre.length + 1 + l.size), par,
      l.size + r'.size, []⟩])
      (r'.flat true (pre.length + 1 + l.size) (some pre.length) ++ post) (some pre.length)
    have h2 := ihr (pre ++ [⟨a, some (pre.length + 1), some (pre.length + 1 + l.size), par,
      l.size + r'.size, []⟩] ++ l.flat true (pre.length + 1) (some pre.length)) post (some pre.length)
    simp only [List.length_append, List.length_cons, List.length_nil, Nat.zero_add,
      BT.flat_length, List.append_assoc, List.cons_append, List.nil_append] at h1 h2
    have hoff : pre.length + (l.size + 1) = pre.length + 1 + l.size := by omega
    rw [hoff] at h2
    conv_lhs => rw [traverseBy]
    simp only [BT.flat, List.append_assoc, List.cons_append, if_true]
    by_cases h : ov a
    · simp only [List.length_append, List.length_cons, BT.flat_length]
      rw [dif_pos (by omega)]
      simp only [List.getElem_append_right le_rfl, Nat.sub_self, List.getElem_cons_zero, h, if_true,
        Node.isLeaf, Option.isNone_some, Bool.false_eq_true, if_false, List.nil_append]
      rw [h1, h2]
      simp only [BT.visit, h, if_true, BT.size, List.append_assoc]
      congr 3
      omega
    · simp only [List.length_append, List.length_cons, BT.flat_length]
      rw [dif_pos (by omega)]
      simp only [List.getElem_append_right le_rfl, Nat.sub_self, List.getElem_cons_zero, h,
        Bool.false_eq_true, if_false]
      simp only [BT.visit, h, Bool.false_eq_true, if_false, List.nil_append, BT.size]
      congr 1

theorem clamp_sq_le {c lo hi p : K} (h1 : lo ≤ p) (h2 : p ≤ hi) :
    (min (max c lo) hi - c) * (min (max c lo) hi - c) ≤ (p - c) * (p - c) := by
  rcases le_total c lo with h | h
  · rw [max_eq_right h, min_eq_left (h1.trans h2)]
    nlinarith
  · rw [max_eq_left h]
    rcases le_total c hi with h' | h'
    · rw [min_eq_left h']
      simp [mul_self_nonneg]
    · rw [min_eq_right h']
      nlinarith

theorem overlap_of_inside {a b : AABB K} (h : Encloses a b) (hb : b.lower = b.upper) {c : Vec3 K}
    {r : K} (hin : Vec3.dot (b.lower - c) (b.lower - c) < r * r) : a.overlapSphere c r = true := by
  obtain ⟨x1, x2, x3, x4, x5, x6⟩ := h
  rw [← hb] at x4 x5 x6
  simp only [AABB.overlapSphere, decide_eq_true_eq]
  refine lt_of_le_of_lt ?_ hin
  simp only [Vec3.dot, Vec3.sub_x, Vec3.sub_y, Vec3.sub_z]
  exact add_le_add (add_le_add (clamp_sq_le x1 x4) (clamp_sq_le x2 x5)) (clamp_sq_le x3 x6)

theorem visit_complete (ov : AABB K → Bool) (t : BT K) (hb : t.Bounded) (b : AABB K)
    (hmem : b ∈ t.items) (hov : ∀ a, Encloses a b → ov a = true) : b.tag ∈ t.visit ov := by
  induction t with
  | leaf a is =>
    simp only [BT.visit, hov _ (hb b hmem), if_true]
    exact List.mem_map_of_mem hmem
  | node a l r' ihl ihr =>
    obtain ⟨h0, hl, hr⟩ := hb
    simp only [BT.visit, hov _ (h0 b hmem), if_true]
    rcases List.mem_append.mp hmem with h | h
    · exact List.mem_append_left _ (ihl hl h)
    · exact List.mem_append_right _ (ihr hr h)

theorem visit_sublist (ov : AABB K → Bool) (t : BT K) :
    (t.visit ov).Sublist (t.items.map AABB.tag) := by
  induction t with
  | leaf a is => simp only [BT.visit, BT.items]; split_ifs <;> simp
  | node a l r' ihl ihr =>
    simp only [BT.visit, BT.items, List.map_append]
    split_ifs
    · exact ihl.append ihr
    · simp

theorem tags_range (pts : List (Vec3 K)) :
    (pts.zipIdx.map (fun p => AABB.point p.1 p.2)).map AABB.tag = List.range pts.length := by
  rw [List.map_map]
  have : (AABB.tag ∘ fun p : Vec3 K × ℕ => AABB.point p.1 p.2) = Prod.snd := rfl
  rw [this, List.zipIdx_map_snd]
  exact List.range_eq_range'.symm

/-- The traversal of the tree of some points: it tests only points that exist, none twice, and every
point whose enclosing boxes all pass the test `ov`. -/
theorem traverseBy_build (side : AABB K → AABB K → Bool) (ov : AABB K → Bool) (pts : List (Vec3 K))
    (nodes : List (Node K)) (hn : buildTreeBy side pts = some nodes) :
    (traverseBy ov nodes 0).Nodup ∧ (∀ j ∈ traverseBy ov nodes 0, j < pts.length) ∧
    ∀ j q, pts[j]? = some q → (∀ a, Encloses a (AABB.point q j) → ov a = true) →
      j ∈ traverseBy ov nodes 0 := by
  obtain ⟨t, e, p, hb⟩ := buildTreeBy_spec side pts
  rw [hn] at e
  obtain rfl := Option.some.inj e
  have hv : traverseBy ov (t.flat true 0 none) 0 = t.visit ov := by
    have h := traverse_spec ov t [] [] none
    simp only [List.nil_append, List.append_nil, List.length_nil, Nat.zero_add] at h
    rw [h, traverseBy, dif_neg (by rw [BT.flat_length]; omega), List.append_nil]
  rw [hv]
  have hperm : (t.items.map AABB.tag).Perm (List.range pts.length) :=
    (p.map _).trans (List.Perm.of_eq (tags_range pts))
  refine ⟨(visit_sublist ov t).nodup (hperm.nodup_iff.mpr List.nodup_range), ?_, ?_⟩
  · intro j hj
    exact List.mem_range.mp (hperm.mem_iff.mp ((visit_sublist ov t).subset hj))
  · intro j q hq hov
    have hmem : AABB.point q j ∈ pts.zipIdx.map (fun p => AABB.point p.1 p.2) := by
      apply List.mem_map.mpr
      exact ⟨(q, j), List.mem_zipIdx_iff_getElem?.mpr hq, rfl⟩
    exact visit_complete ov t hb (AABB.point q j) (p.mem_iff.mpr hmem) hov

theorem flat_tags (t : BT K) (off : ℕ) (par : Option ℕ) :
    (t.flat true off par).flatMap (fun n => if n.isLeaf then n.tags else []) =
      t.items.map AABB.tag := by
  induction t generalizing off par with
  | leaf a is => simp [BT.flat, Node.isLeaf, BT.items]
  | node a l r ihl ihr =>
    rw [BT.flat, List.flatMap_cons, List.flatMap_append, ihl, ihr, BT.items, List.map_append]
    rfl

end AABBTree
end Freud
