import Verif.Model.BallQuery
import Verif.Lemmas.Periodic
import Verif.Props.AABBTree

/-!
# Property C22: the ball query of AABBQuery
-/

namespace Freud
open AABBTree

/-- What a ball query should contain: `bd` is a bond from query point `qi` at `q` to a point `p`
of the system whose vector is a periodic image of `p - q` with length in `[rMin, rMax)`. -/
def Spec.IsBallBond (b : Box ℝ) (pts : List (Vec3 ℝ)) (q : Vec3 ℝ) (qi : ℕ) (rMax rMin : ℝ)
    (excl : Bool) (bd : Bond ℝ) : Prop :=
  bd.q = qi ∧ bd.weight = 1 ∧ bd.dist = Vec3.norm bd.vec ∧ (excl = true → bd.p ≠ qi) ∧
    rMin ≤ Vec3.norm bd.vec ∧ Vec3.norm bd.vec < rMax ∧
    ∃ p, pts[bd.p]? = some p ∧ IsImage b (p - q) bd.vec

open Spec

/-! ### Image vectors -/

def useImage' (px py pz d2 : Bool) (n : Vec3 ℤ) : Bool :=
  (n.x != 0 || n.y != 0 || n.z != 0) &&
    !((n.x != 0 && !px) || (n.y != 0 && !py) || (n.z != 0 && (d2 || !pz)))

theorem count_images : ∀ px py pz d2 : Bool,
    (imageSteps.filter (useImage' px py pz d2)).length =
      3 ^ ((if px then 1 else 0) + (if py then 1 else 0) +
        (if d2 then 0 else 1) * (if pz then 1 else 0)) - 1 := by decide

theorem take_images (b : Box ℝ) :
    ((imageSteps.filter (useImage b)).map (imageVector b)).take (numImages b - 1) =
      (imageSteps.filter (useImage b)).map (imageVector b) := by
  apply List.take_of_length_le
  rw [List.length_map]
  exact (count_images b.px b.py b.pz b.is2D).le

theorem imageVector_eq {b : Box ℝ} (n : Vec3 ℤ) (hn : AllowedShift b n) :
    imageVector b n = lattice b n := by
  unfold imageVector lattice comb a1 a2 a3
  cases h2 : b.is2D with
  | true =>
    have := hn.2.2 (Or.inr h2)
    ext <;> simp only [this, if_true, Vec3.add_x, Vec3.add_y, Vec3.add_z, Vec3.smul_x,
      Vec3.smul_y, Vec3.smul_z, Int.cast_zero] <;> ring
  | false =>
    ext <;> simp only [Bool.false_eq_true, if_false, Vec3.add_x, Vec3.add_y, Vec3.add_z,
      Vec3.smul_x, Vec3.smul_y, Vec3.smul_z] <;> ring

theorem mem_imageSteps (n : Vec3 ℤ) : n ∈ imageSteps ↔
    (-1 ≤ n.x ∧ n.x ≤ 1) ∧ (-1 ≤ n.y ∧ n.y ≤ 1) ∧ (-1 ≤ n.z ∧ n.z ≤ 1) := by
  have h3 : ∀ z : ℤ, z ∈ ([-1, 0, 1] : List ℤ) ↔ -1 ≤ z ∧ z ≤ 1 := by
    intro z; simp only [List.mem_cons, List.not_mem_nil, or_false]; omega
  obtain ⟨x, y, z⟩ := n
  simp only [imageSteps, List.mem_flatMap, List.mem_map, h3, Vec3.mk.injEq]
  constructor
  · rintro ⟨i, hi, j, hj, k, hk, rfl, rfl, rfl⟩; exact ⟨hi, hj, hk⟩
  · rintro ⟨hx, hy, hz⟩; exact ⟨x, hx, y, hy, z, hz, rfl, rfl, rfl⟩

theorem useImage_allowed {b : Box ℝ} {n : Vec3 ℤ} (h : useImage b n = true) : AllowedShift b n := by
  simp only [useImage, Bool.and_eq_true, Bool.not_eq_true', Bool.or_eq_false_iff,
    Bool.and_eq_false_iff, bne_eq_false_iff_eq, Bool.not_eq_false'] at h
  obtain ⟨-, ⟨hx, hy⟩, hz⟩ := h
  refine ⟨fun e => ?_, fun e => ?_, fun e => ?_⟩
  · rcases hx with h | h
    · exact h
    · simp [e] at h
  · rcases hy with h | h
    · exact h
    · simp [e] at h
  · rcases hz with h | h
    · exact h
    · rcases e with e | e <;> simp [e] at h

theorem mem_images {b : Box ℝ} {rMax : ℝ} {chk : Bool} {ims : List (Vec3 ℝ)}
    (h : updateImageVectors b rMax chk = some ims) (v : Vec3 ℝ) :
    v ∈ ims ↔ ∃ n, AllowedShift b n ∧ n ∈ imageSteps ∧ v = lattice b n := by
  unfold updateImageVectors at h
  split at h
  · simp at h
  · obtain rfl := Option.some.inj h
    rw [take_images]
    have hzero : AllowedShift b ⟨0, 0, 0⟩ := ⟨fun _ => rfl, fun _ => rfl, fun _ => rfl⟩
    have hz0 : lattice b ⟨0, 0, 0⟩ = 0 := by ext <;> simp [lattice, comb]
    constructor
    · intro hv
      rcases List.mem_cons.mp hv with rfl | hv
      · exact ⟨⟨0, 0, 0⟩, hzero, (mem_imageSteps _).mpr (by simp), hz0.symm⟩
      · obtain ⟨n, hn, rfl⟩ := List.mem_map.mp hv
        obtain ⟨h1, h2⟩ := List.mem_filter.mp hn
        exact ⟨n, useImage_allowed h2, h1, imageVector_eq n (useImage_allowed h2)⟩
    · rintro ⟨n, hn, hs, rfl⟩
      by_cases h0 : n = ⟨0, 0, 0⟩
      · subst h0; rw [hz0]; exact List.mem_cons_self
      · apply List.mem_cons_of_mem
        apply List.mem_map.mpr
        refine ⟨n, List.mem_filter.mpr ⟨hs, ?_⟩, imageVector_eq n hn⟩
        obtain ⟨nx, ny, nz⟩ := n
        simp only [Vec3.mk.injEq] at h0
        obtain ⟨e1, e2, e3⟩ := hn
        simp only at e1 e2 e3
        simp only [useImage, Bool.and_eq_true, Bool.not_eq_true', Bool.or_eq_false_iff,
          Bool.and_eq_false_iff, bne_eq_false_iff_eq, Bool.not_eq_false', Bool.or_eq_true,
          bne_iff_ne]
        refine ⟨by omega, ⟨?_, ?_⟩, ?_⟩
        · cases hx : b.px
          · exact Or.inl (e1 hx)
          · exact Or.inr rfl
        · cases hx : b.py
          · exact Or.inl (e2 hx)
          · exact Or.inr rfl
        · cases h2 : b.is2D
          · cases hx : b.pz
            · exact Or.inl (e3 (Or.inl hx))
            · exact Or.inr ⟨rfl, rfl⟩
          · exact Or.inl (e3 (Or.inr h2))

theorem images_nodup {b : Box ℝ} (hb : Valid b) {rMax : ℝ} {chk : Bool} {ims : List (Vec3 ℝ)}
    (h : updateImageVectors b rMax chk = some ims) : ims.Nodup := by
  unfold updateImageVectors at h
  split at h
  · simp at h
  · obtain rfl := Option.some.inj h
    rw [take_images]
    have hz0 : lattice b ⟨0, 0, 0⟩ = 0 := by ext <;> simp [lattice, comb]
    rw [List.nodup_cons]
    constructor
    · intro hv
      obtain ⟨n, hn, e⟩ := List.mem_map.mp hv
      obtain ⟨h1, h2⟩ := List.mem_filter.mp hn
      have ha := useImage_allowed h2
      rw [imageVector_eq n ha, ← hz0] at e
      have := lattice_inj hb ha ⟨fun _ => rfl, fun _ => rfl, fun _ => rfl⟩ e
      subst this
      simp [useImage] at h2
    · apply List.Nodup.map_on
      · intro n hn m hm e
        have h1 := useImage_allowed (List.mem_filter.mp hn).2
        have h2 := useImage_allowed (List.mem_filter.mp hm).2
        rw [imageVector_eq n h1, imageVector_eq m h2] at e
        exact lattice_inj hb h1 h2 e
      · exact List.Nodup.filter _ (by decide)

/-! ### The loops -/

theorem run_node (it : BallIter) (image node ref : ℕ) (hi : image < it.images.length)
    (hn : node < it.aq.nodes.length) (hl : (it.aq.nodes[node]).isLeaf = true)
    (ho : (it.aq.nodes[node]).aabb.overlapSphere
      (flatten it.aq.box it.qp + it.images[image]) it.rMax = true) :
    it.run image node ref = ((it.aq.nodes[node]).tags.drop ref).flatMap
      (it.test it.images[image]) ++ it.run image (node + 1) 0 := by
  induction hk : (it.aq.nodes[node]).tags.length - ref generalizing ref with
  | zero =>
    rw [BallIter.run, dif_pos hi, dif_pos hn, if_pos ho, if_pos hl, dif_neg (by omega),
      List.drop_eq_nil_of_le (by omega)]
    rfl
  | succ k ih =>
    rw [BallIter.run, dif_pos hi, dif_pos hn, if_pos ho, if_pos hl, dif_pos (by omega),
      ih (ref + 1) (by omega),
      List.drop_eq_getElem_cons (by omega : ref < (it.aq.nodes[node]).tags.length),
      List.flatMap_cons, List.append_assoc]

theorem run_image (it : BallIter) (image node : ℕ) (hi : image < it.images.length) :
    it.run image node 0 = (traverse it.aq.nodes
      (flatten it.aq.box it.qp + it.images[image]) it.rMax node).flatMap
        (it.test it.images[image]) ++ it.run (image + 1) 0 0 := by
  induction hk : it.aq.nodes.length - node using Nat.strong_induction_on generalizing node with
  | _ k ih =>
    by_cases hn : node < it.aq.nodes.length
    · rw [AABBTree.traverse, AABBTree.traverseBy, dif_pos hn]
      by_cases ho : (it.aq.nodes[node]).aabb.overlapSphere
        (flatten it.aq.box it.qp + it.images[image]) it.rMax = true
      · rw [if_pos ho]
        by_cases hl : (it.aq.nodes[node]).isLeaf = true
        · rw [run_node it image node 0 hi hn hl ho, ih _ (by omega) (node + 1) rfl, if_pos hl,
            List.drop_zero, List.flatMap_append, List.append_assoc]; rfl
        · rw [BallIter.run, dif_pos hi, dif_pos hn, if_pos ho, if_neg hl,
            ih _ (by omega) (node + 1) rfl, if_neg hl, List.nil_append]; rfl
      · rw [if_neg ho, BallIter.run, dif_pos hi, dif_pos hn, if_neg ho,
          ih _ (by omega) (node + (it.aq.nodes[node]).skip + 1) rfl]; rfl
    · rw [AABBTree.traverse, AABBTree.traverseBy, dif_neg hn, BallIter.run, dif_pos hi, dif_neg hn]
      rfl

theorem run_eq (it : BallIter) (image : ℕ) :
    it.run image 0 0 = (it.images.drop image).flatMap (fun im =>
      (traverse it.aq.nodes (flatten it.aq.box it.qp + im) it.rMax 0).flatMap (it.test im)) := by
  induction hk : it.images.length - image generalizing image with
  | zero =>
    rw [BallIter.run, dif_neg (by omega), List.drop_eq_nil_of_le (by omega)]; rfl
  | succ k ih =>
    rw [run_image it image 0 (by omega), ih (image + 1) (by omega),
      List.drop_eq_getElem_cons (by omega : image < it.images.length), List.flatMap_cons]

theorem mem_test (it : BallIter) (im : Vec3 ℝ) (j : ℕ) (bd : Bond ℝ) (hmax : 0 ≤ it.rMax)
    (hmin : 0 ≤ it.rMin) : bd ∈ it.test im j ↔
      bd.q = it.qi ∧ bd.p = j ∧ bd.weight = 1 ∧ bd.dist = Vec3.norm bd.vec ∧
      (it.excludeII = true → j ≠ it.qi) ∧ it.rMin ≤ Vec3.norm bd.vec ∧
      Vec3.norm bd.vec < it.rMax ∧
      bd.vec = flatten it.aq.box (it.aq.pts.getD j 0) - (flatten it.aq.box it.qp + im) := by
  unfold BallIter.test
  by_cases he : (it.excludeII && decide (it.qi = j)) = true
  · rw [if_pos he]
    simp only [Bool.and_eq_true, decide_eq_true_eq] at he
    constructor
    · intro h; simp at h
    · rintro ⟨-, -, -, -, h, -⟩
      exact absurd he.2.symm (h he.1)
  · rw [if_neg he]
    simp only [Bool.and_eq_true, decide_eq_true_eq, not_and] at he
    set v := flatten it.aq.box (it.aq.pts.getD j 0) - (flatten it.aq.box it.qp + im) with hv
    simp only
    by_cases hc : Vec3.dot v v < it.rMax * it.rMax ∧ Vec3.dot v v ≥ it.rMin * it.rMin
    · rw [if_pos hc, List.mem_singleton]
      constructor
      · rintro rfl
        exact ⟨rfl, rfl, rfl, rfl, fun h => Ne.symm (he h), (le_norm_iff v _ hmin).mpr hc.2,
          (norm_lt_iff v _ hmax).mpr hc.1, rfl⟩
      · rintro ⟨h1, h2, h3, h4, -, -, -, h5⟩
        obtain ⟨q, p, d, w, u⟩ := bd
        simp only at h1 h2 h3 h4 h5
        subst h1 h2 h3 h4 h5
        rfl
    · rw [if_neg hc]
      constructor
      · intro h; simp at h
      · rintro ⟨-, -, -, -, -, h1, h2, h3⟩
        rw [h3] at h1 h2
        exact absurd ⟨(norm_lt_iff v _ hmax).mp h2, (le_norm_iff v _ hmin).mp h1⟩ hc

theorem flatten_planar {b : Box ℝ} {v : Vec3 ℝ} (h : Planar b v) : flatten b v = v := by
  unfold flatten
  split
  · rename_i h2; ext <;> simp [h h2]
  · rfl

theorem new_parts {b : Box ℝ} {pts : List (Vec3 ℝ)} {aq : AABBQuery}
    (haq : AABBQuery.new b pts = some aq) (hpl : ∀ p ∈ pts, Planar b p) :
    aq.pts = pts ∧ buildTree pts = some aq.nodes := by
  unfold AABBQuery.new at haq
  split at haq
  · simp at haq
  · split at haq
    · simp at haq
    · have hm : pts.map (flatten b) = pts := by
        conv_rhs => rw [← List.map_id pts]
        exact List.map_congr_left (fun p hp => flatten_planar (hpl p hp))
      rw [hm] at haq
      obtain ⟨nodes, h1, rfl⟩ := Option.map_eq_some_iff.mp haq
      exact ⟨rfl, h1⟩

theorem test_sublist (it : BallIter) (im : Vec3 ℝ) (j : ℕ) :
    List.Sublist ((it.test im j).map (·.p)) [j] := by
  unfold BallIter.test
  split
  · exact List.nil_sublist _
  · simp only
    split
    · exact List.Sublist.refl _
    · exact List.nil_sublist _

theorem flatMap_test_sublist (it : BallIter) (im : Vec3 ℝ) (l : List ℕ) :
    List.Sublist (l.flatMap fun j => (it.test im j).map (·.p)) l := by
  induction l with
  | nil => exact List.Sublist.refl _
  | cons a l ih =>
    rw [List.flatMap_cons]
    exact (test_sublist it im a).append ih

/-- In-sphere points are visited, so testing visited points is testing all points. -/
theorem mem_run (aq : AABBQuery) (pts : List (Vec3 ℝ)) (b : Box ℝ) (haq : AABBQuery.new b pts = some aq)
    (hpl : ∀ p ∈ pts, Planar b p) (it : BallIter) (hit : it.aq = aq) (hmax : 0 ≤ it.rMax)
    (hmin : 0 ≤ it.rMin) (bd : Bond ℝ) :
    bd ∈ it.run 0 0 0 ↔ bd.q = it.qi ∧ bd.weight = 1 ∧ bd.dist = Vec3.norm bd.vec ∧
      (it.excludeII = true → bd.p ≠ it.qi) ∧ it.rMin ≤ Vec3.norm bd.vec ∧
      Vec3.norm bd.vec < it.rMax ∧ ∃ p im, im ∈ it.images ∧ pts[bd.p]? = some p ∧
      bd.vec = p - (flatten b it.qp + im) := by
  obtain ⟨hbox, hpts, hnodes⟩ : aq.box = b ∧ aq.pts = pts ∧
      buildTree pts = some aq.nodes := by
    unfold AABBQuery.new at haq
    split at haq
    · simp at haq
    · split at haq
      · simp at haq
      · have hm : pts.map (flatten b) = pts := by
          conv_rhs => rw [← List.map_id pts]
          exact List.map_congr_left (fun p hp => flatten_planar (hpl p hp))
        rw [hm] at haq
        obtain ⟨nodes, h1, rfl⟩ := Option.map_eq_some_iff.mp haq
        exact ⟨rfl, rfl, h1⟩
  rw [run_eq, List.drop_zero, hit, hbox]
  constructor
  · intro h
    obtain ⟨im, him, h⟩ := List.mem_flatMap.mp h
    obtain ⟨j, hj, h⟩ := List.mem_flatMap.mp h
    rw [mem_test it im j bd hmax hmin] at h
    obtain ⟨h1, h2, h3, h4, h5, h6, h7, h8⟩ := h
    have hjl := (C21_traversal pts aq.nodes hnodes _ it.rMax).2.1 j hj
    subst h2
    refine ⟨h1, h3, h4, h5, h6, h7, pts[bd.p], im, him, List.getElem?_eq_getElem hjl, ?_⟩
    rw [h8, hit, hbox, hpts, List.getD_eq_getElem?_getD, List.getElem?_eq_getElem hjl,
      Option.getD_some, flatten_planar (hpl _ (List.getElem_mem hjl))]
  · rintro ⟨h1, h3, h4, h5, h6, h7, p, im, him, hp, h8⟩
    apply List.mem_flatMap.mpr
    refine ⟨im, him, List.mem_flatMap.mpr ⟨bd.p, ?_, ?_⟩⟩
    · apply (C21_traversal pts aq.nodes hnodes _ it.rMax).2.2
      refine ⟨p, hp, ?_⟩
      have := (norm_lt_iff _ _ hmax).mp h7
      rw [h8] at this
      simp only [Vec3.dot, Vec3.sub_x, Vec3.sub_y, Vec3.sub_z] at this
      nlinarith
    · rw [mem_test it im bd.p bd hmax hmin]
      refine ⟨h1, rfl, h3, h4, h5, h6, h7, ?_⟩
      rw [h8, hit, hbox, hpts, List.getD_eq_getElem?_getD, hp, Option.getD_some,
        flatten_planar (hpl _ (List.mem_of_getElem? hp))]

theorem rMaxTooLarge_iff (b : Box ℝ) (r : ℝ) :
    rMaxTooLarge b r = false ↔ BelowHalf b r := by
  simp only [rMaxTooLarge, BelowHalf, decide_eq_false_iff_not, not_or, not_and, not_le,
    mul_comm (2 : ℝ)]
  constructor
  · rintro ⟨h1, h2, h3⟩; exact ⟨h1, h2, fun h h' => h3 h' h⟩
  · rintro ⟨h1, h2, h3⟩; exact ⟨h1, h2, fun h h' => h3 h' h⟩

/-- **C22**, when the query of a `(box, points)` tuple succeeds: exactly when the cutoff is
positive, above `rMin` and below half of the nearest-plane distance of every periodic axis. -/
theorem C22_single_raises_iff (aq : AABBQuery) (q : Vec3 ℝ) (qi : ℕ) (rMax rMin : ℝ)
    (excl : Bool) :
    (∃ bonds, aq.ballSingle q qi rMax rMin excl = some bonds) ↔
      0 < rMax ∧ rMin < rMax ∧ BelowHalf aq.box rMax := by
  unfold AABBQuery.ballSingle BallIter.new updateImageVectors
  simp only [Bool.true_and]
  by_cases h1 : rMax ≤ 0
  · simp [h1]
  · by_cases h2 : rMax ≤ rMin
    · simp [h1, h2]
    · by_cases h3 : rMaxTooLarge aq.box rMax = true
      · simp only [h1, h2, h3, if_true, if_false]
        have : ¬ BelowHalf aq.box rMax := by rw [← rMaxTooLarge_iff, h3]; simp
        simp [this]
      · have h4 := (rMaxTooLarge_iff aq.box rMax).mp (by simpa using h3)
        simp only [h1, h2, h3, if_false]
        simp only [not_le] at h1 h2
        simp [h1, h2, h4]

/-- **C22**, when the query of an `AABBQuery` succeeds: exactly for fully periodic boxes and
cutoffs that are positive, above `rMin` and below half of every nearest-plane distance; and then
the result is that of the same query on the `(box, points)` tuple. -/
theorem C22_ball_raises_iff (aq : AABBQuery) (q : Vec3 ℝ) (qi : ℕ) (rMax rMin : ℝ) (excl : Bool)
    (bonds : List (Bond ℝ)) :
    aq.ball q qi rMax rMin excl = some bonds ↔
      FullyPeriodic aq.box ∧ aq.ballSingle q qi rMax rMin excl = some bonds := by
  unfold AABBQuery.ball
  by_cases hp : FullyPeriodic aq.box
  · have hpp : (!(aq.box.px && aq.box.py && aq.box.pz)) = false := by
      simp [hp.1, hp.2.1, hp.2.2]
    rw [hpp]
    simp [hp]
  · have hpp : (!(aq.box.px && aq.box.py && aq.box.pz)) = true := by
      rw [Bool.not_eq_true', Bool.eq_false_iff]
      intro h
      simp only [Bool.and_eq_true] at h
      exact hp ⟨h.1.1, h.1.2, h.2⟩
    rw [hpp]
    simp [hp]

theorem ball_some {aq : AABBQuery} {q : Vec3 ℝ} {qi : ℕ} {rMax rMin : ℝ} {excl : Bool}
    {bonds : List (Bond ℝ)} (h : aq.ballSingle q qi rMax rMin excl = some bonds) :
    ∃ ims, updateImageVectors aq.box rMax true = some ims ∧
      bonds = (⟨aq, ims, q, qi, rMax, rMin, excl⟩ : BallIter).run 0 0 0 := by
  unfold AABBQuery.ballSingle BallIter.new at h
  split at h
  · simp at h
  · split at h
    · simp at h
    · obtain ⟨it, h1, rfl⟩ := Option.map_eq_some_iff.mp h
      obtain ⟨ims, h2, rfl⟩ := Option.map_eq_some_iff.mp h1
      exact ⟨ims, h2, rfl⟩

theorem new_box {b : Box ℝ} {pts : List (Vec3 ℝ)} {aq : AABBQuery}
    (haq : AABBQuery.new b pts = some aq) : aq.box = b := by
  unfold AABBQuery.new at haq
  split at haq
  · simp at haq
  · split at haq
    · simp at haq
    · obtain ⟨nodes, h1, rfl⟩ := Option.map_eq_some_iff.mp haq
      rfl

/-- **C22**: the ball query returns exactly the periodic neighbors in range, with the separation
vector from the query point to the neighbor. -/
theorem C22_ball_exact (b : Box ℝ) (hb : Valid b) (pts : List (Vec3 ℝ)) (aq : AABBQuery)
    (haq : AABBQuery.new b pts = some aq) (hpts : ∀ p ∈ pts, InCell b p) (q : Vec3 ℝ)
    (hq : InCell b q) (qi : ℕ) (rMax rMin : ℝ) (hmin : 0 ≤ rMin) (excl : Bool)
    (bonds : List (Bond ℝ)) (h : aq.ballSingle q qi rMax rMin excl = some bonds) (bd : Bond ℝ) :
    bd ∈ bonds ↔ IsBallBond b pts q qi rMax rMin excl bd := by
  have hbox := new_box haq
  obtain ⟨hpos, hlt, hhalf⟩ := (C22_single_raises_iff aq q qi rMax rMin excl).mp ⟨_, h⟩
  obtain ⟨ims, hims, rfl⟩ := ball_some h
  rw [hbox] at hhalf hims
  have hplq : Planar b q := inCell_planar hb hq
  rw [mem_run aq pts b haq (fun p hp => inCell_planar hb (hpts p hp)) _ rfl hpos.le hmin bd]
  unfold IsBallBond
  simp only [flatten_planar hplq]
  refine and_congr Iff.rfl (and_congr Iff.rfl (and_congr Iff.rfl (and_congr Iff.rfl
    (and_congr Iff.rfl (and_congr_right fun hshort => ?_)))))
  have hneg : ∀ n : Vec3 ℤ, AllowedShift b n → AllowedShift b (-n) := by
    intro n hn
    exact ⟨fun e => by simp [hn.1 e], fun e => by simp [hn.2.1 e], fun e => by simp [hn.2.2 e]⟩
  constructor
  · rintro ⟨p, im, him, hp, hv⟩
    obtain ⟨n, hn, -, rfl⟩ := (mem_images hims im).mp him
    refine ⟨p, hp, -n, hneg n hn, ?_⟩
    rw [hv]
    ext <;> simp [lattice, comb] <;> ring
  · rintro ⟨p, hp, n, hn, hv⟩
    refine ⟨p, lattice b (-n), (mem_images hims _).mpr ⟨-n, hneg n hn, ?_, rfl⟩, hp, ?_⟩
    · rw [mem_imageSteps]
      rw [hv] at hshort
      have := short_image_steps hb hhalf (hpts p (List.mem_of_getElem? hp)) hq n hn hshort
      simp only [Vec3.neg_x, Vec3.neg_y, Vec3.neg_z]
      omega
    · rw [hv]
      ext <;> simp [lattice, comb] <;> ring

/-- The loops report no point twice if images shorter than the cutoff are unique. -/
theorem run_nodup (b : Box ℝ) (hb : Valid b) (pts : List (Vec3 ℝ)) (aq : AABBQuery)
    (haq : AABBQuery.new b pts = some aq) (hpts : ∀ p ∈ pts, InCell b p) (q : Vec3 ℝ)
    (hq : InCell b q) (qi : ℕ) (rMax rMin : ℝ) (hpos : 0 < rMax) (hmin : 0 ≤ rMin) (excl : Bool)
    (ims : List (Vec3 ℝ)) (chk : Bool) (hims : updateImageVectors b rMax chk = some ims)
    (hu : ∀ v w, Planar b v → IsImage b v w → Vec3.norm w < rMax → b.wrap v = w) :
    (((⟨aq, ims, q, qi, rMax, rMin, excl⟩ : BallIter).run 0 0 0).map (·.p)).Nodup := by
  have hbox := new_box haq
  obtain ⟨hpts', hnodes⟩ := new_parts haq (fun p hp => inCell_planar hb (hpts p hp))
  have hplq : Planar b q := inCell_planar hb hq
  set it : BallIter := ⟨aq, ims, q, qi, rMax, rMin, excl⟩ with hit
  rw [run_eq, List.drop_zero, List.map_flatMap]
  rw [List.nodup_flatMap]
  constructor
  · intro im him
    rw [List.map_flatMap]
    refine List.Nodup.sublist (flatMap_test_sublist it im _) ?_
    exact (C21_traversal pts aq.nodes hnodes _ rMax).1
  · refine List.Pairwise.imp_of_mem ?_ (images_nodup hb hims)
    intro i1 i2 hi1 hi2 hne
    rw [Function.onFun, List.disjoint_left]
    intro j hj1 hj2
    apply hne
    have key : ∀ im ∈ ims, j ∈ ((AABBTree.traverse it.aq.nodes
        (flatten it.aq.box it.qp + im) it.rMax 0).flatMap (it.test im)).map (·.p) →
        ∃ p, pts[j]? = some p ∧ p - (q + im) = b.wrap (p - q) := by
      intro im him hj
      obtain ⟨bd, hbd, rfl⟩ := List.mem_map.mp hj
      obtain ⟨k, hk, hbd'⟩ := List.mem_flatMap.mp hbd
      obtain ⟨-, rfl, -, -, -, -, hs, hv⟩ := (mem_test it im k bd hpos.le hmin).mp hbd'
      have hjl := (C21_traversal pts aq.nodes hnodes _ rMax).2.1 _ hk
      have hin := hpts _ (List.getElem_mem hjl)
      have hv' : bd.vec = pts[bd.p] - (q + im) := by
        rw [hv]
        simp only [hit, hbox, hpts', List.getD_eq_getElem?_getD, List.getElem?_eq_getElem hjl,
          Option.getD_some, flatten_planar (inCell_planar hb hin), flatten_planar hplq]
      refine ⟨pts[bd.p], List.getElem?_eq_getElem hjl, ?_⟩
      obtain ⟨n, hn, -, rfl⟩ := (mem_images hims im).mp him
      have him' : IsImage b (pts[bd.p] - q) (pts[bd.p] - (q + lattice b n)) := by
        refine ⟨-n, ⟨fun e => by simp [hn.1 e], fun e => by simp [hn.2.1 e],
          fun e => by simp [hn.2.2 e]⟩, ?_⟩
        ext <;> simp [lattice, comb] <;> ring
      rw [hv'] at hs
      exact (hu _ _ (planar_sub (inCell_planar hb hin) hplq) him' hs).symm
    obtain ⟨p, hp, e1⟩ := key i1 hi1 hj1
    obtain ⟨p', hp', e2⟩ := key i2 hi2 hj2
    obtain rfl : p = p' := Option.some.inj (hp.symm.trans hp')
    have e := e1.trans e2.symm
    have ex := congrArg Vec3.x e
    have ey := congrArg Vec3.y e
    have ez := congrArg Vec3.z e
    simp only [Vec3.sub_x, Vec3.sub_y, Vec3.sub_z, Vec3.add_x, Vec3.add_y, Vec3.add_z] at ex ey ez
    ext <;> linarith

/-- **C22**: no point is reported twice. -/
theorem C22_ball_nodup (b : Box ℝ) (hb : Valid b) (pts : List (Vec3 ℝ)) (aq : AABBQuery)
    (haq : AABBQuery.new b pts = some aq) (hpts : ∀ p ∈ pts, InCell b p) (q : Vec3 ℝ)
    (hq : InCell b q) (qi : ℕ) (rMax rMin : ℝ) (hmin : 0 ≤ rMin) (excl : Bool)
    (bonds : List (Bond ℝ)) (h : aq.ballSingle q qi rMax rMin excl = some bonds) :
    (bonds.map (·.p)).Nodup := by
  have hbox := new_box haq
  obtain ⟨hpos, hlt, hhalf⟩ := (C22_single_raises_iff aq q qi rMax rMin excl).mp ⟨_, h⟩
  obtain ⟨ims, hims, rfl⟩ := ball_some h
  rw [hbox] at hhalf hims
  exact run_nodup b hb pts aq haq hpts q hq qi rMax rMin hpos hmin excl ims true hims
    (fun v w hv hw hs => (wrap_of_short hb hhalf hv hw hs).1)

/-- **C22**: the reported vector is the wrapped separation, and every other image of the pair is
longer: the reported distance is the minimum-image distance. -/
theorem C22_ball_min_image (b : Box ℝ) (hb : Valid b) (pts : List (Vec3 ℝ)) (aq : AABBQuery)
    (haq : AABBQuery.new b pts = some aq) (hpts : ∀ p ∈ pts, InCell b p) (q : Vec3 ℝ)
    (hq : InCell b q) (qi : ℕ) (rMax rMin : ℝ) (hmin : 0 ≤ rMin) (excl : Bool)
    (bonds : List (Bond ℝ)) (h : aq.ballSingle q qi rMax rMin excl = some bonds) (bd : Bond ℝ)
    (hbd : bd ∈ bonds) (p : Vec3 ℝ) (hp : pts[bd.p]? = some p) :
    bd.vec = b.wrap (p - q) ∧ bd.dist = b.computeDistance q p ∧
    ∀ w, IsImage b (p - q) w → w ≠ bd.vec → bd.dist < Vec3.norm w := by
  have hbox := new_box haq
  obtain ⟨hpos, hlt, hhalf⟩ := (C22_single_raises_iff aq q qi rMax rMin excl).mp ⟨_, h⟩
  rw [hbox] at hhalf
  obtain ⟨-, -, hd, -, -, hs, p', hp', him⟩ :=
    (C22_ball_exact b hb pts aq haq hpts q hq qi rMax rMin hmin excl bonds h bd).mp hbd
  obtain rfl : p' = p := Option.some.inj (hp'.symm.trans hp)
  have hpl := planar_sub (inCell_planar hb (hpts p' (List.mem_of_getElem? hp))) (inCell_planar hb hq)
  obtain ⟨h1, h2⟩ := wrap_of_short hb hhalf hpl him hs
  refine ⟨h1.symm, by rw [hd, Box.computeDistance, h1], ?_⟩
  rintro w ⟨m, hm, rfl⟩ hne
  rw [hd]
  exact h2 m hm hne

/-! ### Witness: a bond across the boundary of a cube of side 10 -/

theorem cube_valid : Valid (Box.mk' 10 10 10 0 0 0 false : Box ℝ) := by
  constructor <;> simp [Box.mk', Box.setL]

theorem cube_half {r : ℝ} (h : r < 5) : BelowHalf (Box.mk' 10 10 10 0 0 0 false : Box ℝ) r := by
  refine ⟨fun _ => ?_, fun _ => ?_, fun _ _ => ?_⟩ <;>
    simp [Box.mk', Box.setL, Box.getNearestPlaneDistance] <;> linarith

theorem cube_inCell {v : Vec3 ℝ} (hx : |v.x| ≤ 5) (hy : |v.y| ≤ 5) (hz : |v.z| ≤ 5) :
    InCell (Box.mk' 10 10 10 0 0 0 false : Box ℝ) v := by
  rw [abs_le] at hx hy hz
  refine ⟨⟨v.x / 10 + 1 / 2, v.y / 10 + 1 / 2, v.z / 10 + 1 / 2⟩, ⟨?_, by simp [Box.mk', Box.setL]⟩,
    ⟨?_, ?_⟩, ⟨?_, ?_⟩, ⟨?_, ?_⟩⟩
  · ext <;> simp [comb, a1, a2, a3, Box.mk', Box.setL]
  all_goals simp only; linarith [hx.1, hx.2, hy.1, hy.2, hz.1, hz.2]

example : ∃ (aq : AABBQuery) (bonds : List (Bond ℝ)) (bd : Bond ℝ),
    AABBQuery.new (Box.mk' 10 10 10 0 0 0 false) [⟨4, 0, 0⟩, ⟨-5, 0, 0⟩] = some aq ∧
    aq.ball ⟨4, 0, 0⟩ 0 2 0 true = some bonds ∧ bd ∈ bonds ∧ bd.p = 1 ∧ bd.vec = ⟨1, 0, 0⟩ := by
  obtain ⟨nodes, hn, -⟩ := C21_every_point_once [(⟨4, 0, 0⟩ : Vec3 ℝ), ⟨-5, 0, 0⟩]
  have hnew : AABBQuery.new (Box.mk' 10 10 10 0 0 0 false) [⟨4, 0, 0⟩, ⟨-5, 0, 0⟩] =
      some ⟨Box.mk' 10 10 10 0 0 0 false, [⟨4, 0, 0⟩, ⟨-5, 0, 0⟩], nodes⟩ := by
    unfold AABBQuery.new
    rw [if_neg (by simp), if_neg (by simp [Box.mk', Box.setL])]
    have : [(⟨4, 0, 0⟩ : Vec3 ℝ), ⟨-5, 0, 0⟩].map (flatten (Box.mk' 10 10 10 0 0 0 false)) =
      [⟨4, 0, 0⟩, ⟨-5, 0, 0⟩] := by simp [flatten, Box.mk', Box.setL]
    rw [this, hn]; rfl
  have hcell : ∀ p ∈ [(⟨4, 0, 0⟩ : Vec3 ℝ), ⟨-5, 0, 0⟩],
      InCell (Box.mk' 10 10 10 0 0 0 false : Box ℝ) p := by
    intro p hp
    simp only [List.mem_cons, List.not_mem_nil, or_false] at hp
    rcases hp with rfl | rfl <;> apply cube_inCell <;> norm_num
  obtain ⟨bonds, hb⟩ := (C22_single_raises_iff
    ⟨Box.mk' 10 10 10 0 0 0 false, [⟨4, 0, 0⟩, ⟨-5, 0, 0⟩], nodes⟩ ⟨4, 0, 0⟩ 0 2 0 true).mpr
    ⟨by norm_num, by norm_num, cube_half (by norm_num)⟩
  have h1 : Vec3.norm (⟨1, 0, 0⟩ : Vec3 ℝ) = 1 := by simp [Vec3.norm, Vec3.dot]
  refine ⟨_, bonds, ⟨0, 1, Vec3.norm ⟨1, 0, 0⟩, 1, ⟨1, 0, 0⟩⟩, hnew,
    (C22_ball_raises_iff _ _ _ _ _ _ _).mpr ⟨⟨rfl, rfl, rfl⟩, hb⟩, ?_, rfl, rfl⟩
  rw [C22_ball_exact _ cube_valid _ _ hnew hcell _ (hcell _ (by simp)) 0 2 0 le_rfl true bonds hb]
  refine ⟨rfl, rfl, rfl, by simp, by rw [h1]; norm_num, by rw [h1]; norm_num, ⟨-5, 0, 0⟩, rfl,
    ⟨1, 0, 0⟩, ⟨by simp [Box.mk', Box.setL], by simp, by simp⟩, ?_⟩
  ext <;> simp [lattice, comb, a1, a2, a3, Box.mk', Box.setL] <;> norm_num

end Freud
