import Verif.Model.Cubatic
import Verif.Spec.Cubatic
import Verif.Props.NeighborLoop
import Verif.Props.Quat
import Verif.Props.Nematic
import Mathlib.Tactic.Ring
import Mathlib.Tactic.Linarith
import Mathlib.Tactic.FieldSimp

/-!
# Lemmas about the cubatic order parameter
-/

namespace Freud
namespace Cubatic
open Spec

abbrev Quad := ℕ × ℕ × ℕ × ℕ

/-- The inner product of functions of four indices. -/
noncomputable def ip (f g : Quad → ℝ) : ℝ := (quads.map fun q => f q * g q).sum

theorem quads_length : quads.length = 81 := rfl

theorem foldl_add_sum (l : List ℝ) (c : ℝ) : l.foldl (· + ·) c = c + l.sum := by
  induction l generalizing c with
  | nil => simp
  | cons a l ih => rw [List.foldl_cons, ih, List.sum_cons, add_assoc]

theorem dot4_map (f g : Quad → ℝ) : dot4 (quads.map f) (quads.map g) = ip f g := by
  unfold dot4 ip
  rw [foldl_add_sum, zero_add, List.zipWith_map, List.zipWith_self]

theorem add4_map (f g : Quad → ℝ) : add4 (quads.map f) (quads.map g) = quads.map fun q => f q + g q := by
  unfold add4
  rw [List.zipWith_map, List.zipWith_self]

theorem sub4_map (f g : Quad → ℝ) : sub4 (quads.map f) (quads.map g) = quads.map fun q => f q - g q := by
  unfold sub4
  rw [List.zipWith_map, List.zipWith_self]

theorem scale4_map (f : Quad → ℝ) (c : ℝ) : scale4 (quads.map f) c = quads.map fun q => f q * c := by
  unfold scale4
  rw [List.map_map]; rfl

theorem zero4_map : zero4 = quads.map fun _ => 0 := by
  unfold zero4
  rw [List.map_const', quads_length]

/-- The fourth power of a vector. -/
noncomputable def H (v : Vec3 ℝ) (q : Quad) : ℝ :=
  comp v q.1 * comp v q.2.1 * comp v q.2.2.1 * comp v q.2.2.2

/-- The entries of `r4`. -/
noncomputable def R (q : Quad) : ℝ :=
  (delta q.1 q.2.1 * delta q.2.2.1 q.2.2.2 + delta q.1 q.2.2.1 * delta q.2.1 q.2.2.2 +
    delta q.1 q.2.2.2 * delta q.2.1 q.2.2.1) * (2.0 / 5.0)

theorem ip_nested (f : Quad → ℝ) : (quads.map f).sum =
    ((List.range 3).map fun i => ((List.range 3).map fun j => ((List.range 3).map fun k =>
      ((List.range 3).map fun l => f (i, j, k, l)).sum).sum).sum).sum := by
  have hf : ∀ {α : Type} (l : List ℕ) (g : ℕ → List α) (f : α → ℝ),
      ((l.flatMap g).map f).sum = (l.map fun i => ((g i).map f).sum).sum := by
    intro α l g f
    induction l with
    | nil => rfl
    | cons a l ih => simp [ih]
  unfold quads
  rw [hf]
  simp only [hf, List.map_map]
  rfl

theorem ip_H (u v : Vec3 ℝ) : ip (H u) (H v) = (Vec3.dot u v) ^ 4 := by
  unfold ip
  rw [ip_nested]
  simp only [List.range_succ, List.range_zero, List.nil_append, List.cons_append, List.map_cons,
    List.map_nil, List.sum_cons, List.sum_nil, H, comp, Vec3.dot]
  ring

theorem ip_H_R (u : Vec3 ℝ) : ip (H u) R = 6 / 5 * (Vec3.dot u u) ^ 2 := by
  unfold ip
  rw [ip_nested]
  simp only [List.range_succ, List.range_zero, List.nil_append, List.cons_append, List.map_cons,
    List.map_nil, List.sum_cons, List.sum_nil, H, R, comp, Vec3.dot, delta]
  norm_num
  ring

theorem ip_R_R : ip R R = 36 / 5 := by
  unfold ip
  rw [ip_nested]
  simp only [List.range_succ, List.range_zero, List.nil_append, List.cons_append, List.map_cons,
    List.map_nil, List.sum_cons, List.sum_nil, R, delta]
  norm_num

theorem ip_comm (f g : Quad → ℝ) : ip f g = ip g f := by
  unfold ip; congr 1; apply List.map_congr_left; intro q _; ring

theorem ip_add (f g h : Quad → ℝ) : ip (fun q => f q + g q) h = ip f h + ip g h := by
  unfold ip
  rw [← List.sum_map_add]
  congr 1; apply List.map_congr_left; intro q _; ring

theorem ip_smul (c : ℝ) (f h : Quad → ℝ) : ip (fun q => c * f q) h = c * ip f h := by
  unfold ip
  rw [← List.sum_map_mul_left]
  congr 1; apply List.map_congr_left; intro q _; ring

theorem ip_sub (f g h : Quad → ℝ) : ip (fun q => f q - g q) h = ip f h - ip g h := by
  have := ip_add (fun q => f q - g q) g h
  simp only [sub_add_cancel] at this
  linarith

theorem ip_self_nonneg (f : Quad → ℝ) : 0 ≤ ip f f := by
  unfold ip
  apply List.sum_nonneg
  intro x hx
  obtain ⟨q, _, rfl⟩ := List.mem_map.mp hx
  exact mul_self_nonneg _

theorem ip_self_zero (f : Quad → ℝ) (h : ip f f = 0) : ∀ q ∈ quads, f q = 0 := by
  intro q hq
  unfold ip at h
  have hn : ∀ x ∈ quads.map (fun q => f q * f q), (0 : ℝ) ≤ x := by
    intro x hx
    obtain ⟨q, _, rfl⟩ := List.mem_map.mp hx
    exact mul_self_nonneg _
  have := List.single_le_sum hn (f q * f q) (List.mem_map_of_mem hq)
  rw [h] at this
  exact mul_self_eq_zero.mp (le_antisymm this (mul_self_nonneg _))

/-- The sum of the fourth powers of the axes. -/
noncomputable def S (o : Quat ℝ) (q : Quad) : ℝ := ((cubeAxes o).map fun u => H u q).sum

/-- The cubatic tensor as a function. -/
noncomputable def M (o : Quat ℝ) (q : Quad) : ℝ := 2 * S o q - R q

theorem vectorSum_map (o : Quat ℝ) : vectorSum o = quads.map (S o) := by
  unfold vectorSum systemVectors
  simp only [List.foldl_cons, List.foldl_nil]
  have ht : ∀ v, tensor4 v = quads.map (H v) := fun _ => rfl
  rw [ht, ht, ht, zero4_map, add4_map, add4_map, add4_map]
  apply List.map_congr_left
  intro q _
  simp only [S, cubeAxes, List.map_cons, List.map_nil, List.sum_cons, List.sum_nil]
  ring

theorem r4_map : r4 = quads.map R := rfl

theorem cubaticTensor_map (o : Quat ℝ) : cubaticTensor o = quads.map (M o) := by
  unfold cubaticTensor
  rw [vectorSum_map, scale4_map, r4_map, sub4_map]
  apply List.map_congr_left
  intro q _
  simp only [M]
  norm_num
  ring

theorem axes_dot (o : Quat ℝ) (ho : Quat.norm2 o = 1) : ∀ u ∈ cubeAxes o, Vec3.dot u u = 1 := by
  intro u hu
  simp only [cubeAxes, List.mem_cons, List.not_mem_nil, or_false] at hu
  rcases hu with rfl | rfl | rfl <;> rw [(C53_rotate_is_rotation o ho).1] <;> norm_num [Vec3.dot]

theorem ip_S (o p : Quat ℝ) : ip (S o) (S p) = cubeOverlap o p := by
  have h1 : ∀ (f g h : Quad → ℝ) (k : Quad → ℝ), ip (fun q => f q + (g q + (h q + 0))) k =
      ip f k + (ip g k + (ip h k + 0)) := by
    intro f g h k
    have e : (fun q => f q + (g q + (h q + 0))) = fun q => f q + (g q + h q) := by
      funext q; ring
    rw [e, ip_add, ip_add, add_zero]
  have h2 : ∀ (f g h : Quad → ℝ) (k : Quad → ℝ), ip k (fun q => f q + (g q + (h q + 0))) =
      ip k f + (ip k g + (ip k h + 0)) := by
    intro f g h k
    rw [ip_comm, h1, ip_comm k f, ip_comm k g, ip_comm k h]
  have e : ∀ o, S o = fun q => H (Quat.rotate o ⟨1, 0, 0⟩) q + (H (Quat.rotate o ⟨0, 1, 0⟩) q +
      (H (Quat.rotate o ⟨0, 0, 1⟩) q + 0)) := fun o => rfl
  rw [e o, e p, h1, h2, h2, h2]
  simp only [ip_H]
  simp [cubeOverlap, cubeAxes]

theorem ip_S_R (o : Quat ℝ) (ho : Quat.norm2 o = 1) : ip (S o) R = 18 / 5 := by
  have e : S o = fun q => H (Quat.rotate o ⟨1, 0, 0⟩) q + (H (Quat.rotate o ⟨0, 1, 0⟩) q +
      (H (Quat.rotate o ⟨0, 0, 1⟩) q)) := by
    funext q; simp [S, cubeAxes]
  have ha := axes_dot o ho
  simp only [cubeAxes, List.mem_cons, List.not_mem_nil, or_false, forall_eq_or_imp, forall_eq] at ha
  rw [e, ip_add, ip_add, ip_H_R, ip_H_R, ip_H_R, ha.1, ha.2.1, ha.2.2]
  norm_num

theorem ip_M (o p : Quat ℝ) (ho : Quat.norm2 o = 1) (hp : Quat.norm2 p = 1) :
    ip (M o) (M p) = 24 / 5 * similarity o p := by
  have e : ∀ o, M o = fun q => 2 * S o q - R q := fun _ => rfl
  rw [e o, ip_sub, ip_smul, ip_comm (S o), ip_comm R, e p, ip_sub, ip_sub, ip_smul, ip_smul,
    ip_comm (S p), ip_S, ip_comm R (S o), ip_S_R o ho, ip_S_R p hp, ip_R_R]
  unfold similarity
  ring

/-- A unit vector in the axes of a cube. -/
theorem row_facts (p : Quat ℝ) (hp : Quat.norm2 p = 1) (u : Vec3 ℝ) (hu : Vec3.dot u u = 1) :
    1 / 3 ≤ ((cubeAxes p).map fun v => (Vec3.dot u v) ^ 4).sum ∧
    ((cubeAxes p).map fun v => (Vec3.dot u v) ^ 4).sum ≤ 1 ∧
    (((cubeAxes p).map fun v => (Vec3.dot u v) ^ 4).sum = 1 → ∃ v ∈ cubeAxes p, u = v ∨ u = -v) := by
  have ho : ∀ i < 3, ∀ j < 3, Vec3.dot ((cubeAxes p).getD i 0) ((cubeAxes p).getD j 0) =
      if i = j then 1 else 0 := by
    intro i hi j hj
    rcases (by omega : i = 0 ∨ i = 1 ∨ i = 2) with rfl | rfl | rfl <;>
      rcases (by omega : j = 0 ∨ j = 1 ∨ j = 2) with rfl | rfl | rfl <;>
      · show Vec3.dot (Quat.rotate p _) (Quat.rotate p _) = _
        rw [(C53_rotate_is_rotation p hp).1]
        norm_num [Vec3.dot]
  obtain ⟨h1, h2⟩ := Nematic.parseval (fun i => (cubeAxes p).getD i 0) ho u
  rw [hu] at h1
  have hm0 : (cubeAxes p).getD 0 0 ∈ cubeAxes p := by simp [cubeAxes]
  have hm1 : (cubeAxes p).getD 1 0 ∈ cubeAxes p := by simp [cubeAxes]
  have hm2 : (cubeAxes p).getD 2 0 ∈ cubeAxes p := by simp [cubeAxes]
  have hs : ((cubeAxes p).map fun v => (Vec3.dot u v) ^ 4).sum =
      (Vec3.dot u ((cubeAxes p).getD 0 0)) ^ 4 + (Vec3.dot u ((cubeAxes p).getD 1 0)) ^ 4 +
        (Vec3.dot u ((cubeAxes p).getD 2 0)) ^ 4 := by
    simp [cubeAxes]; ring
  rw [hs]
  have e0 := h2 0 (by omega)
  have e1 := h2 1 (by omega)
  have e2 := h2 2 (by omega)
  simp only [coord] at e0 e1 e2
  beta_reduce at h1
  generalize (cubeAxes p).getD 0 0 = v0 at *
  generalize (cubeAxes p).getD 1 0 = v1 at *
  generalize (cubeAxes p).getD 2 0 = v2 at *
  generalize Vec3.dot u v0 = c0 at *
  generalize Vec3.dot u v1 = c1 at *
  generalize Vec3.dot u v2 = c2 at *
  refine ⟨?_, ?_, fun h => ?_⟩
  · nlinarith [sq_nonneg (c0 ^ 2 - c1 ^ 2), sq_nonneg (c0 ^ 2 - c2 ^ 2), sq_nonneg (c1 ^ 2 - c2 ^ 2),
      congrArg (fun x => x * x) h1]
  · nlinarith [mul_nonneg (sq_nonneg c0) (sq_nonneg c1), mul_nonneg (sq_nonneg c0) (sq_nonneg c2),
      mul_nonneg (sq_nonneg c1) (sq_nonneg c2), congrArg (fun x => x * x) h1]
  · have hp : c0 ^ 2 * c1 ^ 2 + c0 ^ 2 * c2 ^ 2 + c1 ^ 2 * c2 ^ 2 = 0 := by
      linear_combination (1 / 2) * (c0 ^ 2 + c1 ^ 2 + c2 ^ 2 + 1) * h1 - (1 / 2) * h
    have n01 := mul_nonneg (sq_nonneg c0) (sq_nonneg c1)
    have n02 := mul_nonneg (sq_nonneg c0) (sq_nonneg c2)
    have n12 := mul_nonneg (sq_nonneg c1) (sq_nonneg c2)
    have z01 : c0 = 0 ∨ c1 = 0 := by
      have : c0 ^ 2 * c1 ^ 2 = 0 := by linarith
      rcases mul_eq_zero.mp this with h | h
      · exact Or.inl (pow_eq_zero_iff (by norm_num) |>.mp h)
      · exact Or.inr (pow_eq_zero_iff (by norm_num) |>.mp h)
    have z02 : c0 = 0 ∨ c2 = 0 := by
      have : c0 ^ 2 * c2 ^ 2 = 0 := by linarith
      rcases mul_eq_zero.mp this with h | h
      · exact Or.inl (pow_eq_zero_iff (by norm_num) |>.mp h)
      · exact Or.inr (pow_eq_zero_iff (by norm_num) |>.mp h)
    have z12 : c1 = 0 ∨ c2 = 0 := by
      have : c1 ^ 2 * c2 ^ 2 = 0 := by linarith
      rcases mul_eq_zero.mp this with h | h
      · exact Or.inl (pow_eq_zero_iff (by norm_num) |>.mp h)
      · exact Or.inr (pow_eq_zero_iff (by norm_num) |>.mp h)
    have fin : ∀ (c : ℝ) (v : Vec3 ℝ), c ^ 2 = 1 → u.x = c * v.x → u.y = c * v.y → u.z = c * v.z →
        u = v ∨ u = -v := by
      intro c v hc hx hy hz
      have : c = 1 ∨ c = -1 := by
        have := sq_eq_sq_iff_eq_or_eq_neg.mp (hc.trans (one_pow 2).symm)
        simpa using this
      rcases this with rfl | rfl
      · left; ext <;> simp [hx, hy, hz]
      · right; ext <;> simp [hx, hy, hz]
    by_cases h0 : c0 = 0
    · by_cases h1' : c1 = 0
      · subst h0; subst h1'
        refine ⟨v2, hm2, fin c2 v2 (by linarith) ?_ ?_ ?_⟩ <;> linarith
      · have h2' := z12.resolve_left h1'
        subst h0; subst h2'
        refine ⟨v1, hm1, fin c1 v1 (by linarith) ?_ ?_ ?_⟩ <;> linarith
    · have h1' := z01.resolve_left h0
      have h2' := z02.resolve_left h0
      subst h1'; subst h2'
      refine ⟨v0, hm0, fin c0 v0 (by linarith) ?_ ?_ ?_⟩ <;> linarith

theorem overlap_bounds (o p : Quat ℝ) (ho : Quat.norm2 o = 1) (hp : Quat.norm2 p = 1) :
    1 ≤ cubeOverlap o p ∧ cubeOverlap o p ≤ 3 ∧ (cubeOverlap o p = 3 → SameCube o p) := by
  have ha := axes_dot o ho
  have hr : ∀ u ∈ cubeAxes o, _ := fun u hu => row_facts p hp u (ha u hu)
  have h0 := hr (Quat.rotate o ⟨1, 0, 0⟩) (by simp [cubeAxes])
  have h1 := hr (Quat.rotate o ⟨0, 1, 0⟩) (by simp [cubeAxes])
  have h2 := hr (Quat.rotate o ⟨0, 0, 1⟩) (by simp [cubeAxes])
  have hs : cubeOverlap o p = ((cubeAxes p).map fun v => (Vec3.dot (Quat.rotate o ⟨1, 0, 0⟩) v) ^ 4).sum +
      ((cubeAxes p).map fun v => (Vec3.dot (Quat.rotate o ⟨0, 1, 0⟩) v) ^ 4).sum +
      ((cubeAxes p).map fun v => (Vec3.dot (Quat.rotate o ⟨0, 0, 1⟩) v) ^ 4).sum := by
    have hx : cubeAxes o = [Quat.rotate o ⟨1, 0, 0⟩, Quat.rotate o ⟨0, 1, 0⟩,
      Quat.rotate o ⟨0, 0, 1⟩] := rfl
    rw [cubeOverlap, hx]
    simp only [List.map_cons, List.map_nil, List.sum_cons, List.sum_nil]
    ring
  rw [hs]
  refine ⟨by linarith [h0.1, h1.1, h2.1], by linarith [h0.2.1, h1.2.1, h2.2.1], fun h u hu => ?_⟩
  conv at hu => rw [cubeAxes]
  simp only [List.mem_cons, List.not_mem_nil, or_false] at hu
  rcases hu with rfl | rfl | rfl
  · exact h0.2.2 (by linarith [h0.2.1, h1.2.1, h2.2.1])
  · exact h1.2.2 (by linarith [h0.2.1, h1.2.1, h2.2.1])
  · exact h2.2.2 (by linarith [h0.2.1, h1.2.1, h2.2.1])

/-- Cubes with the same axes have the same sums of even functions of the axes. -/
theorem same_sum (o p : Quat ℝ) (ho : Quat.norm2 o = 1) (h : SameCube o p) (f : Vec3 ℝ → ℝ)
    (hf : ∀ v, f (-v) = f v) : ((cubeAxes o).map f).sum = ((cubeAxes p).map f).sum := by
  have hort : ∀ a b : Vec3 ℝ, Vec3.dot a b = 0 → Vec3.dot (Quat.rotate o a) (Quat.rotate o b) = 0 :=
    fun a b hab => by rw [(C53_rotate_is_rotation o ho).1, hab]
  have hnz : ∀ u ∈ cubeAxes o, Vec3.dot u u = 1 := axes_dot o ho
  have o01 := hort ⟨1, 0, 0⟩ ⟨0, 1, 0⟩ (by norm_num [Vec3.dot])
  have o02 := hort ⟨1, 0, 0⟩ ⟨0, 0, 1⟩ (by norm_num [Vec3.dot])
  have o12 := hort ⟨0, 1, 0⟩ ⟨0, 0, 1⟩ (by norm_num [Vec3.dot])
  unfold SameCube at h
  simp only [cubeAxes, List.map_cons, List.map_nil, List.sum_cons, List.sum_nil, List.mem_cons,
    List.not_mem_nil, or_false, forall_eq_or_imp, forall_eq] at h hnz ⊢
  generalize Quat.rotate o ⟨1, 0, 0⟩ = u0 at *
  generalize Quat.rotate o ⟨0, 1, 0⟩ = u1 at *
  generalize Quat.rotate o ⟨0, 0, 1⟩ = u2 at *
  generalize Quat.rotate p ⟨1, 0, 0⟩ = v0 at *
  generalize Quat.rotate p ⟨0, 1, 0⟩ = v1 at *
  generalize Quat.rotate p ⟨0, 0, 1⟩ = v2 at *
  have ns : ∀ u u' v : Vec3 ℝ, Vec3.dot u u = 1 → Vec3.dot u u' = 0 → (u = v ∨ u = -v) →
      (u' = v ∨ u' = -v) → False := by
    rintro u u' v h1 h2 (rfl | rfl) (rfl | rfl) <;> simp [Vec3.dot] at h1 h2 <;> linarith
  have ev : ∀ u v : Vec3 ℝ, (u = v ∨ u = -v) → f u = f v := by
    rintro u v (rfl | rfl)
    · rfl
    · exact hf v
  obtain ⟨⟨a, ha, ea⟩, ⟨b, hb, eb⟩, ⟨c, hc, ec⟩⟩ := h
  rw [ev u0 a ea, ev u1 b eb, ev u2 c ec]
  have d01 : a ≠ b := fun e => ns u0 u1 a hnz.1 o01 ea (e ▸ eb)
  have d02 : a ≠ c := fun e => ns u0 u2 a hnz.1 o02 ea (e ▸ ec)
  have d12 : b ≠ c := fun e => ns u1 u2 b hnz.2.1 o12 eb (e ▸ ec)
  rcases ha with rfl | rfl | rfl <;> rcases hb with rfl | rfl | rfl <;>
    rcases hc with rfl | rfl | rfl <;>
    first
      | (exact absurd rfl d01)
      | (exact absurd rfl d02)
      | (exact absurd rfl d12)
      | ring

theorem overlap_same (o p q : Quat ℝ) (ho : Quat.norm2 o = 1) (h : SameCube o p) :
    cubeOverlap o q = cubeOverlap p q ∧ cubeOverlap q o = cubeOverlap q p := by
  constructor
  · unfold cubeOverlap
    exact same_sum o p ho h _ (fun v => by
      congr 1
      apply List.map_congr_left
      intro w _
      simp only [Vec3.dot, Vec3.neg_x, Vec3.neg_y, Vec3.neg_z]
      ring)
  · unfold cubeOverlap
    congr 1
    apply List.map_congr_left
    intro u _
    exact same_sum o p ho h _ (fun v => by
      simp only [Vec3.dot, Vec3.neg_x, Vec3.neg_y, Vec3.neg_z]
      ring)

theorem overlap_comm (o p : Quat ℝ) : cubeOverlap o p = cubeOverlap p o := by
  rw [← ip_S, ip_comm, ip_S]

theorem overlap_self (o : Quat ℝ) (ho : Quat.norm2 o = 1) : cubeOverlap o o = 3 := by
  have h : ∀ a b, Vec3.dot (Quat.rotate o a) (Quat.rotate o b) = Vec3.dot a b :=
    (C53_rotate_is_rotation o ho).1
  simp only [cubeOverlap, cubeAxes, List.map_cons, List.map_nil, List.sum_cons, List.sum_nil, h]
  norm_num [Vec3.dot]

/-! ### The mean tensor -/

/-- The mean of the tensors. -/
noncomputable def G (os : List (Quat ℝ)) (q : Quad) : ℝ := cubeMean os (fun o => M o q)

theorem ip_sum {α : Type*} (l : List α) (F : α → Quad → ℝ) (g : Quad → ℝ) :
    ip (fun q => (l.map fun o => F o q).sum) g = (l.map fun o => ip (F o) g).sum := by
  induction l with
  | nil => simp [ip]
  | cons a l ih =>
    simp only [List.map_cons, List.sum_cons]
    rw [ip_add, ih]

theorem ip_G (os : List (Quat ℝ)) (g : Quad → ℝ) : ip (G os) g = cubeMean os (fun o => ip (M o) g) := by
  have e : G os = fun q => (1 / (os.length : ℝ)) * (os.map fun o => M o q).sum := by
    funext q; simp only [G, cubeMean]; ring
  rw [e, ip_smul, ip_sum, cubeMean]
  ring

theorem cubeMean_congr (os : List (Quat ℝ)) (f g : Quat ℝ → ℝ) (h : ∀ o ∈ os, f o = g o) :
    cubeMean os f = cubeMean os g := by
  unfold cubeMean
  rw [List.map_congr_left h]

theorem cubeMean_mul (os : List (Quat ℝ)) (c : ℝ) (f : Quat ℝ → ℝ) :
    cubeMean os (fun o => c * f o) = c * cubeMean os f := by
  unfold cubeMean
  rw [List.sum_map_mul_left]
  ring

theorem cubeMean_le (os : List (Quat ℝ)) (hne : os ≠ []) (f : Quat ℝ → ℝ) (c : ℝ)
    (h : ∀ o ∈ os, f o ≤ c) : cubeMean os f ≤ c := by
  have hl : (0 : ℝ) < os.length := by exact_mod_cast List.length_pos_of_ne_nil hne
  unfold cubeMean
  rw [div_le_iff₀ hl]
  have := List.sum_le_card_nsmul (os.map f) c (by
    intro x hx; obtain ⟨o, ho, rfl⟩ := List.mem_map.mp hx; exact h o ho)
  rw [List.length_map, nsmul_eq_mul] at this
  linarith

theorem le_cubeMean (os : List (Quat ℝ)) (hne : os ≠ []) (f : Quat ℝ → ℝ) (c : ℝ)
    (h : ∀ o ∈ os, c ≤ f o) : c ≤ cubeMean os f := by
  have := cubeMean_le os hne (fun o => (-1) * f o) (-c) (fun o ho => by have := h o ho; linarith)
  rw [cubeMean_mul] at this
  linarith

theorem cubeMean_const (os : List (Quat ℝ)) (hne : os ≠ []) (f : Quat ℝ → ℝ) (c : ℝ)
    (h : ∀ o ∈ os, f o = c) : cubeMean os f = c :=
  le_antisymm (cubeMean_le os hne f c fun o ho => (h o ho).le)
    (le_cubeMean os hne f c fun o ho => (h o ho).ge)

theorem cubeMean_eq_max (os : List (Quat ℝ)) (f : Quat ℝ → ℝ) (c : ℝ)
    (h : ∀ o ∈ os, f o ≤ c) (he : (os.map f).sum = os.length * c) : ∀ o ∈ os, f o = c := by
  induction os with
  | nil => simp
  | cons a os ih =>
    have hs : (os.map f).sum ≤ os.length * c := by
      have := List.sum_le_card_nsmul (os.map f) c (by
        intro x hx; obtain ⟨o, ho, rfl⟩ := List.mem_map.mp hx; exact h o (List.mem_cons_of_mem _ ho))
      rwa [List.length_map, nsmul_eq_mul] at this
    rw [List.map_cons, List.sum_cons, List.length_cons] at he
    push_cast at he
    have ha := h a List.mem_cons_self
    intro o ho
    rcases List.mem_cons.mp ho with rfl | ho
    · linarith
    · exact ih (fun o ho => h o (List.mem_cons_of_mem _ ho)) (by linarith) o ho

/-- The order parameter of the code is that of the specification. -/
theorem orderParameter_eq (os : List (Quat ℝ)) (hu : ∀ o ∈ os, Quat.norm2 o = 1)
    (p : Quat ℝ) (hp : Quat.norm2 p = 1) :
    orderParameter (cubaticTensor p) (quads.map (G os)) = cubaticOrder os p ∧
    cubaticOrder os p = 1 - ip (fun q => G os q - M p q) (fun q => G os q - M p q) / (24 / 5) := by
  have hMM : ip (M p) (M p) = 24 / 5 := by
    rw [ip_M p p hp hp, similarity, overlap_self p hp]; norm_num
  have hGM : ip (G os) (M p) = 24 / 5 * cubeMean os (similarity p) := by
    rw [ip_G, ← cubeMean_mul]
    apply cubeMean_congr
    intro o ho
    rw [ip_M o p (hu o ho) hp, similarity, similarity, overlap_comm]
  have hGG : ip (G os) (G os) = 24 / 5 * cubeMean os (fun o => cubeMean os (similarity o)) := by
    rw [ip_G, ← cubeMean_mul]
    apply cubeMean_congr
    intro o ho
    rw [ip_comm, ip_G, ← cubeMean_mul]
    apply cubeMean_congr
    intro o' ho'
    rw [ip_M o' o (hu o' ho') (hu o ho), similarity, similarity, overlap_comm]
  have hD : ip (fun q => G os q - M p q) (fun q => G os q - M p q) =
      ip (G os) (G os) - 2 * ip (G os) (M p) + ip (M p) (M p) := by
    rw [ip_sub, ip_comm (G os), ip_comm (M p), ip_sub, ip_sub, ip_comm (M p) (G os)]
    ring
  have h2 : cubaticOrder os p =
      1 - ip (fun q => G os q - M p q) (fun q => G os q - M p q) / (24 / 5) := by
    rw [hD, hGG, hGM, hMM]
    unfold cubaticOrder
    ring
  refine ⟨?_, h2⟩
  rw [h2]
  unfold orderParameter
  rw [cubaticTensor_map, sub4_map, dot4_map, dot4_map, hMM]
  norm_num

/-! ### The loops -/

theorem globalTensor_eq (os : List (Quat ℝ)) (hne : os ≠ []) (sch : Sched)
    (h1 : sch.particles.Perm (List.range os.length)) (h2 : sch.entries.Perm (List.range 81)) :
    globalTensor os sch = some (quads.map (G os)) := by
  have hl : (0 : ℝ) < os.length := by exact_mod_cast List.length_pos_of_ne_nil hne
  obtain ⟨pt, e1, -, hpt⟩ := forEach_spec sch.particles
    (fun i _ => os[i]?.map fun o => scale4 (vectorSum o) 2.0)
    (fun i => scale4 (vectorSum (os.getD i Quat.one)) 2.0)
    (⟨[os.length], List.replicate os.length zero4⟩ : MArray (List ℝ)) os.length (by simp) h1 (by
      intro i x hx
      have hi : i < os.length := by
        have := (List.getElem?_eq_some_iff.mp hx).1
        simpa using this
      rw [List.getD_eq_getElem?_getD, List.getElem?_eq_getElem hi]
      rfl)
  have hptd : ∀ j < os.length, pt.get? j = some (quads.map fun q => S (os.getD j Quat.one) q * 2.0) := by
    intro j hj
    unfold MArray.get? MArray.size
    rw [hpt, if_neg (by simp; omega), List.getElem?_map, List.getElem?_range hj, Option.map_some,
      vectorSum_map, scale4_map]
  have hfold : ∀ (i : ℕ) (q : Quad), quads[i]? = some q → ∀ (l : List ℕ) (acc : ℝ),
      (∀ j ∈ l, j < os.length) → l.foldlM (fun acc j => (pt.get? j).bind fun t =>
        t[i]?.map fun x => acc + x) acc =
        some (acc + (l.map fun j => S (os.getD j Quat.one) q * 2.0).sum) := by
    intro i q hq l
    induction l with
    | nil => intro acc _; simp
    | cons j l ih =>
      intro acc hlt
      rw [List.foldlM_cons, hptd j (hlt j List.mem_cons_self), Option.bind_some, List.getElem?_map, hq]
      show List.foldlM _ (acc + S (os.getD j Quat.one) q * 2.0) l = _
      rw [ih _ (fun k hk => hlt k (List.mem_cons_of_mem _ hk)), List.map_cons, List.sum_cons, add_assoc]
  obtain ⟨g, e2, -, hg⟩ := forEach_spec sch.entries (fun i _ =>
      ((List.range os.length).foldlM (fun acc j => (pt.get? j).bind fun t =>
        t[i]?.map fun x => acc + x) 0).map fun v => v * (1.0 / (os.length : ℝ)))
    (fun i => (0 + ((List.range os.length).map fun j =>
      S (os.getD j Quat.one) (quads.getD i (0, 0, 0, 0)) * 2.0).sum) * (1.0 / (os.length : ℝ)))
    (⟨[81], zero4⟩ : MArray ℝ) 81 (by simp [zero4]) h2 (by
      intro i x hx
      have hi : i < quads.length := by
        have := (List.getElem?_eq_some_iff.mp hx).1
        simpa [zero4, quads_length] using this
      rw [hfold i quads[i] (List.getElem?_eq_getElem hi) _ _ (fun j hj => List.mem_range.mp hj),
        List.getD_eq_getElem?_getD, List.getElem?_eq_getElem hi]
      rfl)
  unfold globalTensor
  rw [e1, Option.bind_some, e2, Option.map_some]
  congr 1
  have hgq : g.data = quads.map (fun q => (0 + ((List.range os.length).map fun j =>
      S (os.getD j Quat.one) q * 2.0).sum) * (1.0 / (os.length : ℝ))) := by
    rw [hg]
    apply List.ext_getElem?
    intro i
    rcases Nat.lt_or_ge i 81 with hi | hi
    · rw [List.getElem?_map, List.getElem?_range hi, List.getElem?_map,
        List.getElem?_eq_getElem (by rw [quads_length]; exact hi), Option.map_some, Option.map_some,
        List.getD_eq_getElem?_getD, List.getElem?_eq_getElem (by rw [quads_length]; exact hi)]
      rfl
    · rw [List.getElem?_eq_none (by simp; omega), List.getElem?_eq_none (by simp [quads_length]; omega)]
  rw [hgq, r4_map, sub4_map]
  apply List.map_congr_left
  intro q _
  have hr : (List.range os.length).map (fun j => S (os.getD j Quat.one) q * 2.0) =
      os.map (fun o => S o q * 2.0) := by
    apply List.ext_getElem?
    intro i
    rcases Nat.lt_or_ge i os.length with hi | hi
    · rw [List.getElem?_map, List.getElem?_range hi, List.getElem?_map, List.getElem?_eq_getElem hi,
        Option.map_some, Option.map_some, List.getD_eq_getElem?_getD, List.getElem?_eq_getElem hi]
      rfl
    · rw [List.getElem?_eq_none (by simpa using hi), List.getElem?_eq_none (by simpa using hi)]
  have hm : (os.map fun o => M o q).sum = (os.map (fun o => S o q * 2.0)).sum - os.length * R q := by
    clear hr hgq hg e2 hfold hptd hpt e1 h1 hl hne
    induction os with
    | nil => simp
    | cons a os ih =>
      rw [List.map_cons, List.sum_cons, ih, List.map_cons, List.sum_cons, List.length_cons]
      have h2 : (2.0 : ℝ) = 2 := by norm_num
      unfold M
      rw [h2]
      push_cast
      ring
  rw [hr]
  unfold G cubeMean
  rw [hm]
  have h1' : (1.0 : ℝ) = 1 := by norm_num
  rw [h1', zero_add, sub_div, mul_div_cancel_left₀ _ hl.ne', mul_one_div]

theorem randomQuat_unit (s : ℕ → ℝ) (k : ℕ) (m : ℝ) : Quat.norm2 (randomQuat s k m).1 = 1 := by
  unfold randomQuat
  dsimp only
  generalize 2.0 * Real.pi * s k = t
  generalize Real.arccos (2.0 * s (k + 1) - 1.0) = f
  generalize m * s (k + 2) / 2.0 = a
  have h1 := Real.sin_sq_add_cos_sq t
  have h2 := Real.sin_sq_add_cos_sq f
  have h3 := Real.sin_sq_add_cos_sq a
  have hd : Vec3.dot (⟨Real.cos t * Real.sin f, Real.sin t * Real.sin f, Real.cos f⟩ : Vec3 ℝ)
      ⟨Real.cos t * Real.sin f, Real.sin t * Real.sin f, Real.cos f⟩ = 1 := by
    simp only [Vec3.dot]
    linear_combination (Real.sin f) ^ 2 * h1 + h2
  rw [hd, Real.sqrt_one]
  simp only [Quat.norm2, Vec3.dot, Vec3.smul]
  linear_combination (Real.sin a) ^ 2 * (Real.sin f) ^ 2 * h1 + (Real.sin a) ^ 2 * h2 + h3

/-- A state that belongs to a unit quaternion. -/
def Good (g : List ℝ) (r : Rep) : Prop :=
  Quat.norm2 r.orientation = 1 ∧ r = Rep.of g r.orientation

theorem anneal_good (p : Params) (g : List ℝ) (s : ℕ → ℝ) (fuel : ℕ) (t : ℝ) (r : Rep) (k : ℕ)
    (h : Good g r) : Good g (anneal p g s fuel t r k).1 := by
  induction fuel generalizing t r k with
  | zero => exact h
  | succ fuel ih =>
    have hn : Good g (Rep.of g (Quat.mul (randomQuat s k 0.1).1 r.orientation)) := by
      refine ⟨?_, rfl⟩
      show Quat.norm2 (Quat.mul _ _) = 1
      rw [Quat.norm2_mul, randomQuat_unit, h.1, one_mul]
    simp only [anneal]
    split_ifs
    · exact ih _ _ _ hn
    · exact ih _ _ _ hn
    · exact ih _ _ _ h
    · exact h

theorem replicate_good (p : Params) (g : List ℝ) (s : ℕ → ℝ) (k : ℕ) :
    Good g (replicate p g s k).1 :=
  anneal_good p g s _ _ _ _ ⟨randomQuat_unit s k 1.0, rfl⟩

/-- Replicate number `j` of a block whose generator has given `k` numbers so far. -/
noncomputable def seqRep (p : Params) (g : List ℝ) (s : ℕ → ℝ) (k : ℕ) : ℕ → Rep × ℕ
  | 0 => replicate p g s k
  | j + 1 => replicate p g s (seqRep p g s k j).2

theorem seqRep_succ (p : Params) (g : List ℝ) (s : ℕ → ℝ) (k j : ℕ) :
    seqRep p g s (replicate p g s k).2 j = seqRep p g s k (j + 1) := by
  induction j with
  | zero => rfl
  | succ j ih => rw [seqRep, ih]; rfl

theorem seqRep_good (p : Params) (g : List ℝ) (s : ℕ → ℝ) (k j : ℕ) :
    Good g (seqRep p g s k j).1 := by
  cases j <;> exact replicate_good p g s _

theorem block_eq (p : Params) (g : List ℝ) (s : ℕ → ℝ) (i m k : ℕ) (a : MArray Rep)
    (hlt : i + m ≤ a.data.length) :
    ∃ a', block p g s (List.range' i m) k a = some a' ∧ a'.data.length = a.data.length ∧
      ∀ j, a'.data[j]? = if i ≤ j ∧ j < i + m then some (seqRep p g s k (j - i)).1 else a.data[j]? := by
  induction m generalizing i k a with
  | zero => exact ⟨a, rfl, rfl, fun j => by rw [if_neg (by omega)]⟩
  | succ m ih =>
    rw [List.range'_succ]
    set a1 : MArray Rep := ⟨a.shape, a.data.set i (replicate p g s k).1⟩ with ha1
    have hlen : a1.data.length = a.data.length := List.length_set
    obtain ⟨a', e, hl, hv⟩ := ih (i + 1) (replicate p g s k).2 a1 (by rw [hlen]; omega)
    refine ⟨a', ?_, hl.trans hlen, fun j => ?_⟩
    · have hs : a.set? i (replicate p g s k).1 = some a1 := by
        unfold MArray.set? MArray.size
        rw [if_neg (by omega)]
      simp only [block, hs, Option.bind_some]
      exact e
    · rw [hv j]
      by_cases h1 : i + 1 ≤ j ∧ j < i + 1 + m
      · rw [if_pos h1, if_pos (by omega), seqRep_succ, show j - (i + 1) + 1 = j - i by omega]
      · rw [if_neg h1]
        by_cases h2 : j = i
        · subst h2
          rw [if_pos (by omega), Nat.sub_self, ha1]
          simp only [List.getElem?_set_self (by omega : j < a.data.length)]
          rfl
        · rw [if_neg (by omega), ha1]
          simp only [List.getElem?_set_ne (by omega : i ≠ j)]

theorem blocks_eq (p : Params) (g : List ℝ) (rng : ℕ → ℕ → ℝ) (blocks : List (ℕ × ℕ)) (a : MArray Rep)
    (hnd : (blocks.flatMap (fun be => List.range' be.1 (be.2 - be.1))).Nodup)
    (hlt : ∀ j ∈ blocks.flatMap (fun be => List.range' be.1 (be.2 - be.1)), j < a.data.length) :
    ∃ a', blocks.foldlM (fun a be =>
        block p g (rng be.1) (List.range' be.1 (be.2 - be.1)) 0 a) a = some a' ∧
      a'.data.length = a.data.length ∧
      (∀ be ∈ blocks, ∀ j, be.1 ≤ j → j < be.2 →
        a'.data[j]? = some (seqRep p g (rng be.1) 0 (j - be.1)).1) ∧
      ∀ j, j ∉ blocks.flatMap (fun be => List.range' be.1 (be.2 - be.1)) →
        a'.data[j]? = a.data[j]? := by
  induction blocks generalizing a with
  | nil => exact ⟨a, rfl, rfl, by simp, fun _ _ => rfl⟩
  | cons be bs ih =>
    rw [List.flatMap_cons, List.nodup_append] at hnd
    obtain ⟨-, hnd2, hdis⟩ := hnd
    simp only [List.flatMap_cons, List.mem_append] at hlt
    have hb : be.1 + (be.2 - be.1) ≤ a.data.length ∨ be.2 - be.1 = 0 := by
      rcases Nat.eq_zero_or_pos (be.2 - be.1) with h | h
      · exact Or.inr h
      · left
        have := hlt (be.1 + (be.2 - be.1) - 1) (Or.inl (by rw [List.mem_range'_1]; omega))
        omega
    obtain ⟨a1, e1, hl1, hv1⟩ : ∃ a', block p g (rng be.1) (List.range' be.1 (be.2 - be.1)) 0 a = some a' ∧
        a'.data.length = a.data.length ∧ ∀ j, a'.data[j]? =
          if be.1 ≤ j ∧ j < be.1 + (be.2 - be.1) then some (seqRep p g (rng be.1) 0 (j - be.1)).1
          else a.data[j]? := by
      rcases hb with hb | hb
      · exact block_eq p g (rng be.1) be.1 _ 0 a hb
      · rw [hb]
        exact ⟨a, rfl, rfl, fun j => by rw [if_neg (by omega)]⟩
    obtain ⟨a', e, hl, hv, hk⟩ := ih a1 hnd2 (fun j hj => by rw [hl1]; exact hlt j (Or.inr hj))
    refine ⟨a', ?_, hl.trans hl1, ?_, ?_⟩
    · rw [List.foldlM_cons, e1]; exact e
    · intro be' hbe' j h1 h2
      rcases List.mem_cons.mp hbe' with rfl | hbe'
      · rw [hk j (fun hj => hdis j (by rw [List.mem_range'_1]; omega) j hj rfl), hv1 j,
          if_pos (by omega)]
      · exact hv be' hbe' j h1 h2
    · intro j hj
      rw [List.flatMap_cons, List.mem_append] at hj
      push Not at hj
      rw [hk j hj.2, hv1 j, if_neg]
      intro hh
      exact hj.1 (by rw [List.mem_range'_1]; omega)

theorem best_eq (a : MArray Rep) (n : ℕ) (hn : 0 < n) (hl : a.data.length = n) :
    ∃ (m : ℕ) (r : Rep), best a n = some m ∧ m < n ∧ a.get? m = some r ∧
      (∀ (i : ℕ) (r' : Rep), a.data[i]? = some r' → r'.order ≤ r.order) ∧
      ∀ (i : ℕ) (r' : Rep), i < m → a.data[i]? = some r' → r'.order < r.order := by
  have hget : ∀ i < n, a.get? i = a.data[i]? := by
    intro i hi
    unfold MArray.get? MArray.size
    rw [if_neg (by omega)]
  have key : ∀ (c : ℕ), c + 1 ≤ n → ∃ (m : ℕ) (r : Rep),
      (List.range' 1 c).foldlM (fun (m : ℕ × ℝ) i => (a.get? i).map fun r =>
        if r.order > m.2 then (i, r.order) else m) (0, (a.data[0]'(by omega)).order) =
          some (m, r.order) ∧ m ≤ c ∧ a.data[m]? = some r ∧
      (∀ (i : ℕ) (r' : Rep), i ≤ c → a.data[i]? = some r' → r'.order ≤ r.order) ∧
      ∀ (i : ℕ) (r' : Rep), i < m → a.data[i]? = some r' → r'.order < r.order := by
    intro c
    induction c with
    | zero =>
      intro hc
      refine ⟨0, a.data[0]'(by omega), rfl, le_rfl, List.getElem?_eq_getElem _, ?_, by omega⟩
      intro i r' hi hr
      obtain rfl : i = 0 := by omega
      rw [List.getElem?_eq_getElem (by omega)] at hr
      rw [← Option.some.inj hr]
    | succ c ih =>
      intro hc
      obtain ⟨m, r, e, hm, hr, hmax, hfirst⟩ := ih (by omega)
      rw [List.range'_1_concat, List.foldlM_append, e]
      have hg : a.get? (1 + c) = some (a.data[1 + c]'(by omega)) := by
        rw [hget _ (by omega)]; exact List.getElem?_eq_getElem _
      by_cases hgt : (a.data[1 + c]'(by omega)).order > r.order
      · refine ⟨1 + c, a.data[1 + c]'(by omega), ?_, by omega, List.getElem?_eq_getElem _, ?_, ?_⟩
        · simp only [Option.bind_eq_bind, Option.bind_some, List.foldlM_cons, hg, Option.map_some,
            if_pos hgt, List.foldlM_nil]
          rfl
        · intro i r' hi hr'
          rcases Nat.lt_or_ge c i with h | h
          · obtain rfl : i = 1 + c := by omega
            rw [List.getElem?_eq_getElem (by omega)] at hr'
            rw [← Option.some.inj hr']
          · exact (hmax i r' h hr').trans hgt.le
        · intro i r' hi hr'
          exact (hmax i r' (by omega) hr').trans_lt hgt
      · refine ⟨m, r, ?_, by omega, hr, ?_, hfirst⟩
        · simp only [Option.bind_eq_bind, Option.bind_some, List.foldlM_cons, hg, Option.map_some,
            if_neg hgt, List.foldlM_nil]
          rfl
        · intro i r' hi hr'
          rcases Nat.lt_or_ge c i with h | h
          · obtain rfl : i = 1 + c := by omega
            rw [List.getElem?_eq_getElem (by omega)] at hr'
            rw [← Option.some.inj hr']
            exact not_lt.mp hgt
          · exact hmax i r' h hr'
  obtain ⟨m, r, e, hm, hr, hmax, hfirst⟩ := key (n - 1) (by omega)
  refine ⟨m, r, ?_, by omega, by rw [hget m (by omega), hr], ?_, hfirst⟩
  · unfold best
    rw [hget 0 hn, List.getElem?_eq_getElem (by omega), Option.bind_some, e]
    rfl
  · intro i r' hr'
    exact hmax i r' (by have := (List.getElem?_eq_some_iff.mp hr').1; omega) hr'

end Cubatic
end Freud
