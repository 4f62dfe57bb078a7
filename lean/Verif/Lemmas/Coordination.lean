import Verif.Spec.Coordination
import Verif.Props.NeighborLoop
import Mathlib.Analysis.Convex.SpecificFunctions.Basic

/-!
# Lemmas about continuous coordination numbers
-/

namespace Freud
namespace Coordination
open Spec

theorem sum_le_of {f g : ℝ → ℝ} (l : List ℝ) (h : ∀ x ∈ l, g x ≤ f x) :
    (l.map g).sum ≤ (l.map f).sum ∧
      ((l.map f).sum = (l.map g).sum ↔ ∀ x ∈ l, f x = g x) := by
  induction l with
  | nil => simp
  | cons a l ih =>
    obtain ⟨h1, h2⟩ := ih fun x hx => h x (by simp [hx])
    have ha := h a (by simp)
    simp only [List.map_cons, List.sum_cons, List.mem_cons, forall_eq_or_imp]
    refine ⟨by linarith, ?_⟩
    rw [← h2]
    constructor
    · intro e; exact ⟨by linarith, by linarith⟩
    · rintro ⟨e1, e2⟩; rw [e1, e2]

/-- The elements of a list with sum 1 are all equal exactly if they are all the mean. -/
theorem allEqual_iff (l : List ℝ) (hs : l.sum = 1) :
    AllEqual l ↔ ∀ x ∈ l, x = 1 / l.length := by
  constructor
  · intro h x hx
    have he : l = List.replicate l.length x := List.eq_replicate_iff.mpr ⟨rfl, fun y hy => h y hy x hx⟩
    have hl : (l.length : ℝ) ≠ 0 := by
      have := List.length_pos_of_mem hx
      positivity
    have : l.sum = l.length * x := by
      conv_lhs => rw [he]
      simp
    rw [eq_div_iff hl]
    linarith
  · intro h x hx y hy
    rw [h x hx, h y hy]

theorem sum_affine (l : List ℝ) (a b : ℝ) :
    (l.map fun x => a + b * x).sum = l.length * a + b * l.sum := by
  induction l with
  | nil => simp
  | cons x l ih => simp only [List.map_cons, List.sum_cons, List.length_cons, ih]; push_cast; ring

theorem exp_bound (l : List ℝ) (h0 : l ≠ []) (hs : l.sum = 1) :
    (l.length : ℝ) ≤ coordExp l ∧ (coordExp l = l.length ↔ AllEqual l) := by
  have hl : (l.length : ℝ) ≠ 0 := by
    have := List.length_pos_of_ne_nil h0
    positivity
  have hsum : (l.map fun x : ℝ => (1 - 1 / l.length) + 1 * x).sum = l.length := by
    rw [sum_affine, hs]; field_simp; ring
  obtain ⟨h1, h2⟩ := sum_le_of (f := fun x => Real.exp (x - 1 / l.length))
    (g := fun x => (1 - 1 / l.length) + 1 * x) l (fun x _ => by
      have := Real.add_one_le_exp (x - 1 / l.length); linarith)
  rw [hsum] at h1 h2
  refine ⟨h1, ?_⟩
  unfold coordExp
  rw [h2, allEqual_iff l hs]
  refine forall₂_congr fun x _ => ?_
  constructor
  · intro e
    by_contra hne
    have := Real.add_one_lt_exp (sub_ne_zero.mpr hne)
    linarith
  · rintro e
    rw [e]; simp

theorem log_bound (l : List ℝ) (h2 : 2 ≤ l.length) (hp : ∀ x ∈ l, 0 < x) (hs : l.sum = 1) :
    (l.length : ℝ) ≤ coordLog l ∧ (coordLog l = l.length ↔ AllEqual l) := by
  have hn : (2 : ℝ) ≤ l.length := by exact_mod_cast h2
  have hl : (l.length : ℝ) ≠ 0 := by linarith
  have hlog : 0 < Real.log l.length := Real.log_pos (by linarith)
  have hsum : (l.map fun x => (1 + Real.log l.length) + (-(l.length : ℝ)) * x).sum
      = l.length * Real.log l.length := by
    rw [sum_affine, hs]; ring
  have key : ∀ x ∈ l, -Real.log x = Real.log l.length - Real.log (l.length * x) := by
    intro x hx
    rw [Real.log_mul hl (hp x hx).ne']; ring
  obtain ⟨h3, h4⟩ := sum_le_of (f := fun x => -Real.log x)
    (g := fun x => (1 + Real.log l.length) + (-(l.length : ℝ)) * x) l (fun x hx => by
      show _ ≤ -Real.log x
      rw [key x hx]
      have := Real.log_le_sub_one_of_pos (mul_pos (show (0:ℝ) < l.length by linarith) (hp x hx))
      linarith)
  rw [hsum] at h3 h4
  have hneg : (l.map fun x => -Real.log x).sum = -(l.map Real.log).sum := by
    clear h3 h4 hsum key hs h2 hn hl hlog hp
    induction l with
    | nil => simp
    | cons x l ih => simp only [List.map_cons, List.sum_cons, ih]; ring
  have hval : coordLog l = (l.map fun x => -Real.log x).sum / Real.log l.length := by
    rw [hneg]; unfold coordLog; ring
  rw [hval]
  refine ⟨by rw [le_div_iff₀ hlog]; exact h3, ?_⟩
  rw [div_eq_iff hlog.ne', h4, allEqual_iff l hs]
  refine forall₂_congr fun x hx => ?_
  rw [key x hx]
  constructor
  · intro e
    by_contra hne
    have hne' : (l.length : ℝ) * x ≠ 1 := fun e' => hne (by rw [eq_div_iff hl]; linarith)
    have := Real.log_lt_sub_one_of_pos (mul_pos (show (0:ℝ) < l.length by linarith) (hp x hx)) hne'
    linarith
  · intro e
    rw [e, mul_one_div_cancel hl, Real.log_one, neg_mul, mul_one_div_cancel hl]
    ring

theorem pow_pos_sum (m : ℝ) (l : List ℝ) (h0 : l ≠ []) (hp : ∀ x ∈ l, 0 < x) :
    0 < (l.map (· ^ m)).sum := by
  refine List.sum_pos _ ?_ (by simpa using h0)
  intro y hy
  obtain ⟨x, hx, rfl⟩ := List.mem_map.mp hy
  exact Real.rpow_pos_of_pos (hp x hx) m

theorem pow_scale (m : ℝ) (l : List ℝ) (hp : ∀ x ∈ l, 0 < x) (c : ℝ) (hc : 0 < c) :
    (l.map (· ^ m)).sum = c ^ (-m) * (l.map fun x => (c * x) ^ m).sum := by
  rw [← List.sum_map_mul_left]
  congr 1
  refine List.map_congr_left fun x hx => ?_
  rw [Real.mul_rpow hc.le (hp x hx).le, ← mul_assoc, ← Real.rpow_add hc]
  simp

/-- The power sum compared with that of equal parts, when the power lies above its tangent. -/
theorem coordPower_eq (m : ℝ) (l : List ℝ) (h0 : l ≠ []) (hp : ∀ x ∈ l, 0 < x) :
    coordPower m l = (l.length : ℝ) * (l.length / (l.map fun x : ℝ => (l.length * x) ^ m).sum) := by
  have hl : (0 : ℝ) < l.length := by
    have := List.length_pos_of_ne_nil h0
    positivity
  unfold coordPower
  rw [pow_scale m l hp l.length hl, show (2 : ℝ) - m = 2 + (-m) by ring, Real.rpow_add hl]
  have h3 : (l.length : ℝ) ^ (-m) ≠ 0 := (Real.rpow_pos_of_pos hl _).ne'
  rw [mul_comm ((l.length : ℝ) ^ (2:ℝ)), mul_div_mul_left _ _ h3]
  rw [Real.rpow_two]
  ring

theorem power_bound (m : ℝ) (hm : 1 < m) (l : List ℝ) (h0 : l ≠ []) (hp : ∀ x ∈ l, 0 < x)
    (hs : l.sum = 1) :
    coordPower m l ≤ l.length ∧ (coordPower m l = l.length ↔ AllEqual l) := by
  have hl : (0 : ℝ) < l.length := by
    have := List.length_pos_of_ne_nil h0
    positivity
  have hsum : (l.map fun x => (1 - m) + (m * l.length) * x).sum = l.length := by
    rw [sum_affine, hs]; ring
  obtain ⟨h3, h4⟩ := sum_le_of (f := fun x => (l.length * x) ^ m)
    (g := fun x => (1 - m) + (m * l.length) * x) l (fun x hx => by
      have := one_add_mul_self_le_rpow_one_add (s := l.length * x - 1)
        (by have := mul_pos hl (hp x hx); linarith) hm.le
      rw [add_sub_cancel] at this
      linarith)
  rw [hsum] at h3 h4
  have hS : 0 < (l.map fun x : ℝ => (l.length * x) ^ m).sum := lt_of_lt_of_le hl h3
  rw [coordPower_eq m l h0 hp]
  refine ⟨?_, ?_⟩
  · have : (l.length : ℝ) / (l.map fun x : ℝ => (l.length * x) ^ m).sum ≤ 1 := (div_le_one hS).mpr h3
    nlinarith
  · rw [show (l.length : ℝ) * (l.length / (l.map fun x : ℝ => (l.length * x) ^ m).sum) = l.length ↔
        (l.map fun x : ℝ => (l.length * x) ^ m).sum = l.length by
      rw [mul_div_assoc', div_eq_iff hS.ne']
      constructor
      · intro e; exact (mul_left_cancel₀ hl.ne' e).symm
      · intro e; rw [e]]
    rw [h4, allEqual_iff l hs]
    refine forall₂_congr fun x hx => ?_
    constructor
    · intro e
      by_contra hne
      have hne' : (l.length : ℝ) * x - 1 ≠ 0 := fun e' => hne (by rw [eq_div_iff hl.ne']; linarith)
      have := one_add_mul_self_lt_rpow_one_add (s := l.length * x - 1)
        (by have := mul_pos hl (hp x hx); linarith) hne' hm
      rw [add_sub_cancel] at this
      linarith
    · intro e
      rw [e, mul_one_div_cancel hl.ne', Real.one_rpow]
      field_simp
      ring

theorem power_one (l : List ℝ) (hs : l.sum = 1) : coordPower 1 l = l.length := by
  unfold coordPower
  simp only [Real.rpow_one, List.map_id', hs]
  norm_num

end Coordination
end Freud
