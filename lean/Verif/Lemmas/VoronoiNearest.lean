import Verif.Lemmas.VoronoiTurned

/-!
# Lemmas: the closest sites share facets
-/

namespace Freud
open Spec Voronoi

namespace Diagram

theorem norm_sq (v : Vec3 ℝ) : Vec3.norm v ^ 2 = Vec3.dot v v := by
  unfold Vec3.norm
  refine Real.sq_sqrt ?_
  simp only [Vec3.dot]; nlinarith [mul_self_nonneg v.x, mul_self_nonneg v.y, mul_self_nonneg v.z]

theorem norm_nonneg (v : Vec3 ℝ) : 0 ≤ Vec3.norm v := Real.sqrt_nonneg _

theorem norm_pos {v : Vec3 ℝ} (h : v ≠ ⟨0, 0, 0⟩) : 0 < Vec3.norm v := by
  refine lt_of_le_of_ne (norm_nonneg v) fun h0 => h ?_
  apply Rigid.eq_of_dot
  rw [← norm_sq, ← h0]
  norm_num

theorem dot_le (u v : Vec3 ℝ) : Vec3.dot u v ≤ Vec3.norm u * Vec3.norm v := by
  refine (abs_le_of_sq_le_sq' ?_ (mul_nonneg (norm_nonneg u) (norm_nonneg v))).2
  rw [mul_pow, norm_sq, norm_sq]
  have : Vec3.dot u u * Vec3.dot v v - Vec3.dot u v ^ 2 =
      Vec3.dot (Vec3.cross u v) (Vec3.cross u v) := by
    simp only [Vec3.dot, Vec3.cross]
    ring
  have h0 : 0 ≤ Vec3.dot (Vec3.cross u v) (Vec3.cross u v) := by
    rw [← norm_sq]; exact sq_nonneg _
  linarith

theorem norm_add_le (u v : Vec3 ℝ) : Vec3.norm (u + v) ≤ Vec3.norm u + Vec3.norm v := by
  refine (abs_le_of_sq_le_sq' ?_ (add_nonneg (norm_nonneg u) (norm_nonneg v))).2
  have : Vec3.dot (u + v) (u + v) = Vec3.dot u u + 2 * Vec3.dot u v + Vec3.dot v v := by
    simp only [Vec3.dot, Vec3.add_x, Vec3.add_y, Vec3.add_z]
    ring
  rw [norm_sq, this, ← norm_sq, ← norm_sq]
  nlinarith [dot_le u v]

/-- If all small enough vectors across `v` lead from the middle between `s` and `s + v` to positions of
the region of `s`, the regions of `s` and `s + v` share a facet. -/
theorem broad_of_small {k : Container} {points : List (Vec3 ℝ)} (s v : Vec3 ℝ) (hv : v ≠ ⟨0, 0, 0⟩)
    (ε : ℝ) (hε : 0 < ε)
    (h : ∀ w, Vec3.dot v w = 0 → Vec3.norm w ≤ ε → s + Vec3.smul (1 / 2) v + w ∈ region k points s) :
    Broad (shared k points s (s + v)) := by
  obtain ⟨e, he⟩ : ∃ e : Vec3 ℝ, Vec3.cross v e ≠ ⟨0, 0, 0⟩ := by
    by_contra hcon
    push Not at hcon
    have h1 := hcon ⟨1, 0, 0⟩
    have h2 := hcon ⟨0, 1, 0⟩
    simp only [Vec3.cross, Vec3.mk.injEq, mul_zero, mul_one, sub_zero, zero_sub, neg_eq_zero] at h1 h2
    exact hv (Vec3.ext h2.2.2 h1.2.2 h1.2.1)
  set w1 := Vec3.cross v e
  set w2 := Vec3.cross v w1
  have d1 : Vec3.dot v w1 = 0 := by simp only [w1, Vec3.dot, Vec3.cross]; ring
  have d2 : Vec3.dot v w2 = 0 := by simp only [w2, Vec3.dot, Vec3.cross]; ring
  have hcross : Vec3.cross w1 w2 = Vec3.smul (Vec3.dot w1 w1) v := by
    have : Vec3.cross w1 w2 = Vec3.smul (Vec3.dot w1 w1) v - Vec3.smul (Vec3.dot v w1) w1 := by
      simp only [w2]
      ext <;> simp only [Vec3.cross, Vec3.dot, Vec3.smul_x, Vec3.smul_y, Vec3.smul_z, Vec3.sub_x,
        Vec3.sub_y, Vec3.sub_z] <;> ring
    rw [this, d1]
    ext <;> simp
  have small : ∀ w : Vec3 ℝ, ∃ c : ℝ, 0 < c ∧ Vec3.norm (Vec3.smul c w) ≤ ε := by
    intro w
    refine ⟨ε / (Vec3.norm w + 1), div_pos hε (by linarith [norm_nonneg w]), ?_⟩
    have hn : ∀ (c : ℝ), 0 ≤ c → Vec3.norm (Vec3.smul c w) = c * Vec3.norm w := by
      intro c hc
      unfold Vec3.norm
      have : Vec3.dot (Vec3.smul c w) (Vec3.smul c w) = c ^ 2 * Vec3.dot w w := by
        simp only [Vec3.dot, Vec3.smul_x, Vec3.smul_y, Vec3.smul_z]; ring
      rw [this, Real.sqrt_mul (sq_nonneg c), Real.sqrt_sq hc]
    have hp : 0 < Vec3.norm w + 1 := by linarith [norm_nonneg w]
    rw [hn _ (div_pos hε hp).le, div_mul_eq_mul_div, div_le_iff₀ hp]
    nlinarith [norm_nonneg w]
  obtain ⟨c1, hc1, hs1⟩ := small w1
  obtain ⟨c2, hc2, hs2⟩ := small w2
  have mem : ∀ w, Vec3.dot v w = 0 → Vec3.norm w ≤ ε →
      s + Vec3.smul (1 / 2) v + w ∈ shared k points s (s + v) := by
    intro w hw hn
    refine ⟨h w hw hn, ?_⟩
    unfold Vec3.norm
    congr 1
    simp only [Vec3.dot, Vec3.sub_x, Vec3.sub_y, Vec3.sub_z, Vec3.add_x, Vec3.add_y, Vec3.add_z,
      Vec3.smul_x, Vec3.smul_y, Vec3.smul_z] at hw ⊢
    linear_combination 2 * hw
  have hd : ∀ (c : ℝ) (w : Vec3 ℝ), Vec3.dot v w = 0 → Vec3.dot v (Vec3.smul c w) = 0 := by
    intro c w hw
    have : Vec3.dot v (Vec3.smul c w) = c * Vec3.dot v w := by
      simp only [Vec3.dot, Vec3.smul_x, Vec3.smul_y, Vec3.smul_z]; ring
    rw [this, hw, mul_zero]
  refine ⟨_, mem ⟨0, 0, 0⟩ (by simp [Vec3.dot]) (by simpa [Vec3.norm, Vec3.dot] using hε.le), _,
    mem _ (hd c1 w1 d1) hs1, _, mem _ (hd c2 w2 d2) hs2, ?_⟩
  intro h0
  have e1 : Vec3.cross (s + Vec3.smul (1 / 2) v + Vec3.smul c1 w1 - (s + Vec3.smul (1 / 2) v + ⟨0, 0, 0⟩))
      (s + Vec3.smul (1 / 2) v + Vec3.smul c2 w2 - (s + Vec3.smul (1 / 2) v + ⟨0, 0, 0⟩)) =
      Vec3.smul (c1 * c2 * Vec3.dot w1 w1) v := by
    have e2 : ∀ u : Vec3 ℝ, s + Vec3.smul (1 / 2) v + u - (s + Vec3.smul (1 / 2) v + ⟨0, 0, 0⟩) = u :=
      fun u => by ext <;> simp
    have e3 : Vec3.cross (Vec3.smul c1 w1) (Vec3.smul c2 w2) = Vec3.smul (c1 * c2) (Vec3.cross w1 w2) := by
      ext <;> simp only [Vec3.cross, Vec3.smul_x, Vec3.smul_y, Vec3.smul_z] <;> ring
    rw [e2, e2, e3, hcross]
    ext <;> simp <;> ring
  rw [e1] at h0
  have hw1 : Vec3.dot w1 w1 ≠ 0 := fun h0 => he (Rigid.eq_of_dot h0)
  have hc : c1 * c2 * Vec3.dot w1 w1 ≠ 0 := mul_ne_zero (mul_pos hc1 hc2).ne' hw1
  simp only [Vec3.ext_iff, Vec3.smul_x, Vec3.smul_y, Vec3.smul_z] at h0
  refine hv (Vec3.ext ?_ ?_ ?_)
  · exact (mul_eq_zero.mp h0.1).resolve_left hc
  · exact (mul_eq_zero.mp h0.2.1).resolve_left hc
  · exact (mul_eq_zero.mp h0.2.2).resolve_left hc

end Diagram
end Freud
