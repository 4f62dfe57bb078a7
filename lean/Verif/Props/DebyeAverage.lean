import Verif.Lemmas.Sphere
import Verif.Props.Debye
import Verif.Props.Direct
import Verif.Lemmas.Periodic
import Mathlib.Analysis.Real.Pi.Bounds

/-!
# Property C122: the Debye structure factor is the direct one averaged over all directions
-/

namespace Freud
open Spec

/-- The mean over all directions in the plane. -/
noncomputable def Spec.circleMean (g : Vec3 ℝ → ℝ) : ℝ :=
  (∫ t in (0 : ℝ)..2 * Real.pi, g ⟨Real.cos t, Real.sin t, 0⟩) / (2 * Real.pi)

/-- The mean over all directions in space. -/
noncomputable def Spec.sphereMean (g : Vec3 ℝ → ℝ) : ℝ :=
  (∫ θ in (0 : ℝ)..Real.pi, (∫ t in (0 : ℝ)..2 * Real.pi,
    g ⟨Real.sin θ * Real.cos t, Real.sin θ * Real.sin t, Real.cos θ⟩) * Real.sin θ) / (4 * Real.pi)

/-- The mean over all directions in a system of this dimension. -/
noncomputable def Spec.directionMean (b : Box ℝ) (g : Vec3 ℝ → ℝ) : ℝ :=
  if b.is2D then circleMean g else sphereMean g

/-- The direct structure factor with the separations in the box instead of the differences of coordinates. -/
noncomputable def Spec.directNearest (f : SFArgs) (k : Vec3 ℝ) : ℝ :=
  (f.points.map (fun p => ((sfQuery f).map (fun q =>
    Real.cos (Vec3.dot k (f.box.wrap (q - p))))).sum)).sum / (sfTotal f : ℝ)

/-- The box is legal, and in two dimensions all points are in the plane. -/
structure Spec.SFSystem (f : SFArgs) : Prop where
  box : Valid f.box
  points : ∀ p ∈ f.points, Planar f.box p
  query : ∀ q ∈ sfQuery f, Planar f.box q

namespace DebyeAverage

theorem bessel_circle (R : ℝ) :
    ∫ t in (0 : ℝ)..2 * Real.pi, Real.cos (R * Real.sin t) = 2 * Real.pi * besselJ0 R := by
  have hc : Continuous fun t => Real.cos (R * Real.sin t) := by fun_prop
  rw [← intervalIntegral.integral_add_adjacent_intervals (b := Real.pi) (hc.intervalIntegrable _ _)
    (hc.intervalIntegrable _ _)]
  have e : ∫ t in Real.pi..2 * Real.pi, Real.cos (R * Real.sin t) =
      ∫ t in (0 : ℝ)..Real.pi, Real.cos (R * Real.sin t) := by
    have := intervalIntegral.integral_comp_add_right (a := 0) (b := Real.pi)
      (fun t => Real.cos (R * Real.sin t)) Real.pi
    rw [zero_add, ← two_mul] at this
    rw [← this]
    congr 1
    ext t
    rw [Real.sin_add_pi, mul_neg, Real.cos_neg]
  rw [e, besselJ0]
  have := Real.pi_ne_zero
  field_simp
  ring

theorem circle_pair (k : ℝ) {v : Vec3 ℝ} (hv : v.z = 0) :
    ∫ t in (0 : ℝ)..2 * Real.pi, Real.cos (Vec3.dot (Vec3.smul k ⟨Real.cos t, Real.sin t, 0⟩) v) =
      2 * Real.pi * besselJ0 (k * Vec3.norm v) := by
  have e : ∀ t, Real.cos (Vec3.dot (Vec3.smul k ⟨Real.cos t, Real.sin t, 0⟩) v) =
      Real.cos ((k * v.x) * Real.cos t + (k * v.y) * Real.sin t) := fun t => by
    congr 1
    simp only [Vec3.dot, Vec3.smul]
    ring
  simp only [e]
  rw [Sphere.circle_axis, ← bessel_circle]
  have h2 := Sphere.circle_axis Real.cos 0 (k * Vec3.norm v)
  simp only [zero_mul, zero_add] at h2
  rw [h2]
  congr 1
  ext t
  congr 3
  rw [mul_pow, mul_pow, mul_pow, Vec3.norm, Real.sq_sqrt (by simp only [Vec3.dot]; nlinarith [mul_self_nonneg v.x, mul_self_nonneg v.y, mul_self_nonneg v.z])]
  simp only [Vec3.dot, hv]
  ring

theorem sphere_pair (k : ℝ) (v : Vec3 ℝ) :
    ∫ θ in (0 : ℝ)..Real.pi, (∫ t in (0 : ℝ)..2 * Real.pi, Real.cos (Vec3.dot (Vec3.smul k
      ⟨Real.sin θ * Real.cos t, Real.sin θ * Real.sin t, Real.cos θ⟩) v)) * Real.sin θ =
      4 * Real.pi * Real.sinc (k * Vec3.norm v) := by
  have e : ∀ θ t, Real.cos (Vec3.dot (Vec3.smul k
      ⟨Real.sin θ * Real.cos t, Real.sin θ * Real.sin t, Real.cos θ⟩) v) =
      Real.cos ((k * v.x) * (Real.sin θ * Real.cos t) + (k * v.y) * (Real.sin θ * Real.sin t) +
        (k * v.z) * Real.cos θ) := fun θ t => by
    congr 1
    simp only [Vec3.dot, Vec3.smul]
    ring
  simp only [e]
  rw [Sphere.sphere_wave]
  congr 1
  have h : √((k * v.x) ^ 2 + (k * v.y) ^ 2 + (k * v.z) ^ 2) = |k * Vec3.norm v| := by
    rw [← Real.sqrt_sq_eq_abs, mul_pow k (Vec3.norm v), Vec3.norm, Real.sq_sqrt (by
      simp only [Vec3.dot]; nlinarith [mul_self_nonneg v.x, mul_self_nonneg v.y, mul_self_nonneg v.z])]
    congr 1
    simp only [Vec3.dot]
    ring
  rw [h]
  rcases abs_choice (k * Vec3.norm v) with h | h <;> rw [h]
  rw [Real.sinc_neg]

theorem integral_list {α : Type*} (l : List α) (F : α → ℝ → ℝ) (hF : ∀ x, Continuous (F x)) (a b : ℝ) :
    ∫ t in a..b, (l.map fun x => F x t).sum = (l.map fun x => ∫ t in a..b, F x t).sum ∧
      Continuous fun t => (l.map fun x => F x t).sum := by
  induction l with
  | nil => exact ⟨by simp, by simpa using continuous_const⟩
  | cons x l ih =>
    simp only [List.map_cons, List.sum_cons]
    refine ⟨?_, (hF x).add ih.2⟩
    rw [intervalIntegral.integral_add ((hF x).intervalIntegrable _ _) (ih.2.intervalIntegrable _ _), ih.1]

theorem isImage_self (b : Box ℝ) (v : Vec3 ℝ) : IsImage b v v :=
  ⟨⟨0, 0, 0⟩, ⟨fun _ => rfl, fun _ => rfl, fun _ => rfl⟩, by
    apply Vec3.ext <;> simp [lattice, comb]⟩

/-- Means over the directions of a double sum. -/
theorem circle_sum {α β : Type*} (l : List α) (l' : List β) (F : α → β → Vec3 ℝ → ℝ) (n : ℝ)
    (hF : ∀ x y, Continuous fun t : ℝ => F x y ⟨Real.cos t, Real.sin t, 0⟩) :
    circleMean (fun v => (l.map fun x => (l'.map fun y => F x y v).sum).sum / n) =
      (l.map fun x => (l'.map fun y => circleMean (F x y)).sum).sum / n := by
  unfold circleMean
  rw [intervalIntegral.integral_div, (integral_list l (fun x t => (l'.map fun y => F x y
    ⟨Real.cos t, Real.sin t, 0⟩).sum) (fun x => (integral_list l' _ (hF x) 0 0).2) _ _).1]
  have e : ∀ x, ∫ t in (0 : ℝ)..2 * Real.pi, (l'.map fun y => F x y ⟨Real.cos t, Real.sin t, 0⟩).sum =
      (l'.map fun y => ∫ t in (0 : ℝ)..2 * Real.pi, F x y ⟨Real.cos t, Real.sin t, 0⟩).sum :=
    fun x => (integral_list l' _ (hF x) _ _).1
  simp only [e, div_eq_mul_inv, List.sum_map_mul_right]
  ring

theorem sphere_sum {α β : Type*} (l : List α) (l' : List β) (F : α → β → Vec3 ℝ → ℝ) (n : ℝ)
    (hF : ∀ x y, Continuous fun p : ℝ × ℝ =>
      F x y ⟨Real.sin p.1 * Real.cos p.2, Real.sin p.1 * Real.sin p.2, Real.cos p.1⟩) :
    sphereMean (fun v => (l.map fun x => (l'.map fun y => F x y v).sum).sum / n) =
      (l.map fun x => (l'.map fun y => sphereMean (F x y)).sum).sum / n := by
  unfold sphereMean
  have hF' : ∀ x y (θ : ℝ), Continuous fun t : ℝ =>
      F x y ⟨Real.sin θ * Real.cos t, Real.sin θ * Real.sin t, Real.cos θ⟩ :=
    fun x y θ => (hF x y).comp (f := fun t : ℝ => (θ, t)) (by fun_prop)
  have hI : ∀ x y, Continuous fun θ : ℝ => (∫ t in (0 : ℝ)..2 * Real.pi,
      F x y ⟨Real.sin θ * Real.cos t, Real.sin θ * Real.sin t, Real.cos θ⟩) * Real.sin θ := by
    intro x y
    refine Continuous.mul ?_ Real.continuous_sin
    apply intervalIntegral.continuous_parametric_intervalIntegral_of_continuous'
    exact hF x y
  have e : ∀ θ : ℝ, (∫ t in (0 : ℝ)..2 * Real.pi, (l.map fun x => (l'.map fun y =>
        F x y ⟨Real.sin θ * Real.cos t, Real.sin θ * Real.sin t, Real.cos θ⟩).sum).sum / n) * Real.sin θ =
      (l.map fun x => (l'.map fun y => (∫ t in (0 : ℝ)..2 * Real.pi,
        F x y ⟨Real.sin θ * Real.cos t, Real.sin θ * Real.sin t, Real.cos θ⟩) * Real.sin θ).sum).sum * n⁻¹ := by
    intro θ
    rw [intervalIntegral.integral_div, (integral_list l (fun x t => (l'.map fun y => F x y
      ⟨Real.sin θ * Real.cos t, Real.sin θ * Real.sin t, Real.cos θ⟩).sum)
      (fun x => (integral_list l' _ (fun y => hF' x y θ) 0 0).2) _ _).1]
    have e : ∀ x, ∫ t in (0 : ℝ)..2 * Real.pi,
        (l'.map fun y => F x y ⟨Real.sin θ * Real.cos t, Real.sin θ * Real.sin t, Real.cos θ⟩).sum =
        (l'.map fun y => ∫ t in (0 : ℝ)..2 * Real.pi,
          F x y ⟨Real.sin θ * Real.cos t, Real.sin θ * Real.sin t, Real.cos θ⟩).sum :=
      fun x => (integral_list l' _ (fun y => hF' x y θ) _ _).1
    simp only [e, List.sum_map_mul_right]
    ring
  simp only [e]
  rw [intervalIntegral.integral_mul_const, (integral_list l (fun x θ => (l'.map fun y => (∫ t in (0 : ℝ)..2 * Real.pi,
    F x y ⟨Real.sin θ * Real.cos t, Real.sin θ * Real.sin t, Real.cos θ⟩) * Real.sin θ).sum)
    (fun x => (integral_list l' _ (hI x) 0 0).2) _ _).1]
  have e : ∀ x, ∫ θ in (0 : ℝ)..Real.pi, (l'.map fun y => (∫ t in (0 : ℝ)..2 * Real.pi,
      F x y ⟨Real.sin θ * Real.cos t, Real.sin θ * Real.sin t, Real.cos θ⟩) * Real.sin θ).sum =
      (l'.map fun y => ∫ θ in (0 : ℝ)..Real.pi, (∫ t in (0 : ℝ)..2 * Real.pi,
        F x y ⟨Real.sin θ * Real.cos t, Real.sin θ * Real.sin t, Real.cos θ⟩) * Real.sin θ).sum :=
    fun x => (integral_list l' _ (hI x) _ _).1
  rw [List.map_congr_left fun x _ => e x]
  simp only [div_eq_mul_inv, List.sum_map_mul_right]
  ring

end DebyeAverage

open DebyeAverage

/-- The means are means: of a constant they are the constant. -/
theorem C122_mean_const (b : Box ℝ) (c : ℝ) : directionMean b (fun _ => c) = c := by
  have := Real.pi_ne_zero
  unfold directionMean circleMean sphereMean
  split_ifs
  · simp
  · simp; field_simp; ring

/-- **C122**: the Debye formula is the mean over all directions of the direct formula with the separations that the
box gives. -/
theorem C122_average_nearest (f : SFArgs) (hf : SFSystem f) (k : ℝ) :
    debyeS f k = directionMean f.box (fun n => directNearest f (Vec3.smul k n)) := by
  unfold debyeS directionMean directNearest
  have := Real.pi_ne_zero
  split_ifs with h2
  · rw [circle_sum f.points (sfQuery f) (fun p q n => Real.cos (Vec3.dot (Vec3.smul k n) (f.box.wrap (q - p)))) _
      (fun p q => by simp only [Vec3.dot, Vec3.smul]; fun_prop)]
    congr 2
    refine List.map_congr_left fun p hp => congrArg List.sum (List.map_congr_left fun q hq => ?_)
    have hz : (f.box.wrap (q - p)).z = 0 :=
      wrap_planar hf.box _ (planar_sub (hf.query q hq) (hf.points p hp)) h2
    rw [circleMean, circle_pair k hz, Box.computeDistance]
    field_simp
  · rw [sphere_sum f.points (sfQuery f) (fun p q n => Real.cos (Vec3.dot (Vec3.smul k n) (f.box.wrap (q - p)))) _
      (fun p q => by simp only [Vec3.dot, Vec3.smul]; fun_prop)]
    congr 2
    refine List.map_congr_left fun p hp => congrArg List.sum (List.map_congr_left fun q hq => ?_)
    rw [sphereMean, sphere_pair, Box.computeDistance]
    field_simp

/-- All points are closer than `r` to all query points, in plain coordinates, and `r` is at most half of the box:
such a system does not see its images. -/
def Spec.Compact (f : SFArgs) (r : ℝ) : Prop :=
  BelowHalf f.box r ∧ ∀ p ∈ f.points, ∀ q ∈ sfQuery f, Vec3.norm (q - p) < r

/-- **C122**: for a system that is smaller than half of its box, the Debye formula is the mean over all directions of
the direct structure factor. -/
theorem C122_average (f : SFArgs) (hf : SFSystem f) (r : ℝ) (hr : Compact f r) (k : ℝ) :
    debyeS f k = directionMean f.box (fun n => directS f (Vec3.smul k n)) := by
  rw [C122_average_nearest f hf k]
  congr 1
  ext n
  unfold directNearest directS
  congr 2
  refine List.map_congr_left fun p hp => congrArg List.sum (List.map_congr_left fun q hq => ?_)
  rw [(wrap_of_short hf.box hr.1 (planar_sub (hf.query q hq) (hf.points p hp)) (isImage_self _ _) (hr.2 p hp q hq)).1]

/-- **C122** (API): after any history of calls on systems smaller than half of their boxes, reading the structure
factor gives, for each of the k values, the mean over the calls of the direct structure factor averaged over all
directions. -/
theorem C122_read (bins : ℕ) (kMax kMin : ℝ) (a : RegularAxis ℝ)
    (ha : Debye.mkAxis bins kMax kMin = .ok a) (hs : bins ≤ OVERFLOW_BIN)
    (history : List Debye.Op) (hl : ∀ o ∈ history, DebyeLegal bins o)
    (order : List ℕ) (hord : order.Perm (List.range bins))
    (hf : debyeFrames history [] ≠ [])
    (hc : ∀ f ∈ debyeFrames history [], SFSystem f ∧ ∃ r, Compact f r) :
    ∃ s s', (Debye.new a).run history = some s ∧
      s.read order = some (s', .value ((List.range bins).map (fun i : ℕ =>
        callMean (fun f => directionMean f.box (fun n => directS f
          (Vec3.smul (kMin + (i : ℝ) * ((kMax - kMin) / ((bins : ℝ) - 1))) n))) (debyeFrames history [])))) := by
  obtain ⟨s, s', e, e', -⟩ := Debye.C54_mean bins kMax kMin a ha hs history hl order hord hf
  refine ⟨s, s', e, ?_⟩
  rw [e']
  congr 3
  refine List.map_congr_left fun i _ => ?_
  unfold callMean
  congr 2
  refine List.map_congr_left fun f hf => ?_
  obtain ⟨h, r, hr⟩ := hc f hf
  exact C122_average f h r hr _

theorem DebyeAverage.directionMean_nonneg (b : Box ℝ) (g : Vec3 ℝ → ℝ) (h : ∀ n, 0 ≤ g n) : 0 ≤ directionMean b g := by
  have hp := Real.pi_pos
  unfold directionMean circleMean sphereMean
  split_ifs
  · exact div_nonneg (intervalIntegral.integral_nonneg (by linarith) fun _ _ => h _) (by linarith)
  · refine div_nonneg (intervalIntegral.integral_nonneg hp.le fun θ hθ => mul_nonneg
      (intervalIntegral.integral_nonneg (by linarith) fun _ _ => h _) (Real.sin_nonneg_of_mem_Icc hθ)) (by linarith)

/-- **C122** (sign): for a system smaller than half of its box and without query points the Debye structure factor is
nowhere negative. -/
theorem C122_nonneg (f : SFArgs) (hf : SFSystem f) (r : ℝ) (hr : Compact f r) (hp : f.points ≠ [])
    (hq : f.queryPoints = none) (hn : f.nTotal = none) (k : ℝ) : 0 ≤ debyeS f k := by
  rw [C122_average f hf r hr k]
  exact directionMean_nonneg _ _ fun n => (Direct.C55_range f hp hq hn _).1

/-- Two particles, in space and in the plane. -/
example (L : ℝ) (two : Bool) (hL : if two then L = 0 else L = 10) :
    let f : SFArgs := ⟨Box.mk' 10 10 L 0 0 0 two, [⟨0, 0, 0⟩, ⟨1, 2, 0⟩], none, none⟩
    SFSystem f ∧ Compact f 3 := by
  have key : ∀ p ∈ [(⟨0, 0, 0⟩ : Vec3 ℝ), ⟨1, 2, 0⟩], p.z = 0 := by simp
  have h3 : ∀ p ∈ [(⟨0, 0, 0⟩ : Vec3 ℝ), ⟨1, 2, 0⟩], ∀ q ∈ [(⟨0, 0, 0⟩ : Vec3 ℝ), ⟨1, 2, 0⟩],
      Vec3.norm (q - p) < 3 := by
    intro p hp q hq
    simp only [List.mem_cons, List.not_mem_nil, or_false] at hp hq
    rcases hp with rfl | rfl <;> rcases hq with rfl | rfl <;>
      (rw [Vec3.norm, Real.sqrt_lt' (by norm_num)]; simp [Vec3.dot]; try norm_num)
  cases two
  · subst hL
    refine ⟨⟨by constructor <;> simp [Box.mk', Box.setL], fun p hp _ => key p hp, fun q hq _ => key q hq⟩, ?_, h3⟩
    refine ⟨fun _ => ?_, fun _ => ?_, fun _ _ => ?_⟩ <;>
      simp [Box.mk', Box.setL, Box.getNearestPlaneDistance] <;> norm_num
  · subst hL
    refine ⟨⟨by constructor <;> simp [Box.mk', Box.setL], fun p hp _ => key p hp, fun q hq _ => key q hq⟩, ?_, h3⟩
    refine ⟨fun _ => ?_, fun _ => ?_, fun _ h => by cases h⟩ <;>
      simp [Box.mk', Box.setL, Box.getNearestPlaneDistance] <;> norm_num

/-! ### A periodic system -/

/-- A layer of nine particles that fills a box periodically, in steps of one. -/
noncomputable def Spec.nineLayer : SFArgs where
  box := Box.mk' 3 3 10 0 0 0 false
  points := [⟨-1, -1, 0⟩, ⟨0, -1, 0⟩, ⟨1, -1, 0⟩, ⟨-1, 0, 0⟩, ⟨0, 0, 0⟩, ⟨1, 0, 0⟩, ⟨-1, 1, 0⟩, ⟨0, 1, 0⟩, ⟨1, 1, 0⟩]
  queryPoints := none
  nTotal := none

namespace DebyeAverage

theorem nine_valid : Valid (Box.mk' 3 3 10 0 0 0 false : Box ℝ) := by
  constructor <;> simp [Box.mk', Box.setL]

theorem nine_wrap (x y : ℝ) (n m : ℤ) (hx : |x + 3 * n| ≤ 1) (hy : |y + 3 * m| ≤ 1) :
    (Box.mk' 3 3 10 0 0 0 false : Box ℝ).wrap ⟨x, y, 0⟩ = ⟨x + 3 * n, y + 3 * m, 0⟩ := by
  have hhalf : BelowHalf (Box.mk' 3 3 10 0 0 0 false : Box ℝ) (29 / 20) := by
    refine ⟨fun _ => ?_, fun _ => ?_, fun _ _ => ?_⟩ <;>
      simp [Box.mk', Box.setL, Box.getNearestPlaneDistance] <;> norm_num
  refine (wrap_of_short nine_valid hhalf (fun h => by cases h) ⟨⟨n, m, 0⟩, ?_, ?_⟩ ?_).1
  · refine ⟨fun h => ?_, fun h => ?_, fun h => rfl⟩ <;> simp [Box.mk', Box.setL] at h
  · ext <;> simp [lattice, comb, a1, a2, a3, Box.mk', Box.setL] <;> ring
  · rw [Vec3.norm, Real.sqrt_lt' (by norm_num)]
    simp only [Vec3.dot]
    rw [abs_le] at hx hy
    nlinarith [hx.1, hx.2, hy.1, hy.2]

end DebyeAverage

/-- **C122** (the size matters): when the particles fill the box, the Debye formula with the nearest images can be
negative, although no structure factor is: the layer of nine particles has a negative value at `k = 7π/6`. -/
theorem C122_periodic_counterexample : debyeS nineLayer (7 * Real.pi / 6) < 0 := by
  have hw : ∀ (x y : ℝ) (n m : ℤ), |x + 3 * n| ≤ 1 → |y + 3 * m| ≤ 1 →
      Vec3.norm ((Box.mk' 3 3 10 0 0 0 false : Box ℝ).wrap ⟨x, y, 0⟩) = √((x + 3 * n) ^ 2 + (y + 3 * m) ^ 2) := by
    intro x y n m hx hy
    rw [nine_wrap x y n m hx hy, Vec3.norm]
    congr 1
    simp only [Vec3.dot]
    ring
  have one : ∀ x : ℝ, (x = 1 ∨ x = -1 ∨ x = 2 ∨ x = -2) → ∃ n : ℤ, |x + 3 * n| ≤ 1 ∧ (x + 3 * n) ^ 2 = 1 := by
    rintro x (rfl | rfl | rfl | rfl)
    · exact ⟨0, by norm_num, by norm_num⟩
    · exact ⟨0, by norm_num, by norm_num⟩
    · exact ⟨-1, by norm_num, by norm_num⟩
    · exact ⟨1, by norm_num, by norm_num⟩
  have o1 := one 1 (by norm_num)
  have o2 := one (-1) (by norm_num)
  have o3 := one 2 (by norm_num)
  have o4 := one (-2) (by norm_num)
  have e0 : Vec3.norm ((Box.mk' 3 3 10 0 0 0 false : Box ℝ).wrap ⟨0, 0, 0⟩) = 0 := by
    rw [hw 0 0 0 0 (by norm_num) (by norm_num)]; norm_num
  have e10 : ∀ x : ℝ, (∃ n : ℤ, |x + 3 * n| ≤ 1 ∧ (x + 3 * n) ^ 2 = 1) →
      Vec3.norm ((Box.mk' 3 3 10 0 0 0 false : Box ℝ).wrap ⟨x, 0, 0⟩) = 1 := by
    rintro x ⟨n, h1, h2⟩
    rw [hw x 0 n 0 h1 (by norm_num), h2]; norm_num
  have e01 : ∀ x : ℝ, (∃ n : ℤ, |x + 3 * n| ≤ 1 ∧ (x + 3 * n) ^ 2 = 1) →
      Vec3.norm ((Box.mk' 3 3 10 0 0 0 false : Box ℝ).wrap ⟨0, x, 0⟩) = 1 := by
    rintro x ⟨n, h1, h2⟩
    rw [hw 0 x 0 n (by norm_num) h1, h2]; norm_num
  have e11 : ∀ x y : ℝ, (∃ n : ℤ, |x + 3 * n| ≤ 1 ∧ (x + 3 * n) ^ 2 = 1) →
      (∃ n : ℤ, |y + 3 * n| ≤ 1 ∧ (y + 3 * n) ^ 2 = 1) →
      Vec3.norm ((Box.mk' 3 3 10 0 0 0 false : Box ℝ).wrap ⟨x, y, 0⟩) = √2 := by
    rintro x y ⟨n, h1, h2⟩ ⟨m, h3, h4⟩
    rw [hw x y n m h1 h3, h2, h4]; norm_num
  have hsub : ∀ x y z x' y' z' : ℝ, (⟨x, y, z⟩ : Vec3 ℝ) - ⟨x', y', z'⟩ = ⟨x - x', y - y', z - z'⟩ :=
    fun _ _ _ _ _ _ => rfl
  have key : debyeS nineLayer (7 * Real.pi / 6) =
      1 + 4 * Real.sinc (7 * Real.pi / 6) + 4 * Real.sinc (7 * Real.pi / 6 * √2) := by
    have h2 : (Box.mk' 3 3 10 0 0 0 false : Box ℝ).is2D = false := rfl
    unfold debyeS sfQuery sfTotal nineLayer
    simp only [h2, Bool.false_eq_true, if_false, Option.getD_none, Box.computeDistance, List.map_cons, List.map_nil,
      List.sum_cons, List.sum_nil, List.length_cons, List.length_nil, hsub]
    norm_num only []
    simp only [e0, e10 1 o1, e10 (-1) o2, e10 2 o3, e10 (-2) o4, e01 1 o1, e01 (-1) o2, e01 2 o3, e01 (-2) o4, e11
      1 1 o1 o1, e11 1 (-1) o1 o2, e11 1 2 o1 o3, e11 1 (-2) o1 o4, e11 (-1) 1 o2 o1, e11 (-1) (-1) o2
      o2, e11 (-1) 2 o2 o3, e11 (-1) (-2) o2 o4, e11 2 1 o3 o1, e11 2 (-1) o3 o2, e11 2 2 o3 o3, e11 2
      (-2) o3 o4, e11 (-2) 1 o4 o1, e11 (-2) (-1) o4 o2, e11 (-2) 2 o4 o3, e11 (-2) (-2) o4 o4]
    simp only [mul_zero, mul_one, Real.sinc_zero]
    ring
  have hp := Real.pi_pos
  have hp3 := Real.pi_gt_three
  have hp4 := Real.pi_lt_d2
  have h2 : √2 * √2 = 2 := Real.mul_self_sqrt (by norm_num)
  have hs1 : 1.414 < √2 := Real.lt_sqrt_of_sq_lt (by norm_num)
  have hs2 : √2 < 1.415 := (Real.sqrt_lt' (by norm_num)).mpr (by norm_num)
  have s1 : Real.sin (7 * Real.pi / 6) = -(1 / 2) := by
    rw [show 7 * Real.pi / 6 = Real.pi / 6 + Real.pi by ring, Real.sin_add_pi, Real.sin_pi_div_six]
  have s2 : Real.sin (7 * Real.pi / 6 * √2) ≤ -(7 / 8) := by
    have hy : Real.sin (7 * Real.pi / 6 * √2) = -Real.cos (7 * Real.pi / 6 * √2 - 3 * Real.pi / 2) := by
      rw [show 7 * Real.pi / 6 * √2 - 3 * Real.pi / 2 = (7 * Real.pi / 6 * √2 + Real.pi / 2) - 2 * Real.pi by ring,
        Real.cos_sub_two_pi, Real.cos_add_pi_div_two, neg_neg]
    rw [hy]
    have hc := Real.one_sub_sq_div_two_le_cos (x := 7 * Real.pi / 6 * √2 - 3 * Real.pi / 2)
    have l1 : 0 ≤ 7 * Real.pi / 6 * √2 - 3 * Real.pi / 2 := by nlinarith
    have l2 : 7 * Real.pi / 6 * √2 - 3 * Real.pi / 2 ≤ 1 / 2 := by nlinarith
    nlinarith
  rw [key, Real.sinc_of_ne_zero (by positivity), Real.sinc_of_ne_zero (by positivity), s1]
  have hd : 0 < 7 * Real.pi / 6 * √2 := by positivity
  have hq : Real.sin (7 * Real.pi / 6 * √2) / (7 * Real.pi / 6 * √2) ≤ -(7 / 8) / (7 * Real.pi / 6 * √2) := by
    gcongr
  have hr : -(7 / 8) / (7 * Real.pi / 6 * √2) ≤ -(1 / 6) := by
    rw [div_le_iff₀ hd]
    nlinarith
  have hr' : -(1 / 2) / (7 * Real.pi / 6) < -(1 / 8) := by
    rw [div_lt_iff₀ (by positivity)]
    nlinarith
  linarith

end Freud
