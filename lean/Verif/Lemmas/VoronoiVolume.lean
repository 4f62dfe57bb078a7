import Mathlib.Algebra.Module.ZLattice.Basic
import Mathlib.MeasureTheory.Measure.Lebesgue.EqHaar

/-!
# The cells of a periodic Voronoi diagram fill a fundamental domain
-/

namespace Freud
namespace VoronoiVolume

open MeasureTheory Submodule Pointwise

/-- The square of the distance. -/
def d2 (x y : Fin 3 → ℝ) : ℝ := ∑ k, (x k - y k) ^ 2

theorem d2_add (x y g : Fin 3 → ℝ) : d2 (x + g) (y + g) = d2 x y := by
  unfold d2
  refine Finset.sum_congr rfl fun k _ => ?_
  simp only [Pi.add_apply]
  ring

theorem d2_continuous (y : Fin 3 → ℝ) : Continuous fun x => d2 x y := by
  unfold d2
  fun_prop

theorem d2_continuous' (x : Fin 3 → ℝ) : Continuous fun y => d2 x y := by
  unfold d2
  fun_prop

/-- Points as far from one point as from another one lie on a plane. -/
theorem bisector_null (s t : Fin 3 → ℝ) (h : s ≠ t) : volume {x | d2 x s = d2 x t} = 0 := by
  by_cases hne : {x | d2 x s = d2 x t} = ∅
  · rw [hne]; exact measure_empty
  obtain ⟨p, hp⟩ := Set.nonempty_iff_ne_empty.mpr hne
  let φ : (Fin 3 → ℝ) →ₗ[ℝ] ℝ := ∑ k, (t k - s k) • LinearMap.proj k
  have hφ : ∀ x, φ x = ∑ k, (t k - s k) * x k := fun x => by simp [φ, LinearMap.sum_apply]
  have hval : ∀ x, d2 x s = d2 x t → 2 * φ x = ∑ k, (t k ^ 2 - s k ^ 2) := by
    intro x hx
    rw [hφ, Finset.mul_sum]
    have : ∑ k, ((t k ^ 2 - s k ^ 2) - 2 * ((t k - s k) * x k)) = d2 x t - d2 x s := by
      unfold d2
      rw [← Finset.sum_sub_distrib]
      exact Finset.sum_congr rfl fun k _ => by ring
    rw [Finset.sum_sub_distrib, hx, sub_self] at this
    linarith
  have hsub : {x | d2 x s = d2 x t} ⊆ (AffineSubspace.mk' p (LinearMap.ker φ) : Set (Fin 3 → ℝ)) := by
    intro x hx
    rw [SetLike.mem_coe, AffineSubspace.mem_mk', LinearMap.mem_ker, vsub_eq_sub, map_sub]
    have h1 := hval x hx
    have h2 := hval p hp
    linarith
  refine measure_mono_null hsub (Measure.addHaar_affineSubspace volume _ ?_)
  intro htop
  have hd : LinearMap.ker φ = ⊤ := by
    rw [← AffineSubspace.direction_mk' p (LinearMap.ker φ), htop, AffineSubspace.direction_top]
  have h0 : φ (t - s) = 0 := by
    have : (t - s) ∈ LinearMap.ker φ := by rw [hd]; exact Submodule.mem_top
    exact LinearMap.mem_ker.mp this
  rw [hφ] at h0
  apply h
  funext k
  have h1 : ∀ k ∈ Finset.univ, 0 ≤ (t k - s k) * (t - s) k := fun k _ => by
    rw [Pi.sub_apply]; exact mul_self_nonneg _
  have h2 := (Finset.sum_eq_zero_iff_of_nonneg h1).mp h0 k (Finset.mem_univ k)
  rw [Pi.sub_apply, mul_self_eq_zero, sub_eq_zero] at h2
  exact h2.symm

variable (b : Module.Basis (Fin 3) ℝ (Fin 3 → ℝ)) {N : ℕ} (q : Fin N → Fin 3 → ℝ)

/-- The points at least as close to `q i` as to all images of all points. -/
def cell (i : Fin N) : Set (Fin 3 → ℝ) := {x | ∀ j, ∀ g ∈ span ℤ (Set.range b), d2 x (q i) ≤ d2 x (q j + g)}

theorem cell_closed (i : Fin N) : IsClosed (cell b q i) := by
  have : cell b q i = ⋂ j, ⋂ g ∈ span ℤ (Set.range b), {x | d2 x (q i) ≤ d2 x (q j + g)} := by
    ext x; simp [cell]
  rw [this]
  refine isClosed_iInter fun j => isClosed_iInter fun g => isClosed_iInter fun _ => ?_
  exact isClosed_le (d2_continuous _) (d2_continuous _)

theorem sites_closed : IsClosed (⋃ i, (fun g => q i + g) '' (span ℤ (Set.range b) : Set (Fin 3 → ℝ))) := by
  refine isClosed_iUnion_of_finite fun i => ?_
  have h : IsClosed ((span ℤ (Set.range b)).toAddSubgroup : Set (Fin 3 → ℝ)) :=
    AddSubgroup.isClosed_of_discrete
  exact (Homeomorph.addLeft (q i)).isClosedMap _ h

/-- Every point has a closest image. -/
theorem nearest (hN : 0 < N) (x : Fin 3 → ℝ) :
    ∃ i, ∃ g ∈ span ℤ (Set.range b), ∀ j, ∀ h ∈ span ℤ (Set.range b), d2 x (q i + g) ≤ d2 x (q j + h) := by
  set S := ⋃ i, (fun g => q i + g) '' (span ℤ (Set.range b) : Set (Fin 3 → ℝ)) with hS
  have h0 : q ⟨0, hN⟩ ∈ S := Set.mem_iUnion.mpr ⟨⟨0, hN⟩, 0, Submodule.zero_mem _, by simp⟩
  obtain ⟨y, hy, hmin⟩ := (d2_continuous' x).continuousOn.exists_isMinOn' (sites_closed b q) h0 (by
    refine Filter.Eventually.filter_mono inf_le_left ?_
    have hR := Metric.isCompact_iff_isClosed_bounded.mpr ⟨Metric.isClosed_closedBall (x := x)
      (ε := Real.sqrt (d2 x (q ⟨0, hN⟩))), Metric.isBounded_closedBall⟩
    filter_upwards [hR.compl_mem_cocompact] with y hy
    rw [Set.mem_compl_iff, Metric.mem_closedBall, not_le] at hy
    by_contra hlt
    rw [not_le] at hlt
    apply absurd hy
    rw [not_lt, dist_pi_le_iff (Real.sqrt_nonneg _)]
    intro k
    rw [Real.dist_eq]
    refine Real.abs_le_sqrt ?_
    refine le_trans ?_ hlt.le
    have : (x k - y k) ^ 2 ≤ d2 x y :=
      Finset.single_le_sum (f := fun k => (x k - y k) ^ 2) (fun k _ => sq_nonneg _) (Finset.mem_univ k)
    linarith [this, sq_nonneg (x k - y k), (by ring : (y k - x k) ^ 2 = (x k - y k) ^ 2)])
  obtain ⟨i, g, hg, rfl⟩ := Set.mem_iUnion.mp hy
  refine ⟨i, g, hg, fun j h hh => ?_⟩
  exact hmin (Set.mem_iUnion.mpr ⟨j, h, hh, rfl⟩)

/-- The cells of the points add up to the volume of the parallelepiped. -/
theorem sum_volume (hN : 0 < N) (hq : ∀ i j, i ≠ j → ∀ g ∈ span ℤ (Set.range b), q i ≠ q j + g) :
    ∑ i, volume (cell b q i) = ENNReal.ofReal |(Matrix.of b).det| := by
  have hoverlap : ∀ (i j : Fin N) (g h : span ℤ (Set.range b)), (i, g) ≠ (j, h) →
      volume ((g +ᵥ cell b q i) ∩ (h +ᵥ cell b q j)) = 0 := by
    intro i j g h hne
    refine measure_mono_null ?_ (bisector_null (q i + g) (q j + h) ?_)
    · rintro _ ⟨⟨x, hx, rfl⟩, ⟨y, hy, e⟩⟩
      have e' : (h : Fin 3 → ℝ) + y = g + x := e
      show d2 ((g : Fin 3 → ℝ) + x) _ = d2 ((g : Fin 3 → ℝ) + x) _
      have h1 : d2 ((g : Fin 3 → ℝ) + x) (q i + g) ≤ d2 ((g : Fin 3 → ℝ) + x) (q j + h) := by
        have := hx j ((h : Fin 3 → ℝ) - g) (Submodule.sub_mem _ h.2 g.2)
        rw [← d2_add x (q i) g, ← d2_add x (q j + ((h : Fin 3 → ℝ) - g)) g] at this
        rw [add_comm (g : Fin 3 → ℝ) x]
        convert this using 2
        abel
      have h2 : d2 ((g : Fin 3 → ℝ) + x) (q j + h) ≤ d2 ((g : Fin 3 → ℝ) + x) (q i + g) := by
        have := hy i ((g : Fin 3 → ℝ) - h) (Submodule.sub_mem _ g.2 h.2)
        rw [← d2_add y (q j) h, ← d2_add y (q i + ((g : Fin 3 → ℝ) - h)) h, add_comm y, e'] at this
        convert this using 2
        abel
      exact le_antisymm h1 h2
    · intro he
      by_cases hij : i = j
      · subst hij
        exact hne (by rw [Prod.mk.injEq]; exact ⟨rfl, Subtype.ext (add_left_cancel he)⟩)
      · refine hq i j hij ((h : Fin 3 → ℝ) - g) (Submodule.sub_mem _ h.2 g.2) ?_
        rw [← add_sub_assoc, ← he, add_sub_cancel_right]
  have hdisj : ∀ i j, i ≠ j → AEDisjoint volume (cell b q i) (cell b q j) := by
    intro i j hij
    have := hoverlap i j 0 0 (by simp [hij])
    simpa [AEDisjoint, zero_vadd] using this
  have hF : IsAddFundamentalDomain (span ℤ (Set.range b)) (⋃ i, cell b q i) volume := by
    refine ⟨?_, ?_, ?_⟩
    · exact (MeasurableSet.iUnion fun i => (cell_closed b q i).measurableSet).nullMeasurableSet
    · refine Filter.Eventually.of_forall fun x => ?_
      obtain ⟨i, g, hg, hmin⟩ := nearest b q hN x
      refine ⟨⟨-g, Submodule.neg_mem _ hg⟩, Set.mem_iUnion.mpr ⟨i, fun j h hh => ?_⟩⟩
      show d2 (-g + x) (q i) ≤ d2 (-g + x) (q j + h)
      have := hmin j (h + g) (Submodule.add_mem _ hh hg)
      rw [← d2_add (-g + x) (q i) g, ← d2_add (-g + x) (q j + h) g]
      convert this using 2 <;> abel
    · intro g h hgh
      show volume ((g +ᵥ ⋃ i, cell b q i) ∩ (h +ᵥ ⋃ i, cell b q i)) = 0
      rw [Set.vadd_set_iUnion, Set.vadd_set_iUnion, Set.iUnion_inter, measure_iUnion_null_iff]
      intro i
      rw [Set.inter_iUnion, measure_iUnion_null_iff]
      intro j
      exact hoverlap i j g h fun e => hgh (Prod.mk.inj e).2
  haveI : VAddInvariantMeasure (span ℤ (Set.range b)) (Fin 3 → ℝ) volume :=
    inferInstanceAs (VAddInvariantMeasure (span ℤ (Set.range b)).toAddSubgroup (Fin 3 → ℝ) volume)
  have h1 := hF.measure_eq (ZSpan.isAddFundamentalDomain b volume)
  rw [ZSpan.volume_fundamentalDomain, measure_iUnion₀ (fun i j hij => hdisj i j hij)
    (fun i => (cell_closed b q i).measurableSet.nullMeasurableSet), tsum_fintype] at h1
  exact h1

/-- Other images keep away from a point. -/
theorem apart (hq : ∀ i j, i ≠ j → ∀ g ∈ span ℤ (Set.range b), q i ≠ q j + g) (i j : Fin N) :
    ∃ ε > 0, ∀ g ∈ span ℤ (Set.range b), q j + g ≠ q i → ε ≤ dist (q j + g) (q i) := by
  by_cases hij : i = j
  · subst hij
    obtain ⟨ε, hε, h⟩ := Metric.exists_ball_inter_eq_singleton_of_mem_discrete
      (s := (span ℤ (Set.range b) : Set (Fin 3 → ℝ)))
      ⟨inferInstanceAs (DiscreteTopology (span ℤ (Set.range b)))⟩
      (Submodule.zero_mem (span ℤ (Set.range b)))
    refine ⟨ε, hε, fun g hg hne => ?_⟩
    by_contra hlt
    rw [not_le, dist_eq_norm, add_sub_cancel_left] at hlt
    have : g ∈ Metric.ball (0 : Fin 3 → ℝ) ε ∩ (span ℤ (Set.range b) : Set (Fin 3 → ℝ)) :=
      ⟨by rwa [mem_ball_zero_iff], hg⟩
    rw [h, Set.mem_singleton_iff] at this
    exact hne (by rw [this, add_zero])
  · have hc : IsClosed ((fun g => q j + g) '' (span ℤ (Set.range b) : Set (Fin 3 → ℝ))) := by
      have h : IsClosed ((span ℤ (Set.range b)).toAddSubgroup : Set (Fin 3 → ℝ)) :=
        AddSubgroup.isClosed_of_discrete
      exact (Homeomorph.addLeft (q j)).isClosedMap _ h
    obtain ⟨ε, hε, h⟩ := Metric.isOpen_iff.mp hc.isOpen_compl (q i) (by
      rintro ⟨g, hg, e⟩
      exact hq i j hij g hg e.symm)
    refine ⟨ε, hε, fun g hg _ => ?_⟩
    by_contra hlt
    rw [not_le] at hlt
    exact h (Metric.mem_ball.mpr hlt) ⟨g, hg, rfl⟩

/-- Every cell has a positive volume. -/
theorem volume_pos (hq : ∀ i j, i ≠ j → ∀ g ∈ span ℤ (Set.range b), q i ≠ q j + g) (i : Fin N) :
    0 < volume (cell b q i) := by
  choose ε hε hd using apart b q hq i
  have : Nonempty (Fin N) := ⟨i⟩
  obtain ⟨m, hm⟩ := Finite.exists_min ε
  have hopen : IsOpen {x | 4 * d2 x (q i) < ε m ^ 2} :=
    isOpen_lt (continuous_const.mul (d2_continuous _)) continuous_const
  have hne : ({x | 4 * d2 x (q i) < ε m ^ 2}).Nonempty := ⟨q i, by
    have : d2 (q i) (q i) = 0 := by simp [d2]
    simp only [Set.mem_setOf_eq, this, mul_zero]
    exact pow_pos (hε m) 2⟩
  refine lt_of_lt_of_le (hopen.measure_pos volume hne) (measure_mono ?_)
  intro x hx j g hg
  by_cases he : q j + g = q i
  · rw [he]
  have h1 := (hm j).trans (hd j g hg he)
  have h2 : ε m ^ 2 ≤ d2 (q i) (q j + g) := by
    by_contra hlt
    rw [not_le] at hlt
    refine absurd h1 (not_le.mpr ((dist_pi_lt_iff (hε m)).mpr fun k => ?_))
    rw [Real.dist_eq]
    refine abs_lt_of_sq_lt_sq ?_ (hε m).le
    refine lt_of_le_of_lt ?_ hlt
    have : (q i k - (q j + g) k) ^ 2 ≤ d2 (q i) (q j + g) :=
      Finset.single_le_sum (f := fun k => (q i k - (q j + g) k) ^ 2) (fun k _ => sq_nonneg _)
        (Finset.mem_univ k)
    linarith [this, (by ring : ((q j + g) k - q i k) ^ 2 = (q i k - (q j + g) k) ^ 2)]
  have h3 : d2 (q i) (q j + g) ≤ 2 * d2 x (q i) + 2 * d2 x (q j + g) := by
    unfold d2
    rw [Finset.mul_sum, Finset.mul_sum, ← Finset.sum_add_distrib]
    refine Finset.sum_le_sum fun k _ => ?_
    nlinarith [sq_nonneg ((x k - q i k) + (x k - (q j + g) k))]
  have h4 : 4 * d2 x (q i) < ε m ^ 2 := hx
  linarith

end VoronoiVolume
end Freud
