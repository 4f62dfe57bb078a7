import Verif.Model.StructureFactor
import Verif.Props.Schedule
import Mathlib.Analysis.SpecialFunctions.Trigonometric.Sinc

/-!
# Lemmas for the Debye structure factor
-/

namespace Freud
open Spec

theorem sincFn_eq (x : ℝ) : sincFn x = Real.sinc x := by
  unfold sincFn Real.sinc; rfl

theorem besselJ0_zero : besselJ0 0 = 1 := by
  unfold besselJ0
  simp only [zero_mul, Real.cos_zero, intervalIntegral.integral_const, sub_zero, smul_eq_mul, mul_one]
  exact div_self Real.pi_ne_zero

theorem abs_besselJ0_le (x : ℝ) : |besselJ0 x| ≤ 1 := by
  unfold besselJ0
  rw [abs_div, abs_of_pos Real.pi_pos, div_le_one Real.pi_pos]
  have h := intervalIntegral.norm_integral_le_of_norm_le_const (a := (0 : ℝ)) (b := Real.pi) (C := 1)
    (f := fun t => Real.cos (x * Real.sin t)) (fun t _ => by
      rw [Real.norm_eq_abs]; exact Real.abs_cos_le_one _)
  simpa [Real.norm_eq_abs, abs_of_pos Real.pi_pos] using h

namespace Debye

theorem foldl_term (is2D : Bool) (k : ℝ) (ds : List ℝ) (x : ℝ) :
    ds.foldl (fun s d => s + term is2D k d) x = x + (ds.map (term is2D k)).sum := by
  induction ds generalizing x with
  | nil => simp
  | cons d ds ih => simp [ih, add_assoc]

theorem axis_of_ok {bins : ℕ} {kMax kMin : ℝ} {a : RegularAxis ℝ}
    (h : mkAxis bins kMax kMin = .ok a) :
    2 ≤ bins ∧ 0 ≤ kMin ∧ kMin < kMax ∧ a.nbins = bins ∧
      a.min = kMin - (kMax - kMin) / (2 * ((bins : ℝ) - 1)) ∧
      a.max = kMax + (kMax - kMin) / (2 * ((bins : ℝ) - 1)) := by
  unfold mkAxis at h
  split_ifs at h with h1 h2 h3 h4 h5
  have hb : 2 ≤ bins := by omega
  have hc : ((2 * (bins - 1) : ℕ) : ℝ) = 2 * ((bins : ℝ) - 1) := by
    rw [Nat.cast_mul, Nat.cast_sub (by omega)]; norm_num
  injection h with h
  subst h
  exact ⟨hb, not_lt.mp h3, not_le.mp h4, rfl, by rw [hc], by rw [hc]⟩

theorem binCenters_length (a : RegularAxis ℝ) : a.binCenters.length = a.nbins := by
  simp [RegularAxis.binCenters]

theorem center_eq {bins : ℕ} {kMax kMin : ℝ} {a : RegularAxis ℝ}
    (h : mkAxis bins kMax kMin = .ok a) (i : ℕ) (hi : i < bins) :
    a.binCenters[i]? = some (kMin + (i : ℝ) * (kMax - kMin) / ((bins : ℝ) - 1)) := by
  obtain ⟨hb, h0, hlt, hn, hmin, hmax⟩ := axis_of_ok h
  have hb1 : (0 : ℝ) < (bins : ℝ) - 1 := by
    have : (2 : ℝ) ≤ bins := by exact_mod_cast hb
    linarith
  have hb0 : (bins : ℝ) ≠ 0 := by positivity
  have hw : a.binWidth = (kMax - kMin) / ((bins : ℝ) - 1) := by
    unfold RegularAxis.binWidth
    rw [hn, hmin, hmax]
    field_simp
    ring
  have he : ∀ j, j ≤ bins → a.binEdges.getD j 0 = a.min + (j : ℝ) * a.binWidth := by
    intro j hj
    unfold RegularAxis.binEdges
    rw [List.getD_eq_getElem?_getD, List.getElem?_map, List.getElem?_range (by omega)]
    rfl
  unfold RegularAxis.binCenters
  rw [List.getElem?_map, List.getElem?_range (by omega), Option.map_some, he i (by omega),
    he (i + 1) (by omega), hw, hmin]
  congr 1
  push_cast
  field_simp
  ring

/-- One thread's copy has the right shape. -/
def LocalOK (a : RegularAxis ℝ) (h : Histogram ℝ ℝ) : Prop :=
  h.axes = [a] ∧ h.counts.shape = [a.nbins] ∧ h.counts.data.length = a.nbins

theorem localOK_mk' (a : RegularAxis ℝ) : LocalOK a (Histogram.mk' [a]) :=
  ⟨rfl, rfl, by simp [Histogram.mk', MArray.mk']⟩

theorem mk'_getD (a : RegularAxis ℝ) (c : ℕ) :
    (Histogram.mk' [a] : Histogram ℝ ℝ).counts.data.getD c 0 = 0 := by
  simp [Histogram.mk', MArray.mk', List.getD_eq_getElem?_getD, List.getElem?_replicate]
  split_ifs <;> rfl

theorem increment_spec (a : RegularAxis ℝ) (h : Histogram ℝ ℝ) (hh : LocalOK a h) (i : ℕ) (w : ℝ)
    (hi : i < a.nbins) (hs : a.nbins ≤ OVERFLOW_BIN) :
    ∃ h', h.increment i w = some h' ∧ LocalOK a h' ∧
      ∀ c, h'.counts.data.getD c 0 = h.counts.data.getD c 0 + if c = i then w else 0 := by
  obtain ⟨x, e, hs1, hl, hv⟩ := addAt_spec h.counts i w (by rw [hh.2.2]; exact hi)
  refine ⟨{ h with counts := x }, ?_, ⟨hh.1, hs1.trans hh.2.1, hl.trans hh.2.2⟩, hv⟩
  unfold Histogram.increment
  rw [if_pos (by omega)]
  cases hg : h.counts.get? i with
  | none => rw [hg] at e; simp at e
  | some y =>
    rw [hg] at e
    simp only [Option.bind_some] at e ⊢
    rw [e]; rfl

/-- The state of the thread-local histograms: their sum is `tot`. -/
structure Locals (a : RegularAxis ℝ) (t : TLS (Histogram ℝ ℝ)) (tot : ℕ → ℝ) : Prop where
  ex : t.exemplar = Histogram.mk' [a]
  ok : ∀ p ∈ t.locals, LocalOK a p.2
  sum : ∀ c < a.nbins, (t.locals.map (fun p => p.2.counts.data.getD c 0)).sum = tot c

theorem locals_step (a : RegularAxis ℝ) (hs : a.nbins ≤ OVERFLOW_BIN) (t : TLS (Histogram ℝ ℝ))
    (tot : ℕ → ℝ) (ht : Locals a t tot) (v : ℝ → ℝ) (ev : List (ℕ × ℕ))
    (hev : IsExecution a.nbins ev) :
    ∃ t', t.parallelFor (fun i h => a.binCenters[i]?.bind (fun k => h.increment i (v k))) ev = some t' ∧
      Locals a t' (fun c => tot c + v (a.binCenters.getD c 0)) := by
  have hok : ∀ e ∈ ev, e.2 < a.nbins := fun e he =>
    List.mem_range.mp (hev.subset (List.mem_map_of_mem he))
  obtain ⟨t', e1, hex, hP, -, hv⟩ := parallelFor_spec (T := ℝ)
    (P := LocalOK a) (val := fun h c => h.counts.data.getD c 0)
    (d := fun i c => if c = i then v (a.binCenters.getD i 0) else 0)
    (body := fun i h => a.binCenters[i]?.bind (fun k => h.increment i (v k)))
    (ok := fun i => i < a.nbins)
    (fun i s hi hs' => by
      obtain ⟨h', e, h1, h2⟩ := increment_spec a s hs' i (v (a.binCenters.getD i 0)) hi hs
      refine ⟨h', ?_, h1, h2⟩
      rw [List.getD_eq_getElem?_getD, List.getElem?_eq_getElem (by rw [binCenters_length]; exact hi)] at e
      rw [List.getElem?_eq_getElem (by rw [binCenters_length]; exact hi)]
      exact e)
    t (by rw [ht.ex]; exact localOK_mk' a) (fun c => by rw [ht.ex]; exact mk'_getD a c) ht.ok ev hok
  refine ⟨t', e1, hex.trans ht.ex, hP, fun c hc => ?_⟩
  rw [hv, ht.sum c hc]
  congr 1
  have := (hev.map (fun i => if c = i then v (a.binCenters.getD i 0) else 0)).sum_eq
  rw [List.map_map] at this
  refine Eq.trans this ?_
  simp only [eq_comm (a := c)]
  rw [List.sum_map_ite_eq]
  simp [List.count_eq_one_of_mem List.nodup_range (List.mem_range.mpr hc)]

theorem reduce_locals (a : RegularAxis ℝ) (t : TLS (Histogram ℝ ℝ)) (tot : ℕ → ℝ)
    (ht : Locals a t tot) (order : List ℕ) (hord : order.Perm (List.range a.nbins)) (r : MArray ℝ)
    (hr : r.shape = [a.nbins]) (hl : r.data.length = a.nbins) :
    ∃ r', histReduceInto t order r = some r' ∧ r'.shape = [a.nbins] ∧
      r'.data = (List.range a.nbins).map tot := by
  obtain ⟨r', e, hs, hl', hv⟩ := reduceCells_spec (t.locals.map (·.2.counts)) order a.nbins
    (fun i hi => List.mem_range.mp (hord.subset hi)) (hord.nodup_iff.mpr List.nodup_range)
    (by
      intro l hl
      obtain ⟨p, hp, rfl⟩ := List.mem_map.mp hl
      exact (ht.ok p hp).2.2)
    r.reset (by simp [MArray.reset, hl])
  refine ⟨r', e, hs.trans hr, List.ext_getElem (by simp [hl']) fun c h1 h2 => ?_⟩
  have hc : c < a.nbins := by omega
  have h := hv c
  rw [if_pos (hord.symm.subset (List.mem_range.mpr hc)), List.map_map] at h
  have hz : r.reset.data.getD c 0 = 0 := by
    simp [MArray.reset, List.getD_eq_getElem?_getD, List.getElem?_replicate]
    split_ifs <;> rfl
  rw [hz, zero_add, List.getD_eq_getElem?_getD, List.getElem?_eq_getElem h1] at h
  simp only [Option.getD_some] at h
  rw [h, List.getElem_map, List.getElem_range, ← ht.sum c hc]
  rfl

end Debye
end Freud
