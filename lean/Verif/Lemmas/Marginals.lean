import Verif.Spec.Marginals
import Verif.Props.PairFrames
import Mathlib.Algebra.BigOperators.Intervals

/-!
# Lemmas: sums of histogram cells over one coordinate
-/

set_option linter.unusedSectionVars false

namespace Freud
open Spec PMFT

theorem sum_inBin {a : RegularAxis ℝ} (ha : AxisOK a) {v : ℝ} (h1 : a.min ≤ v) (h2 : v < a.max) :
    (∑ k ∈ Finset.range a.nbins, if a.bin v = k then 1 else 0 : ℕ) = 1 := by
  rw [Finset.sum_ite_eq, if_pos (Finset.mem_range.mpr (bin_in_range ha h1 h2).2)]

open Classical in
/-- The cells of one coordinate, which is always in range, sum to the number of all samples. -/
theorem sum_filter {β : Type*} {a : RegularAxis ℝ} (ha : AxisOK a) (P : β → Prop) (v : β → ℝ)
    (hv : ∀ b, a.min ≤ v b ∧ v b < a.max) (l : List β) :
    (∑ k ∈ Finset.range a.nbins, (l.filter fun b => decide (P b ∧ InBin a.min a.max a.nbins k (v b))).length) =
      (l.filter fun b => decide (P b)).length := by
  induction l with
  | nil => simp
  | cons b l ih =>
    simp only [List.filter_cons]
    have e : ∀ k ∈ Finset.range a.nbins,
        (if decide (P b ∧ InBin a.min a.max a.nbins k (v b)) = true then
          b :: l.filter fun b => decide (P b ∧ InBin a.min a.max a.nbins k (v b))
          else l.filter fun b => decide (P b ∧ InBin a.min a.max a.nbins k (v b))).length =
        (if P b then (if a.bin (v b) = k then 1 else 0) else 0) +
          (l.filter fun b => decide (P b ∧ InBin a.min a.max a.nbins k (v b))).length := by
      intro k hk
      have := C10_bin_iff a ha (v b) k (Finset.mem_range.mp hk)
      by_cases hP : P b <;> by_cases hb : a.bin (v b) = k <;> simp [hP, hb, ← this]; omega
    rw [Finset.sum_congr rfl e, Finset.sum_add_distrib, ih]
    by_cases hP : P b
    · simp only [hP, if_true, decide_true, List.length_cons]
      rw [sum_inBin ha (hv b).1 (hv b).2]; omega
    · simp [hP]

theorem inBins_append (axes : List (RegularAxis ℝ)) (idx : List ℕ) (s : List ℝ) (a : RegularAxis ℝ) (k : ℕ)
    (v : ℝ) (h1 : idx.length = axes.length) (h2 : s.length = axes.length) :
    InBins (axes ++ [a]) (idx ++ [k]) (s ++ [v]) ↔ InBins axes idx s ∧ InBin a.min a.max a.nbins k v := by
  induction axes generalizing idx s with
  | nil =>
    obtain rfl := List.length_eq_zero_iff.mp h1
    obtain rfl := List.length_eq_zero_iff.mp h2
    simp [InBins]
  | cons b axes ih =>
    cases idx with
    | nil => simp at h1
    | cons i idx =>
      cases s with
      | nil => simp at h2
      | cons x s =>
        simp only [List.cons_append, InBins]
        rw [ih idx s (by simpa using h1) (by simpa using h2), and_assoc]

/-- Summing the cells over the last coordinate, which is always in range, drops that coordinate. -/
theorem sum_countIn {β : Type*} {a : RegularAxis ℝ} (ha : AxisOK a) (axes : List (RegularAxis ℝ))
    (idx : List ℕ) (S : β → List ℝ) (v : β → ℝ) (h1 : idx.length = axes.length)
    (h2 : ∀ b, (S b).length = axes.length) (hv : ∀ b, a.min ≤ v b ∧ v b < a.max) (l : List β) :
    (∑ k ∈ Finset.range a.nbins, countIn (axes ++ [a]) (idx ++ [k]) (l.map fun b => S b ++ [v b])) =
      countIn axes idx (l.map S) := by
  unfold countIn
  simp only [List.filter_map, List.length_map, Function.comp_def]
  rw [← sum_filter ha (fun b => InBins axes idx (S b)) v hv l]
  refine Finset.sum_congr rfl fun k _ => ?_
  congr 2
  funext b
  rw [decide_eq_decide]
  exact inBins_append axes idx (S b) a k (v b) h1 (h2 b)

theorem modulus_range (x : ℝ) : 0 ≤ modulusPositive x realTrig.twoPi ∧
    modulusPositive x realTrig.twoPi < realTrig.twoPi := by
  have h2 : (0 : ℝ) < realTrig.twoPi := by simp [realTrig, Real.pi_pos]
  rw [modulusPositive_eq _ _ h2]
  have h0 := Int.fract_nonneg (x / realTrig.twoPi)
  have h1 := Int.fract_lt_one (x / realTrig.twoPi)
  exact ⟨by positivity, by nlinarith⟩

end Freud
