import Verif.Lemmas.SteinhardtWl
import Verif.Lemmas.WignerNormCheck

/-!
# The squares of the Wigner 3j symbols add up to 1
-/

namespace Freud.Wigner
open Spec Steinhardt

theorem div_choose (l : ℕ) (m : ℤ) (h : -l ≤ m ∧ m ≤ l) :
    (2 * l).factorial / nth (pascal (2 * l)) (l + m) = ifact (l + m) * ifact (l - m) := by
  rw [← ifact_choose l m h.1 h.2]
  refine Nat.mul_div_cancel _ (Nat.pos_of_ne_zero fun h0 => ?_)
  have := ifact_choose l m h.1 h.2
  rw [h0, mul_zero] at this
  exact (Nat.factorial_pos (2 * l)).ne this

theorem square_eq (l : ℕ) (m1 m2 m3 : ℤ) : wigner3j l m1 m2 m3 ^ 2 =
    (((alt l m1 m2).natAbs ^ 2 * (ifact (l + m1) * ifact (l - m1) * (ifact (l + m2) * ifact (l - m2)) *
      (ifact (l + m3) * ifact (l - m3))) : ℕ) : ℝ) / ((l.factorial ^ 3 * (3 * l + 1).factorial : ℕ) : ℝ) := by
  have hprod : (0 : ℝ) ≤ (racahProduct l m1 m2 m3 : ℚ) := by
    have : (0 : ℚ) ≤ racahProduct l m1 m2 m3 := by unfold racahProduct; positivity
    exact_mod_cast this
  have hl : (0 : ℝ) < l.factorial := by exact_mod_cast Nat.factorial_pos _
  have h3l : (0 : ℝ) < (3 * l + 1).factorial := by exact_mod_cast Nat.factorial_pos _
  have h1 : ((-1 : ℝ) ^ m3) ^ 2 = 1 := by
    rcases Int.even_or_odd m3 with h | h
    · rw [h.neg_one_zpow]; norm_num
    · rw [h.neg_one_zpow]; norm_num
  unfold wigner3j
  rw [sum_eq, mul_pow, mul_pow, h1, Real.sq_sqrt hprod]
  unfold racahProduct
  push_cast
  rw [Nat.cast_natAbs, Int.cast_abs, sq_abs]
  field_simp

/-- The squares of the symbols add up to 1. -/
theorem sum_squares (l : ℕ) (hl : l ≤ 20) : overTriples l (fun m1 m2 m3 => wigner3j l m1 m2 m3 ^ 2) = 1 := by
  have h := normOK_true l (List.mem_range.mpr (by omega))
  rw [normOK, decide_eq_true_eq] at h
  rw [← sum_triples]
  have hl : (0 : ℝ) < ((l.factorial ^ 3 * (3 * l + 1).factorial : ℕ) : ℝ) := by
    have := Nat.factorial_pos l
    have := Nat.factorial_pos (3 * l + 1)
    exact_mod_cast (by positivity)
  have e : ∀ L : List (ℤ × ℤ × ℤ), (∀ m ∈ L, m ∈ triples l) →
      (L.map fun m => wigner3j l m.1 m.2.1 m.2.2 ^ 2).sum =
      (((L.map fun m => (alt3 (pascal l) (shifted (pascal l) m.1) (shifted (pascal l) (-m.2.1))).natAbs ^ 2 *
      (((2 * l).factorial / nth (pascal (2 * l)) (l + m.1)) *
        ((2 * l).factorial / nth (pascal (2 * l)) (l + m.2.1)) *
        ((2 * l).factorial / nth (pascal (2 * l)) (l + m.2.2)))).sum : ℕ) : ℝ) /
        ((l.factorial ^ 3 * (3 * l + 1).factorial : ℕ) : ℝ) := by
    intro L hL
    induction L with
    | nil => simp
    | cons m L ih =>
      obtain ⟨h1, h2, h3, -⟩ := mem_triples l m (hL m List.mem_cons_self)
      rw [List.map_cons, List.sum_cons, List.map_cons, List.sum_cons,
        ih fun x hx => hL x (List.mem_cons_of_mem _ hx), square_eq, alt_eq, div_choose l _ h1, div_choose l _ h2,
        div_choose l _ h3, Nat.cast_add, add_div]
  rw [e _ fun _ h => h, h]
  exact div_self hl.ne'

/-- The scale of the rounding errors is at most the power `3 / 2` of the sum of the squares. -/
theorem scale_le (l : ℕ) (hl : l ≤ 20) (q : ℤ → ℝ) (hq : ∀ m, 0 ≤ q m) :
    overTriples l (fun m1 m2 m3 => |wigner3j l m1 m2 m3| * q m1 * q m2 * q m3) ≤
      Real.sqrt (∑ m ∈ Finset.Icc (-l : ℤ) l, q m ^ 2) ^ 3 := by
  set P := ∑ m ∈ Finset.Icc (-l : ℤ) l, q m ^ 2 with hP
  have hP0 : 0 ≤ P := Finset.sum_nonneg fun _ _ => sq_nonneg _
  set I := (Finset.Icc (-l : ℤ) l ×ˢ Finset.Icc (-l : ℤ) l).filter
    (fun m : ℤ × ℤ => |m.1 + m.2| ≤ (l : ℤ)) with hI
  have ho : ∀ f : ℤ → ℤ → ℤ → ℝ, overTriples l f = ∑ m ∈ I, f m.1 m.2 (-m.1 - m.2) := by
    intro f
    rw [hI, Finset.sum_filter, Finset.sum_product]
    rfl
  have h1 := sum_squares l hl
  rw [ho] at h1 ⊢
  have hc := Finset.sum_mul_sq_le_sq_mul_sq I (fun m => |wigner3j l m.1 m.2 (-m.1 - m.2)|)
    (fun m => q m.1 * q m.2 * q (-m.1 - m.2))
  simp only [sq_abs] at hc
  rw [h1, one_mul] at hc
  have hb : ∑ m ∈ I, (q m.1 * q m.2 * q (-m.1 - m.2)) ^ 2 ≤ P * P * P := by
    calc ∑ m ∈ I, (q m.1 * q m.2 * q (-m.1 - m.2)) ^ 2
        ≤ ∑ m ∈ I, q m.1 ^ 2 * q m.2 ^ 2 * P := by
          refine Finset.sum_le_sum fun m hm => ?_
          rw [mul_pow, mul_pow]
          refine mul_le_mul_of_nonneg_left ?_ (by positivity)
          refine Finset.single_le_sum (f := fun k => q k ^ 2) (fun _ _ => sq_nonneg _) ?_
          rw [hI, Finset.mem_filter, abs_le] at hm
          rw [Finset.mem_Icc]
          omega
      _ ≤ ∑ m ∈ Finset.Icc (-l : ℤ) l ×ˢ Finset.Icc (-l : ℤ) l, q m.1 ^ 2 * q m.2 ^ 2 * P :=
          Finset.sum_le_sum_of_subset_of_nonneg (Finset.filter_subset _ _) fun _ _ _ => by positivity
      _ = P * P * P := by
          rw [← Finset.sum_mul, Finset.sum_product]
          congr 1
          rw [hP, Finset.sum_mul_sum]

  have e : P * P * P = (Real.sqrt P ^ 3) ^ 2 := by
    rw [← pow_mul, show 3 * 2 = 2 * 3 by norm_num, pow_mul, Real.sq_sqrt hP0]; ring
  have hle := hc.trans (hb.trans_eq e)
  have e2 : ∑ m ∈ I, |wigner3j l m.1 m.2 (-m.1 - m.2)| * q m.1 * q m.2 * q (-m.1 - m.2) =
      ∑ m ∈ I, |wigner3j l m.1 m.2 (-m.1 - m.2)| * (q m.1 * q m.2 * q (-m.1 - m.2)) :=
    Finset.sum_congr rfl fun _ _ => by ring
  rw [e2]
  exact (abs_le_of_sq_le_sq' hle (by positivity)).2

end Freud.Wigner
