import Verif.Spec.Refine
import Verif.Props.RDF
import Verif.Props.PMFT
import Verif.Props.CorrelationFunction
import Mathlib.Algebra.BigOperators.Field

/-!
# Lemmas: bins cut into parts
-/

set_option linter.unusedSectionVars false

namespace Freud
open Spec
variable {K : Type*} [Field K] [LinearOrder K] [IsStrictOrderedRing K] [FloorRing K]

/-- The parts of a bin: a value in the bin is in exactly one part, another value in none. -/
theorem inBin_parts {lo hi : K} (hlt : lo < hi) {n m : ℕ} (hn : 0 < n) (hm : 0 < m) (i : ℕ) (v : K) :
    (InBin lo hi n i v → ∃ k < m, ∀ k' < m, InBin lo hi (m * n) (part m i k') v ↔ k' = k) ∧
    (¬ InBin lo hi n i v → ∀ k < m, ¬ InBin lo hi (m * n) (part m i k) v) := by
  have hn' : (0 : K) < n := by exact_mod_cast hn
  have hm' : (0 : K) < m := by exact_mod_cast hm
  set w : K := (hi - lo) / ((m * n : ℕ) : K) with hw
  have hw0 : 0 < w := by
    rw [hw]; push_cast
    exact div_pos (by linarith) (mul_pos hm' hn')
  have hwc : (hi - lo) / (n : K) = m * w := by
    rw [hw]; push_cast; field_simp
  set t : K := (v - lo) / w with ht
  have hv : v = lo + t * w := by rw [ht, div_mul_cancel₀ _ hw0.ne']; ring
  have hfine : ∀ j : ℕ, InBin lo hi (m * n) j v ↔ ⌊t⌋ = (j : ℤ) := by
    intro j
    unfold InBin edge
    rw [← hw, hv, Int.floor_eq_iff]
    push_cast
    constructor
    · rintro ⟨h1, h2⟩
      exact ⟨le_of_mul_le_mul_right (by linarith) hw0, lt_of_mul_lt_mul_right (by linarith) hw0.le⟩
    · rintro ⟨h1, h2⟩
      have e1 := mul_le_mul_of_nonneg_right h1 hw0.le
      have e2 := mul_lt_mul_of_pos_right h2 hw0
      exact ⟨by linarith, by linarith⟩
  have hcoarse : InBin lo hi n i v ↔ ((m * i : ℕ) : ℤ) ≤ ⌊t⌋ ∧ ⌊t⌋ < ((m * i : ℕ) : ℤ) + m := by
    unfold InBin edge
    rw [hwc, hv, Int.le_floor, Int.floor_lt]
    push_cast
    constructor
    · rintro ⟨h1, h2⟩
      exact ⟨le_of_mul_le_mul_right (by linarith) hw0, lt_of_mul_lt_mul_right (by linarith) hw0.le⟩
    · rintro ⟨h1, h2⟩
      have e1 := mul_le_mul_of_nonneg_right h1 hw0.le
      have e2 := mul_lt_mul_of_pos_right h2 hw0
      exact ⟨by linarith, by linarith⟩
  simp only [hfine, hcoarse, part]
  generalize ⌊t⌋ = z
  generalize m * i = a
  constructor
  · rintro ⟨h1, h2⟩
    exact ⟨(z - a).toNat, by omega, fun k' hk' => by push_cast; omega⟩
  · intro h k hk
    push_cast
    omega

theorem sum_parts {β M : Type*} [AddCommMonoid M] {m : ℕ} (P : β → Bool) (Q : ℕ → β → Bool)
    (h : ∀ b, P b = true → ∃ k < m, ∀ k' < m, Q k' b = true ↔ k' = k)
    (h' : ∀ b, ¬ P b = true → ∀ k < m, ¬ Q k b = true) (f : β → M) (l : List β) :
    (∑ k ∈ Finset.range m, ((l.filter (Q k)).map f).sum) = ((l.filter P).map f).sum := by
  induction l with
  | nil => simp
  | cons b l ih =>
    have e : ∀ k ∈ Finset.range m, (((b :: l).filter (Q k)).map f).sum =
        (if Q k b = true then f b else 0) + ((l.filter (Q k)).map f).sum := by
      intro k _
      by_cases hk : Q k b = true <;> simp [List.filter_cons, hk]
    rw [Finset.sum_congr rfl e, Finset.sum_add_distrib, ih]
    by_cases hP : P b = true
    · obtain ⟨k, hk, hu⟩ := h b hP
      have e1 : ∀ k' ∈ Finset.range m, (if Q k' b = true then f b else 0) = if k' = k then f b else 0 := by
        intro k' hk'
        have := hu k' (Finset.mem_range.mp hk')
        by_cases hq : Q k' b = true
        · rw [if_pos hq, if_pos (this.mp hq)]
        · rw [if_neg hq, if_neg fun e => hq (this.mpr e)]
      rw [Finset.sum_congr rfl e1, Finset.sum_ite_eq', if_pos (Finset.mem_range.mpr hk), List.filter_cons, if_pos hP,
        List.map_cons, List.sum_cons]
    · rw [Finset.sum_eq_zero fun k' hk' => if_neg (h' b hP k' (Finset.mem_range.mp hk')), zero_add,
        List.filter_cons, if_neg hP]

theorem length_parts {β : Type*} {m : ℕ} (P : β → Bool) (Q : ℕ → β → Bool)
    (h : ∀ b, P b = true → ∃ k < m, ∀ k' < m, Q k' b = true ↔ k' = k)
    (h' : ∀ b, ¬ P b = true → ∀ k < m, ¬ Q k b = true) (l : List β) :
    (∑ k ∈ Finset.range m, (l.filter (Q k)).length) = (l.filter P).length := by
  have := sum_parts P Q h h' (fun _ => 1) l
  simpa using this

theorem inBins_middle (pre post : List (RegularAxis K)) (ip iq : List ℕ) (a : RegularAxis K) (i : ℕ) (s : List K)
    (h : ip.length = pre.length) : InBins (pre ++ a :: post) (ip ++ i :: iq) s ↔
      ∃ sp v sq, s = sp ++ v :: sq ∧ InBins pre ip sp ∧ InBin a.min a.max a.nbins i v ∧ InBins post iq sq := by
  induction pre generalizing ip s with
  | nil =>
    obtain rfl := List.length_eq_zero_iff.mp h
    cases s with
    | nil => simp [InBins]
    | cons v sq =>
      simp only [List.nil_append, InBins]
      constructor
      · rintro ⟨h1, h2⟩; exact ⟨[], v, sq, rfl, trivial, h1, h2⟩
      · rintro ⟨sp, v', sq', e, h0, h1, h2⟩
        cases sp with
        | nil =>
          obtain ⟨rfl, rfl⟩ := List.cons.inj e
          exact ⟨h1, h2⟩
        | cons => exact absurd h0 (by simp [InBins])
  | cons b pre ih =>
    cases ip with
    | nil => simp at h
    | cons j ip =>
      cases s with
      | nil => simp [InBins]
      | cons x s =>
        simp only [List.cons_append, InBins]
        rw [ih ip s (by simpa using h)]
        constructor
        · rintro ⟨h0, sp, v, sq, rfl, h1, h2, h3⟩
          exact ⟨x :: sp, v, sq, rfl, ⟨h0, h1⟩, h2, h3⟩
        · rintro ⟨sp, v, sq, e, h1, h2, h3⟩
          cases sp with
          | nil => exact absurd h1 (by simp [InBins])
          | cons y sp =>
            obtain ⟨rfl, rfl⟩ := List.cons.inj e
            exact ⟨h1.1, sp, v, sq, rfl, h1.2, h2, h3⟩

/-- Cutting the bins of one coordinate. -/
theorem countIn_parts (pre post : List (RegularAxis K)) (ip iq : List ℕ) {lo hi : K} (hlt : lo < hi) {n m : ℕ}
    (hn : 0 < n) (hm : 0 < m) (i : ℕ) (h : ip.length = pre.length) (l : List (List K)) :
    countIn (pre ++ ⟨n, lo, hi⟩ :: post) (ip ++ i :: iq) l = ∑ k ∈ Finset.range m,
      countIn (pre ++ ⟨m * n, lo, hi⟩ :: post) (ip ++ part m i k :: iq) l := by
  classical
  unfold countIn
  refine (length_parts _ (fun k s => decide (InBins (pre ++ ⟨m * n, lo, hi⟩ :: post) (ip ++ part m i k :: iq) s))
    (fun s hs => ?_) (fun s hs k hk hk' => ?_) l).symm
  · simp only [decide_eq_true_eq] at hs ⊢
    obtain ⟨sp, v, sq, rfl, h1, h2, h3⟩ := (inBins_middle pre post ip iq _ i s h).mp hs
    obtain ⟨k, hk, hu⟩ := (inBin_parts hlt hn hm i v).1 h2
    refine ⟨k, hk, fun k' hk' => ⟨fun hin => ?_, fun e => ?_⟩⟩
    · obtain ⟨sp', v', sq', e, h1', h2', h3'⟩ := (inBins_middle pre post ip iq _ _ _ h).mp hin
      have hl : ∀ {p : List (RegularAxis K)} {q : List ℕ} {r : List K}, InBins p q r → r.length = p.length := by
        intro p
        induction p with
        | nil => intro q r hr; cases q <;> cases r <;> simp_all [InBins]
        | cons a p ih =>
          intro q r hr
          cases q <;> cases r <;> simp only [InBins] at hr
          simp [ih hr.2]
      obtain ⟨rfl, e2⟩ := List.append_inj e ((hl h1).trans (hl h1').symm)
      obtain ⟨rfl, rfl⟩ := List.cons.inj e2
      exact (hu k' hk').mp h2'
    · exact (inBins_middle pre post ip iq _ _ _ h).mpr ⟨sp, v, sq, rfl, h1, (hu k' hk').mpr e, h3⟩
  · simp only [decide_eq_true_eq] at hs hk'
    obtain ⟨sp, v, sq, rfl, h1, h2, h3⟩ := (inBins_middle pre post ip iq _ _ s h).mp hk'
    by_cases hb : InBin lo hi n i v
    · exact hs ((inBins_middle pre post ip iq _ i _ h).mpr ⟨sp, v, sq, rfl, h1, hb, h3⟩)
    · exact (inBin_parts hlt hn hm i v).2 hb k hk h2

theorem countIn_parts_two {lo1 hi1 lo2 hi2 : K} (h1 : lo1 < hi1) (h2 : lo2 < hi2) {n1 n2 m1 m2 : ℕ} (hn1 : 0 < n1)
    (hn2 : 0 < n2) (hm1 : 0 < m1) (hm2 : 0 < m2) (i j : ℕ) (l : List (List K)) :
    countIn [⟨n1, lo1, hi1⟩, ⟨n2, lo2, hi2⟩] [i, j] l = ∑ a ∈ Finset.range m1, ∑ b ∈ Finset.range m2,
      countIn [⟨m1 * n1, lo1, hi1⟩, ⟨m2 * n2, lo2, hi2⟩] [part m1 i a, part m2 j b] l := by
  refine (countIn_parts [] [⟨n2, lo2, hi2⟩] [] [j] h1 hn1 hm1 i rfl l).trans (Finset.sum_congr rfl fun a _ => ?_)
  exact countIn_parts [⟨m1 * n1, lo1, hi1⟩] [] [part m1 i a] [] h2 hn2 hm2 j rfl l

theorem countIn_parts_three {lo1 hi1 lo2 hi2 lo3 hi3 : K} (h1 : lo1 < hi1) (h2 : lo2 < hi2) (h3 : lo3 < hi3)
    {n1 n2 n3 m1 m2 m3 : ℕ} (hn1 : 0 < n1) (hn2 : 0 < n2) (hn3 : 0 < n3) (hm1 : 0 < m1) (hm2 : 0 < m2)
    (hm3 : 0 < m3) (i j k : ℕ) (l : List (List K)) :
    countIn [⟨n1, lo1, hi1⟩, ⟨n2, lo2, hi2⟩, ⟨n3, lo3, hi3⟩] [i, j, k] l =
      ∑ a ∈ Finset.range m1, ∑ b ∈ Finset.range m2, ∑ c ∈ Finset.range m3,
        countIn [⟨m1 * n1, lo1, hi1⟩, ⟨m2 * n2, lo2, hi2⟩, ⟨m3 * n3, lo3, hi3⟩]
          [part m1 i a, part m2 j b, part m3 k c] l := by
  refine (countIn_parts [] [⟨n2, lo2, hi2⟩, ⟨n3, lo3, hi3⟩] [] [j, k] h1 hn1 hm1 i rfl l).trans
    (Finset.sum_congr rfl fun a _ => ?_)
  refine (countIn_parts [⟨m1 * n1, lo1, hi1⟩] [⟨n3, lo3, hi3⟩] [part m1 i a] [k] h2 hn2 hm2 j rfl l).trans
    (Finset.sum_congr rfl fun b _ => ?_)
  exact countIn_parts [⟨m1 * n1, lo1, hi1⟩, ⟨m2 * n2, lo2, hi2⟩] [] [part m1 i a, part m2 j b] [] h3 hn3 hm3 k rfl l

theorem bondsIn_parts {lo hi : K} (h : lo < hi) {n m : ℕ} (hn : 0 < n) (hm : 0 < m) (i : ℕ) (l : List (List K)) :
    bondsIn (edge lo hi n i) (edge lo hi n (i + 1)) l = ∑ k ∈ Finset.range m,
      bondsIn (edge lo hi (m * n) (part m i k)) (edge lo hi (m * n) (part m i k + 1)) l := by
  have := countIn_parts [] [] [] [] h hn hm i rfl l
  simp only [List.nil_append, countIn_one] at this
  exact this

theorem meanParts_div (m : ℕ) (c : K) (v : ℕ → K) : (meanParts m fun k => v k / c) = (∑ k ∈ Finset.range m, v k) / (c * m) := by
  unfold meanParts
  rw [← Finset.sum_div, div_div]

theorem part_lt {m n i k : ℕ} (hi : i < n) (hk : k < m) : part m i k < m * n := by
  unfold part
  calc m * i + k < m * i + m := by omega
    _ = m * (i + 1) := by ring
    _ ≤ m * n := Nat.mul_le_mul_left m hi

theorem edge_part (lo hi : K) {n m : ℕ} (hm : 0 < m) (i : ℕ) : edge lo hi (m * n) (m * i) = edge lo hi n i := by
  have hm' : (m : K) ≠ 0 := by exact_mod_cast hm.ne'
  unfold edge
  push_cast
  by_cases hn : (n : K) = 0
  · simp [hn]
  · field_simp

theorem edge_part_succ (lo hi : K) {n m : ℕ} (hm : 0 < m) (i : ℕ) :
    edge lo hi (m * n) (m * i + m) = edge lo hi n (i + 1) := by
  rw [← edge_part lo hi hm (i + 1)]; rfl

theorem sum_part_telescope (g : ℕ → K) (m a : ℕ) :
    (∑ k ∈ Finset.range m, (g (a + k + 1) - g (a + k))) = g (a + m) - g a := by
  have := Finset.sum_range_sub (fun k => g (a + k)) m
  simpa [add_assoc] using this

end Freud
