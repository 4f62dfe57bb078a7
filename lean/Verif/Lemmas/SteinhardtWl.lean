import Verif.Lemmas.Steinhardt

/-!
# Lemmas on the sums with Wigner 3j symbols
-/

namespace Freud.Steinhardt
open Spec

theorem sum_intRange {A : Type*} [AddCommMonoid A] (a b : ℤ) (f : ℤ → A) :
    ((intRange a b).map f).sum = ∑ m ∈ Finset.Icc a b, f m := by
  unfold intRange
  rw [List.map_map]
  have e : ((List.range (b + 1 - a).toNat).map (f ∘ fun k : ℕ => a + k)).sum =
      ∑ k ∈ Finset.range (b + 1 - a).toNat, f (a + k) := rfl
  rw [e]
  refine Finset.sum_bij (fun k _ => a + (k : ℤ)) ?_ ?_ ?_ (fun _ _ => rfl)
  · intro k hk
    rw [Finset.mem_range] at hk
    rw [Finset.mem_Icc]; omega
  · intro k _ k' _ h; omega
  · intro m hm
    rw [Finset.mem_Icc] at hm
    exact ⟨(m - a).toNat, Finset.mem_range.mpr (by omega), by omega⟩

theorem sum_triples {A : Type*} [AddCommMonoid A] (l : ℕ) (f : ℤ → ℤ → ℤ → A) :
    ((triples l).map fun m => f m.1 m.2.1 m.2.2).sum = overTriples l f := by
  unfold triples overTriples
  rw [← sum_intRange]
  have h : ∀ L : List ℤ, ((L.flatMap fun m1 =>
      (intRange (max (-l - m1) (-l)) (min (l - m1) l)).map fun m2 => (m1, m2, -m1 - m2)).map
        fun m => f m.1 m.2.1 m.2.2).sum =
      (L.map fun m1 => ∑ m2 ∈ Finset.Icc (-l : ℤ) l, if |m1 + m2| ≤ l then f m1 m2 (-m1 - m2) else 0).sum := by
    intro L
    induction L with
    | nil => rfl
    | cons m1 L ih =>
      rw [List.flatMap_cons, List.map_append, List.sum_append, ih, List.map_cons, List.sum_cons,
        List.map_map]
      congr 1
      have e : ((intRange (max (-l - m1) (-l)) (min (l - m1) l)).map
          ((fun m : ℤ × ℤ × ℤ => f m.1 m.2.1 m.2.2) ∘ fun m2 => (m1, m2, -m1 - m2))).sum =
          ∑ m2 ∈ Finset.Icc (max (-l - m1) (-l)) (min (l - m1) l), f m1 m2 (-m1 - m2) :=
        sum_intRange _ _ _
      rw [e, ← Finset.sum_filter]
      refine Finset.sum_congr ?_ fun _ _ => rfl
      ext m2
      simp only [Finset.mem_filter, Finset.mem_Icc, abs_le]
      omega
  exact h _

theorem mem_triples (l : ℕ) (m : ℤ × ℤ × ℤ) (h : m ∈ triples l) :
    (-l ≤ m.1 ∧ m.1 ≤ l) ∧ (-l ≤ m.2.1 ∧ m.2.1 ≤ l) ∧ (-l ≤ m.2.2 ∧ m.2.2 ≤ l) ∧
      m.1 + m.2.1 + m.2.2 = 0 := by
  unfold triples at h
  obtain ⟨m1, h1, h2⟩ := List.mem_flatMap.mp h
  obtain ⟨m2, h3, rfl⟩ := List.mem_map.mp h2
  obtain ⟨k, hk, rfl⟩ := List.mem_map.mp h1
  obtain ⟨k', hk', rfl⟩ := List.mem_map.mp h3
  simp only [List.mem_range] at hk hk'
  dsimp only
  omega

/-- One product of the sum. -/
noncomputable def term (r : ℕ → ℂ) (l : ℕ) (m : ℤ × ℤ × ℤ) : ℂ :=
  r (slot l m.1) * r (slot l m.2.1) * r (slot l m.2.2)

theorem reduce_eq (r : ℕ → ℂ) (l : ℕ) (t : List ℝ) (ht : t.length = (triples l).length) :
    reduceWigner3j r l t = some ((((triples l).zip t).map fun p => ((p.2 : ℂ) * term r l p.1).re).sum) := by
  unfold reduceWigner3j
  have h : ∀ (ms : List (ℤ × ℤ × ℤ)) (done : ℕ) (acc : ℝ), t.length = done + ms.length →
      (ms.zipIdx done).foldlM (fun result p => (t[p.2]?).map fun w : ℝ => result +
        ((w : ℂ) * r (lmIndex l p.1.1) * r (lmIndex l p.1.2.1) * r (lmIndex l p.1.2.2)).re) acc =
      some (acc + ((ms.zip (t.drop done)).map fun p => ((p.2 : ℂ) * term r l p.1).re).sum) := by
    intro ms
    induction ms with
    | nil => intro done acc _; simp
    | cons m ms ih =>
      intro done acc hlen
      simp only [List.length_cons] at hlen
      have hd : done < t.length := by omega
      rw [List.zipIdx_cons, List.foldlM_cons, List.getElem?_eq_getElem hd, Option.map_some]
      show (ms.zipIdx (done + 1)).foldlM _ _ = _
      rw [ih (done + 1) _ (by omega), List.drop_eq_getElem_cons hd, List.zip_cons_cons, List.map_cons,
        List.sum_cons, add_assoc]
      congr 3
      simp only [slot_eq, term, mul_assoc]
  have := h (triples l) 0 0 (by omega)
  rw [this, List.drop_zero, zero_add]

/-- What the check of the table says. -/
theorem table_spec (l : ℕ) (hl : l ≤ 20) : ∃ t, Wigner.table l = some t ∧
    t.length = (triples l).length ∧ (t.reverse = if l % 2 = 0 then t else t.map (- ·)) ∧
    ((triples l).reverse = (triples l).map fun m => (-m.1, -m.2.1, -m.2.2)) ∧
    ∀ p ∈ (triples l).zip t, |(p.2 : ℝ) / 10 ^ 21 - wigner3j l p.1.1 p.1.2.1 p.1.2.2| ≤
      1 / 10 ^ 15 * |wigner3j l p.1.1 p.1.2.1 p.1.2.2| := by
  have h := Wigner.listOK_true l (List.mem_range.mpr (by omega))
  unfold Wigner.listOK at h
  split at h
  · exact absurd h (by decide)
  · rename_i t ht
    simp only [Bool.and_eq_true, decide_eq_true_eq, List.all_eq_true] at h
    obtain ⟨⟨⟨h1, h2⟩, h3⟩, h4⟩ := h
    refine ⟨t, ht, h1, h2, h3, fun p hp => ?_⟩
    obtain ⟨a, b, c, -⟩ := mem_triples l p.1 (List.of_mem_zip hp).1
    exact Wigner.entry_spec l _ _ _ (abs_le.mpr a) (abs_le.mpr b) (abs_le.mpr c) p.2 (h4 p hp)

theorem getWigner_spec (l : ℕ) (hl : l ≤ 20) : ∃ t, getWigner3j l = some t ∧
    t.length = (triples l).length ∧ (t.reverse = if l % 2 = 0 then t else t.map (- ·)) ∧
    ((triples l).reverse = (triples l).map fun m => (-m.1, -m.2.1, -m.2.2)) ∧
    ∀ p ∈ (triples l).zip t, |p.2 - wigner3j l p.1.1 p.1.2.1 p.1.2.2| ≤
      1 / 10 ^ 15 * |wigner3j l p.1.1 p.1.2.1 p.1.2.2| := by
  obtain ⟨t, ht, h1, h2, h3, h4⟩ := table_spec l hl
  refine ⟨t.map fun z : ℤ => (z : ℝ) / 10 ^ 21, by unfold getWigner3j; rw [ht]; rfl, by simpa using h1, ?_, h3, ?_⟩
  · rw [← List.map_reverse, h2]
    split_ifs
    · rfl
    · rw [List.map_map, List.map_map]
      refine List.map_congr_left fun z _ => ?_
      simp only [Function.comp_def]; push_cast; ring
  · intro p hp
    rw [List.zip_map_right] at hp
    obtain ⟨q, hq, rfl⟩ := List.mem_map.mp hp
    exact h4 q hq

/-- The sum of the code is close to the exact sum. -/
theorem reduce_close {l : ℕ} (hl : l ≤ 20) {Y : ℤ → Vec3 ℝ → ℂ} {r : ℕ → ℂ} {L : List (ℝ × Vec3 ℝ)}
    (h : Holds Y l (some r) (some L)) :
    ∃ t x, getWigner3j l = some t ∧ reduceWigner3j r l t = some x ∧
      |x - (wExact l Y L).re| ≤ 1 / 10 ^ 15 * wScale l Y L := by
  obtain ⟨t, ht, hlen, -, -, hc⟩ := getWigner_spec l hl
  refine ⟨t, _, ht, reduce_eq r l t hlen, ?_⟩
  have hterm : ∀ m ∈ triples l, term r l m =
      coefficient Y L m.1 * coefficient Y L m.2.1 * coefficient Y L m.2.2 := by
    intro m hm
    obtain ⟨a, b, c, -⟩ := mem_triples l m hm
    unfold term
    rw [h.2 _ a.1 a.2, h.2 _ b.1 b.2, h.2 _ c.1 c.2]
  have e1 : (wExact l Y L).re = ((triples l).map fun m =>
      ((wigner3j l m.1 m.2.1 m.2.2 : ℂ) * term r l m).re).sum := by
    unfold wExact
    rw [← sum_triples]
    have : ∀ ms : List (ℤ × ℤ × ℤ), (∀ m ∈ ms, m ∈ triples l) → ((ms.map fun m => (wigner3j l m.1 m.2.1 m.2.2 : ℂ) *
        coefficient Y L m.1 * coefficient Y L m.2.1 * coefficient Y L m.2.2).sum).re =
        (ms.map fun m => ((wigner3j l m.1 m.2.1 m.2.2 : ℂ) * term r l m).re).sum := by
      intro ms hms
      induction ms with
      | nil => rfl
      | cons m ms ih =>
        simp only [List.map_cons, List.sum_cons, Complex.add_re]
        rw [ih fun m hm => hms m (List.mem_cons_of_mem _ hm), hterm m (hms m List.mem_cons_self)]
        simp only [mul_assoc]
    exact this _ fun _ h => h
  have e2 : wScale l Y L = ((triples l).map fun m => |wigner3j l m.1 m.2.1 m.2.2| * ‖term r l m‖).sum := by
    unfold wScale
    rw [← sum_triples]
    congr 1
    refine List.map_congr_left fun m hm => ?_
    rw [hterm m hm, norm_mul, norm_mul]
    ring
  rw [e1, e2]
  generalize triples l = ms at hlen hc
  clear ht e1 e2 hterm
  induction ms generalizing t with
  | nil => simp
  | cons m ms ih =>
    cases t with
    | nil => simp at hlen
    | cons w t =>
      have h1 := ih t (by simpa using hlen) fun p hp => hc p (by rw [List.zip_cons_cons]; exact List.mem_cons_of_mem _ hp)
      have h2 := hc (m, w) (by rw [List.zip_cons_cons]; exact List.mem_cons_self)
      simp only [List.zip_cons_cons, List.map_cons, List.sum_cons] at h1 ⊢
      dsimp only at h2
      have h3 : |((w : ℂ) * term r l m).re - ((wigner3j l m.1 m.2.1 m.2.2 : ℂ) * term r l m).re| ≤
          1 / 10 ^ 15 * (|wigner3j l m.1 m.2.1 m.2.2| * ‖term r l m‖) := by
        rw [← Complex.sub_re, ← sub_mul, ← Complex.ofReal_sub, Complex.re_ofReal_mul, abs_mul, ← mul_assoc]
        exact mul_le_mul h2 (Complex.abs_re_le_norm _) (abs_nonneg _)
          (by positivity)
      rw [mul_add]
      refine (le_of_eq ?_).trans ((abs_add_le _ _).trans (add_le_add h3 h1))
      congr 1
      ring

theorem coefficient_neg {l : ℕ} {Y : ℤ → Vec3 ℝ → ℂ} (hY : Harmonics l Y) (L : List (ℝ × Vec3 ℝ)) (m : ℤ) :
    coefficient Y L (-m) = (-1) ^ m * (starRingEnd ℂ) (coefficient Y L m) := by
  induction L with
  | nil => simp [coefficient]
  | cons d L ih =>
    rw [coefficient_cons, coefficient_cons, ih, hY.conj, map_add, map_mul, Complex.conj_ofReal]
    ring

theorem zip_reverse {A B : Type*} (a : List A) (b : List B) (h : a.length = b.length) :
    (a.zip b).reverse = a.reverse.zip b.reverse := by
  induction a generalizing b with
  | nil => simp
  | cons x a ih =>
    cases b with
    | nil => simp at h
    | cons y b =>
      simp only [List.length_cons, Nat.add_right_cancel_iff] at h
      rw [List.zip_cons_cons, List.reverse_cons, List.reverse_cons, List.reverse_cons, ih b h,
        List.zip_append (by simpa using h)]
      rfl

/-- For odd `l` the sum of the code vanishes. -/
theorem reduce_odd {l : ℕ} (hl : l ≤ 20) (ho : l % 2 = 1) {Y : ℤ → Vec3 ℝ → ℂ} (hY : Harmonics l Y)
    {r : ℕ → ℂ} {L : List (ℝ × Vec3 ℝ)} (h : Holds Y l (some r) (some L)) :
    ∃ t, getWigner3j l = some t ∧ reduceWigner3j r l t = some 0 := by
  obtain ⟨t, ht, hlen, hrev, hmr, -⟩ := getWigner_spec l hl
  refine ⟨t, ht, ?_⟩
  rw [reduce_eq r l t hlen]
  congr 1
  rw [if_neg (by omega)] at hrev
  set f : (ℤ × ℤ × ℤ) × ℝ → ℝ := fun p => ((p.2 : ℂ) * term r l p.1).re with hf
  have hz : ((triples l).zip t).reverse =
      ((triples l).zip t).map fun p => ((-p.1.1, -p.1.2.1, -p.1.2.2), -p.2) := by
    rw [zip_reverse _ _ hlen.symm, hmr, hrev, List.zip_map]
    rfl
  have hs : (((triples l).zip t).map f).sum = -(((triples l).zip t).map f).sum := by
    conv_lhs => rw [← List.sum_reverse, ← List.map_reverse, hz, List.map_map]
    have : ∀ ps : List ((ℤ × ℤ × ℤ) × ℝ), (∀ p ∈ ps, p.1 ∈ triples l) →
        (ps.map (f ∘ fun p => ((-p.1.1, -p.1.2.1, -p.1.2.2), -p.2))).sum = -(ps.map f).sum := by
      intro ps hps
      induction ps with
      | nil => simp
      | cons p ps ih =>
        simp only [List.map_cons, List.sum_cons]
        rw [ih fun p hp => hps p (List.mem_cons_of_mem _ hp), neg_add]
        congr 1
        obtain ⟨a, b, c, hsum⟩ := mem_triples l p.1 (hps p List.mem_cons_self)
        simp only [hf, Function.comp_def, term]
        rw [h.2 _ a.1 a.2, h.2 _ b.1 b.2, h.2 _ c.1 c.2, h.2 (-p.1.1) (by omega) (by omega),
          h.2 (-p.1.2.1) (by omega) (by omega), h.2 (-p.1.2.2) (by omega) (by omega),
          coefficient_neg hY, coefficient_neg hY, coefficient_neg hY]
        set x := coefficient Y L p.1.1
        set y := coefficient Y L p.1.2.1
        set z := coefficient Y L p.1.2.2
        have hsign : ((-1 : ℂ) ^ p.1.1) * (-1) ^ p.1.2.1 * (-1) ^ p.1.2.2 = 1 := by
          rw [← zpow_add₀ (by norm_num), ← zpow_add₀ (by norm_num), hsum, zpow_zero]
        have e : (((-p.2 : ℝ) : ℂ)) * ((-1) ^ p.1.1 * (starRingEnd ℂ) x * ((-1) ^ p.1.2.1 * (starRingEnd ℂ) y) *
            ((-1) ^ p.1.2.2 * (starRingEnd ℂ) z)) = -((p.2 : ℂ) * (starRingEnd ℂ) (x * y * z)) := by
          rw [map_mul, map_mul]
          push_cast
          linear_combination (-(p.2 : ℂ) * (starRingEnd ℂ) x * (starRingEnd ℂ) y * (starRingEnd ℂ) z) * hsign
        rw [e, Complex.neg_re, Complex.re_ofReal_mul, Complex.conj_re, Complex.re_ofReal_mul]
    exact this _ fun p hp => (List.of_mem_zip hp).1
  linarith

/-! ### The symmetries of the symbols -/

theorem racahTerm_swap (l : ℕ) (m1 m2 : ℤ) (s : ℕ) (hs : s ≤ l) :
    racahTerm l m2 m1 (l - s) = (-1) ^ l * racahTerm l m1 m2 s := by
  unfold racahTerm
  have hc : ((l - s : ℕ) : ℤ) = l - s := by omega
  rw [hc]
  by_cases h : 0 ≤ (l - s : ℤ) ∧ 0 ≤ l - m1 - s ∧ 0 ≤ l + m2 - s ∧ 0 ≤ m1 + s ∧ 0 ≤ -m2 + s
  · rw [if_pos h, if_pos (by omega)]
    have hsign : (-1 : ℚ) ^ (l - s) = (-1) ^ l * (-1) ^ s := by
      rw [← pow_add]
      exact neg_one_pow_congr (by rw [Nat.even_sub hs, Nat.even_add])
    rw [hsign, mul_div_assoc]
    congr 2
    rw [show (l : ℤ) - (l - s) = s by omega, show (l : ℤ) - m2 - (l - s) = -m2 + s by omega,
      show (l : ℤ) + m1 - (l - s) = m1 + s by omega, show m2 + ((l : ℤ) - s) = l + m2 - s by omega,
      show -m1 + ((l : ℤ) - s) = l - m1 - s by omega]
    ring
  · rw [if_neg h, if_neg (by omega), mul_zero]

theorem racahTerm_neg (l : ℕ) (m1 m2 : ℤ) (s : ℕ) : racahTerm l (-m1) (-m2) s = racahTerm l m2 m1 s := by
  unfold racahTerm
  by_cases h : 0 ≤ (l - s : ℤ) ∧ 0 ≤ l - m2 - s ∧ 0 ≤ l + m1 - s ∧ 0 ≤ m2 + s ∧ 0 ≤ -m1 + s
  · rw [if_pos h, if_pos (by omega)]
    congr 1
    rw [show (l : ℤ) - -m1 - s = l + m1 - s by omega, show (l : ℤ) + -m2 - s = l - m2 - s by omega,
      show - -m2 + (s : ℤ) = m2 + s by omega]
    ring
  · rw [if_neg h, if_neg (by omega)]

theorem wigner3j_swap (l : ℕ) (m1 m2 m3 : ℤ) : wigner3j l m2 m1 m3 = (-1) ^ l * wigner3j l m1 m2 m3 := by
  have h1 : ((List.range (l + 1)).map (racahTerm l m2 m1)).sum =
      (-1) ^ l * ((List.range (l + 1)).map (racahTerm l m1 m2)).sum := by
    have e : ∀ f : ℕ → ℚ, ((List.range (l + 1)).map f).sum = ∑ s ∈ Finset.range (l + 1), f s := fun _ => rfl
    rw [e, e, ← Finset.sum_range_reflect, Finset.mul_sum]
    refine Finset.sum_congr rfl fun s hs => ?_
    rw [Finset.mem_range] at hs
    rw [show l + 1 - 1 - s = l - s by omega]
    exact racahTerm_swap l m1 m2 s (by omega)
  have h2 : racahProduct l m2 m1 m3 = racahProduct l m1 m2 m3 := by
    unfold racahProduct
    congr 2
    ring
  unfold wigner3j
  rw [h1, h2]
  push_cast
  ring

theorem wigner3j_neg (l : ℕ) (m1 m2 m3 : ℤ) :
    wigner3j l (-m1) (-m2) (-m3) = (-1) ^ l * wigner3j l m1 m2 m3 := by
  rw [← wigner3j_swap]
  have h1 : (List.range (l + 1)).map (racahTerm l (-m1) (-m2)) = (List.range (l + 1)).map (racahTerm l m2 m1) :=
    List.map_congr_left fun s _ => racahTerm_neg l m1 m2 s
  have h2 : racahProduct l (-m1) (-m2) (-m3) = racahProduct l m2 m1 m3 := by
    unfold racahProduct
    simp only [sub_neg_eq_add, ← sub_eq_add_neg]
    congr 2
    ring
  unfold wigner3j
  rw [h1, h2, zpow_neg]
  congr 2
  rcases Int.even_or_odd m3 with h | h
  · rw [h.neg_one_zpow]; norm_num
  · rw [h.neg_one_zpow]; norm_num

theorem wExact_swap (l : ℕ) (Y : ℤ → Vec3 ℝ → ℂ) (L : List (ℝ × Vec3 ℝ)) :
    wExact l Y L = (-1) ^ l * wExact l Y L := by
  conv_lhs => unfold wExact overTriples
  rw [Finset.sum_comm]
  unfold wExact overTriples
  rw [Finset.mul_sum]
  refine Finset.sum_congr rfl fun m1 _ => ?_
  rw [Finset.mul_sum]
  refine Finset.sum_congr rfl fun m2 _ => ?_
  rw [show m2 + m1 = m1 + m2 by ring, show -m2 - m1 = -m1 - m2 by ring]
  by_cases h : |m1 + m2| ≤ l
  · rw [if_pos h, if_pos h]
    beta_reduce
    rw [wigner3j_swap l m1 m2]
    push_cast
    ring
  · rw [if_neg h, if_neg h, mul_zero]

theorem sum_Icc_neg {A : Type*} [AddCommMonoid A] (l : ℕ) (f : ℤ → A) :
    ∑ m ∈ Finset.Icc (-l : ℤ) l, f (-m) = ∑ m ∈ Finset.Icc (-l : ℤ) l, f m := by
  refine Finset.sum_bij (fun m _ => -m) ?_ ?_ ?_ (fun _ _ => rfl)
  · intro m hm
    rw [Finset.mem_Icc] at hm ⊢; omega
  · intro m _ m' _ h; omega
  · intro m hm
    rw [Finset.mem_Icc] at hm
    exact ⟨-m, Finset.mem_Icc.mpr (by omega), by omega⟩

theorem wExact_conj {l : ℕ} {Y : ℤ → Vec3 ℝ → ℂ} (hY : Harmonics l Y) (L : List (ℝ × Vec3 ℝ)) :
    wExact l Y L = (-1) ^ l * (starRingEnd ℂ) (wExact l Y L) := by
  conv_lhs => unfold wExact overTriples
  rw [← sum_Icc_neg]
  unfold wExact overTriples
  rw [map_sum, Finset.mul_sum]
  refine Finset.sum_congr rfl fun m1 _ => ?_
  rw [← sum_Icc_neg, map_sum, Finset.mul_sum]
  refine Finset.sum_congr rfl fun m2 _ => ?_
  rw [show -m1 + -m2 = -(m1 + m2) by ring, abs_neg, show - -m1 - -m2 = -(-m1 - m2) by ring]
  by_cases h : |m1 + m2| ≤ l
  · rw [if_pos h, if_pos h]
    beta_reduce
    rw [wigner3j_neg, coefficient_neg hY, coefficient_neg hY, coefficient_neg hY]
    simp only [map_mul, Complex.conj_ofReal]
    push_cast
    have hs : ((-1 : ℂ) ^ m1) * (-1) ^ m2 * (-1) ^ (-m1 - m2) = 1 := by
      rw [← zpow_add₀ (by norm_num), ← zpow_add₀ (by norm_num)]
      simp
    linear_combination ((-1 : ℂ) ^ l * (wigner3j l m1 m2 (-m1 - m2) : ℂ) * (starRingEnd ℂ) (coefficient Y L m1) *
      (starRingEnd ℂ) (coefficient Y L m2) * (starRingEnd ℂ) (coefficient Y L (-m1 - m2))) * hs
  · rw [if_neg h, if_neg h, map_zero, mul_zero]

theorem wExact_odd {l : ℕ} (ho : l % 2 = 1) (Y : ℤ → Vec3 ℝ → ℂ) (L : List (ℝ × Vec3 ℝ)) : wExact l Y L = 0 := by
  have h := wExact_swap l Y L
  rw [Odd.neg_one_pow (Nat.odd_iff.mpr ho)] at h
  have : wExact l Y L + wExact l Y L = 0 := by linear_combination h
  simpa using this

theorem wExact_im {l : ℕ} {Y : ℤ → Vec3 ℝ → ℂ} (hY : Harmonics l Y) (L : List (ℝ × Vec3 ℝ)) :
    (wExact l Y L).im = 0 := by
  rcases Nat.mod_two_eq_zero_or_one l with h | h
  · have e := wExact_conj hY L
    rw [Even.neg_one_pow (Nat.even_iff.mpr h), one_mul] at e
    have := congrArg Complex.im e
    rw [Complex.conj_im] at this
    linarith
  · rw [wExact_odd h]; rfl

end Freud.Steinhardt
