import Verif.Lemmas.WignerCheck

/-!
# The table of Wigner 3j symbols is right
-/

namespace Freud.Wigner
open Spec Steinhardt

theorem table_none (l : ℕ) (h : 20 < l) : table l = none := by
  obtain ⟨k, rfl⟩ := Nat.exists_eq_add_of_lt h
  rw [show 20 + k + 1 = k + 21 by omega]
  rfl

theorem pascal_spec (n : ℕ) : (pascal n).length = n + 1 ∧ ∀ k, (pascal n).getD k 0 = n.choose k := by
  induction n with
  | zero =>
    refine ⟨rfl, fun k => ?_⟩
    cases k with
    | zero => rfl
    | succ k => simp [pascal]
  | succ n ih =>
    obtain ⟨h1, h2⟩ := ih
    refine ⟨by simp [pascal, h1], fun k => ?_⟩
    have hz : ∀ (a b : List ℕ), a.length = b.length → (List.zipWith (· + ·) a b).getD k 0 = a.getD k 0 + b.getD k 0 := by
      intro a b hab
      rw [List.getD_eq_getElem?_getD, List.getD_eq_getElem?_getD, List.getD_eq_getElem?_getD,
        List.getElem?_zipWith]
      by_cases hk : k < a.length
      · rw [List.getElem?_eq_getElem hk, List.getElem?_eq_getElem (hab ▸ hk)]; rfl
      · rw [List.getElem?_eq_none (by omega), List.getElem?_eq_none (by omega)]; rfl
    rw [pascal, hz _ _ (by simp)]
    have ha : (pascal n ++ [0]).getD k 0 = n.choose k := by
      rw [← h2 k, List.getD_eq_getElem?_getD, List.getD_eq_getElem?_getD]
      by_cases hk : k < (pascal n).length
      · rw [List.getElem?_append_left hk]
      · rw [List.getElem?_append_right (by omega), List.getElem?_eq_none (l := pascal n) (by omega)]
        cases k - (pascal n).length <;> simp
    rw [ha]
    cases k with
    | zero => simp
    | succ k => rw [List.getD_cons_succ, h2, Nat.choose_succ_succ]

theorem shifted_spec (l : ℕ) (m : ℤ) (k : ℕ) : (shifted (pascal l) m).getD k 0 = ichoose l (m + k) := by
  unfold shifted ichoose
  cases m with
  | ofNat j =>
    rw [if_neg (by simp; omega)]
    have : (Int.ofNat j + (k : ℤ)).toNat = j + k := by simp; omega
    rw [this, ← (pascal_spec l).2]
    simp [List.getD_eq_getElem?_getD]
  | negSucc j =>
    simp only
    by_cases hk : k < j + 1
    · rw [if_pos (by omega), List.getD_eq_getElem?_getD, List.getElem?_append_left (by simpa using hk)]
      simp [hk]
    · rw [if_neg (by omega)]
      have : (Int.negSucc j + (k : ℤ)).toNat = k - (j + 1) := by omega
      rw [this, ← (pascal_spec l).2, List.getD_eq_getElem?_getD, List.getD_eq_getElem?_getD,
        List.getElem?_append_right (by simp; omega), List.length_replicate]

theorem alt3_spec (a b c : List ℕ) : alt3 a b c = ((List.range a.length).map fun s : ℕ =>
    (-1 : ℤ) ^ s * ((a.getD s 0 * b.getD s 0 * c.getD s 0 : ℕ) : ℤ)).sum := by
  induction a generalizing b c with
  | nil => simp [alt3]
  | cons x a ih =>
    have h0 : ∀ f : ℕ → ℤ, (∀ s, f s = 0) → ((List.range (x :: a).length).map f).sum = 0 := by
      intro f hf
      apply List.sum_eq_zero
      intro y hy
      obtain ⟨s, -, rfl⟩ := List.mem_map.mp hy
      exact hf s
    cases b with
    | nil => rw [h0 _ (by simp)]; rfl
    | cons y b =>
      cases c with
      | nil => rw [h0 _ (by simp)]; rfl
      | cons z c =>
        rw [alt3, ih, List.length_cons, List.range_succ_eq_map, List.map_cons, List.sum_cons, List.map_map]
        simp only [Function.comp_def, List.getD_cons_succ, List.getD_cons_zero, pow_zero, one_mul]
        have hn : ∀ (f : ℕ → ℤ) (l : List ℕ), (l.map fun s => -f s).sum = -(l.map f).sum := by
          intro f l
          induction l with
          | nil => rfl
          | cons s l ih => simp only [List.map_cons, List.sum_cons, ih]; ring
        rw [sub_eq_add_neg, ← hn]
        congr 1
        congr 1
        refine List.map_congr_left fun s _ => ?_
        rw [Nat.succ_eq_add_one, pow_succ]; ring

theorem alt_eq (l : ℕ) (m1 m2 : ℤ) :
    alt3 (pascal l) (shifted (pascal l) m1) (shifted (pascal l) (-m2)) = alt l m1 m2 := by
  rw [alt3_spec, alt, (pascal_spec l).1]
  congr 1
  refine List.map_congr_left fun s _ => ?_
  have hs : ichoose l s = l.choose s := by unfold ichoose; rw [if_neg (by omega)]; simp
  rw [shifted_spec, shifted_spec, (pascal_spec l).2, hs]

theorem ifact_choose (l : ℕ) (m : ℤ) (h1 : -l ≤ m) (h2 : m ≤ l) :
    ifact (l + m) * ifact (l - m) * nth (pascal (2 * l)) (l + m) = (2 * l).factorial := by
  unfold nth ifact
  rw [(pascal_spec _).2]
  have h := Nat.choose_mul_factorial_mul_factorial (n := 2 * l) (k := (l + m : ℤ).toNat) (by omega)
  have e : 2 * l - (l + m : ℤ).toNat = (l - m : ℤ).toNat := by omega
  rw [e] at h
  rw [← h]; ring

theorem term_eq (l : ℕ) (m1 m2 : ℤ) (s : ℕ) (hs : s ≤ l) :
    racahTerm l m1 m2 s * (l.factorial : ℚ) ^ 3 =
      (-1) ^ s * ((ichoose l s * ichoose l (m1 + s) * ichoose l (-m2 + s) : ℕ) : ℚ) := by
  have key : ∀ k : ℤ, 0 ≤ k → k ≤ l →
      ((ichoose l k : ℕ) : ℚ) * (ifact k * ifact (l - k)) = l.factorial := by
    intro k h0 hk
    unfold ichoose ifact
    rw [if_neg (by omega)]
    have h := Nat.choose_mul_factorial_mul_factorial (n := l) (k := k.toNat) (by omega)
    have e : l - k.toNat = (l - k : ℤ).toNat := by omega
    rw [e] at h
    rw [← h]; push_cast; ring
  have hp : ∀ k : ℤ, (0 : ℚ) < ifact k := fun k => by
    exact_mod_cast Nat.factorial_pos _
  unfold racahTerm
  split_ifs with h
  · obtain ⟨h1, h2, h3, h4, h5⟩ := h
    have k1 := key s (by omega) (by omega)
    have k2 := key (m1 + s) (by omega) (by omega)
    have k3 := key (-m2 + s) (by omega) (by omega)
    rw [show (l : ℤ) - (m1 + s) = l - m1 - s by ring] at k2
    rw [show (l : ℤ) - (-m2 + s) = l + m2 - s by ring] at k3
    have p1 := hp s
    have p2 := hp (l - s)
    have p3 := hp (l - m1 - s)
    have p4 := hp (l + m2 - s)
    have p5 := hp (m1 + s)
    have p6 := hp (-m2 + s)
    rw [div_mul_eq_mul_div, div_eq_iff (by positivity)]
    push_cast
    calc (-1 : ℚ) ^ s * (l.factorial : ℚ) ^ 3
        = (-1) ^ s * ((l.factorial : ℚ) * l.factorial * l.factorial) := by ring
      _ = (-1) ^ s * ((ichoose l s * (ifact s * ifact (l - s))) *
          (ichoose l (m1 + s) * (ifact (m1 + s) * ifact (l - m1 - s))) *
          (ichoose l (-m2 + s) * (ifact (-m2 + s) * ifact (l + m2 - s)))) := by rw [k1, k2, k3]
      _ = _ := by ring
  · have z : ∀ k : ℤ, (k < 0 ∨ (l : ℤ) < k) → ichoose l k = 0 := by
      intro k hk
      unfold ichoose
      split_ifs with h0
      · rfl
      · exact Nat.choose_eq_zero_of_lt (by omega)
    have : ichoose l (m1 + s) = 0 ∨ ichoose l (-m2 + s) = 0 := by
      by_contra hcon
      push Not at hcon
      have a1 : ¬ ((m1 + s : ℤ) < 0 ∨ (l : ℤ) < m1 + s) := fun hh => hcon.1 (z _ hh)
      have a2 : ¬ ((-m2 + s : ℤ) < 0 ∨ (l : ℤ) < -m2 + s) := fun hh => hcon.2 (z _ hh)
      exact h ⟨by omega, by omega, by omega, by omega, by omega⟩
    rcases this with h' | h' <;> simp [h']

/-- The sum in Racah's formula. -/
theorem sum_eq (l : ℕ) (m1 m2 : ℤ) :
    ((List.range (l + 1)).map (racahTerm l m1 m2)).sum = (alt l m1 m2 : ℚ) / (l.factorial : ℚ) ^ 3 := by
  rw [eq_div_iff (by positivity), alt]
  have : ∀ L : List ℕ, (∀ s ∈ L, s ≤ l) → (L.map (racahTerm l m1 m2)).sum * (l.factorial : ℚ) ^ 3 =
      ((L.map fun s : ℕ => (-1 : ℤ) ^ s *
        ((ichoose l s * ichoose l (m1 + s) * ichoose l (-m2 + s) : ℕ) : ℤ)).sum : ℤ) := by
    intro L hL
    induction L with
    | nil => simp
    | cons s L ih =>
      simp only [List.map_cons, List.sum_cons, add_mul]
      rw [ih fun s hs => hL s (List.mem_cons_of_mem _ hs), term_eq l m1 m2 s (hL s List.mem_cons_self)]
      push_cast
      rfl
  exact this _ fun s hs => by have := List.mem_range.mp hs; omega

/-- A number that passes the check is the symbol up to one part in `10 ^ 15`. -/
theorem entry_spec (l : ℕ) (m1 m2 m3 : ℤ) (h1 : |m1| ≤ l) (h2 : |m2| ≤ l) (h3 : |m3| ≤ l) (t : ℤ)
    (h : entryOK (pascal l) (pascal (2 * l)) l ((2 * l).factorial ^ 3 * 10 ^ 42)
      (l.factorial ^ 3 * (3 * l + 1).factorial) (m1, m2, m3) t = true) :
    |(t : ℝ) / 10 ^ 21 - wigner3j l m1 m2 m3| ≤ 1 / 10 ^ 15 * |wigner3j l m1 m2 m3| := by
  rw [abs_le] at h1 h2 h3
  simp only [entryOK, alt_eq, Bool.and_eq_true, decide_eq_true_eq] at h
  obtain ⟨⟨hs, ha⟩, hb⟩ := h
  have f1 := ifact_choose l m1 h1.1 h1.2
  have f2 := ifact_choose l m2 h2.1 h2.2
  have f3 := ifact_choose l m3 h3.1 h3.2
  set n1 := nth (pascal (2 * l)) (l + m1) with hn1
  set n2 := nth (pascal (2 * l)) (l + m2) with hn2
  set n3 := nth (pascal (2 * l)) (l + m3) with hn3
  set A := alt l m1 m2 with hA
  set g : ℕ := ifact (l + m1) * ifact (l - m1) * ifact (l + m2) * ifact (l - m2) * ifact (l + m3) *
    ifact (l - m3) with hg
  have hgn : g * (n1 * n2 * n3) = (2 * l).factorial ^ 3 := by
    rw [pow_succ, pow_two]
    nth_rewrite 1 [← f1]
    nth_rewrite 1 [← f2]
    rw [← f3, hg]
    ring
  have hl : (0 : ℝ) < l.factorial := by exact_mod_cast Nat.factorial_pos _
  have h3l : (0 : ℝ) < (3 * l + 1).factorial := by exact_mod_cast Nat.factorial_pos _
  have hnp : 0 < n1 * n2 * n3 := by
    apply Nat.pos_of_ne_zero
    intro h0
    rw [h0, mul_zero] at hgn
    exact (Nat.factorial_pos (2 * l)).ne' (by simpa using hgn.symm)
  have hN : (0 : ℝ) < (n1 * n2 * n3 : ℕ) := by exact_mod_cast hnp
  -- the symbol
  have hprod : (0 : ℝ) ≤ (racahProduct l m1 m2 m3 : ℚ) := by
    have : (0 : ℚ) ≤ racahProduct l m1 m2 m3 := by unfold racahProduct; positivity
    exact_mod_cast this
  have hpe : ((racahProduct l m1 m2 m3 : ℚ) : ℝ) = (l.factorial : ℝ) ^ 3 / (3 * l + 1).factorial * (g : ℕ) := by
    unfold racahProduct; rw [hg]; push_cast; ring
  have hsgn : ((-1 : ℝ) ^ m3) = if m3 % 2 = 0 then 1 else -1 := by
    split_ifs with he
    · exact Even.neg_one_zpow (Int.even_iff.mpr he)
    · exact Odd.neg_one_zpow (Int.odd_iff.mpr (by omega))
  have hw : wigner3j l m1 m2 m3 = (-1 : ℝ) ^ m3 * Real.sqrt (racahProduct l m1 m2 m3) *
      ((A : ℝ) / (l.factorial : ℝ) ^ 3) := by
    unfold wigner3j
    rw [sum_eq]
    push_cast
    rfl
  set w := wigner3j l m1 m2 m3 with hwd
  set T : ℝ := (t : ℝ) / 10 ^ 21 with hT
  have hw2 : w ^ 2 = (g : ℕ) * (A : ℝ) ^ 2 / ((l.factorial : ℝ) ^ 3 * (3 * l + 1).factorial) := by
    have h1 : ((-1 : ℝ) ^ m3) ^ 2 = 1 := by rw [hsgn]; split_ifs <;> norm_num
    rw [hw, mul_pow, mul_pow, h1, Real.sq_sqrt hprod, hpe]
    field_simp
  -- the two sides of the check
  set X : ℝ := (l.factorial : ℝ) ^ 3 * (3 * l + 1).factorial * (n1 * n2 * n3 : ℕ) * 10 ^ 42 with hX
  have hXp : 0 < X := by positivity
  have hnum : ((A.natAbs ^ 2 * ((2 * l).factorial ^ 3 * 10 ^ 42) : ℕ) : ℝ) = w ^ 2 * X := by
    rw [← hgn, hw2, hX]
    push_cast
    rw [Nat.cast_natAbs, Int.cast_abs, sq_abs]
    field_simp
    norm_num
  have hlhs : ((t.natAbs ^ 2 * (l.factorial ^ 3 * (3 * l + 1).factorial * n1 * n2 * n3) : ℕ) : ℝ) = T ^ 2 * X := by
    rw [hT, hX]
    push_cast
    rw [Nat.cast_natAbs, Int.cast_abs, sq_abs]
    ring
  have hsub : ∀ a b : ℕ, (a - b) * 10 ^ 15 ≤ b → (b - a) * 10 ^ 15 ≤ b →
      |(a : ℝ) - b| * 10 ^ 15 ≤ b := by
    intro a b hab hba
    rcases le_total a b with hle | hle
    · rw [abs_of_nonpos (by have : (a : ℝ) ≤ b := by exact_mod_cast hle
                            linarith), neg_sub, ← Nat.cast_sub hle]
      exact_mod_cast hba
    · rw [abs_of_nonneg (by have : (b : ℝ) ≤ a := by exact_mod_cast hle
                            linarith), ← Nat.cast_sub hle]
      exact_mod_cast hab
  have hb' : (A.natAbs ^ 2 * ((2 * l).factorial ^ 3 * 10 ^ 42) -
      t.natAbs ^ 2 * (l.factorial ^ 3 * (3 * l + 1).factorial * n1 * n2 * n3)) * 10 ^ 15 ≤
      A.natAbs ^ 2 * ((2 * l).factorial ^ 3 * 10 ^ 42) := hb
  have hd := hsub _ _ ha hb'
  rw [hnum, hlhs, ← sub_mul, abs_mul, abs_of_pos hXp] at hd
  have hd2 : |T ^ 2 - w ^ 2| * 10 ^ 15 ≤ w ^ 2 := by
    have : |T ^ 2 - w ^ 2| * 10 ^ 15 * X ≤ w ^ 2 * X := by linarith
    exact le_of_mul_le_mul_right this hXp
  have hTw : 0 ≤ T * w := by
    have hr : 0 ≤ Real.sqrt (racahProduct l m1 m2 m3) / (l.factorial : ℝ) ^ 3 / 10 ^ 21 := by positivity
    have e : T * w = ((-1 : ℝ) ^ m3 * ((t * A : ℤ) : ℝ)) *
        (Real.sqrt (racahProduct l m1 m2 m3) / (l.factorial : ℝ) ^ 3 / 10 ^ 21) := by
      rw [hw, hT]; push_cast; ring
    rw [e]
    refine mul_nonneg ?_ hr
    rw [hsgn]
    split_ifs at hs ⊢ with he
    · rw [one_mul]; exact_mod_cast of_decide_eq_true hs
    · have h' : (t * A : ℤ) ≤ 0 := of_decide_eq_true hs
      have : ((t * A : ℤ) : ℝ) ≤ 0 := by exact_mod_cast h'
      linarith
  rcases eq_or_ne w 0 with h0 | h0
  · rw [h0] at hd2 ⊢
    have : |T ^ 2 - 0 ^ 2| = 0 := le_antisymm (by linarith) (abs_nonneg _)
    have hT0 : T = 0 := by simpa using this
    rw [hT0]; simp
  · have hw0 : 0 < |w| := abs_pos.mpr h0
    have hfac : |T - w| * |w| ≤ |T ^ 2 - w ^ 2| := by
      rw [show T ^ 2 - w ^ 2 = (T - w) * (T + w) by ring, abs_mul]
      refine mul_le_mul_of_nonneg_left ?_ (abs_nonneg _)
      rw [← sq_le_sq]
      nlinarith [sq_nonneg T]
    have : |T - w| * |w| ≤ 1 / 10 ^ 15 * |w| * |w| := by
      rw [mul_assoc, ← pow_two, sq_abs]
      linarith
    exact le_of_mul_le_mul_right this hw0

end Freud.Wigner
