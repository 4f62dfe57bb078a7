import Verif.Model.RotAutocorr
import Mathlib.Data.Complex.BigOperators
import Mathlib.Algebra.BigOperators.NatAntidiagonal
import Mathlib.Data.Nat.Choose.Basic
import Mathlib.Algebra.BigOperators.Field
import Mathlib.Analysis.SpecialFunctions.Trigonometric.Basic
import Mathlib.Tactic.LinearCombination
import Mathlib.Tactic.FieldSimp
import Mathlib.Tactic.IntervalCases

/-!
# Lemmas about the rotational autocorrelation

The sum over the pairs of quantum numbers is the character of the representation of dimension `l + 1`.
-/

namespace Freud.RotAC
open Finset

theorem cconj_eq (z : ℂ) : cconj z = (starRingEnd ℂ) z := by
  apply Complex.ext <;> simp [cconj]

theorem cpow_eq (z : ℂ) (p : ℕ) : cpow z p = z ^ p := by
  unfold cpow
  split_ifs with h
  · simp [h]
  · obtain ⟨n, rfl⟩ := Nat.exists_eq_succ_of_ne_zero h
    simp only [Nat.succ_eq_add_one, Nat.add_sub_cancel]
    clear h
    induction n with
    | zero => simp
    | succ n ih => rw [List.range_succ, List.foldl_append, ih]; simp [pow_succ]

theorem factLoop_length (n : ℕ) : (factLoop n).length = n + 1 := by
  induction n with
  | zero => rfl
  | succ n ih => simp [factLoop, ih]

theorem factLoop_getD (n i : ℕ) (h : i ≤ n) : (factLoop n).getD i 0 = (factLoop i).getD i 0 := by
  induction n with
  | zero => rw [Nat.le_zero.mp h]
  | succ n ih =>
    rcases Nat.le_succ_iff.mp h with h | rfl
    · rw [factLoop, List.getD_eq_getElem?_getD, List.getElem?_append_left (by rw [factLoop_length]; omega),
        ← List.getD_eq_getElem?_getD, ih h]
    · rfl

/-- The factorials are the factorials modulo `2 ^ 32`. -/
theorem fact_eq (l i : ℕ) (h : i ≤ l) : fact l i = i.factorial % 2 ^ 32 := by
  unfold fact
  rw [factLoop_getD l i h]
  clear h
  induction i with
  | zero => rfl
  | succ i ih =>
    rw [factLoop, List.getD_eq_getElem?_getD, List.getElem?_append_right (by rw [factLoop_length]), factLoop_length]
    simp only [Nat.sub_self, List.getElem?_cons_zero, Option.getD_some]
    rw [ih, mul32, Nat.factorial_succ, Nat.mul_mod, Nat.mod_mod, ← Nat.mul_mod]

theorem foldl_add_eq {A : Type*} (l : List A) (f : A → ℂ) (z : ℂ) :
    l.foldl (fun s a => s + f a) z = z + (l.map f).sum := by
  induction l generalizing z with
  | nil => simp
  | cons a l ih => simp [ih, add_assoc]

/-- The sum in `hypersphere_harmonic`. -/
theorem harmonic_eq (l : ℕ) (xi zeta : ℂ) (m1 m2 : ℕ) : harmonic l xi zeta m1 m2 =
    ∑ k ∈ Ico (m1 + m2 - l) (min m1 m2 + 1), (starRingEnd ℂ) xi ^ k * zeta ^ (m2 - k) *
      (starRingEnd ℂ) zeta ^ (m1 - k) * (-xi) ^ (l + k - m1 - m2) /
      ((fact l k : ℂ) * fact l (l + k - m1 - m2) * fact l (m1 - k) * fact l (m2 - k)) := by
  unfold harmonic
  have hlo : (if m1 + m2 < l then 0 else m1 + m2 - l) = m1 + m2 - l := by split_ifs <;> omega
  simp only [hlo]
  rw [foldl_add_eq, zero_add, Finset.sum_eq_multiset_sum]
  have : (Ico (m1 + m2 - l) (min m1 m2 + 1)).val =
      (List.range' (m1 + m2 - l) (min m1 m2 + 1 - (m1 + m2 - l)) : Multiset ℕ) := rfl
  rw [this, Multiset.map_coe, Multiset.sum_coe]
  congr 1
  apply List.map_congr_left
  intro k _
  simp only [cpow_eq, cconj_eq]
  push_cast
  rfl

/-- The harmonics of the unit quaternion. -/
theorem harmonic_unit (l a b : ℕ) (ha : a ≤ l) (hb : b ≤ l) : harmonic l 0 Complex.I a b =
    if a + b = l then Complex.I ^ b * (-Complex.I) ^ a / ((fact l a : ℂ) * fact l b) else 0 := by
  rw [harmonic_eq]
  have h0 : (fact l 0 : ℂ) = 1 := by rw [fact_eq l 0 (by omega)]; norm_num
  split_ifs with h
  · rw [show a + b - l = 0 by omega, Finset.sum_eq_single 0]
    · rw [show l + 0 - a - b = 0 by omega]
      simp [h0]
    · intro k _ hk
      simp [hk]
    · intro h
      simp at h
  · apply Finset.sum_eq_zero
    intro k hk
    rw [Finset.mem_Ico] at hk
    by_cases hk0 : k = 0
    · subst hk0
      have : l - a - b ≠ 0 := by omega
      simp [this]
    · simp [hk0]

/-- The loops over the quantum numbers are a sum over the pairs with `a + b = l`. -/
theorem particleOrder_eq (l : ℕ) (ref q : Quat ℝ) : particleOrder l ref q =
    ∑ p ∈ antidiagonal l, (prefactor l p.1 p.2 : ℂ) *
      ((starRingEnd ℂ) (Complex.I ^ p.2 * (-Complex.I) ^ p.1 / ((fact l p.1 : ℂ) * fact l p.2)) *
        harmonic l ⟨(Quat.mul (Quat.conj ref) q).v.x, (Quat.mul (Quat.conj ref) q).v.y⟩
          ⟨(Quat.mul (Quat.conj ref) q).v.z, (Quat.mul (Quat.conj ref) q).s⟩ p.1 p.2) := by
  unfold particleOrder
  simp only
  set H := harmonic l ⟨(Quat.mul (Quat.conj ref) q).v.x, (Quat.mul (Quat.conj ref) q).v.y⟩
    ⟨(Quat.mul (Quat.conj ref) q).v.z, (Quat.mul (Quat.conj ref) q).s⟩ with hH
  rw [foldl_add_eq, zero_add]
  have e1 : (pairs l).zipIdx.map (fun p => (prefactor l p.1.1 p.1.2 : ℂ) * ((unitHarmonics l).getD p.2 0 *
      H p.1.1 p.1.2)) = (pairs l).map (fun p => (prefactor l p.1 p.2 : ℂ) *
        (cconj (harmonic l ⟨0, 0⟩ ⟨0, 1⟩ p.1 p.2) * H p.1 p.2)) := by
    apply List.ext_getElem
    · simp
    · intro i h1 h2
      have hi : i < (pairs l).length := by simpa using h2
      simp [unitHarmonics, List.getD_eq_getElem?_getD, hi]
  rw [e1]
  have e2 : ∀ f : ℕ × ℕ → ℂ, ((pairs l).map f).sum = ∑ a ∈ range (l + 1), ∑ b ∈ range (l + 1), f (a, b) := by
    intro f
    have : ∀ n m : ℕ, (((List.range n).flatMap fun a => (List.range m).map fun b => (a, b)).map f).sum =
        ∑ a ∈ range n, ∑ b ∈ range m, f (a, b) := by
      intro n m
      have inner : ∀ a, (((List.range m).map fun b => (a, b)).map f).sum = ∑ b ∈ range m, f (a, b) := by
        intro a
        rw [List.map_map]
        induction m with
        | zero => simp
        | succ m ih => rw [List.range_succ, List.map_append, List.sum_append, ih, Finset.sum_range_succ]; simp
      induction n with
      | zero => simp
      | succ n ih =>
        rw [List.range_succ, List.flatMap_append, List.map_append, List.sum_append, ih, Finset.sum_range_succ]
        congr 1
        simp only [List.flatMap_cons, List.flatMap_nil, List.append_nil]
        exact inner n
    exact this _ _
  rw [e2, Finset.Nat.sum_antidiagonal_eq_sum_range_succ_mk]
  apply Finset.sum_congr rfl
  intro a ha
  have ha' : a ≤ l := by rw [Finset.mem_range] at ha; omega
  rw [Finset.sum_eq_single (l - a)]
  · simp only
    rw [cconj_eq, show (⟨0, 0⟩ : ℂ) = 0 from rfl, show (⟨0, 1⟩ : ℂ) = Complex.I from rfl,
      harmonic_unit l a (l - a) ha' (by omega), if_pos (by omega)]
  · intro b hb hne
    have hb' : b ≤ l := by rw [Finset.mem_range] at hb; omega
    simp only
    rw [cconj_eq, show (⟨0, 0⟩ : ℂ) = 0 from rfl, show (⟨0, 1⟩ : ℂ) = Complex.I from rfl,
      harmonic_unit l a b ha' hb', if_neg (by omega)]
    simp
  · intro h
    exact absurd (Finset.mem_range.mpr (by omega)) h

/-! ### The character -/

section character
variable (d1 d2 off : ℂ)

/-- `C(a,k) x ^ (a-k)`. -/
def pk (x : ℂ) (a k : ℕ) : ℂ := (a.choose k : ℂ) * x ^ (a - k)

theorem pk_succ_succ (x : ℂ) (a k : ℕ) : pk x (a + 1) (k + 1) = x * pk x a (k + 1) + pk x a k := by
  unfold pk
  rw [Nat.choose_succ_succ]
  rcases Nat.lt_or_ge k a with h | h
  · obtain ⟨c, rfl⟩ := Nat.exists_eq_add_of_lt h
    rw [show k + c + 1 + 1 - (k + 1) = c + 1 by omega, show k + c + 1 - (k + 1) = c by omega,
      show k + c + 1 - k = c + 1 by omega]
    push_cast
    ring
  · rw [Nat.choose_eq_zero_of_lt (show a < k + 1 by omega), show a + 1 - (k + 1) = a - k by omega]
    push_cast
    ring

theorem pk_succ_zero (x : ℂ) (a : ℕ) : pk x (a + 1) 0 = x * pk x a 0 := by
  simp [pk, pow_succ, mul_comm]

theorem pk_zero (x : ℂ) (a k : ℕ) (h : a < k) : pk x a k = 0 := by
  simp [pk, Nat.choose_eq_zero_of_lt h]

/-- The diagonal matrix elements. -/
def gk (a b : ℕ) : ℂ := ∑ k ∈ range (a + 1), off ^ k * pk d1 a k * pk d2 b k

theorem gk_big (a b N : ℕ) (h : a < N) : gk d1 d2 off a b = ∑ k ∈ range N, off ^ k * pk d1 a k * pk d2 b k := by
  unfold gk
  apply Finset.sum_subset
  · intro x hx; rw [Finset.mem_range] at *; omega
  · intro x _ hx
    rw [Finset.mem_range] at hx
    rw [pk_zero d1 a x (by omega)]
    ring

theorem gk_succ_zero (a : ℕ) : gk d1 d2 off (a + 1) 0 = d1 * gk d1 d2 off a 0 := by
  have key : ∀ c, gk d1 d2 off c 0 = d1 ^ c := by
    intro c
    unfold gk
    rw [Finset.sum_eq_single 0]
    · simp [pk]
    · intro k _ hk
      rw [pk_zero d2 0 k (by omega)]; ring
    · simp
  rw [key, key, pow_succ, mul_comm]

theorem gk_zero_succ (b : ℕ) : gk d1 d2 off 0 (b + 1) = d2 * gk d1 d2 off 0 b := by
  simp [gk, pk, pow_succ, mul_comm]

theorem gk_rec (a b : ℕ) : gk d1 d2 off (a + 1) (b + 1) =
    d1 * gk d1 d2 off a (b + 1) + d2 * gk d1 d2 off (a + 1) b - (d1 * d2 - off) * gk d1 d2 off a b := by
  rw [gk_big d1 d2 off (a + 1) (b + 1) (a + 3) (by omega), gk_big d1 d2 off a (b + 1) (a + 3) (by omega),
    gk_big d1 d2 off (a + 1) b (a + 3) (by omega)]
  have h1 := gk_big d1 d2 off a b (a + 3) (by omega)
  have h2 := gk_big d1 d2 off a b (a + 2) (by omega)
  have : (d1 * d2 - off) * gk d1 d2 off a b = d1 * d2 * gk d1 d2 off a b - off * gk d1 d2 off a b := by ring
  rw [this]
  conv_rhs => rw [h2]
  conv_rhs => rw [← h2, h1]
  have h3 : off * (∑ k ∈ range (a + 3), off ^ k * pk d1 a k * pk d2 b k) =
      off * ∑ k ∈ range (a + 2), off ^ k * pk d1 a k * pk d2 b k := by rw [← h1, ← h2]
  rw [h3]
  rw [Finset.sum_range_succ' _ (a + 2), Finset.sum_range_succ' _ (a + 2), Finset.sum_range_succ' _ (a + 2),
    Finset.sum_range_succ' _ (a + 2)]
  simp only [pk_succ_succ, pk_succ_zero]
  have h4 : ∑ k ∈ range (a + 2), off ^ (k + 1) * (d1 * pk d1 a (k + 1) + pk d1 a k) *
      (d2 * pk d2 b (k + 1) + pk d2 b k) =
      d1 * ∑ k ∈ range (a + 2), off ^ (k + 1) * pk d1 a (k + 1) * (d2 * pk d2 b (k + 1) + pk d2 b k) +
      d2 * ∑ k ∈ range (a + 2), off ^ (k + 1) * (d1 * pk d1 a (k + 1) + pk d1 a k) * pk d2 b (k + 1) -
      d1 * d2 * ∑ k ∈ range (a + 2), off ^ (k + 1) * pk d1 a (k + 1) * pk d2 b (k + 1) +
      off * ∑ k ∈ range (a + 2), off ^ k * pk d1 a k * pk d2 b k := by
    simp only [Finset.mul_sum]
    rw [← Finset.sum_add_distrib, ← Finset.sum_sub_distrib, ← Finset.sum_add_distrib]
    apply Finset.sum_congr rfl
    intro k _
    ring
  rw [h4]
  ring

/-- The trace. -/
def tk (l : ℕ) : ℂ := ∑ p ∈ antidiagonal l, gk d1 d2 off p.1 p.2

theorem tk_zero : tk d1 d2 off 0 = 1 := by simp [tk, gk, pk]

theorem tk_one : tk d1 d2 off 1 = d1 + d2 := by
  unfold tk
  rw [Finset.Nat.antidiagonal_succ]
  simp [gk, pk, Finset.sum_range_succ]
  ring

theorem tk_rec (l : ℕ) : tk d1 d2 off (l + 2) =
    (d1 + d2) * tk d1 d2 off (l + 1) - (d1 * d2 - off) * tk d1 d2 off l := by
  have e1 : tk d1 d2 off (l + 2) = gk d1 d2 off 0 (l + 2) +
      (∑ p ∈ antidiagonal l, gk d1 d2 off (p.1 + 1) (p.2 + 1)) + gk d1 d2 off (l + 2) 0 := by
    unfold tk
    rw [Finset.Nat.antidiagonal_succ_succ']
    simp [Finset.sum_map]
    ring
  have e2 : tk d1 d2 off (l + 1) = gk d1 d2 off 0 (l + 1) + ∑ p ∈ antidiagonal l, gk d1 d2 off (p.1 + 1) p.2 := by
    unfold tk
    rw [Finset.Nat.sum_antidiagonal_succ]
  have e3 : tk d1 d2 off (l + 1) = gk d1 d2 off (l + 1) 0 + ∑ p ∈ antidiagonal l, gk d1 d2 off p.1 (p.2 + 1) := by
    unfold tk
    rw [Finset.Nat.sum_antidiagonal_succ']
  rw [e1, gk_zero_succ, gk_succ_zero]
  simp only [gk_rec]
  rw [Finset.sum_sub_distrib, Finset.sum_add_distrib, ← Finset.mul_sum, ← Finset.mul_sum, ← Finset.mul_sum]
  have e4 : (d1 + d2) * tk d1 d2 off (l + 1) = d1 * tk d1 d2 off (l + 1) + d2 * tk d1 d2 off (l + 1) := by ring
  rw [e4]
  conv_rhs => rw [e2]
  conv_rhs => rw [← e2]
  have e5 : d1 * tk d1 d2 off (l + 1) = d1 * (gk d1 d2 off (l + 1) 0 + ∑ p ∈ antidiagonal l, gk d1 d2 off p.1 (p.2 + 1)) := by
    rw [e3]
  have e6 : d2 * tk d1 d2 off (l + 1) = d2 * (gk d1 d2 off 0 (l + 1) + ∑ p ∈ antidiagonal l, gk d1 d2 off (p.1 + 1) p.2) := by
    rw [e2]
  have e7 : tk d1 d2 off l = ∑ p ∈ antidiagonal l, gk d1 d2 off p.1 p.2 := rfl
  rw [e5, e6, e7]
  ring

end character

/-- The products of factorials fit in 32 bits up to 8. -/
theorem prefactor_eq (l a b : ℕ) (hl : l ≤ 8) (h : a + b = l) :
    prefactor l a b = ((a.factorial : ℝ) * b.factorial) ^ 2 / (l + 1) := by
  have hf : ∀ i ≤ l, fact l i = i.factorial := by
    intro i hi
    rw [fact_eq l i hi]
    apply Nat.mod_eq_of_lt
    have : i.factorial ≤ Nat.factorial 8 := Nat.factorial_le (by omega)
    have e : Nat.factorial 8 = 40320 := by decide
    omega
  unfold prefactor
  rw [hf a (by omega), hf b (by omega), show l - a = b by omega, show l - b = a by omega, hf a (by omega),
    hf b (by omega)]
  have key : mul32 (mul32 (mul32 a.factorial b.factorial) b.factorial) a.factorial =
      (a.factorial * b.factorial) ^ 2 := by
    have ha : a ≤ 8 := by omega
    have hb : b ≤ 8 - a := by omega
    clear hf h hl
    interval_cases a <;> interval_cases b <;> decide
  rw [key]
  push_cast
  rfl

/-- The value for one particle is the trace divided by the dimension. -/
theorem particleOrder_trace (l : ℕ) (hl : l ≤ 8) (ref q : Quat ℝ) :
    let qq := Quat.mul (Quat.conj ref) q
    particleOrder l ref q = tk ⟨qq.s, qq.v.z⟩ ⟨qq.s, -qq.v.z⟩ (-(((qq.v.x * qq.v.x + qq.v.y * qq.v.y : ℝ)) : ℂ)) l / (l + 1) := by
  intro qq
  rw [particleOrder_eq]
  unfold tk
  rw [Finset.sum_div]
  apply Finset.sum_congr rfl
  rintro ⟨a, b⟩ hab
  rw [Finset.mem_antidiagonal] at hab
  simp only at hab ⊢
  have hf : ∀ i ≤ l, (fact l i : ℂ) = i.factorial := by
    intro i hi
    rw [fact_eq l i hi, Nat.mod_eq_of_lt]
    have : i.factorial ≤ Nat.factorial 8 := Nat.factorial_le (by omega)
    have e : Nat.factorial 8 = 40320 := by decide
    omega
  have hne : ∀ i : ℕ, (i.factorial : ℂ) ≠ 0 := fun i => by exact_mod_cast Nat.factorial_ne_zero i
  rw [prefactor_eq l a b hl hab, hf a (by omega), hf b (by omega), harmonic_eq]
  have hg : gk ⟨qq.s, qq.v.z⟩ ⟨qq.s, -qq.v.z⟩ (-(((qq.v.x * qq.v.x + qq.v.y * qq.v.y : ℝ)) : ℂ)) a b =
      ∑ k ∈ Ico 0 (min a b + 1), (-(((qq.v.x * qq.v.x + qq.v.y * qq.v.y : ℝ)) : ℂ)) ^ k *
        pk ⟨qq.s, qq.v.z⟩ a k * pk ⟨qq.s, -qq.v.z⟩ b k := by
    unfold gk
    symm
    apply Finset.sum_subset
    · intro x hx; rw [Finset.mem_Ico] at hx; rw [Finset.mem_range]; omega
    · intro x hx hx'
      rw [Finset.mem_Ico] at hx'
      rw [Finset.mem_range] at hx
      rw [pk_zero _ b x (by omega), mul_zero]
  rw [hg, show a + b - l = 0 by omega, Finset.mul_sum, Finset.mul_sum, Finset.sum_div]
  apply Finset.sum_congr rfl
  intro k hk
  rw [Finset.mem_Ico] at hk
  have hka : k ≤ a := by omega
  have hkb : k ≤ b := by omega
  rw [show l + k - a - b = k by omega, hf k (by omega), hf (a - k) (by omega), hf (b - k) (by omega)]
  unfold pk
  have ca : (a.choose k : ℂ) = a.factorial / (k.factorial * (a - k).factorial) := by
    rw [eq_div_iff (mul_ne_zero (hne _) (hne _))]
    have := Nat.choose_mul_factorial_mul_factorial hka
    rw [← mul_assoc]
    exact_mod_cast this
  have cb : (b.choose k : ℂ) = b.factorial / (k.factorial * (b - k).factorial) := by
    rw [eq_div_iff (mul_ne_zero (hne _) (hne _))]
    have := Nat.choose_mul_factorial_mul_factorial hkb
    rw [← mul_assoc]
    exact_mod_cast this
  rw [ca, cb]
  have z1 : (⟨qq.s, qq.v.z⟩ : ℂ) = Complex.I * (starRingEnd ℂ) ⟨qq.v.z, qq.s⟩ := by
    apply Complex.ext <;> simp
  have z2 : (⟨qq.s, -qq.v.z⟩ : ℂ) = -Complex.I * ⟨qq.v.z, qq.s⟩ := by
    apply Complex.ext <;> simp
  have z3 : (-(((qq.v.x * qq.v.x + qq.v.y * qq.v.y : ℝ)) : ℂ)) = (starRingEnd ℂ) ⟨qq.v.x, qq.v.y⟩ * -⟨qq.v.x, qq.v.y⟩ := by
    apply Complex.ext <;> simp <;> ring
  rw [z1, z2, z3]
  have hI : Complex.I ^ a * (-Complex.I) ^ b = Complex.I ^ (a - k) * (-Complex.I) ^ (b - k) := by
    obtain ⟨c, rfl⟩ := Nat.exists_eq_add_of_le hka
    obtain ⟨e, rfl⟩ := Nat.exists_eq_add_of_le hkb
    rw [Nat.add_sub_cancel_left, Nat.add_sub_cancel_left, pow_add, pow_add]
    have : Complex.I ^ k * (-Complex.I) ^ k = 1 := by rw [← mul_pow]; simp
    linear_combination (Complex.I ^ c * (-Complex.I) ^ e) * this
  have hc : (starRingEnd ℂ) (Complex.I ^ b * (-Complex.I) ^ a / ((a.factorial : ℂ) * b.factorial)) =
      Complex.I ^ a * (-Complex.I) ^ b / ((a.factorial : ℂ) * b.factorial) := by
    rw [map_div₀, map_mul, map_mul, map_pow, map_pow, map_neg, Complex.conj_I]
    simp only [Complex.conj_natCast, neg_neg]
    ring
  rw [hc, hI]
  simp only [mul_pow]
  have := hne a; have := hne b; have := hne k; have := hne (a - k); have := hne (b - k)
  have hl1 : ((l : ℂ) + 1) ≠ 0 := by exact_mod_cast Nat.succ_ne_zero l
  push_cast
  field_simp
  rw [show Quat.mul (Quat.conj ref) q = qq from rfl]
  ring

end Freud.RotAC
