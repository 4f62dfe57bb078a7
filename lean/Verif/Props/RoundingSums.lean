import Verif.Lemmas.Rounding
import Mathlib.Algebra.BigOperators.Group.List.Basic
import Mathlib.Algebra.Order.BigOperators.Group.List

/-!
# Property C92: sums over threads in floating-point arithmetic
-/

namespace Freud
open Spec

/-- The threads of one run: who adds which of the values, in which order. -/
def Spec.IsSplit (values : List ℚ) (parts : List (List ℚ)) : Prop := parts.flatten.Perm values

/-- The sum of the absolute values. -/
def Spec.absSum (l : List ℚ) : ℚ := (l.map abs).sum

namespace Fl

theorem absSum_nonneg (l : List ℚ) : 0 ≤ absSum l :=
  List.sum_nonneg (by
    intro x hx
    obtain ⟨y, -, rfl⟩ := List.mem_map.mp hx
    exact abs_nonneg y)

theorem absSum_cons (x : ℚ) (l : List ℚ) : absSum (x :: l) = |x| + absSum l := by simp [absSum]

theorem foldl_err (p : ℕ) (l : List ℚ) : ∀ acc : ℚ,
    |l.foldl (add p) acc - (acc + l.sum)| ≤ ((1 + 2 ^ (-(p : ℤ))) ^ l.length - 1) * (|acc| + absSum l) ∧
    |l.foldl (add p) acc| ≤ (1 + 2 ^ (-(p : ℤ))) ^ l.length * (|acc| + absSum l) := by
  have hu := two_zpow_pos (-(p : ℤ))
  set u : ℚ := 2 ^ (-(p : ℤ)) with hudef
  induction l with
  | nil => intro acc; simp [absSum]
  | cons x l ih =>
    intro acc
    obtain ⟨h1, h2⟩ := ih (add p acc x)
    have he : |acc + x - add p acc x| ≤ u * |acc + x| := relErr p (acc + x)
    have ha := abs_add_le acc x
    have hS := absSum_nonneg l
    have hb : |add p acc x| ≤ (1 + u) * (|acc| + |x|) := by
      have := abs_sub (acc + x) (acc + x - add p acc x)
      rw [sub_sub_cancel] at this
      nlinarith
    have hpow : (1 : ℚ) ≤ (1 + u) ^ l.length := one_le_pow₀ (by linarith)
    have hsum : |add p acc x| + absSum l ≤ (1 + u) * (|acc| + absSum (x :: l)) := by
      rw [absSum_cons]; nlinarith
    have hnn : 0 ≤ |acc| + absSum (x :: l) := add_nonneg (abs_nonneg _) (absSum_nonneg _)
    rw [List.foldl_cons, List.length_cons, List.sum_cons, pow_succ]
    constructor
    · have h3 : |l.foldl (add p) (add p acc x) - (acc + (x + l.sum))| ≤
          |l.foldl (add p) (add p acc x) - (add p acc x + l.sum)| + |acc + x - add p acc x| := by
        have := abs_add_le (l.foldl (add p) (add p acc x) - (add p acc x + l.sum)) (-(acc + x - add p acc x))
        rwa [abs_neg, show l.foldl (add p) (add p acc x) - (add p acc x + l.sum) + -(acc + x - add p acc x) =
          l.foldl (add p) (add p acc x) - (acc + (x + l.sum)) by ring] at this
      have h4 : ((1 + u) ^ l.length - 1) * (|add p acc x| + absSum l) ≤
          ((1 + u) ^ l.length - 1) * ((1 + u) * (|acc| + absSum (x :: l))) :=
        mul_le_mul_of_nonneg_left hsum (by linarith)
      have h5 : u * |acc + x| ≤ u * (|acc| + absSum (x :: l)) := by
        refine mul_le_mul_of_nonneg_left ?_ hu.le
        rw [absSum_cons]; linarith
      calc _ ≤ _ := h3
        _ ≤ ((1 + u) ^ l.length - 1) * ((1 + u) * (|acc| + absSum (x :: l))) + u * (|acc| + absSum (x :: l)) := by
            linarith
        _ = _ := by ring
    · calc _ ≤ _ := h2
        _ ≤ (1 + u) ^ l.length * ((1 + u) * (|acc| + absSum (x :: l))) :=
            mul_le_mul_of_nonneg_left hsum (by linarith)
        _ = _ := by ring

theorem sum_err (p : ℕ) (l : List ℚ) :
    |sum p l - l.sum| ≤ ((1 + 2 ^ (-(p : ℤ))) ^ l.length - 1) * absSum l ∧
      |sum p l| ≤ (1 + 2 ^ (-(p : ℤ))) ^ l.length * absSum l := by
  have := foldl_err p l 0
  simpa [sum] using this

theorem parts_err (p N : ℕ) (parts : List (List ℚ)) (hN : ∀ l ∈ parts, l.length ≤ N) :
    |(parts.map (sum p)).sum - parts.flatten.sum| ≤ ((1 + 2 ^ (-(p : ℤ))) ^ N - 1) * absSum parts.flatten ∧
      absSum (parts.map (sum p)) ≤ (1 + 2 ^ (-(p : ℤ))) ^ N * absSum parts.flatten := by
  have hu := two_zpow_pos (-(p : ℤ))
  set u : ℚ := 2 ^ (-(p : ℤ)) with hudef
  induction parts with
  | nil => simp [absSum]
  | cons l ps ih =>
    obtain ⟨h1, h2⟩ := ih fun l' h => hN l' (List.mem_cons_of_mem _ h)
    obtain ⟨e1, e2⟩ := sum_err p l
    rw [← hudef] at e1 e2
    have hpow : (1 + u) ^ l.length ≤ (1 + u) ^ N :=
      pow_le_pow_right₀ (by linarith) (hN l (List.mem_cons_self ..))
    have hS := absSum_nonneg l
    have hf : absSum (l :: ps).flatten = absSum l + absSum ps.flatten := by simp [absSum]
    rw [List.map_cons, absSum_cons, hf, List.sum_cons, List.flatten_cons, List.sum_append]
    constructor
    · have := abs_add_le (sum p l - l.sum) ((ps.map (sum p)).sum - ps.flatten.sum)
      rw [show sum p l - l.sum + ((ps.map (sum p)).sum - ps.flatten.sum) =
        sum p l + (ps.map (sum p)).sum - (l.sum + ps.flatten.sum) by ring] at this
      nlinarith
    · nlinarith

theorem exact_foldl {p : ℕ} (hp : 1 ≤ p) (l : List ℚ) : ∀ acc : ℤ,
    (∀ x ∈ l, ∃ n : ℤ, x = n) → |(acc : ℚ)| + absSum l ≤ 2 ^ p →
    l.foldl (add p) (acc : ℚ) = acc + l.sum := by
  induction l with
  | nil => intro acc _ _; simp
  | cons x l ih =>
    intro acc hi hle
    obtain ⟨n, rfl⟩ := hi x (List.mem_cons_self ..)
    rw [absSum_cons] at hle
    have hS := absSum_nonneg l
    have ha : |((acc + n : ℤ) : ℚ)| + absSum l ≤ 2 ^ p := by
      have := abs_add_le (acc : ℚ) n
      push_cast
      linarith
    have hr : add p (acc : ℚ) n = ((acc + n : ℤ) : ℚ) := by
      unfold add
      rw [show (acc : ℚ) + n = ((acc + n : ℤ) : ℚ) by push_cast; rfl]
      refine rnd_of_isFloat hp (isFloat_int hp ?_)
      have : |((acc + n : ℤ) : ℚ)| ≤ 2 ^ p := by linarith
      exact_mod_cast this
    rw [List.foldl_cons, hr, ih _ (fun x h => hi x (List.mem_cons_of_mem _ h)) ha, List.sum_cons]
    push_cast; ring

theorem sum_int {p : ℕ} (hp : 1 ≤ p) (l : List ℚ) (hi : ∀ x ∈ l, ∃ n : ℤ, x = n)
    (hle : absSum l ≤ 2 ^ p) : sum p l = l.sum := by
  have := exact_foldl hp l 0 hi (by simpa using hle)
  simpa [sum] using this

theorem list_sum_int (l : List ℚ) (hi : ∀ x ∈ l, ∃ n : ℤ, x = n) : ∃ n : ℤ, l.sum = n := by
  induction l with
  | nil => exact ⟨0, by simp⟩
  | cons x l ih =>
    obtain ⟨n, rfl⟩ := hi x (List.mem_cons_self ..)
    obtain ⟨m, hm⟩ := ih fun x h => hi x (List.mem_cons_of_mem _ h)
    exact ⟨n + m, by rw [List.sum_cons, hm]; push_cast; rfl⟩

theorem abs_sum_le (l : List ℚ) : |l.sum| ≤ absSum l := by
  induction l with
  | nil => simp [absSum]
  | cons x l ih =>
    rw [List.sum_cons, absSum_cons]
    exact (abs_add_le _ _).trans (by linarith)

end Fl

open Fl

/-- **C92**: however the values are distributed over threads and in whatever order they are added, the
computed sum differs from the exact sum by at most `(1 + u) ^ (N + T) - 1` times the sum of the absolute values,
for threads that add at most `N` values each, `T` threads and the rounding unit `u`. -/
theorem C92_sum_error (p N : ℕ) (values : List ℚ) (parts : List (List ℚ)) (h : IsSplit values parts)
    (hN : ∀ l ∈ parts, l.length ≤ N) :
    |threadSum p parts - values.sum| ≤
      ((1 + 2 ^ (-(p : ℤ))) ^ (N + parts.length) - 1) * absSum values := by
  have hu := two_zpow_pos (-(p : ℤ))
  obtain ⟨h1, h2⟩ := parts_err p N parts hN
  obtain ⟨e1, -⟩ := sum_err p (parts.map (sum p))
  have hs : parts.flatten.sum = values.sum := h.sum_eq
  have ha : absSum parts.flatten = absSum values := (h.map abs).sum_eq
  rw [hs, ha] at h1
  rw [ha] at h2
  rw [List.length_map] at e1
  set u : ℚ := 2 ^ (-(p : ℤ)) with hudef
  have hpow : (1 : ℚ) ≤ (1 + u) ^ parts.length := one_le_pow₀ (by linarith)
  have h3 := abs_add_le (threadSum p parts - (parts.map (sum p)).sum) ((parts.map (sum p)).sum - values.sum)
  rw [sub_add_sub_cancel] at h3
  have h4 : ((1 + u) ^ parts.length - 1) * absSum (parts.map (sum p)) ≤
      ((1 + u) ^ parts.length - 1) * ((1 + u) ^ N * absSum values) :=
    mul_le_mul_of_nonneg_left h2 (by linarith)
  unfold threadSum at h3 ⊢
  rw [pow_add]
  calc _ ≤ _ := h3
    _ ≤ ((1 + u) ^ parts.length - 1) * ((1 + u) ^ N * absSum values) + ((1 + u) ^ N - 1) * absSum values := by
        linarith
    _ = _ := by ring

/-- **C92**: so two runs with other threads agree up to twice that. -/
theorem C92_schedules (p N T : ℕ) (values : List ℚ) (parts parts' : List (List ℚ))
    (h : IsSplit values parts) (h' : IsSplit values parts') (hN : ∀ l ∈ parts, l.length ≤ N)
    (hN' : ∀ l ∈ parts', l.length ≤ N) (hT : parts.length ≤ T) (hT' : parts'.length ≤ T) :
    |threadSum p parts - threadSum p parts'| ≤
      2 * (((1 + 2 ^ (-(p : ℤ))) ^ (N + T) - 1) * absSum values) := by
  have hu := two_zpow_pos (-(p : ℤ))
  have e := C92_sum_error p N values parts h hN
  have e' := C92_sum_error p N values parts' h' hN'
  set u : ℚ := 2 ^ (-(p : ℤ)) with hudef
  have hS := absSum_nonneg values
  have m : (1 + u) ^ (N + parts.length) ≤ (1 + u) ^ (N + T) := pow_le_pow_right₀ (by linarith) (by omega)
  have m' : (1 + u) ^ (N + parts'.length) ≤ (1 + u) ^ (N + T) := pow_le_pow_right₀ (by linarith) (by omega)
  have h3 := abs_sub (threadSum p parts - values.sum) (threadSum p parts' - values.sum)
  rw [sub_sub_sub_cancel_right] at h3
  nlinarith

/-- **C92**: sums of integers are exact in every run, as long as their absolute values add up to at most
`2 ^ p` (16777216 for `float`): counts do not depend on the threads. -/
theorem C92_counts (p : ℕ) (hp : 1 ≤ p) (values : List ℚ) (parts : List (List ℚ)) (h : IsSplit values parts)
    (hint : ∀ x ∈ values, ∃ n : ℤ, x = n) (hle : absSum values ≤ 2 ^ p) :
    threadSum p parts = values.sum := by
  have hs : parts.flatten.sum = values.sum := h.sum_eq
  have ha : absSum parts.flatten = absSum values := (h.map abs).sum_eq
  have key : ∀ ps : List (List ℚ), (∀ l ∈ ps, ∀ x ∈ l, ∃ n : ℤ, x = n) → absSum ps.flatten ≤ 2 ^ p →
      ps.map (sum p) = ps.map List.sum ∧ (∀ x ∈ ps.map (sum p), ∃ n : ℤ, x = n) ∧
        absSum (ps.map (sum p)) ≤ absSum ps.flatten ∧ (ps.map (sum p)).sum = ps.flatten.sum := by
    intro ps
    induction ps with
    | nil => intro _ _; simp [absSum]
    | cons l ps ih =>
      intro hi hb
      have hf : absSum (l :: ps).flatten = absSum l + absSum ps.flatten := by simp [absSum]
      have n1 := absSum_nonneg l
      have n2 := absSum_nonneg ps.flatten
      obtain ⟨k1, k2, k3, k4⟩ := ih (fun l' h => hi l' (List.mem_cons_of_mem _ h)) (by linarith)
      have hl := sum_int hp l (hi l (List.mem_cons_self ..)) (by linarith)
      obtain ⟨n, hn⟩ := list_sum_int l (hi l (List.mem_cons_self ..))
      refine ⟨by rw [List.map_cons, List.map_cons, hl, k1], ?_, ?_, ?_⟩
      · intro x hx
        rw [List.map_cons, List.mem_cons] at hx
        rcases hx with rfl | hx
        · exact ⟨n, by rw [hl, hn]⟩
        · exact k2 x hx
      · rw [List.map_cons, absSum_cons, hf, hl]
        have := abs_sum_le l
        linarith
      · rw [List.map_cons, List.sum_cons, List.flatten_cons, List.sum_append, hl, k4]
  obtain ⟨-, k2, k3, k4⟩ := key parts (fun l hl x hx => hint x (h.mem_iff.mp (List.mem_flatten.mpr ⟨l, hl, hx⟩)))
    (by rw [ha]; exact hle)
  unfold threadSum
  rw [sum_int hp _ k2 (by linarith), k4, hs]

/-- **C92** (limit): in `float`, two runs with the same values and other threads give other sums. -/
theorem C92_schedules_counterexample :
    IsSplit [1, 2 ^ (-24 : ℤ), 2 ^ (-24 : ℤ)] [[1, 2 ^ (-24 : ℤ), 2 ^ (-24 : ℤ)]] ∧
    IsSplit [1, 2 ^ (-24 : ℤ), 2 ^ (-24 : ℤ)] [[1], [2 ^ (-24 : ℤ), 2 ^ (-24 : ℤ)]] ∧
    threadSum 24 [[1, 2 ^ (-24 : ℤ), 2 ^ (-24 : ℤ)]] = 1 ∧
    threadSum 24 [[1], [2 ^ (-24 : ℤ), 2 ^ (-24 : ℤ)]] = 1 + 2 ^ (-23 : ℤ) := by
  refine ⟨List.Perm.refl _, List.Perm.refl _, ?_, ?_⟩ <;> decide +kernel

/-- **C92** (limit): counting in `float` stops at 16777216: the next one is lost. -/
theorem C92_counts_counterexample : ∃ values : List ℚ, (∀ x ∈ values, ∃ n : ℤ, x = n) ∧
    values.sum = 2 ^ 24 + 1 ∧ threadSum 24 [values] = 2 ^ 24 := by
  refine ⟨[2 ^ 24, 1], ?_, by norm_num, by decide +kernel⟩
  intro x hx
  rcases List.mem_cons.mp hx with rfl | hx
  · exact ⟨2 ^ 24, by norm_num⟩
  · exact ⟨1, by simpa using hx⟩

-- three threads of which one adds nothing
example : IsSplit [1, 2, -3] [[2], [], [-3, 1]] ∧ (∀ x ∈ ([1, 2, -3] : List ℚ), ∃ n : ℤ, x = n) ∧
    absSum [1, 2, -3] ≤ 2 ^ 24 := by
  refine ⟨by unfold IsSplit; decide +kernel, ?_, by norm_num [absSum]⟩
  intro x hx
  simp only [List.mem_cons, List.not_mem_nil, or_false] at hx
  rcases hx with rfl | rfl | rfl
  · exact ⟨1, by norm_num⟩
  · exact ⟨2, by norm_num⟩
  · exact ⟨-3, by norm_num⟩

end Freud
