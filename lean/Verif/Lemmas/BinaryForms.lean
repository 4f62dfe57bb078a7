import Mathlib.LinearAlgebra.Vandermonde
import Mathlib.LinearAlgebra.Matrix.NonsingularInverse
import Mathlib.Analysis.Complex.Basic
import Mathlib.Data.Nat.Choose.Sum
import Mathlib.Algebra.Polynomial.Roots
import Mathlib.Tactic.LinearCombination
import Mathlib.Tactic.Ring

/-!
# Binary forms and two invariants of them

A form of degree `n` in `s` and `t` is given by its coefficients.
-/

namespace Freud.Forms
open Finset

/-- The form with the coefficients `f`. -/
noncomputable def form (n : ℕ) (f : ℕ → ℂ) (s t : ℂ) : ℂ :=
  ∑ k ∈ range (n + 1), f k * s ^ k * t ^ (n - k)

/-- The coefficients of the power `(x s + y t) ^ n`. -/
noncomputable def power (n : ℕ) (x y : ℂ) (k : ℕ) : ℂ := (n.choose k : ℂ) * x ^ k * y ^ (n - k)

theorem form_power (n : ℕ) (x y s t : ℂ) : form n (power n x y) s t = (x * s + y * t) ^ n := by
  rw [add_pow, form]
  refine sum_congr rfl fun k _ => ?_
  rw [power, mul_pow, mul_pow]
  ring

theorem form_sum {ι : Type*} (n : ℕ) (I : Finset ι) (w : ι → ℂ) (F : ι → ℕ → ℂ) (s t : ℂ) :
    form n (fun k => ∑ i ∈ I, w i * F i k) s t = ∑ i ∈ I, w i * form n (F i) s t := by
  unfold form
  simp only [mul_sum]
  rw [sum_comm]
  refine sum_congr rfl fun k _ => ?_
  rw [sum_mul, sum_mul]
  refine sum_congr rfl fun i _ => ?_
  ring

theorem form_congr {n : ℕ} {f f' : ℕ → ℂ} (h : ∀ k ≤ n, f k = f' k) (s t : ℂ) :
    form n f s t = form n f' s t :=
  sum_congr rfl fun k hk => by rw [h k (by have := mem_range.mp hk; omega)]

/-- A form has only one set of coefficients. -/
theorem form_ext {n : ℕ} {f f' : ℕ → ℂ} (h : ∀ s t, form n f s t = form n f' s t) : ∀ k ≤ n, f k = f' k := by
  have key : ∀ f : ℕ → ℂ, ∀ s, (∑ k ∈ range (n + 1), Polynomial.monomial k (f k)).eval s = form n f s 1 := by
    intro f s
    rw [Polynomial.eval_finset_sum, form]
    refine sum_congr rfl fun k _ => ?_
    rw [Polynomial.eval_monomial, one_pow, mul_one]
  have hp : (∑ k ∈ range (n + 1), Polynomial.monomial k (f k)) =
      ∑ k ∈ range (n + 1), Polynomial.monomial k (f' k) :=
    Polynomial.funext fun s => by rw [key, key, h]
  intro k hk
  have hc := congrArg (fun p => p.coeff k) hp
  simp only [Polynomial.finset_sum_coeff, Polynomial.coeff_monomial, sum_ite_eq', mem_range] at hc
  rwa [if_pos (by omega), if_pos (by omega)] at hc

/-- Every form is a sum of powers. -/
theorem exists_powers (n : ℕ) (f : ℕ → ℂ) : ∃ w : Fin (n + 1) → ℂ, ∀ k ≤ n,
    f k = ∑ i, w i * power n (i : ℕ) 1 k := by
  set V := Matrix.vandermonde fun i : Fin (n + 1) => ((i : ℕ) : ℂ)
  have hdet : IsUnit V.det := by
    rw [isUnit_iff_ne_zero, Matrix.det_vandermonde_ne_zero_iff]
    intro i j h
    simp only at h
    exact Fin.ext (by exact_mod_cast h)
  set w := Matrix.vecMul (fun k : Fin (n + 1) => f k / (n.choose k : ℂ)) V⁻¹
  refine ⟨w, fun k hk => ?_⟩
  have h1 : Matrix.vecMul w V = fun k : Fin (n + 1) => f k / (n.choose k : ℂ) := by
    rw [Matrix.vecMul_vecMul, Matrix.nonsing_inv_mul _ hdet, Matrix.vecMul_one]
  have h2 := congrFun h1 ⟨k, by omega⟩
  simp only [Matrix.vecMul, dotProduct, V, Matrix.vandermonde_apply] at h2
  have hc : (n.choose k : ℂ) ≠ 0 := by exact_mod_cast (Nat.choose_pos hk).ne'
  rw [eq_div_iff hc] at h2
  rw [← h2, sum_mul]
  refine sum_congr rfl fun i _ => ?_
  rw [power, one_pow]
  ring

/-- A change of the variables of a form, in terms of powers. -/
theorem substituted {ι : Type*} {n : ℕ} {f f' : ℕ → ℂ} (a b c d : ℂ)
    (h : ∀ s t, form n f' s t = form n f (a * s + b * t) (c * s + d * t)) (I : Finset ι) (w x y : ι → ℂ)
    (hf : ∀ k ≤ n, f k = ∑ i ∈ I, w i * power n (x i) (y i) k) :
    ∀ k ≤ n, f' k = ∑ i ∈ I, w i * power n (x i * a + y i * c) (x i * b + y i * d) k := by
  refine form_ext fun s t => ?_
  rw [h, form_congr hf, form_sum, form_sum]
  refine sum_congr rfl fun i _ => ?_
  rw [form_power, form_power]
  ring

/-! ### The invariant of two forms -/

/-- The invariant of two forms. -/
noncomputable def pair (n : ℕ) (f h : ℕ → ℂ) : ℂ :=
  ∑ k ∈ range (n + 1), (-1) ^ k * ((k.factorial : ℂ) * ((n - k).factorial : ℂ)) * f k * h (n - k)

theorem pair_congr {n : ℕ} {f f' h h' : ℕ → ℂ} (hf : ∀ k ≤ n, f k = f' k) (hh : ∀ k ≤ n, h k = h' k) :
    pair n f h = pair n f' h' :=
  sum_congr rfl fun k hk => by
    rw [hf k (by have := mem_range.mp hk; omega), hh (n - k) (by omega)]

theorem choose_mul {n k : ℕ} (hk : k ≤ n) :
    ((k.factorial : ℂ) * ((n - k).factorial : ℂ)) * (n.choose k : ℂ) = n.factorial := by
  have := Nat.choose_mul_factorial_mul_factorial hk
  rw [← this]
  push_cast
  ring

theorem pair_power (n : ℕ) (x y x' y' : ℂ) :
    pair n (power n x y) (power n x' y') = n.factorial * (y * x' - x * y') ^ n := by
  have e : y * x' - x * y' = -(x * y') + y * x' := by ring
  rw [e, add_pow, pair, mul_sum]
  refine sum_congr rfl fun k hk => ?_
  have hk : k ≤ n := by have := mem_range.mp hk; omega
  rw [power, power, Nat.choose_symm hk, Nat.sub_sub_self hk, neg_pow (x * y'), mul_pow, mul_pow]
  rw [← choose_mul hk]
  ring

theorem pair_sum {ι κ : Type*} (n : ℕ) (I : Finset ι) (J : Finset κ) (w : ι → ℂ) (F : ι → ℕ → ℂ) (z : κ → ℂ)
    (G : κ → ℕ → ℂ) :
    pair n (fun k => ∑ i ∈ I, w i * F i k) (fun k => ∑ j ∈ J, z j * G j k) =
      ∑ i ∈ I, ∑ j ∈ J, w i * z j * pair n (F i) (G j) := by
  unfold pair
  simp only [mul_sum, sum_mul]
  rw [sum_comm]
  refine (sum_congr rfl fun j _ => sum_comm).trans ?_
  rw [sum_comm]
  refine sum_congr rfl fun i _ => sum_congr rfl fun j _ => sum_congr rfl fun k _ => ?_
  ring

/-- The pairing changes by a power of the determinant. -/
theorem pair_substituted {n : ℕ} {f f' h h' : ℕ → ℂ} (a b c d : ℂ)
    (hf : ∀ s t, form n f' s t = form n f (a * s + b * t) (c * s + d * t))
    (hh : ∀ s t, form n h' s t = form n h (a * s + b * t) (c * s + d * t)) :
    pair n f' h' = (a * d - b * c) ^ n * pair n f h := by
  obtain ⟨w, hw⟩ := exists_powers n f
  obtain ⟨z, hz⟩ := exists_powers n h
  have hw' := substituted a b c d hf univ w _ _ hw
  have hz' := substituted a b c d hh univ z _ _ hz
  rw [pair_congr hw hz, pair_congr hw' hz', pair_sum, pair_sum, mul_sum]
  refine sum_congr rfl fun i _ => ?_
  rw [mul_sum]
  refine sum_congr rfl fun j _ => ?_
  rw [pair_power, pair_power]
  have e : (((i : ℕ) : ℂ) * b + 1 * d) * (((j : ℕ) : ℂ) * a + 1 * c) -
      (((i : ℕ) : ℂ) * a + 1 * c) * (((j : ℕ) : ℂ) * b + 1 * d) =
      (a * d - b * c) * (1 * ((j : ℕ) : ℂ) - ((i : ℕ) : ℂ) * 1) := by ring
  rw [e, mul_pow]
  ring

/-! ### The invariant of three forms of degree `2 l` -/

/-- A coefficient times the factorials that belong to it. -/
noncomputable def scaled (n : ℕ) (f : ℕ → ℂ) (k : ℕ) : ℂ := (k.factorial : ℂ) * ((n - k).factorial : ℂ) * f k

/-- The invariant of three forms. -/
noncomputable def triple (l : ℕ) (f g h : ℕ → ℂ) : ℂ :=
  ∑ a ∈ range (l + 1), ∑ b ∈ range (l + 1), ∑ c ∈ range (l + 1),
    (-1) ^ (a + b + c) * ((l.choose a : ℂ) * (l.choose b : ℂ) * (l.choose c : ℂ)) *
      scaled (2 * l) f (l + b - a) * scaled (2 * l) g (l + a - c) * scaled (2 * l) h (l + c - b)

theorem scaled_power {n k : ℕ} (hk : k ≤ n) (x y : ℂ) :
    scaled n (power n x y) k = n.factorial * (x ^ k * y ^ (n - k)) := by
  rw [scaled, power, ← choose_mul hk]
  ring

theorem triple_power (l : ℕ) (x y x' y' x'' y'' : ℂ) :
    triple l (power (2 * l) x y) (power (2 * l) x' y') (power (2 * l) x'' y'') =
      ((2 * l).factorial : ℂ) ^ 3 *
        ((x * y' - x' * y) * (x'' * y - x * y'') * (x' * y'' - x'' * y')) ^ l := by
  have e1 : x * y' - x' * y = -(x' * y) + x * y' := by ring
  have e2 : x'' * y - x * y'' = -(x * y'') + x'' * y := by ring
  have e3 : x' * y'' - x'' * y' = -(x'' * y') + x' * y'' := by ring
  rw [mul_pow, mul_pow, e1, e2, e3, add_pow, add_pow, add_pow, sum_mul_sum, sum_mul, mul_sum, triple]
  refine sum_congr rfl fun a ha => ?_
  rw [sum_mul, mul_sum]
  refine sum_congr rfl fun b hb => ?_
  rw [mul_sum, mul_sum]
  refine sum_congr rfl fun c hc => ?_
  rw [mem_range] at ha hb hc
  rw [scaled_power (by omega), scaled_power (by omega), scaled_power (by omega)]
  obtain ⟨a', rfl⟩ : ∃ a', l = a + a' := ⟨l - a, by omega⟩
  have f1 : a + a' + b - a = a' + b := by omega
  have f2 : 2 * (a + a') - (a' + b) = a + (a + a' - b) := by omega
  have f3 : a + a' + a - c = a + (a + a' - c) := by omega
  have f4 : 2 * (a + a') - (a + (a + a' - c)) = a' + c := by omega
  have f5 : a + a' + c - b = c + (a + a' - b) := by omega
  have f6 : 2 * (a + a') - (c + (a + a' - b)) = b + (a + a' - c) := by omega
  have f7 : a + a' - a = a' := by omega
  rw [f1, f2, f3, f4, f5, f6, f7]
  generalize a + a' - b = b'
  generalize a + a' - c = c'
  simp only [neg_pow (_ * _), mul_pow, pow_add]
  ring

theorem scaled_sum {ι : Type*} (n : ℕ) (I : Finset ι) (w : ι → ℂ) (F : ι → ℕ → ℂ) (k : ℕ) :
    scaled n (fun k => ∑ i ∈ I, w i * F i k) k = ∑ i ∈ I, w i * scaled n (F i) k := by
  unfold scaled
  rw [mul_sum]
  exact sum_congr rfl fun i _ => by ring

theorem triple_congr {l : ℕ} {f f' g g' h h' : ℕ → ℂ} (hf : ∀ k ≤ 2 * l, f k = f' k)
    (hg : ∀ k ≤ 2 * l, g k = g' k) (hh : ∀ k ≤ 2 * l, h k = h' k) : triple l f g h = triple l f' g' h' := by
  unfold triple scaled
  refine sum_congr rfl fun a ha => sum_congr rfl fun b hb => sum_congr rfl fun c hc => ?_
  rw [mem_range] at ha hb hc
  rw [hf _ (by omega), hg _ (by omega), hh _ (by omega)]

theorem triple_sum {ι : Type*} (l : ℕ) (I : Finset ι) (w : ι → ℂ) (F : ι → ℕ → ℂ) (f : ℕ → ℂ)
    (hf : f = fun k => ∑ i ∈ I, w i * F i k) :
    triple l f f f = ∑ i ∈ I, ∑ j ∈ I, ∑ k ∈ I, w i * w j * w k * triple l (F i) (F j) (F k) := by
  have h1 : ∀ g h, triple l f g h = ∑ i ∈ I, w i * triple l (F i) g h := by
    intro g h
    unfold triple
    simp only [mul_sum]
    rw [sum_comm (s := I)]
    refine sum_congr rfl fun a _ => ?_
    rw [sum_comm (s := I)]
    refine sum_congr rfl fun b _ => ?_
    rw [sum_comm (s := I)]
    refine sum_congr rfl fun c _ => ?_
    rw [hf, scaled_sum, mul_sum, sum_mul, sum_mul]
    exact sum_congr rfl fun i _ => by ring
  have h2 : ∀ g h, triple l g f h = ∑ i ∈ I, w i * triple l g (F i) h := by
    intro g h
    unfold triple
    simp only [mul_sum]
    rw [sum_comm (s := I)]
    refine sum_congr rfl fun a _ => ?_
    rw [sum_comm (s := I)]
    refine sum_congr rfl fun b _ => ?_
    rw [sum_comm (s := I)]
    refine sum_congr rfl fun c _ => ?_
    rw [hf, scaled_sum, mul_sum, sum_mul]
    exact sum_congr rfl fun i _ => by ring
  have h3 : ∀ g h, triple l g h f = ∑ i ∈ I, w i * triple l g h (F i) := by
    intro g h
    unfold triple
    simp only [mul_sum]
    rw [sum_comm (s := I)]
    refine sum_congr rfl fun a _ => ?_
    rw [sum_comm (s := I)]
    refine sum_congr rfl fun b _ => ?_
    rw [sum_comm (s := I)]
    refine sum_congr rfl fun c _ => ?_
    rw [hf, scaled_sum, mul_sum]
    exact sum_congr rfl fun i _ => by ring
  rw [h1]
  refine sum_congr rfl fun i _ => ?_
  rw [h2, mul_sum]
  refine sum_congr rfl fun j _ => ?_
  rw [h3, mul_sum, mul_sum]
  exact sum_congr rfl fun k _ => by ring

/-- The invariant changes by a power of the determinant. -/
theorem triple_substituted {l : ℕ} {f f' : ℕ → ℂ} (a b c d : ℂ)
    (hf : ∀ s t, form (2 * l) f' s t = form (2 * l) f (a * s + b * t) (c * s + d * t)) :
    triple l f' f' f' = (a * d - b * c) ^ (3 * l) * triple l f f f := by
  obtain ⟨w, hw⟩ := exists_powers (2 * l) f
  have hw' := substituted a b c d hf univ w _ _ hw
  rw [triple_congr hw hw hw, triple_congr hw' hw' hw', triple_sum l univ w _ _ rfl, triple_sum l univ w _ _ rfl,
    mul_sum]
  refine sum_congr rfl fun i _ => ?_
  rw [mul_sum]
  refine sum_congr rfl fun j _ => ?_
  rw [mul_sum]
  refine sum_congr rfl fun k _ => ?_
  rw [triple_power, triple_power, pow_mul]
  generalize ((i : ℕ) : ℂ) = p
  generalize ((j : ℕ) : ℂ) = q
  generalize ((k : ℕ) : ℂ) = r
  have e : ((p * a + 1 * c) * (q * b + 1 * d) - (q * a + 1 * c) * (p * b + 1 * d)) *
      ((r * a + 1 * c) * (p * b + 1 * d) - (p * a + 1 * c) * (r * b + 1 * d)) *
      ((q * a + 1 * c) * (r * b + 1 * d) - (r * a + 1 * c) * (q * b + 1 * d)) =
      (a * d - b * c) ^ 3 * ((p * 1 - q * 1) * (r * 1 - p * 1) * (q * 1 - r * 1)) := by ring
  rw [e, mul_pow]
  ring

end Freud.Forms
