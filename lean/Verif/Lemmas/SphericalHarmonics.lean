import Verif.Spec.SphericalHarmonics
import Verif.Lemmas.BinaryForms
import Mathlib.Tactic.FieldSimp

/-!
# Lemmas on spherical harmonics
-/

namespace Freud.Harm
open Finset Spec Forms

/-- The quadratic form of a vector. -/
noncomputable def quad (v : Vec3 ℝ) (s t : ℂ) : ℂ :=
  -(v.x + v.y * Complex.I) / 2 * s ^ 2 + (v.x - v.y * Complex.I) / 2 * t ^ 2 + v.z * (s * t)

/-- A term of the sum. -/
noncomputable def part (l : ℕ) (v : Vec3 ℝ) (p q : ℕ) : ℂ :=
  (-(v.x + v.y * Complex.I) / 2) ^ p * ((v.x - v.y * Complex.I) / 2) ^ q * (v.z : ℂ) ^ (l - p - q) /
        (p.factorial * q.factorial * (l - p - q).factorial)

/-- The coefficients of the power of the quadratic form. -/
noncomputable def co (l : ℕ) (v : Vec3 ℝ) (k : ℕ) : ℂ :=
  ∑ p ∈ range (l + 1), ∑ q ∈ range (l + 1), if p + q ≤ l ∧ l + p = k + q then part l v p q else 0

theorem trinomial (A B C : ℂ) (l : ℕ) : (A + B + C) ^ l = (l.factorial : ℂ) *
    ∑ p ∈ range (l + 1), ∑ q ∈ range (l + 1), if p + q ≤ l then A ^ p * B ^ q * C ^ (l - p - q) /
        (p.factorial * q.factorial * (l - p - q).factorial) else 0 := by
  rw [add_assoc, add_pow, mul_sum]
  refine sum_congr rfl fun p hp => ?_
  have hp : p ≤ l := by have := mem_range.mp hp; omega
  rw [add_pow, mul_sum, sum_mul, mul_sum]
  have hsub : range (l - p + 1) ⊆ range (l + 1) := by
    intro q hq
    rw [mem_range] at hq ⊢
    omega
  rw [← sum_subset hsub]
  · refine sum_congr rfl fun q hq => ?_
    have hq : q ≤ l - p := by have := mem_range.mp hq; omega
    rw [if_pos (by omega)]
    have h1 := choose_mul hp
    have h2 := choose_mul hq
    have n1 : (p.factorial : ℂ) ≠ 0 := by exact_mod_cast p.factorial_ne_zero
    have n2 : (q.factorial : ℂ) ≠ 0 := by exact_mod_cast q.factorial_ne_zero
    have n3 : ((l - p - q).factorial : ℂ) ≠ 0 := by exact_mod_cast (l - p - q).factorial_ne_zero
    rw [← h1, ← h2]
    field_simp
  · intro q _ hq
    rw [if_neg (by rw [mem_range] at hq; omega), mul_zero]

theorem form_co (l : ℕ) (v : Vec3 ℝ) (s t : ℂ) :
    form (2 * l) (co l v) s t = quad v s t ^ l / (l.factorial : ℂ) := by
  have nl : (l.factorial : ℂ) ≠ 0 := by exact_mod_cast l.factorial_ne_zero
  rw [quad, trinomial, mul_div_cancel_left₀ _ nl, form]
  unfold co
  simp only [sum_mul]
  rw [sum_comm]
  refine sum_congr rfl fun p hp => ?_
  rw [sum_comm]
  refine sum_congr rfl fun q hq => ?_
  rw [mem_range] at hp hq
  by_cases h : p + q ≤ l
  · rw [sum_eq_single (l + p - q)]
    · rw [if_pos ⟨h, by omega⟩, if_pos h, part]
      have e1 : l + p - q = 2 * p + (l - p - q) := by omega
      have e2 : 2 * l - (l + p - q) = 2 * q + (l - p - q) := by omega
      rw [e2, e1, mul_pow, mul_pow, mul_pow, mul_pow, pow_add, pow_add, pow_mul, pow_mul]
      ring
    · intro k _ hk
      rw [if_neg (by omega), zero_mul, zero_mul]
    · intro hk
      exact absurd (mem_range.mpr (by omega)) hk
  · rw [if_neg h]
    exact sum_eq_zero fun k _ => by rw [if_neg (by omega), zero_mul, zero_mul]

theorem harmonic_eq (l : ℕ) (m : ℤ) (hm : |m| ≤ l) (v : Vec3 ℝ) : sphericalHarmonic l m v =
    (Real.sqrt ((2 * l + 1) / (4 * Real.pi) * (ifact (l + m) * ifact (l - m))) : ℂ) * co l v (l + m).toNat := by
  unfold sphericalHarmonic co
  congr 1
  refine sum_congr rfl fun p _ => sum_congr rfl fun q _ => ?_
  have := abs_le.mp hm
  have e : (p + q ≤ l ∧ (p : ℤ) - q = m) ↔ (p + q ≤ l ∧ l + p = (l + m).toNat + q) := by omega
  simp only [e]
  rfl

theorem harmonic_conj (l : ℕ) (m : ℤ) (v : Vec3 ℝ) :
    sphericalHarmonic l (-m) v = (-1) ^ m * (starRingEnd ℂ) (sphericalHarmonic l m v) := by
  unfold sphericalHarmonic
  rw [map_mul, Complex.conj_ofReal, map_sum, mul_left_comm ((-1 : ℂ) ^ m)]
  have e0 : (ifact (l + -m) * ifact (l - -m) : ℝ) = ifact (l + m) * ifact (l - m) := by
    rw [sub_neg_eq_add, ← sub_eq_add_neg, mul_comm]
  rw [e0]
  congr 1
  rw [sum_comm, mul_sum]
  refine sum_congr rfl fun q _ => ?_
  rw [map_sum, mul_sum]
  refine sum_congr rfl fun p _ => ?_
  by_cases h : p + q ≤ l ∧ (p : ℤ) - q = -m
  · rw [if_pos h, if_pos ⟨by omega, by omega⟩]
    have hm : m = (q : ℤ) - p := by omega
    have hs : ((-1 : ℂ)) ^ m = (-1) ^ q * (-1) ^ p := by
      rw [hm, zpow_sub₀ (by norm_num), zpow_natCast, zpow_natCast, div_eq_mul_inv, ← inv_pow]
      norm_num
    rw [hs]
    simp only [map_div₀, map_mul, map_pow, map_neg, map_add, map_sub, Complex.conj_ofReal, Complex.conj_I,
      map_natCast, map_ofNat]
    have e1 : l - q - p = l - p - q := by omega
    rw [e1]
    have e2 : (-((v.x : ℂ) + v.y * -Complex.I) / 2) ^ q = (-1) ^ q * (((v.x : ℂ) - v.y * Complex.I) / 2) ^ q := by
      rw [← mul_pow]; congr 1; ring
    have e3 : (-((v.x : ℂ) + v.y * Complex.I) / 2) ^ p = (-1) ^ p * (((v.x : ℂ) - v.y * -Complex.I) / 2) ^ p := by
      rw [← mul_pow]; congr 1; ring
    have e4 : ((-1 : ℂ) ^ q) * (-1) ^ q = 1 := by rw [← mul_pow]; norm_num
    rw [e2, e3]
    linear_combination (-(-1 : ℂ) ^ p * (((v.x : ℂ) - v.y * -Complex.I) / 2) ^ p *
      (((v.x : ℂ) - v.y * Complex.I) / 2) ^ q * (v.z : ℂ) ^ (l - p - q) /
        (p.factorial * q.factorial * (l - p - q).factorial)) * e4
  · rw [if_neg h, if_neg (by omega), map_zero, mul_zero]

/-! ### Mirror images -/

/-- The quadratic form of a mirror image is the quadratic form in other variables. -/
theorem quad_mirror (w v : Vec3 ℝ) (hw : Vec3.dot w w = 1) (s t : ℂ) :
    quad (mirror w v) s t = quad v (w.z * s + (w.x - w.y * Complex.I) * t) ((w.x + w.y * Complex.I) * s + -w.z * t) := by
  have hw : (w.x : ℂ) * w.x + w.y * w.y + w.z * w.z = 1 := by
    simp only [Vec3.dot] at hw
    exact_mod_cast hw
  have hI := Complex.I_sq
  simp only [quad, mirror, Vec3.dot, Vec3.sub_x, Vec3.sub_y, Vec3.sub_z, Vec3.smul_x, Vec3.smul_y, Vec3.smul_z]
  push_cast
  linear_combination (-(-(v.x + v.y * Complex.I) / 2 * s ^ 2 + (v.x - v.y * Complex.I) / 2 * t ^ 2 + v.z * (s * t))) * hw +
    ((1/2 : ℂ) * v.y * w.y * w.y * t * t * Complex.I + (1/2 : ℂ) * v.y * w.y * w.y * s * s * Complex.I +
      (1/2 : ℂ) * v.x * w.y * w.y * t * t + (-2 : ℂ) * v.y * w.y * w.z * s * t + (-1 : ℂ) * v.y * w.x * w.y * t * t +
      (-1/2 : ℂ) * v.x * w.y * w.y * s * s + (1 : ℂ) * v.y * w.x * w.y * s * s + (1 : ℂ) * v.z * w.y * w.y * s * t) * hI

theorem mirror_det (w : Vec3 ℝ) (hw : Vec3.dot w w = 1) :
    (w.z : ℂ) * -w.z - (w.x - w.y * Complex.I) * (w.x + w.y * Complex.I) = -1 := by
  have hw : (w.x : ℂ) * w.x + w.y * w.y + w.z * w.z = 1 := by
    simp only [Vec3.dot] at hw
    exact_mod_cast hw
  linear_combination -hw + (w.y * w.y : ℂ) * Complex.I_sq

theorem pair_mirror (l : ℕ) (w u v : Vec3 ℝ) (hw : Vec3.dot w w = 1) :
    pair (2 * l) (co l (mirror w u)) (co l (mirror w v)) = pair (2 * l) (co l u) (co l v) := by
  rw [pair_substituted (f := co l u) (h := co l v) w.z (w.x - w.y * Complex.I) (w.x + w.y * Complex.I) (-w.z)
    (fun s t => by rw [form_co, form_co, quad_mirror w u hw]) (fun s t => by rw [form_co, form_co, quad_mirror w v hw]),
    mirror_det w hw, pow_mul]
  norm_num

theorem dot_mirror (w u v : Vec3 ℝ) (hw : Vec3.dot w w = 1) :
    Vec3.dot (mirror w u) (mirror w v) = Vec3.dot u v := by
  simp only [Vec3.dot] at hw
  simp only [Vec3.dot, mirror, Vec3.sub_x, Vec3.sub_y, Vec3.sub_z, Vec3.smul_x, Vec3.smul_y, Vec3.smul_z]
  linear_combination (4 * (w.x * u.x + w.y * u.y + w.z * u.z) * (w.x * v.x + w.y * v.y + w.z * v.z)) * hw

/-- There is a mirror that takes one unit vector to another, unless they are the same. -/
theorem exists_mirror (u e : Vec3 ℝ) (h : Vec3.dot u u = Vec3.dot e e) (hne : u ≠ e) :
    ∃ c : ℝ, Vec3.dot (Vec3.smul c (u - e)) (Vec3.smul c (u - e)) = 1 ∧ mirror (Vec3.smul c (u - e)) u = e := by
  set d := Vec3.dot (u - e) (u - e) with hd
  have hpos : 0 < d := by
    rcases lt_or_eq_of_le (show 0 ≤ d by
      simp only [hd, Vec3.dot]
      nlinarith [mul_self_nonneg (u - e).x, mul_self_nonneg (u - e).y, mul_self_nonneg (u - e).z]) with h | h
    · exact h
    · exfalso
      simp only [hd, Vec3.dot] at h
      have a1 := mul_self_nonneg (u - e).x
      have a2 := mul_self_nonneg (u - e).y
      have a3 := mul_self_nonneg (u - e).z
      have b1 : (u - e).x = 0 := mul_self_eq_zero.mp (by linarith)
      have b2 : (u - e).y = 0 := mul_self_eq_zero.mp (by linarith)
      have b3 : (u - e).z = 0 := mul_self_eq_zero.mp (by linarith)
      simp only [Vec3.sub_x, Vec3.sub_y, Vec3.sub_z] at b1 b2 b3
      apply hne
      ext <;> linarith
  have hsq : (1 / Real.sqrt d) * (1 / Real.sqrt d) * d = 1 := by
    have := Real.mul_self_sqrt hpos.le
    have h2 : Real.sqrt d ≠ 0 := (Real.sqrt_pos.mpr hpos).ne'
    field_simp
    rw [sq, this]
  refine ⟨1 / Real.sqrt d, ?_, ?_⟩
  · simp only [Vec3.dot, Vec3.smul_x, Vec3.smul_y, Vec3.smul_z]
    simp only [hd, Vec3.dot] at hsq ⊢
    linear_combination hsq
  · generalize 1 / Real.sqrt d = c at hsq
    have h2 : 2 * Vec3.dot (u - e) u = d := by
      simp only [hd, Vec3.dot, Vec3.sub_x, Vec3.sub_y, Vec3.sub_z] at h ⊢
      linear_combination h
    have h3 : 2 * Vec3.dot (Vec3.smul c (u - e)) u * c = 1 := by
      have : Vec3.dot (Vec3.smul c (u - e)) u = c * Vec3.dot (u - e) u := by
        simp only [Vec3.dot, Vec3.smul_x, Vec3.smul_y, Vec3.smul_z]; ring
      rw [this]
      linear_combination c * c * h2 + hsq
    unfold mirror
    generalize Vec3.dot (Vec3.smul c (u - e)) u = k at h3
    ext <;> simp only [Vec3.sub_x, Vec3.sub_y, Vec3.sub_z, Vec3.smul_x, Vec3.smul_y, Vec3.smul_z]
    · linear_combination (-(u.x - e.x)) * h3
    · linear_combination (-(u.y - e.y)) * h3
    · linear_combination (-(u.z - e.z)) * h3

/-! ### Legendre polynomials -/

/-- `l! / (q!² (l - 2q)!)`, and 0 for large `q`. -/
def tri (l q : ℕ) : ℕ := l.choose (2 * q) * (2 * q).choose q

theorem tri_zero {l q : ℕ} (h : l < 2 * q) : tri l q = 0 := by rw [tri, Nat.choose_eq_zero_of_lt h, zero_mul]

theorem tri_mul {l q r : ℕ} (h : l = 2 * q + r) : tri l q * (q.factorial * q.factorial * r.factorial) = l.factorial := by
  subst h
  have h1 := Nat.choose_mul_factorial_mul_factorial (show 2 * q ≤ 2 * q + r by omega)
  have h2 := Nat.choose_mul_factorial_mul_factorial (show q ≤ 2 * q by omega)
  rw [Nat.add_sub_cancel_left] at h1
  rw [show 2 * q - q = q by omega] at h2
  rw [tri, ← h1, ← h2]
  ring

theorem tri_real {l q r : ℕ} (h : l = 2 * q + r) :
    (tri l q : ℝ) = l.factorial / (q.factorial * q.factorial * r.factorial) := by
  have := tri_mul h
  rw [eq_div_iff (by positivity)]
  exact_mod_cast this

/-- The recurrence of the coefficients. -/
theorem tri_rec (l q : ℕ) : ((l : ℝ) + 2) * tri (l + 2) (q + 1) =
    (2 * l + 3) * tri (l + 1) (q + 1) - (l + 1) * tri l (q + 1) + 4 * (l + 1) * tri l q := by
  rcases lt_or_ge l (2 * q) with h | h
  · rw [tri_zero (show l + 2 < 2 * (q + 1) by omega), tri_zero (show l + 1 < 2 * (q + 1) by omega),
      tri_zero (show l < 2 * (q + 1) by omega), tri_zero h]
    simp
  obtain ⟨r, rfl⟩ : ∃ r, l = 2 * q + r := ⟨l - 2 * q, by omega⟩
  have nq : (q.factorial : ℝ) ≠ 0 := by exact_mod_cast q.factorial_ne_zero
  have nl : ((2 * q + r).factorial : ℝ) ≠ 0 := by exact_mod_cast (2 * q + r).factorial_ne_zero
  have f1 : ((2 * q + r + 1).factorial : ℝ) = (2 * q + r + 1) * (2 * q + r).factorial := by
    rw [Nat.factorial_succ]; push_cast; ring
  have f2 : ((2 * q + r + 2).factorial : ℝ) = (2 * q + r + 2) * ((2 * q + r + 1) * (2 * q + r).factorial) := by
    rw [show 2 * q + r + 2 = (2 * q + r + 1) + 1 from rfl, Nat.factorial_succ, Nat.cast_mul, f1]; push_cast; ring
  have f3 : ((q + 1).factorial : ℝ) = (q + 1) * q.factorial := by rw [Nat.factorial_succ]; push_cast; ring
  have n3 : (q : ℝ) + 1 ≠ 0 := by positivity
  rw [tri_real (show 2 * q + r + 2 = 2 * (q + 1) + r by omega), tri_real (show 2 * q + r = 2 * q + r from rfl), f2, f3]
  match r with
  | 0 =>
    rw [tri_zero (show 2 * q + 0 + 1 < 2 * (q + 1) by omega), tri_zero (show 2 * q + 0 < 2 * (q + 1) by omega)]
    generalize ((2 * q + 0).factorial : ℝ) = F at *
    push_cast
    field_simp
    ring
  | 1 =>
    rw [tri_real (show 2 * q + 1 + 1 = 2 * (q + 1) + 0 by omega), tri_zero (show 2 * q + 1 < 2 * (q + 1) by omega), f1, f3]
    generalize ((2 * q + 1).factorial : ℝ) = F at *
    push_cast
    field_simp
    ring
  | r + 2 =>
    rw [tri_real (show 2 * q + (r + 2) + 1 = 2 * (q + 1) + (r + 1) by omega),
      tri_real (show 2 * q + (r + 2) = 2 * (q + 1) + r by omega), f1, f3]
    have nr : (r.factorial : ℝ) ≠ 0 := by exact_mod_cast r.factorial_ne_zero
    have g1 : ((r + 1).factorial : ℝ) = (r + 1) * r.factorial := by rw [Nat.factorial_succ]; push_cast; ring
    have g2 : ((r + 2).factorial : ℝ) = (r + 2) * ((r + 1) * r.factorial) := by
      rw [show r + 2 = (r + 1) + 1 from rfl, Nat.factorial_succ, Nat.cast_mul, g1]; push_cast; ring
    rw [g1, g2]
    have n4 : (r : ℝ) + 1 ≠ 0 := by positivity
    have n5 : (r : ℝ) + 2 ≠ 0 := by positivity
    generalize ((2 * q + (r + 2)).factorial : ℝ) = F at *
    push_cast
    field_simp
    ring

/-- The polynomial in `z` and `w`. -/
noncomputable def triSum (N l : ℕ) (w z : ℝ) : ℝ := ∑ q ∈ range N, (tri l q : ℝ) * w ^ q * z ^ (l - 2 * q)

theorem triSum_extend {N l : ℕ} (h : l < 2 * N) (w z : ℝ) : triSum (N + 1) l w z = triSum N l w z := by
  unfold triSum
  rw [sum_range_succ, tri_zero h]
  simp

theorem triSum_rec (N l : ℕ) (hN : l < 2 * N) (w z : ℝ) : ((l : ℝ) + 2) * triSum (N + 1) (l + 2) w z =
    (2 * l + 3) * z * triSum (N + 1) (l + 1) w z - (l + 1) * (z ^ 2 - 4 * w) * triSum (N + 1) l w z := by
  have key : ((l : ℝ) + 2) * triSum (N + 1) (l + 2) w z - (2 * l + 3) * z * triSum (N + 1) (l + 1) w z +
      (l + 1) * z ^ 2 * triSum (N + 1) l w z = 4 * (l + 1) * w * triSum N l w z := by
    unfold triSum
    rw [sum_range_succ', sum_range_succ', sum_range_succ', mul_add, mul_add, mul_add, mul_sum, mul_sum, mul_sum, mul_sum]
    have e0 : ∀ l, tri l 0 = 1 := fun l => by simp [tri]
    have e1 : ((l : ℝ) + 2) * ((tri (l + 2) 0 : ℝ) * w ^ 0 * z ^ (l + 2 - 2 * 0)) -
        (2 * l + 3) * z * ((tri (l + 1) 0 : ℝ) * w ^ 0 * z ^ (l + 1 - 2 * 0)) +
        (l + 1) * z ^ 2 * ((tri l 0 : ℝ) * w ^ 0 * z ^ (l - 2 * 0)) = 0 := by
      rw [e0, e0, e0]
      simp only [Nat.mul_zero, Nat.sub_zero, pow_add]
      push_cast
      ring
    have e2 : ∑ q ∈ range N, ((l : ℝ) + 2) * ((tri (l + 2) (q + 1) : ℝ) * w ^ (q + 1) * z ^ (l + 2 - 2 * (q + 1))) -
        ∑ q ∈ range N, (2 * l + 3) * z * ((tri (l + 1) (q + 1) : ℝ) * w ^ (q + 1) * z ^ (l + 1 - 2 * (q + 1))) +
        ∑ q ∈ range N, (l + 1) * z ^ 2 * ((tri l (q + 1) : ℝ) * w ^ (q + 1) * z ^ (l - 2 * (q + 1))) =
        ∑ q ∈ range N, 4 * (l + 1) * w * ((tri l q : ℝ) * w ^ q * z ^ (l - 2 * q)) := by
      rw [← sum_sub_distrib, ← sum_add_distrib]
      refine sum_congr rfl fun q _ => ?_
      have hr := tri_rec l q
      have k1 : (tri (l + 1) (q + 1) : ℝ) * (z * z ^ (l + 1 - 2 * (q + 1))) = tri (l + 1) (q + 1) * z ^ (l - 2 * q) := by
        rcases lt_or_ge (l + 1) (2 * (q + 1)) with h | h
        · rw [tri_zero h]; simp
        · rw [← pow_succ', show l + 1 - 2 * (q + 1) + 1 = l - 2 * q by omega]
      have k2 : (tri l (q + 1) : ℝ) * (z ^ 2 * z ^ (l - 2 * (q + 1))) = tri l (q + 1) * z ^ (l - 2 * q) := by
        rcases lt_or_ge l (2 * (q + 1)) with h | h
        · rw [tri_zero h]; simp
        · rw [← pow_add, show 2 + (l - 2 * (q + 1)) = l - 2 * q by omega]
      rw [show l + 2 - 2 * (q + 1) = l - 2 * q by omega]
      linear_combination (w ^ (q + 1) * z ^ (l - 2 * q)) * hr - (2 * l + 3) * w ^ (q + 1) * k1 +
        (l + 1) * w ^ (q + 1) * k2
    linear_combination e1 + e2
  rw [triSum_extend hN] at key ⊢
  linear_combination key

/-- The sum is the Legendre polynomial. -/
theorem triSum_legendre (z : ℝ) : ∀ l N, l ≤ 2 * N → triSum (N + 1) l ((z ^ 2 - 1) / 4) z = legendre l z := by
  intro l
  induction l using Nat.strong_induction_on with
  | _ l ih =>
    intro N hN
    match l with
    | 0 =>
      rw [triSum, sum_eq_single 0]
      · simp [tri, legendre]
      · intro q _ hq
        rw [tri_zero (by omega)]; simp
      · simp
    | 1 =>
      rw [triSum, sum_eq_single 0]
      · simp [tri, legendre]
      · intro q _ hq
        rw [tri_zero (by omega)]; simp
      · simp
    | l + 2 =>
      have h := triSum_rec N l (by omega) ((z ^ 2 - 1) / 4) z
      rw [ih l (by omega) N (by omega), ih (l + 1) (by omega) N (by omega)] at h
      rw [legendre]
      have n : ((l + 2 : ℕ) : ℝ) ≠ 0 := by positivity
      rw [eq_div_iff n]
      push_cast
      linear_combination h

/-! ### The addition theorem -/

theorem co_middle (l : ℕ) (v : Vec3 ℝ) (hv : Vec3.dot v v = 1) :
    (l.factorial : ℂ) * co l v l = (legendre l v.z : ℝ) := by
  rw [← triSum_legendre v.z l l (by omega)]
  have nl : (l.factorial : ℂ) ≠ 0 := by exact_mod_cast l.factorial_ne_zero
  unfold co triSum
  rw [mul_sum]
  push_cast
  refine sum_congr rfl fun p hp => ?_
  rw [sum_eq_single p]
  · rcases lt_or_ge l (2 * p) with h | h
    · rw [if_neg (by omega), tri_zero h]; simp
    · rw [if_pos ⟨by omega, rfl⟩, part]
      have h1 := tri_real (show l = 2 * p + (l - 2 * p) by omega)
      have h2 : (tri l p : ℂ) = (l.factorial : ℂ) / (p.factorial * p.factorial * (l - 2 * p).factorial) := by
        have := congrArg (fun x : ℝ => (x : ℂ)) h1
        push_cast at this
        exact this
      rw [h2, show l - p - p = l - 2 * p by omega]
      have h3 : (((v.z : ℂ) ^ 2 - 1) / 4) = (-(v.x + v.y * Complex.I) / 2) * ((v.x - v.y * Complex.I) / 2) := by
        have hv : (v.x : ℂ) * v.x + v.y * v.y + v.z * v.z = 1 := by
          simp only [Vec3.dot] at hv
          exact_mod_cast hv
        linear_combination (1 / 4 : ℂ) * hv - (v.y * v.y / 4 : ℂ) * Complex.I_sq
      rw [h3, mul_pow]
      ring
  · intro q _ hq
    rw [if_neg (by omega)]
  · intro h
    exact absurd hp h

theorem co_pole (l : ℕ) (k : ℕ) : co l ⟨0, 0, 1⟩ k = if k = l then 1 / (l.factorial : ℂ) else 0 := by
  unfold co
  rw [sum_eq_single 0, sum_eq_single 0]
  · by_cases h : k = l
    · rw [if_pos ⟨by omega, by omega⟩, if_pos h, part]; simp
    · rw [if_neg (by omega), if_neg h]
  · intro q _ hq
    split_ifs
    · rw [part]; simp [hq]
    · rfl
  · simp
  · intro p _ hp
    refine sum_eq_zero fun q _ => ?_
    split_ifs
    · rw [part]; simp [hp]
    · rfl
  · simp

theorem pair_value (l : ℕ) (u v : Vec3 ℝ) (hu : Vec3.dot u u = 1) (hv : Vec3.dot v v = 1) :
    (-1) ^ l * pair (2 * l) (co l u) (co l v) = (legendre l (Vec3.dot u v) : ℝ) := by
  have pole : ∀ v : Vec3 ℝ, Vec3.dot v v = 1 → (-1) ^ l * pair (2 * l) (co l ⟨0, 0, 1⟩) (co l v) =
      (legendre l v.z : ℝ) := by
    intro v hv
    rw [← co_middle l v hv, pair, sum_eq_single l]
    · rw [co_pole, if_pos rfl, show 2 * l - l = l by omega]
      have nl : (l.factorial : ℂ) ≠ 0 := by exact_mod_cast l.factorial_ne_zero
      have : ((-1 : ℂ)) ^ l * (-1) ^ l = 1 := by rw [← mul_pow]; norm_num
      field_simp
      linear_combination (co l v l) * this
    · intro k _ hk
      rw [co_pole, if_neg hk]; ring
    · intro h
      exact absurd (mem_range.mpr (by omega)) h
  by_cases h : u = ⟨0, 0, 1⟩
  · rw [h, pole v hv]
    simp [Vec3.dot]
  · obtain ⟨c, hc, he⟩ := exists_mirror u ⟨0, 0, 1⟩ (by rw [hu]; simp [Vec3.dot]) h
    rw [← pair_mirror l _ u v hc, he, pole _ (by rw [dot_mirror _ _ _ hc, hv]), ← dot_mirror _ u v hc, he]
    simp [Vec3.dot]

end Freud.Harm
