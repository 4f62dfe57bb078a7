import Verif.Spec.BondOrder
import Verif.Props.PMFT
import Mathlib.Analysis.SpecialFunctions.Trigonometric.Angle
import Mathlib.Tactic.FieldSimp
import Mathlib.Tactic.Ring
import Mathlib.Tactic.Linarith

/-!
# Lemmas on bond order diagrams
-/

set_option linter.unusedSectionVars false

namespace Freud
open Spec

namespace BondOrder

theorem theta_eq (v : Vec3 ℝ) :
    theta v = 2 * Real.pi * Int.fract (Complex.arg ⟨v.x, v.y⟩ / (2 * Real.pi)) :=
  modulusPositive_eq _ _ Real.two_pi_pos

theorem theta_range (v : Vec3 ℝ) : 0 ≤ theta v ∧ theta v < 2 * Real.pi := by
  have h2 := Real.two_pi_pos
  have h0 := Int.fract_nonneg (Complex.arg ⟨v.x, v.y⟩ / (2 * Real.pi))
  have h1 := Int.fract_lt_one (Complex.arg ⟨v.x, v.y⟩ / (2 * Real.pi))
  rw [theta_eq]
  exact ⟨by positivity, by nlinarith⟩

theorem theta_zero (z : ℝ) : theta ⟨0, 0, z⟩ = 0 := by
  rw [theta_eq]
  have : (⟨0, 0⟩ : ℂ) = 0 := rfl
  simp [this]

theorem theta_polar (v : Vec3 ℝ) :
    Real.sqrt (v.x ^ 2 + v.y ^ 2) * Real.cos (theta v) = v.x ∧
    Real.sqrt (v.x ^ 2 + v.y ^ 2) * Real.sin (theta v) = v.y := by
  have ht : theta v = Complex.arg ⟨v.x, v.y⟩ -
      (⌊Complex.arg ⟨v.x, v.y⟩ / (2 * Real.pi)⌋ : ℤ) * (2 * Real.pi) := by
    rw [theta_eq, ← Int.self_sub_floor, mul_sub]
    have : 2 * Real.pi * (Complex.arg ⟨v.x, v.y⟩ / (2 * Real.pi)) = Complex.arg ⟨v.x, v.y⟩ := by
      have := Real.pi_pos.ne'
      field_simp
    rw [this]; ring
  have hn : Real.sqrt (v.x ^ 2 + v.y ^ 2) = ‖(⟨v.x, v.y⟩ : ℂ)‖ := by
    rw [Complex.norm_def, Complex.normSq_mk]; congr 1; ring
  rw [ht, Real.cos_sub_int_mul_two_pi, Real.sin_sub_int_mul_two_pi, hn,
    Complex.norm_mul_cos_arg, Complex.norm_mul_sin_arg]
  exact ⟨rfl, rfl⟩

theorem dot_pos {v : Vec3 ℝ} (h : v ≠ ⟨0, 0, 0⟩) : 0 < v.x ^ 2 + v.y ^ 2 + v.z ^ 2 := by
  by_contra hc
  apply h
  have hx := sq_nonneg v.x
  have hy := sq_nonneg v.y
  have hz := sq_nonneg v.z
  have e1 : v.x ^ 2 = 0 := by linarith
  have e2 : v.y ^ 2 = 0 := by linarith
  have e3 : v.z ^ 2 = 0 := by linarith
  ext
  · exact pow_eq_zero_iff (two_ne_zero) |>.mp e1
  · exact pow_eq_zero_iff (two_ne_zero) |>.mp e2
  · exact pow_eq_zero_iff (two_ne_zero) |>.mp e3

/-- The angles give the vector back. -/
theorem spherical_angles {v : Vec3 ℝ} (h : v ≠ ⟨0, 0, 0⟩) :
    ∃ r, 0 < r ∧ v = spherical r (theta v) (phi v) := by
  have hp := dot_pos h
  have hd : Vec3.dot v v = v.x ^ 2 + v.y ^ 2 + v.z ^ 2 := by simp only [Vec3.dot]; ring
  set r := Real.sqrt (Vec3.dot v v) with hr
  have hrp : 0 < r := Real.sqrt_pos.mpr (by rw [hd]; exact hp)
  have hsq : r ^ 2 = v.x ^ 2 + v.y ^ 2 + v.z ^ 2 := by rw [hr, Real.sq_sqrt (by rw [hd]; exact hp.le), hd]
  have hz1 : (v.z / r) ^ 2 ≤ 1 := by
    rw [div_pow, hsq, div_le_one hp]
    nlinarith [sq_nonneg v.x, sq_nonneg v.y]
  have hab := abs_le.mp (abs_le_one_iff_mul_self_le_one.mpr 
    (by rwa [sq] at hz1))
  have hcos : Real.cos (phi v) = v.z / r := Real.cos_arccos hab.1 hab.2
  have hsin : r * Real.sin (phi v) = Real.sqrt (v.x ^ 2 + v.y ^ 2) := by
    rw [phi, ← hr, Real.sin_arccos]
    have : r = Real.sqrt (r ^ 2) := (Real.sqrt_sq hrp.le).symm
    rw [this, ← Real.sqrt_mul (sq_nonneg r), Real.sqrt_sq hrp.le]
    congr 1
    rw [mul_sub, mul_one, div_pow, mul_div_cancel₀ _ (by positivity), hsq]; ring
  refine ⟨r, hrp, ?_⟩
  have ht := theta_polar v
  ext
  · simp only [spherical]; rw [hsin, ht.1]
  · simp only [spherical]; rw [hsin, ht.2]
  · simp only [spherical]; rw [hcos]; field_simp

theorem phi_range (v : Vec3 ℝ) : 0 ≤ phi v ∧ phi v ≤ Real.pi :=
  ⟨Real.arccos_nonneg _, Real.arccos_le_pi _⟩

/-- Spherical coordinates in range are the angles that are computed. -/
theorem angles_spherical {r t p : ℝ} (hr : 0 < r) (ht0 : 0 ≤ t) (ht1 : t < 2 * Real.pi)
    (hp0 : 0 ≤ p) (hp1 : p ≤ Real.pi) (hpole : Real.sin p = 0 → t = 0) :
    theta (spherical r t p) = t ∧ phi (spherical r t p) = p := by
  have hsin : 0 ≤ Real.sin p := Real.sin_nonneg_of_nonneg_of_le_pi hp0 hp1
  have hnorm : Real.sqrt (Vec3.dot (spherical r t p) (spherical r t p)) = r := by
    have : Vec3.dot (spherical r t p) (spherical r t p) = r ^ 2 := by
      simp only [Vec3.dot, spherical]
      linear_combination r ^ 2 * Real.sin p ^ 2 * Real.sin_sq_add_cos_sq t +
        r ^ 2 * Real.sin_sq_add_cos_sq p
    rw [this, Real.sqrt_sq hr.le]
  refine ⟨?_, ?_⟩
  · rcases hsin.eq_or_lt with h0 | hpos
    · have : spherical r t p = ⟨0, 0, r * Real.cos p⟩ := by
        simp [spherical, ← h0]
      rw [this, theta_zero, hpole h0.symm]
    · have hv := theta_polar (spherical r t p)
      have hrg := theta_range (spherical r t p)
      have hs : Real.sqrt ((spherical r t p).x ^ 2 + (spherical r t p).y ^ 2) = r * Real.sin p := by
        have : (spherical r t p).x ^ 2 + (spherical r t p).y ^ 2 = (r * Real.sin p) ^ 2 := by
          simp only [spherical]
          linear_combination r ^ 2 * Real.sin p ^ 2 * Real.sin_sq_add_cos_sq t
        rw [this, Real.sqrt_sq (by positivity)]
      rw [hs] at hv
      have hne : r * Real.sin p ≠ 0 := by positivity
      have e1 : Real.cos (theta (spherical r t p)) = Real.cos t := mul_left_cancel₀ hne hv.1
      have e2 : Real.sin (theta (spherical r t p)) = Real.sin t := mul_left_cancel₀ hne hv.2
      have := Real.Angle.cos_sin_inj e1 e2
      obtain ⟨k, hk⟩ := Real.Angle.angle_eq_iff_two_pi_dvd_sub.mp this
      have hpi := Real.two_pi_pos
      have hk0 : k = 0 := by
        have h1 : (k : ℝ) < 1 := by
          by_contra hc
          push Not at hc
          nlinarith
        have h2 : (-1 : ℝ) < k := by
          by_contra hc
          push Not at hc
          nlinarith
        have h1' : k < 1 := by exact_mod_cast h1
        have h2' : -1 < k := by exact_mod_cast h2
        omega
      rw [hk0] at hk
      push_cast at hk
      linarith
  · unfold phi
    rw [hnorm]
    simp only [spherical]
    rw [mul_div_cancel_left₀ _ hr.ne', Real.arccos_cos hp0 hp1]

theorem edge_theta (n i : ℕ) : edge (0 : ℝ) (2 * Real.pi) n i = 2 * Real.pi * i / n := by
  unfold edge; ring

theorem edge_phi (n i : ℕ) : edge (0 : ℝ) Real.pi n i = Real.pi * i / n := by
  unfold edge; ring

/-- A direction falls in a bin exactly if it points into the sector. -/
theorem inBins_iff (nT nP i j : ℕ) (hT : 0 < nT) (hP : 0 < nP) (hi : i < nT) (hj : j < nP)
    (v : Vec3 ℝ) (hv : v ≠ ⟨0, 0, 0⟩) :
    InBins [⟨nT, 0, 2 * Real.pi⟩, ⟨nP, 0, Real.pi⟩] [i, j] [theta v, phi v] ↔
      InSector nT nP i j v := by
  have hpi := Real.pi_pos
  have hT' : (0 : ℝ) < nT := by exact_mod_cast hT
  have hP' : (0 : ℝ) < nP := by exact_mod_cast hP
  simp only [InBins, InBin, edge_theta, edge_phi, and_true]
  push_cast
  constructor
  · rintro ⟨⟨h1, h2⟩, h3, h4⟩
    obtain ⟨r, hr, hs⟩ := spherical_angles hv
    refine ⟨r, theta v, phi v, hr, hs, h1, h2, h3, h4, fun h0 => ?_⟩
    have hz : v = ⟨0, 0, v.z⟩ := by
      ext
      · have := congrArg Vec3.x hs
        simp only [spherical, h0] at this; simpa using this
      · have := congrArg Vec3.y hs
        simp only [spherical, h0] at this; simpa using this
      · rfl
    rw [hz, theta_zero]
  · rintro ⟨r, t, p, hr, rfl, h1, h2, h3, h4, hpole⟩
    have ht0 : 0 ≤ t := le_trans (by positivity) h1
    have hp0 : 0 ≤ p := le_trans (by positivity) h3
    have ht1 : t < 2 * Real.pi := by
      refine lt_of_lt_of_le h2 ?_
      rw [div_le_iff₀ hT']
      have : (i : ℝ) + 1 ≤ nT := by exact_mod_cast hi
      nlinarith
    have hp1 : p < Real.pi := by
      refine lt_of_lt_of_le h4 ?_
      rw [div_le_iff₀ hP']
      have : (j : ℝ) + 1 ≤ nP := by exact_mod_cast hj
      nlinarith
    have := angles_spherical hr ht0 ht1 hp0 hp1.le hpole
    rw [this.1, this.2]
    exact ⟨⟨h1, h2⟩, h3, h4⟩

/-- A non-zero direction has polar angle pi exactly if it points straight down. -/
theorem phi_eq_pi_iff {v : Vec3 ℝ} (h : v ≠ ⟨0, 0, 0⟩) : phi v = Real.pi ↔ Down v := by
  constructor
  · intro hp
    obtain ⟨r, hr, hs⟩ := spherical_angles h
    rw [hp] at hs
    have e : v = ⟨0, 0, -r⟩ := by rw [hs]; simp [spherical]
    rw [e]
    exact ⟨rfl, rfl, by simpa using hr⟩
  · rintro ⟨h1, h2, h3⟩
    unfold phi
    have : Real.sqrt (Vec3.dot v v) = -v.z := by
      simp only [Vec3.dot, h1, h2]
      rw [show (0 : ℝ) * 0 + 0 * 0 + v.z * v.z = (-v.z) ^ 2 by ring, Real.sqrt_sq (by linarith)]
    rw [this, div_neg, div_self h3.ne, Real.arccos_neg_one]

/-- How many bins a value falls in. -/
theorem bins_sum (n : ℕ) (hn : 0 < n) (hb : n ≤ OVERFLOW_BIN) (hi : ℝ) (hpos : 0 < hi) (x : ℝ)
    (h0 : 0 ≤ x) : ∃ k, (x < hi → k < n) ∧ ∀ i < n, InBin 0 hi n i x ↔ (x < hi ∧ i = k) := by
  have hax : AxisOK (⟨n, 0, hi⟩ : RegularAxis ℝ) := ⟨hn, hb, hpos⟩
  refine ⟨(⟨n, 0, hi⟩ : RegularAxis ℝ).bin x,
    fun h => (C10_overflow_iff _ hax x).2 ⟨h0, h⟩, fun i hin => ?_⟩
  rw [← C10_bin_iff _ hax x i hin]
  constructor
  · intro hb'
    refine ⟨?_, hb'.symm⟩
    by_contra hc
    have h2 := (C10_overflow_iff _ hax x).1.mpr (Or.inr (not_lt.mp hc))
    rw [hb'] at h2
    have : i < OVERFLOW_BIN := lt_of_lt_of_le hin hb
    omega
  · rintro ⟨_, rfl⟩; rfl

end BondOrder
end Freud

namespace Freud
open Spec
namespace BondOrder

/-- The two angles of a vector. -/
noncomputable def angles (v : Vec3 ℝ) : List ℝ := [theta v, phi v]

/-- The operation of the base class for a legal call. -/
noncomputable def conv (mode : Mode) : Op → HistCompute.Op ℝ Unit (Box ℝ)
  | .reset => .reset
  | .accumulate c => .frame c.box c.n
      (fun i => (c.bonds i).filterMap (sample mode c.ori c.queryOri)) c.ev
  | .read order => .read order

theorem sample_eq (mode : Mode) (ori queryOri : ℕ → Quat ℝ) (b : Bond ℝ)
    (h : direction mode ori queryOri b ≠ ⟨0, 0, 0⟩) :
    sample mode ori queryOri b = some (angles (direction mode ori queryOri b)) := by
  simp only [sample]
  rw [if_neg h]; rfl

theorem mem_callDirections {mode : Mode} {c : Call} {i : ℕ} (hi : i < c.n) {b : Bond ℝ}
    (hb : b ∈ c.bonds i) : direction mode c.ori c.queryOri b ∈ callDirections mode c := by
  unfold callDirections
  exact List.mem_flatMap.mpr ⟨i, List.mem_range.mpr hi, List.mem_map.mpr ⟨b, hb, rfl⟩⟩

theorem toOp_legal (nT nP : ℕ) (mode : Mode) (o : Op) (h : BOLegal nT nP mode o) :
    toOp mode o = some (conv mode o) := by
  cases o with
  | reset => rfl
  | read order => rfl
  | accumulate c =>
    simp only [toOp, conv]
    rw [if_pos]
    intro i hi b hb
    rw [sample_eq _ _ _ _ (h.2 _ (mem_callDirections hi hb))]; rfl

theorem run_eq (g : Grid) (nT nP : ℕ) (mode : Mode) (history : List Op) :
    ∀ (s : HistCompute ℝ Unit (Box ℝ) (List ℝ)), (∀ o ∈ history, BOLegal nT nP mode o) →
    run g mode s history = s.run (fun _ _ => fill g) (zero g) (history.map (conv mode)) := by
  induction history with
  | nil => intro s _; rfl
  | cons o os ih =>
    intro s h
    simp only [run, List.map_cons, HistCompute.run]
    rw [toOp_legal nT nP mode o (h o (by simp)), Option.bind_some]
    congr 1
    funext s'
    exact ih s' (fun o ho => h o (by simp [ho]))

theorem filterMap_sample (mode : Mode) (ori queryOri : ℕ → Quat ℝ) (l : List (Bond ℝ))
    (h : ∀ b ∈ l, direction mode ori queryOri b ≠ ⟨0, 0, 0⟩) :
    l.filterMap (sample mode ori queryOri) = (l.map (direction mode ori queryOri)).map angles := by
  induction l with
  | nil => rfl
  | cons b l ih =>
    rw [List.filterMap_cons, sample_eq _ _ _ _ (h b (by simp)), ih (fun b hb => h b (by simp [hb]))]
    rfl

theorem call_samples (mode : Mode) (c : Call)
    (h : ∀ v ∈ callDirections mode c, v ≠ ⟨0, 0, 0⟩) :
    (List.range c.n).flatMap (fun i => (c.bonds i).filterMap (sample mode c.ori c.queryOri)) =
      (callDirections mode c).map angles := by
  unfold callDirections
  rw [List.map_flatMap]
  have key : ∀ i ∈ List.range c.n, (c.bonds i).filterMap (sample mode c.ori c.queryOri) =
      ((c.bonds i).map (direction mode c.ori c.queryOri)).map angles := fun i hi =>
    filterMap_sample _ _ _ _ (fun b hb => h _ (mem_callDirections (List.mem_range.mp hi) hb))
  generalize List.range c.n = l at key ⊢
  induction l with
  | nil => rfl
  | cons i l ih =>
    rw [List.flatMap_cons, List.flatMap_cons, key i (by simp),
      ih (fun j hj => key j (by simp [hj]))]

/-- The frames of the base class are the calls since the last reset. -/
theorem frames_eq (nT nP : ℕ) (mode : Mode) (history : List Op) :
    ∀ (acc : List Call), (∀ o ∈ history, BOLegal nT nP mode o) →
    (∀ c ∈ acc, ∀ v ∈ callDirections mode c, v ≠ ⟨0, 0, 0⟩) →
    frames (history.map (conv mode)) (acc.map (fun c => (c.box, (callDirections mode c).map angles)))
      = (callsSince history acc).map (fun c => (c.box, (callDirections mode c).map angles)) ∧
    ∀ c ∈ callsSince history acc, ∀ v ∈ callDirections mode c, v ≠ ⟨0, 0, 0⟩ := by
  induction history with
  | nil => intro acc _ h; exact ⟨rfl, h⟩
  | cons o os ih =>
    intro acc h hacc
    have hos : ∀ o ∈ os, BOLegal nT nP mode o := fun o ho => h o (by simp [ho])
    cases o with
    | reset => exact ih [] hos (by simp)
    | read order => exact ih acc hos hacc
    | accumulate c =>
      have hc := (h _ List.mem_cons_self).2
      have := ih (acc ++ [c]) hos (by
        intro d hd
        rw [List.mem_append, List.mem_singleton] at hd
        rcases hd with hd | rfl
        · exact hacc d hd
        · exact hc)
      simp only [List.map_cons, conv, frames, callsSince]
      rw [call_samples mode c hc]
      simpa using this

theorem flatMap_angles (mode : Mode) (calls : List Call) :
    (calls.map (fun c => (c.box, (callDirections mode c).map angles))).flatMap (·.2) =
      (calls.flatMap (callDirections mode)).map angles := by
  induction calls with
  | nil => rfl
  | cons c cs ih =>
    rw [List.map_cons, List.flatMap_cons, List.flatMap_cons, List.map_append, ih]

theorem countIn_angles (nT nP i j : ℕ) (hT : 0 < nT) (hP : 0 < nP) (hi : i < nT) (hj : j < nP)
    (vs : List (Vec3 ℝ)) (h : ∀ v ∈ vs, v ≠ ⟨0, 0, 0⟩) :
    countIn [⟨nT, 0, 2 * Real.pi⟩, ⟨nP, 0, Real.pi⟩] [i, j] (vs.map angles) =
      howMany (InSector nT nP i j) vs := by
  classical
  unfold countIn howMany
  induction vs with
  | nil => rfl
  | cons v vs ih =>
    have hv := inBins_iff nT nP i j hT hP hi hj v (h v (by simp))
    rw [show ([theta v, phi v] : List ℝ) = angles v from rfl] at hv
    have ih := ih (fun v hv => h v (by simp [hv]))
    rw [List.map_cons, List.filter_cons, List.filter_cons]
    by_cases hs : InSector nT nP i j v
    · rw [if_pos (decide_eq_true (hv.mpr hs)), if_pos (by simpa using hs), List.length_cons,
        List.length_cons, ih]
    · rw [if_neg (fun h => hs (hv.mp (of_decide_eq_true h))), if_neg (by simpa using hs), ih]

theorem flatMap_const_getD {α : Type*} (n m : ℕ) (f : ℕ → α) (d : α) (i j : ℕ) (hi : i < n) (hj : j < m) :
    ((List.range n).flatMap (fun _ => (List.range m).map f)).getD (i * m + j) d = f j := by
  induction n generalizing i with
  | zero => omega
  | succ n ih =>
    rw [List.range_succ_eq_map, List.flatMap_cons, List.flatMap_map]
    rw [List.getD_eq_getElem?_getD]
    cases i with
    | zero =>
      rw [List.getElem?_append_left (by simpa using hj)]
      simp [hj]
    | succ i =>
      rw [List.getElem?_append_right (by simp only [List.length_map, List.length_range]; nlinarith),
        ← List.getD_eq_getElem?_getD]
      have e : (i + 1) * m + j - ((List.range m).map f).length = i * m + j := by
        simp only [List.length_map, List.length_range]
        have : (i + 1) * m = i * m + m := by ring
        omega
      rw [e]
      exact ih i (by omega)

end BondOrder
end Freud
