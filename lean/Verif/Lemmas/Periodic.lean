import Verif.Spec.Periodic
import Verif.Props.BoxMinImage

/-!
# Short images are unique
-/

namespace Freud
open Spec

theorem hasCoords_frac {b : Box ℝ} (hb : Valid b) {v f : Vec3 ℝ} (h : HasCoords b v f) :
    f = b.makeFractional v := by
  obtain ⟨h1, h2⟩ := h
  rw [h1, makeFractional_comb hb]
  cases h3 : b.is2D with
  | true => ext <;> simp [h2 h3]
  | false => ext <;> simp

theorem inCell_planar {b : Box ℝ} (hb : Valid b) {v : Vec3 ℝ} (h : InCell b v) : Planar b v := by
  obtain ⟨f, ⟨h1, -⟩, -⟩ := h
  intro h2
  rw [h1]
  simp [comb, a1, a2, a3, hb.Lz_2D h2]

theorem norm_nonneg' (v : Vec3 ℝ) : 0 ≤ Vec3.norm v := Real.sqrt_nonneg _

theorem dot_nonneg (v : Vec3 ℝ) : 0 ≤ Vec3.dot v v := by
  simp only [Vec3.dot]; nlinarith [mul_self_nonneg v.x, mul_self_nonneg v.y, mul_self_nonneg v.z]

theorem norm_lt_iff (v : Vec3 ℝ) (r : ℝ) (hr : 0 ≤ r) : Vec3.norm v < r ↔ Vec3.dot v v < r * r := by
  rw [Vec3.norm, ← sq]
  constructor
  · intro h
    exact (Real.sqrt_lt' (lt_of_le_of_lt (Real.sqrt_nonneg _) h)).mp h
  · intro h
    rcases hr.lt_or_eq with hp | rfl
    · exact (Real.sqrt_lt' hp).mpr h
    · exact absurd h (by simpa using dot_nonneg v)

theorem le_norm_iff (v : Vec3 ℝ) (r : ℝ) (hr : 0 ≤ r) : r ≤ Vec3.norm v ↔ r * r ≤ Vec3.dot v v := by
  rw [← not_lt, norm_lt_iff v r hr, not_lt]

/-- The wrapped separation is the only image shorter than half the plane distances. -/
theorem wrap_of_short {b : Box ℝ} (hb : Valid b) {r : ℝ} (hr : BelowHalf b r)
    {v w : Vec3 ℝ} (hv : Planar b v) (hw : IsImage b v w) (hs : Vec3.norm w < r) :
    b.wrap v = w ∧
    ∀ m, AllowedShift b m → v + lattice b m ≠ w → Vec3.norm w < Vec3.norm (v + lattice b m) := by
  apply C06_short_image_is_min b hb v w hv hw
  · intro h; linarith [hr.1 h]
  · intro h; linarith [hr.2.1 h]
  · intro h h'; linarith [hr.2.2 h h']

/-- The image that is short has coefficients in `{-1, 0, 1}`. -/
theorem short_image_steps {b : Box ℝ} (hb : Valid b) {r : ℝ}
    (hr : BelowHalf b r) {p q : Vec3 ℝ} (hcp : InCell b p) (hcq : InCell b q) (n : Vec3 ℤ)
    (hn : AllowedShift b n) (hs : Vec3.norm (p - q + lattice b n) < r) :
    (-1 ≤ n.x ∧ n.x ≤ 1) ∧ (-1 ≤ n.y ∧ n.y ≤ 1) ∧ (-1 ≤ n.z ∧ n.z ≤ 1) := by
  have hpl : Planar b (p - q) := planar_sub (inCell_planar hb hcp) (inCell_planar hb hcq)
  obtain ⟨f, hf, fx, fy, fz⟩ := hcp
  obtain ⟨g, hg, gx, gy, gz⟩ := hcq
  have hw := (wrap_of_short hb hr hpl ⟨n, hn, rfl⟩ hs).1
  have hfr := makeFractional_wrap hb (p - q) hpl
  rw [hw, makeFractional_add_lattice hb _ hpl n (fun h => hn.2.2 (Or.inr h))] at hfr
  simp only [Vec3.mk.injEq] at hfr
  have hd : p - q = comb b (f.x - g.x) (f.y - g.y) (f.z - g.z) := by
    rw [hf.1, hg.1]; ext <;> simp [comb] <;> ring
  have hfd := makeFractional_comb hb (f.x - g.x) (f.y - g.y) (f.z - g.z)
  rw [← hd] at hfd
  obtain ⟨h1, h2, h3⟩ := hfr
  have key : ∀ (a s t : ℝ) (m : ℤ), a = s - t + 1 / 2 → 0 ≤ s → s ≤ 1 → 0 ≤ t → t ≤ 1 →
      ∀ pr : Bool, (pr = false → m = 0) → a + m = redAxis pr a → -1 ≤ m ∧ m ≤ 1 := by
    intro a s t m ha s0 s1 t0 t1 pr hpr h
    cases pr with
    | false => rw [hpr rfl]; omega
    | true =>
    simp only [redAxis, if_true] at h
    have e0 := Int.fract_nonneg a
    have e1 := Int.fract_lt_one a
    have u1 : (-2 : ℝ) < m := by linarith
    have u2 : (m : ℝ) < 2 := by linarith
    have v1 : -2 < m := by exact_mod_cast u1
    have v2 : m < 2 := by exact_mod_cast u2
    omega
  refine ⟨key _ _ _ _ (by rw [hfd]) fx.1 fx.2 gx.1 gx.2 b.px hn.1 h1,
    key _ _ _ _ (by rw [hfd]) fy.1 fy.2 gy.1 gy.2 b.py hn.2.1 h2, ?_⟩
  cases h2d : b.is2D with
  | true => have := hn.2.2 (Or.inr h2d); omega
  | false =>
    exact key _ _ _ _ (by rw [hfd]; simp [h2d]) fz.1 fz.2 gz.1 gz.2 b.pz
      (fun h => hn.2.2 (Or.inl h)) h3

theorem lattice_inj {b : Box ℝ} (hb : Valid b) {n m : Vec3 ℤ} (hn : AllowedShift b n)
    (hm : AllowedShift b m) (h : lattice b n = lattice b m) : n = m := by
  obtain ⟨h1, h2, h3⟩ := comb_inj hb h
  have e1 : n.x = m.x := by exact_mod_cast h1
  have e2 : n.y = m.y := by exact_mod_cast h2
  have e3 : n.z = m.z := by
    cases h2d : b.is2D with
    | true => rw [hn.2.2 (Or.inr h2d), hm.2.2 (Or.inr h2d)]
    | false => exact_mod_cast h3 h2d
  ext <;> assumption

theorem planes_pos {b : Box ℝ} (h : PositiveLengths b) :
    0 < b.getNearestPlaneDistance.x ∧ 0 < b.getNearestPlaneDistance.y ∧
      (b.is2D = false → 0 < b.getNearestPlaneDistance.z) := by
  obtain ⟨h1, h2, h3⟩ := h
  unfold Box.getNearestPlaneDistance
  refine ⟨div_pos h1 (Real.sqrt_pos.mpr ?_), div_pos h2 (Real.sqrt_pos.mpr ?_), h3⟩
  · nlinarith [mul_self_nonneg b.xy, mul_self_nonneg (b.xy * b.yz - b.xz)]
  · nlinarith [mul_self_nonneg b.yz]

theorem volume_pos {b : Box ℝ} (h : PositiveLengths b) : 0 < b.getVolume := by
  obtain ⟨h1, h2, h3⟩ := h
  unfold Box.getVolume
  split
  · exact mul_pos h1 h2
  · rename_i h
    exact mul_pos (mul_pos h1 h2) (h3 (by simpa using h))

/-- Box coordinates are bounded by the length of a vector. -/
theorem comb_plane {b : Box ℝ} (h : PositiveLengths b) (s t u : ℝ) :
    |s| * b.getNearestPlaneDistance.x ≤ Vec3.norm (comb b s t u) ∧
    |t| * b.getNearestPlaneDistance.y ≤ Vec3.norm (comb b s t u) ∧
    |u| * b.L.z ≤ Vec3.norm (comb b s t u) := by
  obtain ⟨h1, h2, h3⟩ := h
  have key : ∀ (a L c : ℝ), 0 < L → 0 < c → (a * L) ^ 2 ≤ c * Vec3.dot (comb b s t u) (comb b s t u) →
      |a| * (L / Real.sqrt c) ≤ Vec3.norm (comb b s t u) := by
    intro a L c hL hc hle
    have hs : 0 < Real.sqrt c := Real.sqrt_pos.mpr hc
    rw [← mul_div_assoc, div_le_iff₀ hs]
    apply abs_le_of_sq_le_sq' _ (by have := norm_nonneg' (comb b s t u); positivity) |>.2
    have e1 : Vec3.norm (comb b s t u) ^ 2 = Vec3.dot (comb b s t u) (comb b s t u) :=
      Real.sq_sqrt (dot_nonneg _)
    rw [mul_pow, mul_pow, sq_abs, e1, Real.sq_sqrt hc.le, ← mul_pow]
    linarith
  refine ⟨key _ _ _ h1 (by nlinarith [mul_self_nonneg b.xy, mul_self_nonneg (b.xy * b.yz - b.xz)]) ?_,
    key _ _ _ h2 (by nlinarith [mul_self_nonneg b.yz]) ?_, ?_⟩
  · generalize hv : comb b s t u = v
    have e : s * b.L.x = v.x - b.xy * v.y + (b.xy * b.yz - b.xz) * v.z := by
      rw [← hv]; simp [comb, a1, a2, a3]; ring
    rw [e, Vec3.dot]
    nlinarith [sq_nonneg (v.y + b.xy * v.x), sq_nonneg (v.z - (b.xy * b.yz - b.xz) * v.x),
      sq_nonneg (b.xy * v.z + (b.xy * b.yz - b.xz) * v.y)]
  · generalize hv : comb b s t u = v
    have e : t * b.L.y = v.y - b.yz * v.z := by
      rw [← hv]; simp [comb, a1, a2, a3]; ring
    rw [e, Vec3.dot]
    nlinarith [sq_nonneg (v.z + b.yz * v.y), sq_nonneg v.x, sq_nonneg (b.yz * v.x)]
  · generalize hv : comb b s t u = v
    have e : u * b.L.z = v.z := by
      rw [← hv]; simp [comb, a1, a2, a3]
    have e1 : Vec3.norm v ^ 2 = Vec3.dot v v := Real.sq_sqrt (dot_nonneg _)
    apply abs_le_of_sq_le_sq' _ (norm_nonneg' v) |>.2
    rw [mul_pow, sq_abs, ← mul_pow, e, e1, Vec3.dot]
    nlinarith [mul_self_nonneg v.x, mul_self_nonneg v.y]

end Freud
