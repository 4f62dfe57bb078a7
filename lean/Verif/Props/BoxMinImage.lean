import Verif.Props.Box
import Verif.Model.BoxReal

/-!
# Property C06: wrapped separations and minimum images
-/

set_option linter.unusedSectionVars false

namespace Freud
open Spec

section
variable {K : Type*} [Field K] [LinearOrder K] [IsStrictOrderedRing K] [FloorRing K]

theorem wrap_eq_self_of_coords {b : Box K} (hb : Valid b) {w : Vec3 K} (hw : Planar b w)
    (hx : b.px = true → 0 ≤ (b.makeFractional w).x ∧ (b.makeFractional w).x < 1)
    (hy : b.py = true → 0 ≤ (b.makeFractional w).y ∧ (b.makeFractional w).y < 1)
    (hz : b.pz = true → 0 ≤ (b.makeFractional w).z ∧ (b.makeFractional w).z < 1) :
    b.wrap w = w := by
  rw [wrap_eq hb w hw]
  conv_rhs => rw [comb_makeFractional hb w hw]
  have red : ∀ (p : Bool) (a : K), (p = true → 0 ≤ a ∧ a < 1) → redAxis p a = a := by
    intro p a h
    cases p
    · simp [redAxis]
    · simpa [redAxis] using Int.fract_eq_self.mpr (h rfl)
  rw [red _ _ hx, red _ _ hy, red _ _ hz]

theorem sq_lt_quarter {s : K} (h : 4 * s ^ 2 < 1) : 0 ≤ s + 1 / 2 ∧ s + 1 / 2 < 1 := by
  constructor <;> nlinarith [sq_nonneg s, sq_nonneg (2 * s + 1), sq_nonneg (2 * s - 1)]

/-- Shared core: `w` short compared with the plane distances has box coordinates in `(0,1)`. -/
theorem wrap_eq_self_of_short {b : Box K} (hb : Valid b) {w : Vec3 K} (hw : Planar b w)
    (hx : b.px = true → 4 * Vec3.dot w w * (1 + b.xy ^ 2 + (b.xy * b.yz - b.xz) ^ 2) < b.L.x ^ 2)
    (hy : b.py = true → 4 * Vec3.dot w w * (1 + b.yz ^ 2) < b.L.y ^ 2)
    (hz : b.pz = true → b.is2D = false → 4 * Vec3.dot w w < b.L.z ^ 2) :
    b.wrap w = w := by
  have hlo := hb.lo_eq
  have hLx := hb.Lx_ne
  have hLy := hb.Ly_ne
  apply wrap_eq_self_of_coords hb hw
  · intro h
    have hx := hx h
    have hf : (b.makeFractional w).x =
        (w.x - b.xy * w.y - (b.xz - b.yz * b.xy) * w.z) / b.L.x + 1 / 2 := by
      unfold Box.makeFractional
      rw [hlo]
      cases b.is2D <;> simp <;> field_simp <;> ring
    rw [hf]
    apply sq_lt_quarter
    have hL2 : 0 < b.L.x ^ 2 := by positivity
    rw [div_pow, ← mul_div_assoc, div_lt_one hL2]
    refine lt_of_le_of_lt ?_ hx
    simp only [Vec3.dot]
    nlinarith [sq_nonneg (w.y + b.xy * w.x), sq_nonneg (w.z + (b.xz - b.yz * b.xy) * w.x),
      sq_nonneg ((b.xz - b.yz * b.xy) * w.y - b.xy * w.z)]
  · intro h
    have hy := hy h
    have hf : (b.makeFractional w).y = (w.y - b.yz * w.z) / b.L.y + 1 / 2 := by
      unfold Box.makeFractional
      rw [hlo]
      cases b.is2D <;> simp <;> field_simp <;> ring
    rw [hf]
    apply sq_lt_quarter
    have hL2 : 0 < b.L.y ^ 2 := by positivity
    rw [div_pow, ← mul_div_assoc, div_lt_one hL2]
    refine lt_of_le_of_lt ?_ hy
    simp only [Vec3.dot]
    nlinarith [sq_nonneg (w.z + b.yz * w.y), sq_nonneg w.x, sq_nonneg (b.yz * w.x)]
  · intro h
    cases h2 : b.is2D with
    | true => rw [makeFractional_planar w h2]; simp
    | false =>
      have hz := hz h h2
      have hLz := hb.Lz_ne h2
      have hf : (b.makeFractional w).z = w.z / b.L.z + 1 / 2 := by
        unfold Box.makeFractional
        rw [hlo]
        simp [h2]; field_simp
      rw [hf]
      apply sq_lt_quarter
      have hL2 : 0 < b.L.z ^ 2 := by positivity
      rw [div_pow, ← mul_div_assoc, div_lt_one hL2]
      refine lt_of_le_of_lt ?_ hz
      simp only [Vec3.dot]
      nlinarith [sq_nonneg w.x, sq_nonneg w.y]

/-- **C06**, orthorhombic part: without tilt, no periodic image of `v` is shorter than
`wrap v`. -/
theorem C06_orthorhombic_min_image (b : Box K) (hb : Valid b) (v : Vec3 K) (hv : Planar b v)
    (ht : b.xy = 0 ∧ b.xz = 0 ∧ b.yz = 0) (n : Vec3 ℤ) (hn : AllowedShift b n) :
    Vec3.dot (b.wrap v) (b.wrap v) ≤ Vec3.dot (v + lattice b n) (v + lattice b n) := by
  have hc := comb_makeFractional hb v hv
  have e : v + lattice b n = comb b ((b.makeFractional v).x - 1 / 2 + n.x)
      ((b.makeFractional v).y - 1 / 2 + n.y) ((b.makeFractional v).z - 1 / 2 + n.z) := by
    conv_lhs => rw [hc]
    rw [lattice, comb_add]
  rw [e, wrap_eq hb v hv]
  have key : ∀ (p : Bool) (a : K) (k : ℤ), (p = false → k = 0) →
      (redAxis p a - 1 / 2) ^ 2 ≤ (a - 1 / 2 + k) ^ 2 := by
    intro p a k hk
    cases p
    · simp [redAxis, hk]
    · simp only [redAxis, if_true]
      have h1 := Int.fract_nonneg a
      have h2 := Int.fract_lt_one a
      have h3 := Int.self_sub_floor a
      set r := Int.fract a
      have h4 : a - 1 / 2 + k = r - 1 / 2 + ((⌊a⌋ + k : ℤ) : K) := by push_cast; linarith
      rw [h4]
      rcases lt_trichotomy (⌊a⌋ + k) 0 with h | h | h
      · have : ((⌊a⌋ + k : ℤ) : K) ≤ -1 := by exact_mod_cast (by omega : ⌊a⌋ + k ≤ -1)
        nlinarith
      · rw [h]; simp
      · have : (1 : K) ≤ ((⌊a⌋ + k : ℤ) : K) := by exact_mod_cast (by omega : 1 ≤ ⌊a⌋ + k)
        nlinarith
  obtain ⟨h1, h2, h3⟩ := ht
  have kx := mul_le_mul_of_nonneg_left (key b.px (b.makeFractional v).x n.x hn.1)
    (sq_nonneg b.L.x)
  have ky := mul_le_mul_of_nonneg_left (key b.py (b.makeFractional v).y n.y hn.2.1)
    (sq_nonneg b.L.y)
  have kz := mul_le_mul_of_nonneg_left (key b.pz (b.makeFractional v).z n.z
    (fun h => hn.2.2 (Or.inl h))) (sq_nonneg b.L.z)
  simp only [Vec3.dot, comb, a1, a2, a3, h1, h2, h3]
  linarith

end

/-- **C06**: if some periodic image `w` of `v` is shorter than half of the nearest-plane
distance of every periodic axis, then `wrap v` is `w`, and every other image is strictly
longer. -/
theorem C06_short_image_is_min (b : Box ℝ) (hb : Valid b) (v w : Vec3 ℝ) (hv : Planar b v)
    (hw : ∃ n, AllowedShift b n ∧ w = v + lattice b n)
    (hx : b.px = true → Vec3.norm w < b.getNearestPlaneDistance.x / 2)
    (hy : b.py = true → Vec3.norm w < b.getNearestPlaneDistance.y / 2)
    (hz : b.pz = true → b.is2D = false → Vec3.norm w < b.getNearestPlaneDistance.z / 2) :
    b.wrap v = w ∧
    ∀ m, AllowedShift b m → v + lattice b m ≠ w → Vec3.norm w < Vec3.norm (v + lattice b m) := by
  have hdot : ∀ u : Vec3 ℝ, 0 ≤ Vec3.dot u u := fun u => by
    simp only [Vec3.dot]; nlinarith [mul_self_nonneg u.x, mul_self_nonneg u.y, mul_self_nonneg u.z]
  have conv : ∀ (u : Vec3 ℝ) (L c : ℝ), 0 < c → Vec3.norm u < L / Real.sqrt c / 2 →
      4 * Vec3.dot u u * c < L ^ 2 := by
    intro u L c hc h
    have h0 : 0 ≤ Vec3.norm u := Real.sqrt_nonneg _
    have hs : 0 < Real.sqrt c := Real.sqrt_pos.mpr hc
    have h1 : 2 * Vec3.norm u * Real.sqrt c < L := by
      rw [div_div, lt_div_iff₀ (by positivity)] at h
      linarith
    have h2 : (Vec3.norm u) ^ 2 = Vec3.dot u u := Real.sq_sqrt (hdot u)
    have h3 : (Real.sqrt c) ^ 2 = c := Real.sq_sqrt hc.le
    have h4 : (2 * Vec3.norm u * Real.sqrt c) ^ 2 < L ^ 2 :=
      pow_lt_pow_left₀ h1 (by positivity) (by norm_num)
    calc 4 * Vec3.dot u u * c = (2 * Vec3.norm u * Real.sqrt c) ^ 2 := by
          rw [← h2]; nth_rewrite 1 [← h3]; ring
      _ < L ^ 2 := h4
  have short : ∀ u : Vec3 ℝ, Planar b u → Vec3.norm u ≤ Vec3.norm w → b.wrap u = u := by
    intro u hu hle
    apply wrap_eq_self_of_short hb hu
    · intro h
      have := conv u b.L.x (1 + b.xy * b.xy + (b.xy * b.yz - b.xz) * (b.xy * b.yz - b.xz))
        (by nlinarith [mul_self_nonneg b.xy, mul_self_nonneg (b.xy * b.yz - b.xz)])
        (lt_of_le_of_lt hle (hx h))
      simpa [sq] using this
    · intro h
      have := conv u b.L.y (1 + b.yz * b.yz) (by nlinarith [mul_self_nonneg b.yz])
        (lt_of_le_of_lt hle (hy h))
      simpa [sq] using this
    · intro h h2
      have := conv u b.L.z 1 (by norm_num) (lt_of_le_of_lt hle (by simpa [Box.getNearestPlaneDistance] using hz h h2))
      simpa using this
  obtain ⟨n, hn, rfl⟩ := hw
  have hpl : ∀ m, Planar b (v + lattice b m) := fun m => planar_add hv (lattice_planar hb m)
  have h1 := short _ (hpl n) le_rfl
  rw [wrap_add_lattice hb v hv n hn] at h1
  refine ⟨h1, fun m hm hne => ?_⟩
  by_contra hcon
  have h2 := short _ (hpl m) (not_lt.mp hcon)
  rw [wrap_add_lattice hb v hv m hm] at h2
  exact hne (h2.symm.trans h1)

/-- **C06**, the remark in the statement: in a tilted box `wrap` need not return a shortest
image. -/
theorem C06_tilted_counterexample :
    ∃ (b : Box ℚ) (v : Vec3 ℚ) (n : Vec3 ℤ), Valid b ∧ Planar b v ∧ AllowedShift b n ∧
      Vec3.dot (v + lattice b n) (v + lattice b n) < Vec3.dot (b.wrap v) (b.wrap v) := by
  refine ⟨Box.mk' 2 2 0 1 0 0 true, ⟨7 / 4, 9 / 10, 0⟩, ⟨-1, 0, 0⟩, ?_, fun _ => rfl, ?_,
    by decide +kernel⟩
  · constructor <;> simp [Box.mk', Box.setL]
  · simp [AllowedShift, Box.mk', Box.setL]

/-- **C06**, what the nearest-plane distances are: for a 3D box with positive lengths they
are the distances between opposite faces, `|a1 . (a2 x a3)| / |a2 x a3|` and cyclically. -/
theorem C06_plane_distance_meaning (b : Box ℝ) (hx : 0 < b.L.x) (hy : 0 < b.L.y)
    (hz : 0 < b.L.z) :
    b.getNearestPlaneDistance =
      ⟨|Vec3.dot (a1 b) (Vec3.cross (a2 b) (a3 b))| / Vec3.norm (Vec3.cross (a2 b) (a3 b)),
       |Vec3.dot (a2 b) (Vec3.cross (a3 b) (a1 b))| / Vec3.norm (Vec3.cross (a3 b) (a1 b)),
       |Vec3.dot (a3 b) (Vec3.cross (a1 b) (a2 b))| / Vec3.norm (Vec3.cross (a1 b) (a2 b))⟩ := by
  have v1 : Vec3.dot (a1 b) (Vec3.cross (a2 b) (a3 b)) = b.L.x * b.L.y * b.L.z := by
    simp [Vec3.dot, Vec3.cross, a1, a2, a3]; ring
  have v2 : Vec3.dot (a2 b) (Vec3.cross (a3 b) (a1 b)) = b.L.x * b.L.y * b.L.z := by
    simp [Vec3.dot, Vec3.cross, a1, a2, a3]; ring
  have v3 : Vec3.dot (a3 b) (Vec3.cross (a1 b) (a2 b)) = b.L.x * b.L.y * b.L.z := by
    simp [Vec3.dot, Vec3.cross, a1, a2, a3]; ring
  have n1 : Vec3.norm (Vec3.cross (a2 b) (a3 b)) = b.L.y * b.L.z *
      Real.sqrt (1 + b.xy * b.xy + (b.xy * b.yz - b.xz) * (b.xy * b.yz - b.xz)) := by
    rw [Vec3.norm, show b.L.y * b.L.z = Real.sqrt ((b.L.y * b.L.z) ^ 2) from
      (Real.sqrt_sq (by positivity)).symm, ← Real.sqrt_mul (by positivity)]
    congr 1
    simp [Vec3.dot, Vec3.cross, a2, a3]; ring
  have n2 : Vec3.norm (Vec3.cross (a3 b) (a1 b)) = b.L.x * b.L.z *
      Real.sqrt (1 + b.yz * b.yz) := by
    rw [Vec3.norm, show b.L.x * b.L.z = Real.sqrt ((b.L.x * b.L.z) ^ 2) from
      (Real.sqrt_sq (by positivity)).symm, ← Real.sqrt_mul (by positivity)]
    congr 1
    simp [Vec3.dot, Vec3.cross, a1, a3]; ring
  have n3 : Vec3.norm (Vec3.cross (a1 b) (a2 b)) = b.L.x * b.L.y := by
    rw [Vec3.norm, show b.L.x * b.L.y = Real.sqrt ((b.L.x * b.L.y) ^ 2) from
      (Real.sqrt_sq (by positivity)).symm]
    congr 1
    simp [Vec3.dot, Vec3.cross, a1, a2]; ring
  have p1 : 0 < Real.sqrt (1 + b.xy * b.xy + (b.xy * b.yz - b.xz) * (b.xy * b.yz - b.xz)) :=
    Real.sqrt_pos.mpr
      (by nlinarith [mul_self_nonneg b.xy, mul_self_nonneg (b.xy * b.yz - b.xz)])
  have p2 : 0 < Real.sqrt (1 + b.yz * b.yz) :=
    Real.sqrt_pos.mpr (by nlinarith [mul_self_nonneg b.yz])
  have habs : |b.L.x * b.L.y * b.L.z| = b.L.x * b.L.y * b.L.z := abs_of_pos (by positivity)
  rw [v1, v2, v3, n1, n2, n3, habs]
  unfold Box.getNearestPlaneDistance
  ext
  · simp only; field_simp
  · simp only; field_simp
  · simp only; field_simp

-- a concrete box and separation meeting the hypotheses of `C06_short_image_is_min`
example : let b : Box ℝ := Box.mk' 10 10 10 1 0 0 false
    Valid b ∧ Vec3.norm ⟨1, 0, 0⟩ < b.getNearestPlaneDistance.x / 2 ∧
    Vec3.norm ⟨1, 0, 0⟩ < b.getNearestPlaneDistance.y / 2 ∧
    Vec3.norm ⟨1, 0, 0⟩ < b.getNearestPlaneDistance.z / 2 := by
  refine ⟨?_, ?_, ?_, ?_⟩
  · constructor <;> simp [Box.mk', Box.setL]
  · simp only [Vec3.norm, Vec3.dot, Box.getNearestPlaneDistance, Box.mk', Box.setL]
    norm_num
    rw [div_div, lt_div_iff₀ (by positivity)]
    have : Real.sqrt 2 < 2 := by
      rw [Real.sqrt_lt' (by norm_num)]; norm_num
    linarith
  · simp [Vec3.norm, Vec3.dot, Box.getNearestPlaneDistance, Box.mk', Box.setL]
    norm_num
  · simp [Vec3.norm, Vec3.dot, Box.getNearestPlaneDistance, Box.mk', Box.setL]
    norm_num

end Freud
