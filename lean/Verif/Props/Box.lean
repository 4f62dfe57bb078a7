import Verif.Lemmas.Box
import Mathlib.Tactic.NormNum
import Mathlib.Tactic.LinearCombination
import Mathlib.Data.Rat.Floor

/-!
# Properties C01-C05: wrapping, fractional coordinates, images and distances
-/

set_option linter.unusedSectionVars false

namespace Freud
open Spec
variable {K : Type*} [Field K] [LinearOrder K] [IsStrictOrderedRing K] [FloorRing K]

/-- A tilted 3D box, periodic in x and y only, used as a witness below. -/
def exBox : Box ℚ := (Box.mk' 4 3 2 (1 / 2) (-1 / 3) (1 / 5) false).setPeriodic true true false
/-- A tilted, fully periodic 3D box, used as a witness below. -/
def exBoxP : Box ℚ := Box.mk' 4 3 2 (1 / 2) (-1 / 3) (1 / 5) false
/-- A tilted 2D box, used as a witness below. -/
def exBox2 : Box ℚ := Box.mk' 4 3 0 (1 / 2) 0 0 true

theorem exBox_valid : Valid exBox := by
  constructor <;> simp [exBox, Box.mk', Box.setL, Box.setPeriodic] <;> norm_num
theorem exBoxP_valid : Valid exBoxP := by
  constructor <;> simp [exBoxP, Box.mk', Box.setL] <;> norm_num
theorem exBox2_valid : Valid exBox2 := by
  constructor <;> simp [exBox2, Box.mk', Box.setL] <;> norm_num

/-- **C01**, the hypotheses: every box built by the constructor from non-zero lengths
(`Lz` may be anything in 2D), with any periodic flags and tilts, is `Valid`. -/
theorem C01_constructed_valid (Lx Ly Lz xy xz yz : K) (is2D px py pz : Bool)
    (hx : Lx ≠ 0) (hy : Ly ≠ 0) (hz : is2D = false → Lz ≠ 0) :
    Valid ((Box.mk' Lx Ly Lz xy xz yz is2D).setPeriodic px py pz) := by
  cases is2D
  · constructor <;> simp [Box.mk', Box.setL, Box.setPeriodic, hx, hy, hz]
  · constructor <;> simp [Box.mk', Box.setL, Box.setPeriodic, hx, hy]

/-- **C01**: `wrap` moves a vector by an integer combination of the lattice vectors of the
periodic axes. Its box coordinate on every periodic axis (x, y, and z in 3D) is in `[0,1)`,
and its box coordinate on every non-periodic axis is unchanged. -/
theorem C01_wrap_in_box (b : Box K) (hb : Valid b) (v : Vec3 K) (hv : Planar b v) :
    (∃ n, AllowedShift b n ∧ b.wrap v = v + lattice b n) ∧
    (∀ f g, HasCoords b v f → HasCoords b (b.wrap v) g →
      (if b.px then 0 ≤ g.x ∧ g.x < 1 else g.x = f.x) ∧
      (if b.py then 0 ≤ g.y ∧ g.y < 1 else g.y = f.y) ∧
      (if b.pz then 0 ≤ g.z ∧ g.z < 1 else g.z = f.z)) ∧
    (∃ f, HasCoords b v f) ∧ (∃ g, HasCoords b (b.wrap v) g) := by
  have hex : ∀ w, Planar b w → HasCoords b w (b.makeFractional w) := fun w hw =>
    ⟨comb_makeFractional hb w hw, fun h => makeFractional_planar w h⟩
  have huniq : ∀ w f, HasCoords b w f → f = b.makeFractional w := by
    rintro w f ⟨h1, h2⟩
    rw [h1, makeFractional_comb hb]
    cases h3 : b.is2D with
    | true => ext <;> simp [h2 h3]
    | false => ext <;> simp
  refine ⟨⟨_, wrapShift_allowed b v, wrap_eq_add_lattice hb v hv⟩, ?_,
    ⟨_, hex v hv⟩, ⟨_, hex _ (wrap_planar hb v hv)⟩⟩
  intro f g hf hg
  rw [huniq _ _ hg, huniq _ _ hf, makeFractional_wrap hb v hv]
  refine ⟨?_, ?_, ?_⟩
  · cases b.px <;> simp [redAxis, Int.fract_lt_one]
  · cases b.py <;> simp [redAxis, Int.fract_lt_one]
  · cases b.pz <;> simp [redAxis, Int.fract_lt_one]

/-- **C01**: without a periodic axis `wrap` is the identity (for any stored numbers). -/
theorem C01_wrap_aperiodic (b : Box K) (h : b.px = false ∧ b.py = false ∧ b.pz = false)
    (v : Vec3 K) : b.wrap v = v := by
  simp [Box.wrap, h]

example : Valid exBox ∧ Planar exBox ⟨7, -5, 9⟩ :=
  ⟨exBox_valid, fun h => by simp [exBox, Box.mk', Box.setL, Box.setPeriodic] at h⟩
example : Valid exBox2 ∧ Planar exBox2 ⟨7, -5, 0⟩ := ⟨exBox2_valid, fun _ => rfl⟩
-- the wrapped vector really moves
example : exBox2.wrap ⟨7, -5, 0⟩ = ⟨2, 1, 0⟩ := by decide +kernel

/-- **C02**: wrapping is idempotent. -/
theorem C02_wrap_idempotent (b : Box K) (hb : Valid b) (v : Vec3 K) (hv : Planar b v) :
    b.wrap (b.wrap v) = b.wrap v := by
  rw [wrap_eq hb _ (wrap_planar hb v hv), makeFractional_wrap hb v hv, redAxis_redAxis,
    redAxis_redAxis, redAxis_redAxis, ← wrap_eq hb v hv]

/-- **C02**: wrapping cannot tell periodic images apart. -/
theorem C02_wrap_translation (b : Box K) (hb : Valid b) (v : Vec3 K) (hv : Planar b v)
    (n : Vec3 ℤ) (hn : AllowedShift b n) : b.wrap (v + lattice b n) = b.wrap v :=
  wrap_add_lattice hb v hv n hn

/-- **C02**: two points have the same wrapped position iff they are periodic images. -/
theorem C02_wrap_eq_iff (b : Box K) (hb : Valid b) (v w : Vec3 K) (hv : Planar b v)
    (hw : Planar b w) :
    b.wrap v = b.wrap w ↔ ∃ n, AllowedShift b n ∧ w = v + lattice b n := by
  constructor
  · intro h
    rw [wrap_eq_add_lattice hb v hv, wrap_eq_add_lattice hb w hw] at h
    obtain ⟨p1, p2, p3⟩ := wrapShift_allowed b v
    obtain ⟨q1, q2, q3⟩ := wrapShift_allowed b w
    refine ⟨⟨(wrapShift b v).x - (wrapShift b w).x, (wrapShift b v).y - (wrapShift b w).y,
      (wrapShift b v).z - (wrapShift b w).z⟩, ⟨?_, ?_, ?_⟩, ?_⟩
    · intro e; simp [p1 e, q1 e]
    · intro e; simp [p2 e, q2 e]
    · intro e; simp [p3 e, q3 e]
    · have hx := congrArg Vec3.x h
      have hy := congrArg Vec3.y h
      have hz := congrArg Vec3.z h
      simp [lattice, comb] at hx hy hz
      ext
      · simp [lattice, comb]; linear_combination -hx
      · simp [lattice, comb]; linear_combination -hy
      · simp [lattice, comb]; linear_combination -hz
  · rintro ⟨n, hn, rfl⟩
    exact (wrap_add_lattice hb v hv n hn).symm

example : AllowedShift exBox ⟨3, -2, 0⟩ := by
  simp [AllowedShift, exBox, Box.mk', Box.setL, Box.setPeriodic]
example : AllowedShift exBoxP ⟨3, -2, 5⟩ := by
  simp [AllowedShift, exBoxP, Box.mk', Box.setL]

/-- **C03**: `make_absolute (make_fractional v) = v` and `make_fractional (make_absolute f) = f`. -/
theorem C03_frac_abs_inverse (b : Box K) (hb : Valid b) :
    (∀ v, Planar b v → b.makeAbsolute (b.makeFractional v) = v) ∧
    (∀ f, Planar b f → b.makeFractional (b.makeAbsolute f) = f) :=
  ⟨fun v hv => makeAbsolute_makeFractional hb v hv,
   fun f hf => makeFractional_makeAbsolute hb f hf⟩

/-- **C03**, what the coordinates mean: `make_fractional v` are the box coordinates of `v`
measured along the lattice vectors from the lower corner. -/
theorem C03_fractional_meaning (b : Box K) (hb : Valid b) (v f : Vec3 K) (hv : Planar b v) :
    HasCoords b v f ↔ f = b.makeFractional v := by
  constructor
  · rintro ⟨h1, h2⟩
    rw [h1, makeFractional_comb hb]
    cases h3 : b.is2D with
    | true => ext <;> simp [h2 h3]
    | false => ext <;> simp
  · rintro rfl
    exact ⟨comb_makeFractional hb v hv, fun h => makeFractional_planar v h⟩

example : Valid exBoxP ∧ Valid exBox2 ∧ HasCoords exBox2 ⟨0, 0, 0⟩ ⟨1 / 2, 1 / 2, 0⟩ :=
  ⟨exBoxP_valid, exBox2_valid,
    (C03_fractional_meaning exBox2 exBox2_valid _ _ (fun _ => rfl)).mpr (by decide +kernel)⟩

/-! ### C04 -/

theorem unwrap_eq {b : Box K} (hb : Valid b) (v : Vec3 K) (n : Vec3 ℤ) :
    b.unwrap v n = v + comb b n.x n.y (if b.is2D then 0 else n.z) := by
  unfold Box.unwrap
  cases h2 : b.is2D with
  | true => ext <;> simp [comb, a1, a2, a3] <;> ring
  | false => ext <;> simp [comb, a1, a2, a3] <;> ring

/-- **C04**: in a fully periodic box, `unwrap (wrap v) (get_images v) = v` holds exactly when
no box coordinate of `v` is an integer `≤ 0`. So storing wrapped positions with their images
is exact for all points in the interior of their cell and on all faces with positive
coordinate. The full property (for all `v`) is false, see `C04_unwrap_counterexample`. -/
theorem C04_unwrap_wrap_partial (b : Box K) (hb : Valid b)
    (hp : b.px = true ∧ b.py = true ∧ b.pz = true) (v f : Vec3 K) (hv : Planar b v)
    (hf : HasCoords b v f) :
    b.unwrap (b.wrap v) (b.getImage v) = v ↔
      (¬ ∃ k : ℤ, k ≤ 0 ∧ f.x = k) ∧ (¬ ∃ k : ℤ, k ≤ 0 ∧ f.y = k) ∧
        (b.is2D = false → ¬ ∃ k : ℤ, k ≤ 0 ∧ f.z = k) := by
  obtain rfl := (C03_fractional_meaning b hb v f hv).mp hf
  rw [unwrap_eq hb, wrap_eq hb v hv, comb_add]
  conv_lhs => rhs; rw [comb_makeFractional hb v hv]
  obtain ⟨hx, hy, hz⟩ := hp
  rw [← imageOf_eq_floor_iff, ← imageOf_eq_floor_iff, ← imageOf_eq_floor_iff]
  simp only [redAxis, hx, hy, hz, if_true]
  have key : ∀ (a : K) (m : ℤ), Int.fract a - 1 / 2 + m = a - 1 / 2 ↔ m = ⌊a⌋ := by
    intro a m
    rw [← Int.self_sub_floor]
    constructor
    · intro h
      have : (m : K) = (⌊a⌋ : ℤ) := by linear_combination h
      exact_mod_cast this
    · rintro rfl; ring
  cases h2 : b.is2D with
  | true =>
    have hz0 : (b.makeFractional v).z = 0 := makeFractional_planar v h2
    constructor
    · intro h
      obtain ⟨h3, h4, -⟩ := comb_inj hb h
      rw [key] at h3 h4
      simp [Box.getImage, h2] at h3 h4
      simp [h3, h4]
    · rintro ⟨h3, h4, -⟩
      congr 1
      · rw [key]; simpa [Box.getImage, h2] using h3
      · rw [key]; simpa [Box.getImage, h2] using h4
      · simp [hz0]
  | false =>
    simp only [Bool.false_eq_true, if_false, forall_const]
    constructor
    · intro h
      obtain ⟨h3, h4, h5⟩ := comb_inj hb h
      have h5 := h5 h2
      rw [key] at h3 h4 h5
      simp [Box.getImage, h2] at h3 h4 h5
      simp [h3, h4, h5]
    · rintro ⟨h3, h4, h5⟩
      congr 1
      · rw [key]; simpa [Box.getImage, h2] using h3
      · rw [key]; simpa [Box.getImage, h2] using h4
      · rw [key]; simpa [Box.getImage, h2] using h5

/-- **C04**: `contains (wrap v)` holds exactly when no box coordinate of `v` is an integer
(a point on a face wraps to a point that `contains` rejects). -/
theorem C04_contains_wrap_partial (b : Box K) (hb : Valid b)
    (hp : b.px = true ∧ b.py = true ∧ b.pz = true) (v f : Vec3 K) (hv : Planar b v)
    (hf : HasCoords b v f) :
    b.contains (b.wrap v) = true ↔
      (¬ ∃ k : ℤ, f.x = k) ∧ (¬ ∃ k : ℤ, f.y = k) ∧
        (b.is2D = false → ¬ ∃ k : ℤ, f.z = k) := by
  obtain rfl := (C03_fractional_meaning b hb v f hv).mp hf
  obtain ⟨hx, hy, hz⟩ := hp
  have key : ∀ a : K, Box.imageOf (Int.fract a - 1 / 2) = 0 ↔ ¬ ∃ k : ℤ, a = k := by
    intro a
    have h0 : ⌊Int.fract a⌋ = 0 := Int.floor_fract a
    rw [← h0, imageOf_eq_floor_iff, not_iff_not]
    constructor
    · rintro ⟨n, -, hn⟩
      refine ⟨⌊a⌋ + n, ?_⟩
      have := Int.self_sub_floor a
      push_cast; linarith
    · rintro ⟨k, rfl⟩
      exact ⟨0, le_refl _, by simp⟩
  unfold Box.contains Box.getImage
  rw [makeFractional_wrap hb v hv]
  simp only [redAxis, hx, hy, hz, if_true, beq_iff_eq, Vec3.ext_iff, ← key]
  cases h2 : b.is2D with
  | true =>
    have h00 : Box.imageOf (0 : K) = 0 := by
      have : ⌊(1 / 2 : K)⌋ = 0 := by
        rw [Int.floor_eq_iff]; constructor <;> norm_num
      simp only [Box.imageOf, trunc, le_refl, if_true, zero_add]
      rw [if_pos (by norm_num), this]
    simp [h00]
  | false => simp

/-- **C04** is false as stated: for `v` on the lower x face of a cube the images are one too
low and `unwrap` returns a different point; `contains` rejects the wrapped point. -/
theorem C04_unwrap_counterexample :
    ∃ (b : Box ℚ) (v : Vec3 ℚ), Valid b ∧ Planar b v ∧
      (b.px = true ∧ b.py = true ∧ b.pz = true) ∧
      b.unwrap (b.wrap v) (b.getImage v) ≠ v ∧ b.contains (b.wrap v) = false := by
  refine ⟨Box.mk' 2 2 2 0 0 0 false, ⟨-1, 0, 0⟩, ?_, ?_, by decide +kernel, by decide +kernel, by decide +kernel⟩
  · constructor <;> simp [Box.mk', Box.setL]
  · intro h; simp [Box.mk', Box.setL] at h

example : ∃ f, HasCoords exBoxP ⟨7, 5 / 2, -17 / 2⟩ f ∧ (¬ ∃ k : ℤ, k ≤ 0 ∧ f.x = k) ∧
    (¬ ∃ k : ℤ, k ≤ 0 ∧ f.y = k) ∧ (exBoxP.is2D = false → ¬ ∃ k : ℤ, k ≤ 0 ∧ f.z = k) := by
  have hpl : Planar exBoxP ⟨7, 5 / 2, -17 / 2⟩ := by
    intro h; simp [exBoxP, Box.mk', Box.setL] at h
  refine ⟨_, (C03_fractional_meaning exBoxP exBoxP_valid _ _ hpl).mpr rfl, ?_⟩
  refine (C04_unwrap_wrap_partial exBoxP exBoxP_valid (by decide +kernel) _ _ hpl
    ((C03_fractional_meaning exBoxP exBoxP_valid _ _ hpl).mpr rfl)).mp (by decide +kernel)

/-! ### C05 -/

/-- **C05**: distances do not change when periodic lattice vectors are added. -/
theorem C05_distance_translation (b : Box K) (hb : Valid b) (p q : Vec3 K) (hp : Planar b p)
    (hq : Planar b q) (n m : Vec3 ℤ) (hn : AllowedShift b n) (hm : AllowedShift b m) :
    b.distSq (p + lattice b n) (q + lattice b m) = b.distSq p q := by
  have h : q + lattice b m - (p + lattice b n) =
      q - p + lattice b ⟨m.x - n.x, m.y - n.y, m.z - n.z⟩ := by
    ext <;> simp [lattice, comb] <;> ring
  unfold Box.distSq
  rw [h, wrap_add_lattice hb _ (planar_sub hq hp)]
  refine ⟨fun e => ?_, fun e => ?_, fun e => ?_⟩
  · simp [hn.1 e, hm.1 e]
  · simp [hn.2.1 e, hm.2.1 e]
  · simp [hn.2.2 e, hm.2.2 e]

/-- **C05**: the distance is zero exactly between periodic images of the same point. -/
theorem C05_distance_zero_iff (b : Box K) (hb : Valid b) (p q : Vec3 K) (hp : Planar b p)
    (hq : Planar b q) :
    b.distSq p q = 0 ↔ ∃ n, AllowedShift b n ∧ q = p + lattice b n := by
  have h0 : b.distSq p q = 0 ↔ b.wrap (q - p) = 0 := by
    unfold Box.distSq
    constructor
    · intro h
      simp only [Vec3.dot] at h
      have hx := mul_self_nonneg (b.wrap (q - p)).x
      have hy := mul_self_nonneg (b.wrap (q - p)).y
      have hz := mul_self_nonneg (b.wrap (q - p)).z
      ext
      · simpa using mul_self_eq_zero.mp (by linarith : (b.wrap (q - p)).x * _ = 0)
      · simpa using mul_self_eq_zero.mp (by linarith : (b.wrap (q - p)).y * _ = 0)
      · simpa using mul_self_eq_zero.mp (by linarith : (b.wrap (q - p)).z * _ = 0)
    · intro h; simp [h, Vec3.dot]
  have hz : Planar b 0 := fun _ => rfl
  have hw0 : b.wrap 0 = 0 := by
    have e : (0 : Vec3 K) = comb b 0 0 0 := by ext <;> simp [comb]
    have hf : b.makeFractional 0 = ⟨1 / 2, 1 / 2, if b.is2D then 0 else 1 / 2⟩ := by
      rw [e, makeFractional_comb hb]; simp
    have hfr : Int.fract (1 / 2 : K) = 1 / 2 := by
      rw [Int.fract_eq_self]; constructor <;> norm_num
    rw [wrap_eq hb 0 hz, hf]
    cases h2 : b.is2D with
    | true =>
      ext <;> cases b.px <;> cases b.py <;> cases b.pz <;>
        simp [redAxis, comb, a1, a2, a3, hb.Lz_2D h2, hfr] <;> norm_num at hfr ⊢ <;> simp [hfr]
    | false =>
      ext <;> cases b.px <;> cases b.py <;> cases b.pz <;>
        simp [redAxis, comb, a1, a2, a3] <;> norm_num at hfr ⊢ <;> simp [hfr]
  rw [h0, ← hw0, C02_wrap_eq_iff b hb _ _ (planar_sub hq hp) hz]
  constructor
  · rintro ⟨n, ⟨h1, h2, h3⟩, h⟩
    refine ⟨⟨-n.x, -n.y, -n.z⟩, ⟨fun e => by simp [h1 e], fun e => by simp [h2 e],
      fun e => by simp [h3 e]⟩, ?_⟩
    have hx := congrArg Vec3.x h
    have hy := congrArg Vec3.y h
    have hz := congrArg Vec3.z h
    simp [lattice, comb] at hx hy hz
    ext
    · simp [lattice, comb]; linear_combination -hx
    · simp [lattice, comb]; linear_combination -hy
    · simp [lattice, comb]; linear_combination -hz
  · rintro ⟨n, ⟨h1, h2, h3⟩, rfl⟩
    refine ⟨⟨-n.x, -n.y, -n.z⟩, ⟨fun e => by simp [h1 e], fun e => by simp [h2 e],
      fun e => by simp [h3 e]⟩, ?_⟩
    ext <;> simp [lattice, comb] <;> ring

/-- **C05**: distances are symmetric in every box when the separation `q - p`, measured in
box coordinates, does not fall on a face on any periodic axis, and always in a box without
tilt. Full symmetry is false in tilted boxes, see `C05_symmetry_counterexample`. -/
theorem C05_distance_symm_partial (b : Box K) (hb : Valid b) (p q f : Vec3 K)
    (hp : Planar b p) (hq : Planar b q) (hf : HasCoords b (q - p) f)
    (h : (b.xy = 0 ∧ b.xz = 0 ∧ b.yz = 0) ∨
      ((b.px = true → ¬ ∃ k : ℤ, f.x = k) ∧ (b.py = true → ¬ ∃ k : ℤ, f.y = k) ∧
        (b.pz = true → b.is2D = false → ¬ ∃ k : ℤ, f.z = k))) :
    b.distSq p q = b.distSq q p := by
  obtain rfl := (C03_fractional_meaning b hb _ f (planar_sub hq hp)).mp hf
  have hneg : b.makeFractional (p - q) =
      ⟨1 - (b.makeFractional (q - p)).x, 1 - (b.makeFractional (q - p)).y,
        if b.is2D then 0 else 1 - (b.makeFractional (q - p)).z⟩ := by
    have hc := comb_makeFractional hb (q - p) (planar_sub hq hp)
    have e : p - q = comb b (-((b.makeFractional (q - p)).x - 1 / 2))
        (-((b.makeFractional (q - p)).y - 1 / 2)) (-((b.makeFractional (q - p)).z - 1 / 2)) := by
      have hx := congrArg Vec3.x hc
      have hy := congrArg Vec3.y hc
      have hz := congrArg Vec3.z hc
      simp only [comb, Vec3.sub_x, Vec3.sub_y, Vec3.sub_z] at hx hy hz ⊢
      ext
      · simp only [Vec3.sub_x]; linear_combination -hx
      · simp only [Vec3.sub_y]; linear_combination -hy
      · simp only [Vec3.sub_z]; linear_combination -hz
    conv_lhs => rw [e, makeFractional_comb hb]
    cases b.is2D <;> (ext <;> simp <;> ring)
  have fract_flip : ∀ a : K, (¬ ∃ k : ℤ, a = k) → Int.fract (1 - a) = 1 - Int.fract a := by
    intro a ha
    rw [Int.fract_eq_iff]
    have h1 := Int.fract_lt_one a
    have h2 := Int.fract_nonneg a
    have h3 : Int.fract a ≠ 0 := by
      intro h; apply ha
      exact ⟨⌊a⌋, by have := Int.self_sub_floor a; linarith⟩
    have h4 := lt_of_le_of_ne h2 (Ne.symm h3)
    refine ⟨by linarith, by linarith, -⌊a⌋, ?_⟩
    have := Int.self_sub_floor a
    push_cast; linarith
  unfold Box.distSq
  rw [wrap_eq hb _ (planar_sub hq hp), wrap_eq hb _ (planar_sub hp hq), hneg]
  rcases h with ⟨h1, h2, h3⟩ | ⟨h1, h2, h3⟩
  · -- no tilt: each component contributes its own square
    have red : ∀ (per : Bool) (a : K),
        (redAxis per (1 - a) - 1 / 2) ^ 2 = (redAxis per a - 1 / 2) ^ 2 := by
      intro per a
      cases per
      · simp only [redAxis, Bool.false_eq_true, if_false]; ring
      · simp only [redAxis, if_true]
        by_cases ha : ∃ k : ℤ, a = k
        · obtain ⟨k, rfl⟩ := ha
          have : Int.fract (1 - (k : K)) = 0 := by
            rw [show (1 : K) - k = ((1 - k : ℤ) : K) by push_cast; ring, Int.fract_intCast]
          rw [this, Int.fract_intCast]
        · rw [fract_flip a ha]; ring
    have ex := red b.px (b.makeFractional (q - p)).x
    have ey := red b.py (b.makeFractional (q - p)).y
    have ez := red b.pz (b.makeFractional (q - p)).z
    simp only [Vec3.dot, comb, a1, a2, a3, h1, h2, h3]
    cases hd : b.is2D with
    | true =>
      simp only [hb.Lz_2D hd]
      linear_combination (-(b.L.x ^ 2)) * ex - (b.L.y ^ 2) * ey
    | false =>
      simp only [Bool.false_eq_true, if_false]
      linear_combination (-(b.L.x ^ 2)) * ex - (b.L.y ^ 2) * ey - (b.L.z ^ 2) * ez
  · have red : ∀ (per : Bool) (a : K), (per = true → ¬ ∃ k : ℤ, a = k) →
        redAxis per (1 - a) - 1 / 2 = -(redAxis per a - 1 / 2) := by
      intro per a ha
      cases per
      · simp only [redAxis, Bool.false_eq_true, if_false]; ring
      · simp only [redAxis, if_true]; rw [fract_flip a (ha rfl)]; ring
    rw [red _ _ h1, red _ _ h2]
    cases hd : b.is2D with
    | true =>
      simp only [Vec3.dot, comb, a1, a2, a3, hb.Lz_2D hd]
      ring
    | false =>
      simp only [Bool.false_eq_true, if_false]
      rw [red _ _ (fun e => h3 e hd)]
      simp only [Vec3.dot, comb]
      ring

/-- **C05** is false as stated: in a tilted box a separation on a face has two different
distances depending on the order of the arguments. -/
theorem C05_symmetry_counterexample :
    ∃ (b : Box ℚ) (p q : Vec3 ℚ), Valid b ∧ Planar b p ∧ Planar b q ∧
      b.distSq p q ≠ b.distSq q p := by
  refine ⟨Box.mk' 2 2 0 1 0 0 true, ⟨0, 0, 0⟩, ⟨1 / 2, 1, 0⟩, ?_, fun _ => rfl, fun _ => rfl,
    by decide +kernel⟩
  constructor <;> simp [Box.mk', Box.setL]

example : ∃ f, HasCoords exBox2 (⟨1, 1, 0⟩ - ⟨0, 1 / 3, 0⟩) f ∧
    (exBox2.px = true → ¬ ∃ k : ℤ, f.x = k) ∧ (exBox2.py = true → ¬ ∃ k : ℤ, f.y = k) := by
  refine ⟨_, (C03_fractional_meaning exBox2 exBox2_valid _ _ (fun _ => by simp)).mpr rfl, ?_⟩
  have h1 : (exBox2.makeFractional (⟨1, 1, 0⟩ - ⟨0, 1 / 3, 0⟩)).x = 2 / 3 := by decide +kernel
  have h2 : (exBox2.makeFractional (⟨1, 1, 0⟩ - ⟨0, 1 / 3, 0⟩)).y = 13 / 18 := by decide +kernel
  have no : ∀ r : ℚ, 0 < r → r < 1 → ¬ ∃ k : ℤ, r = k := by
    rintro r h h' ⟨k, rfl⟩
    have h1 : (0 : ℤ) < k := by exact_mod_cast h
    have h2 : k < (1 : ℤ) := by exact_mod_cast h'
    omega
  rw [h1, h2]
  exact ⟨fun _ => no _ (by norm_num) (by norm_num), fun _ => no _ (by norm_num) (by norm_num)⟩

end Freud
