import Verif.Props.Box
import Verif.Model.BoxReal
import Mathlib.Tactic.Positivity

/-!
# Properties C07, C08: conversions and copies of boxes
-/

set_option linter.unusedSectionVars false

namespace Freud
open Spec

/-- **C07**: a 3D box with positive lengths survives `to_matrix` / `from_matrix`. -/
theorem C07_matrix_roundtrip (Lx Ly Lz xy xz yz : ℝ) (hx : 0 < Lx) (hy : 0 < Ly) (hz : 0 < Lz) :
    let b := Box.mk' Lx Ly Lz xy xz yz false
    fromMatrix (toMatrix b).1 (toMatrix b).2.1 (toMatrix b).2.2 none = some b := by
  intro b
  have s1 : Real.sqrt (Lx * Lx) = Lx := Real.sqrt_mul_self hx.le
  have hLy : xy * Ly * (xy * Ly) + Ly * Ly - Lx * (xy * Ly) / Lx * (Lx * (xy * Ly) / Lx) =
      Ly * Ly := by field_simp; ring
  have s2 : Real.sqrt (Ly * Ly) = Ly := Real.sqrt_mul_self hy.le
  have s3 : Real.sqrt (Lx * Ly * (Lx * Ly)) = Lx * Ly := Real.sqrt_mul_self (by positivity)
  have e1 : Lx * (xy * Ly) / Lx / Ly = xy := by field_simp
  have e2 : Lz * (Lx * Ly) / (Lx * Ly) = Lz := by field_simp
  have e3 : Lx * (xz * Lz) / Lx / Lz = xz := by field_simp
  have e4 : (xy * Ly * (xz * Lz) + Ly * (yz * Lz) -
      Lx * (xy * Ly) / Lx * (Lx * (xz * Lz) / Lx)) / (Ly * Lz) = yz := by field_simp; ring
  simp [fromMatrix, toMatrix, b, Box.mk', Box.setL, Vec3.dot, Vec3.cross, s1, hLy, s2, s3, e1,
    e2, e3, e4, pyBox, hx.ne', hy.ne', hz.ne']
  field_simp

/-- **C07**: the same for a 2D box without out-of-plane tilts. -/
theorem C07_matrix_roundtrip_2D (Lx Ly xy : ℝ) (hx : 0 < Lx) (hy : 0 < Ly) :
    let b := Box.mk' Lx Ly 0 xy 0 0 true
    fromMatrix (toMatrix b).1 (toMatrix b).2.1 (toMatrix b).2.2 none = some b := by
  intro b
  have s1 : Real.sqrt (Lx * Lx) = Lx := Real.sqrt_mul_self hx.le
  have hLy : xy * Ly * (xy * Ly) + Ly * Ly - Lx * (xy * Ly) / Lx * (Lx * (xy * Ly) / Lx) =
      Ly * Ly := by field_simp; ring
  have s2 : Real.sqrt (Ly * Ly) = Ly := Real.sqrt_mul_self hy.le
  have e1 : Lx * (xy * Ly) / Lx / Ly = xy := by field_simp
  simp [fromMatrix, toMatrix, b, Box.mk', Box.setL, Vec3.dot, Vec3.cross, s1, hLy, s2, e1,
    pyBox, hx.ne', hy.ne']

/-- **C07**: the volume of a 3D box is the determinant of its matrix. -/
theorem C07_volume_is_det {K : Type*} [Field K] (b : Box K) (h : b.is2D = false) :
    b.getVolume =
      Vec3.dot (toMatrix b).1 (Vec3.cross (toMatrix b).2.1 (toMatrix b).2.2) := by
  simp [Box.getVolume, h, toMatrix, Vec3.dot, Vec3.cross]; ring

/-- The columns of `to_matrix` are the lattice vectors. -/
theorem C07_matrix_columns {K : Type*} [Field K] (b : Box K) :
    toMatrix b = (a1 b, a2 b, a3 b) := rfl

/-- **C07**: a 3D box with positive lengths survives the conversion to lengths and angles
and back. In particular none of the argument checks of `from_box_lengths_and_angles` fires. -/
theorem C07_lengths_angles_roundtrip (Lx Ly Lz xy xz yz : ℝ) (hx : 0 < Lx) (hy : 0 < Ly)
    (hz : 0 < Lz) :
    let b := Box.mk' Lx Ly Lz xy xz yz false
    fromLengthsAngles (toLengthsAngles b) none = some b := by
  intro b
  obtain ⟨A, hA⟩ : ∃ A, A = Real.sqrt (1 + xy ^ 2) := ⟨_, rfl⟩
  obtain ⟨B, hB⟩ : ∃ B, B = Real.sqrt (1 + xz ^ 2 + yz ^ 2) := ⟨_, rfl⟩
  have A0 : 0 < A := hA ▸ Real.sqrt_pos.mpr (by positivity)
  have B0 : 0 < B := hB ▸ Real.sqrt_pos.mpr (by positivity)
  have A2 : A ^ 2 = 1 + xy ^ 2 := hA ▸ Real.sq_sqrt (by positivity)
  have B2 : B ^ 2 = 1 + xz ^ 2 + yz ^ 2 := hB ▸ Real.sq_sqrt (by positivity)
  have bnd : ∀ p q : ℝ, 0 < q → p ^ 2 < q ^ 2 → -1 < p / q ∧ p / q < 1 := by
    intro p q hq h
    have := abs_lt_of_sq_lt_sq h hq.le
    rw [abs_lt] at this
    constructor
    · rw [lt_div_iff₀ hq]; linarith
    · rw [div_lt_one hq]; linarith
  have ang : ∀ c : ℝ, -1 < c ∧ c < 1 → 0 < Real.arccos c ∧ Real.arccos c < Real.pi := by
    intro c hc
    refine ⟨Real.arccos_pos.mpr hc.2, lt_of_le_of_ne (Real.arccos_le_pi c) ?_⟩
    intro h
    rw [Real.arccos_eq_pi] at h
    linarith [hc.1]
  have ca := bnd (xy * xz + yz) (A * B) (by positivity) (by
    rw [mul_pow, A2, B2]; nlinarith [sq_nonneg (xy * yz - xz), sq_nonneg xy])
  have cb := bnd xz B B0 (by rw [B2]; nlinarith [sq_nonneg yz])
  have cg := bnd xy A A0 (by rw [A2]; nlinarith)
  have hal : (toLengthsAngles b).alpha = Real.arccos ((xy * xz + yz) / (A * B)) := by
    rw [hA, hB]; rfl
  have hbe : (toLengthsAngles b).beta = Real.arccos (xz / B) := by rw [hB]; rfl
  have hga : (toLengthsAngles b).gamma = Real.arccos (xy / A) := by rw [hA]; rfl
  have hL1 : (toLengthsAngles b).L1 = Lx := by simp [toLengthsAngles, b, Box.mk', Box.setL]
  have hL2 : (toLengthsAngles b).L2 = Ly * A := by
    rw [← Real.sqrt_sq (by positivity : (0:ℝ) ≤ Ly * A)]
    simp only [toLengthsAngles, b, Box.mk', Box.setL, Vec3.norm, Vec3.dot]
    congr 1
    rw [mul_pow, A2]; simp; ring
  have hL3 : (toLengthsAngles b).L3 = Lz * B := by
    rw [← Real.sqrt_sq (by positivity : (0:ℝ) ≤ Lz * B)]
    simp only [toLengthsAngles, b, Box.mk', Box.setL, Vec3.norm, Vec3.dot]
    congr 1
    rw [mul_pow, B2]; simp; ring
  have sg : Real.sin (Real.arccos (xy / A)) = 1 / A := by
    rw [Real.sin_arccos, ← Real.sqrt_sq (by positivity : (0:ℝ) ≤ 1 / A)]
    congr 1
    rw [div_pow, div_pow, A2]
    have : (1 + xy ^ 2) ≠ 0 := by positivity
    field_simp; ring
  unfold fromLengthsAngles
  rw [hal, hbe, hga, hL1, hL2, hL3, if_neg (not_not.mpr (ang _ ca)),
    if_neg (not_not.mpr (ang _ cb)), if_neg (not_not.mpr (ang _ cg)), sg,
    Real.cos_arccos ca.1.le ca.2.le, Real.cos_arccos cb.1.le cb.2.le,
    Real.cos_arccos cg.1.le cg.2.le]
  have e1 : ((xy * xz + yz) / (A * B) - xz / B * (xy / A)) / (1 / A) = yz / B := by
    field_simp; ring
  have e2 : 1 - (xz / B) ^ 2 - (yz / B) ^ 2 = (1 / B) ^ 2 := by
    field_simp; rw [B2]; ring
  have e3 : Real.sqrt ((1 / B) ^ 2) = 1 / B := Real.sqrt_sq (by positivity)
  have e4 : Ly * A * (xy / A) = xy * Ly := by field_simp
  have e5 : Ly * A * (1 / A) = Ly := by field_simp
  have e6 : Lz * B * (xz / B) = xz * Lz := by field_simp
  have e7 : Lz * B * (yz / B) = yz * Lz := by field_simp
  have e8 : Lz * B * (1 / B) = Lz := by field_simp
  have e9 : ¬ (Lz * B = 0) := by positivity
  simp only [e1, e2, e3, e4, e5, e6, e7, e8]
  rw [if_neg (not_lt.mpr (sq_nonneg _))]
  have main := C07_matrix_roundtrip Lx Ly Lz xy xz yz hx hy hz
  have hLz0 : Vec3.dot (⟨xz * Lz, yz * Lz, Lz⟩ : Vec3 ℝ)
      (Vec3.cross ⟨Lx, 0, 0⟩ ⟨xy * Ly, Ly, 0⟩) /
      Real.sqrt (Vec3.dot (Vec3.cross ⟨Lx, 0, 0⟩ ⟨xy * Ly, Ly, 0⟩)
        (Vec3.cross (⟨Lx, 0, 0⟩ : Vec3 ℝ) ⟨xy * Ly, Ly, 0⟩)) = Lz := by
    have s3 : Real.sqrt (Lx * Ly * (Lx * Ly)) = Lx * Ly := Real.sqrt_mul_self (by positivity)
    simp [Vec3.dot, Vec3.cross, s3]; field_simp
  simp only [fromMatrix, toMatrix, Box.mk', Box.setL, Bool.false_eq_true, if_false,
    Option.getD, hLz0, e9, hz.ne', decide_false] at main ⊢
  exact main

example : (0 : ℝ) < 3 ∧ (0 : ℝ) < 2 ∧ (0 : ℝ) < 5 := by norm_num

/-! ### C08 -/

section
variable {K : Type*} [Field K] [LinearOrder K] [IsStrictOrderedRing K]

/-- A box as a user makes one: a successful constructor call followed by a choice of the
periodic flags. -/
def Constructed (b : Box K) : Prop :=
  ∃ Lx Ly Lz xy xz yz is2D b₀ px py pz, pyBox Lx Ly Lz xy xz yz is2D = some b₀ ∧
    b = b₀.setPeriodic px py pz

theorem constructed_cases {b : Box K} (h : Constructed b) :
    ∃ Lx Ly Lz xy xz yz is2D px py pz, (Lx ≠ 0 ∧ Ly ≠ 0 ∧ (is2D = false → Lz ≠ 0)) ∧
      b = (Box.mk' Lx Ly Lz xy xz yz is2D).setPeriodic px py pz := by
  obtain ⟨Lx, Ly, Lz, xy, xz, yz, is2D, b₀, px, py, pz, h, rfl⟩ := h
  refine ⟨Lx, Ly, Lz, xy, xz, yz, is2D, px, py, pz, ?_⟩
  cases is2D
  · simp only [pyBox, Bool.false_eq_true, if_false] at h
    split_ifs at h with hz
    push Not at hz
    simp only [Option.some.injEq] at h
    exact ⟨⟨hz.1, hz.2.1, fun _ => hz.2.2⟩, by rw [h]⟩
  · simp only [pyBox, if_true] at h
    split_ifs at h with hz
    push Not at hz
    simp only [Option.some.injEq] at h
    exact ⟨⟨hz.1, hz.2, fun e => by simp at e⟩, by rw [h]⟩

theorem Constructed.valid {b : Box K} (h : Constructed b) : Valid b := by
  obtain ⟨Lx, Ly, Lz, xy, xz, yz, is2D, px, py, pz, ⟨h1, h2, h3⟩, rfl⟩ := constructed_cases h
  cases is2D
  · constructor <;> simp [Box.mk', Box.setL, Box.setPeriodic, h1, h2, h3]
  · constructor <;> simp [Box.mk', Box.setL, Box.setPeriodic, h1, h2]

/-- **C08**: copying with `Box.from_box` succeeds and keeps everything except the periodic
flags, which become all true. So the copy is exact if and only if the box is fully periodic.
The full property is false, see `C08_periodicity_counterexample`. -/
theorem C08_copy_partial (b : Box K) (hb : Constructed b) :
    fromBox b = some (b.setPeriodic true true true) ∧
    (fromBox b = some b ↔ b.px = true ∧ b.py = true ∧ b.pz = true) := by
  have h1 : fromBox b = some (b.setPeriodic true true true) := by
    obtain ⟨Lx, Ly, Lz, xy, xz, yz, is2D, px, py, pz, ⟨h1, h2, h3⟩, rfl⟩ := constructed_cases hb
    cases is2D
    · simp [fromBox, pyBox, Box.mk', Box.setL, Box.setPeriodic, h1, h2, h3]
    · simp [fromBox, pyBox, Box.mk', Box.setL, Box.setPeriodic, h1, h2]
  refine ⟨h1, ?_⟩
  rw [h1, Option.some.injEq, Box.ext_iff]
  simp only [Box.setPeriodic, true_and, and_true]
  constructor <;> (rintro ⟨h1, h2, h3⟩; exact ⟨h1.symm, h2.symm, h3.symm⟩)

/-- **C08**: multiplying by a positive number succeeds, scales the lengths, keeps tilts and
dimension, and makes the result fully periodic whatever the flags were; multiplying by a
non-positive number raises. -/
theorem C08_scale_partial (b : Box K) (hb : Constructed b) (s : K) :
    (s ≤ 0 → mulBox b s = none) ∧
    (0 < s → ∃ c, mulBox b s = some c ∧ Constructed c ∧
      c.L = ⟨b.L.x * s, b.L.y * s, b.L.z * s⟩ ∧ c.xy = b.xy ∧ c.xz = b.xz ∧ c.yz = b.yz ∧
      c.is2D = b.is2D ∧ c.px = true ∧ c.py = true ∧ c.pz = true) := by
  refine ⟨fun h => by simp [mulBox, not_lt.mpr h], fun hs => ?_⟩
  have hb' := hb.valid
  have hp : mulBox b s = some (Box.mk' (b.L.x * s) (b.L.y * s) (b.L.z * s) b.xy b.xz b.yz b.is2D) := by
    unfold mulBox
    rw [if_pos hs]
    cases h2 : b.is2D
    · simp [pyBox, hb'.Lx_ne, hb'.Ly_ne, hb'.Lz_ne h2, hs.ne']
    · simp [pyBox, hb'.Lx_ne, hb'.Ly_ne, hs.ne']
  refine ⟨_, hp, ⟨b.L.x * s, b.L.y * s, b.L.z * s, b.xy, b.xz, b.yz, b.is2D,
    Box.mk' (b.L.x * s) (b.L.y * s) (b.L.z * s) b.xy b.xz b.yz b.is2D, true, true,
    true, ?_, rfl⟩, ?_⟩
  · have := hp
    unfold mulBox at this
    rw [if_pos hs] at this
    exact this
  · cases h2 : b.is2D
    · simp [Box.mk', Box.setL, Box.setPeriodic]
    · simp [Box.mk', Box.setL, Box.setPeriodic, hb'.Lz_2D h2]

/-- **C08**: the copy used internally for the `box` attributes of compute objects keeps
everything, including the periodic flags. -/
theorem C08_cpp_copy (b : Box K) (hb : Constructed b) : boxFromCPP b = some b := by
  obtain ⟨Lx, Ly, Lz, xy, xz, yz, is2D, px, py, pz, ⟨h1, h2, h3⟩, rfl⟩ := constructed_cases hb
  cases is2D
  · simp [boxFromCPP, pyBox, Box.mk', Box.setL, Box.setPeriodic, h1, h2, h3]
  · simp [boxFromCPP, pyBox, Box.mk', Box.setL, Box.setPeriodic, h1, h2]

end

/-- **C08** is false as stated: a box that is not periodic in z comes back periodic in z
from `from_box` and from multiplication. -/
theorem C08_periodicity_counterexample :
    ∃ b : Box ℚ, Constructed b ∧ b.pz = false ∧
      (fromBox b).map (·.pz) = some true ∧ (mulBox b 2).map (·.pz) = some true :=
  ⟨(Box.mk' 2 2 2 0 0 0 false).setPeriodic true true false,
    ⟨2, 2, 2, 0, 0, 0, false, _, true, true, false, by simp [pyBox], rfl⟩,
    rfl, by simp [fromBox, pyBox, Box.mk', Box.setL, Box.setPeriodic],
    by simp [mulBox, pyBox, Box.mk', Box.setL, Box.setPeriodic]⟩

example : Constructed exBox :=
  ⟨4, 3, 2, 1 / 2, -1 / 3, 1 / 5, false, _, true, true, false, by simp [pyBox], rfl⟩

end Freud
