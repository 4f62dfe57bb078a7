import Verif.Spec.Lattice
import Mathlib.Tactic.Ring
import Mathlib.Tactic.FieldSimp
import Mathlib.Tactic.Linarith

set_option linter.unusedSectionVars false

namespace Freud
open Spec
variable {K : Type*} [Field K] [LinearOrder K] [IsStrictOrderedRing K] [FloorRing K]

theorem fmod_one_eq (a : K) : fmod a 1 = a - (trunc a : ℤ) := by simp [fmod]

theorem trunc_of_nonneg {a : K} (h : 0 ≤ a) : trunc a = ⌊a⌋ := by simp [trunc, h]

theorem trunc_of_neg {a : K} (h : a < 0) : trunc a = ⌈a⌉ := by simp [trunc, not_le.mpr h]

/-- `modulusPositive x 1` is the fractional part. -/
theorem modulusPositive_one (a : K) : modulusPositive a 1 = Int.fract a := by
  unfold modulusPositive
  rw [fmod_one_eq (a := a)]
  set m := trunc a
  have h1 : -1 < a - (m : K) := by
    rcases lt_or_ge a 0 with h | h
    · have := Int.ceil_lt_add_one a
      simp only [m, trunc_of_neg h]; linarith
    · have := Int.floor_le a
      simp only [m, trunc_of_nonneg h]; linarith
  have h2 : 0 ≤ a - (m : K) + 1 := by linarith
  rw [fmod_one_eq, trunc_of_nonneg h2]
  have : a - (m : K) + 1 = a + ((1 - m : ℤ) : K) := by push_cast; ring
  rw [this, Int.floor_add_intCast, ← Int.self_sub_floor]
  push_cast; ring

theorem makeAbsolute_eq_comb {b : Box K} (hb : Valid b) (f : Vec3 K) :
    b.makeAbsolute f = comb b (f.x - 1 / 2) (f.y - 1 / 2) (f.z - 1 / 2) := by
  have hlo := hb.lo_eq
  unfold Box.makeAbsolute
  rw [hlo]
  cases h2 : b.is2D with
  | true =>
    have hz := hb.Lz_2D h2
    ext <;> simp [Vec3.cmul, comb, a1, a2, a3, hz] <;> ring
  | false =>
    ext <;> simp [Vec3.cmul, comb, a1, a2, a3] <;> ring

theorem makeFractional_comb {b : Box K} (hb : Valid b) (s t u : K) :
    b.makeFractional (comb b s t u) =
      ⟨s + 1 / 2, t + 1 / 2, if b.is2D then 0 else u + 1 / 2⟩ := by
  have hlo := hb.lo_eq
  have hx := hb.Lx_ne
  have hy := hb.Ly_ne
  unfold Box.makeFractional
  rw [hlo]
  cases h2 : b.is2D with
  | true =>
    have hz := hb.Lz_2D h2
    ext
    · simp [comb, a1, a2, a3, hz]; field_simp; ring
    · simp [comb, a1, a2, a3, hz]; field_simp
    · simp
  | false =>
    have hz := hb.Lz_ne h2
    ext
    · simp [comb, a1, a2, a3]; field_simp; ring
    · simp [comb, a1, a2, a3]; field_simp; ring
    · simp [comb, a1, a2, a3]; field_simp

/-- Every (planar) vector is a combination of the lattice vectors. -/
theorem comb_makeFractional {b : Box K} (hb : Valid b) (v : Vec3 K) (hv : Planar b v) :
    v = comb b ((b.makeFractional v).x - 1 / 2) ((b.makeFractional v).y - 1 / 2)
      ((b.makeFractional v).z - 1 / 2) := by
  have hlo := hb.lo_eq
  have hx := hb.Lx_ne
  have hy := hb.Ly_ne
  unfold Box.makeFractional
  rw [hlo]
  cases h2 : b.is2D with
  | true =>
    have hz := hb.Lz_2D h2
    have hvz := hv h2
    ext
    · simp [comb, a1, a2, a3, hz, hvz]; field_simp; ring
    · simp [comb, a1, a2, a3, hz, hvz]; field_simp; ring
    · simp [comb, a1, a2, a3, hz, hvz]
  | false =>
    have hz := hb.Lz_ne h2
    ext
    · simp [comb, a1, a2, a3]; field_simp; ring
    · simp [comb, a1, a2, a3]; field_simp; ring
    · simp [comb, a1, a2, a3]; field_simp; ring

theorem makeFractional_planar {b : Box K} (v : Vec3 K) (h : b.is2D = true) :
    (b.makeFractional v).z = 0 := by simp [Box.makeFractional, h]

/-- The reduction applied by `wrap` to one fractional coordinate. -/
def redAxis (p : Bool) (f : K) : K := if p then Int.fract f else f

theorem wrap_eq {b : Box K} (hb : Valid b) (v : Vec3 K) (hv : Planar b v) :
    b.wrap v = comb b (redAxis b.px (b.makeFractional v).x - 1 / 2)
      (redAxis b.py (b.makeFractional v).y - 1 / 2)
      (redAxis b.pz (b.makeFractional v).z - 1 / 2) := by
  unfold Box.wrap
  by_cases hp : (!b.px && !b.py && !b.pz) = true
  · rw [if_pos hp]
    simp only [Bool.and_eq_true, Bool.not_eq_true'] at hp
    obtain ⟨⟨h1, h2⟩, h3⟩ := hp
    simp only [redAxis, h1, h2, h3, Bool.false_eq_true, if_false]
    exact comb_makeFractional hb v hv
  · rw [if_neg hp]
    simp only [modulusPositive_one]
    rw [makeAbsolute_eq_comb hb]
    cases b.px <;> cases b.py <;> cases b.pz <;> simp [redAxis]

theorem wrap_planar {b : Box K} (hb : Valid b) (v : Vec3 K) (hv : Planar b v) :
    Planar b (b.wrap v) := by
  intro h2
  rw [wrap_eq hb v hv]
  simp [comb, a1, a2, a3, hb.Lz_2D h2]

theorem makeFractional_wrap {b : Box K} (hb : Valid b) (v : Vec3 K) (hv : Planar b v) :
    b.makeFractional (b.wrap v) =
      ⟨redAxis b.px (b.makeFractional v).x, redAxis b.py (b.makeFractional v).y,
        redAxis b.pz (b.makeFractional v).z⟩ := by
  rw [wrap_eq hb v hv, makeFractional_comb hb]
  cases h2 : b.is2D with
  | true => ext <;> simp [redAxis, makeFractional_planar v h2]
  | false => ext <;> simp

theorem redAxis_redAxis (p : Bool) (f : K) : redAxis p (redAxis p f) = redAxis p f := by
  cases p <;> simp [redAxis]

theorem comb_add (b : Box K) (s t u s' t' u' : K) :
    comb b s t u + comb b s' t' u' = comb b (s + s') (t + t') (u + u') := by
  ext <;> simp [comb] <;> ring

theorem lattice_planar {b : Box K} (hb : Valid b) (n : Vec3 ℤ) : Planar b (lattice b n) := by
  intro h2; simp [lattice, comb, a1, a2, a3, hb.Lz_2D h2]

theorem makeFractional_add_lattice {b : Box K} (hb : Valid b) (v : Vec3 K) (hv : Planar b v)
    (n : Vec3 ℤ) (hn : b.is2D = true → n.z = 0) :
    b.makeFractional (v + lattice b n) =
      ⟨(b.makeFractional v).x + n.x, (b.makeFractional v).y + n.y,
        (b.makeFractional v).z + n.z⟩ := by
  conv_lhs => rw [comb_makeFractional hb v hv, lattice, comb_add, makeFractional_comb hb]
  cases h2 : b.is2D with
  | true => ext <;> simp [makeFractional_planar v h2, hn h2] <;> ring
  | false => ext <;> simp <;> ring

theorem planar_add {b : Box K} {v w : Vec3 K} (hv : Planar b v) (hw : Planar b w) :
    Planar b (v + w) := fun h => by simp [hv h, hw h]

theorem planar_sub {b : Box K} {v w : Vec3 K} (hv : Planar b v) (hw : Planar b w) :
    Planar b (v - w) := fun h => by simp [hv h, hw h]

/-- The shift applied by `wrap`. -/
def wrapShift (b : Box K) (v : Vec3 K) : Vec3 ℤ :=
  ⟨if b.px then -⌊(b.makeFractional v).x⌋ else 0,
   if b.py then -⌊(b.makeFractional v).y⌋ else 0,
   if b.pz then -⌊(b.makeFractional v).z⌋ else 0⟩

theorem wrapShift_allowed (b : Box K) (v : Vec3 K) : AllowedShift b (wrapShift b v) := by
  refine ⟨fun h => by simp [wrapShift, h], fun h => by simp [wrapShift, h], fun h => ?_⟩
  rcases h with h | h
  · simp [wrapShift, h]
  · simp [wrapShift, makeFractional_planar v h]

theorem wrap_eq_add_lattice {b : Box K} (hb : Valid b) (v : Vec3 K) (hv : Planar b v) :
    b.wrap v = v + lattice b (wrapShift b v) := by
  rw [wrap_eq hb v hv]
  obtain ⟨n, hn⟩ : ∃ n, n = wrapShift b v := ⟨_, rfl⟩
  rw [← hn]
  conv_rhs => rw [comb_makeFractional hb v hv, lattice, comb_add]
  subst hn
  congr 1
  · cases h : b.px <;> simp only [redAxis, wrapShift, h, if_true, if_false, Bool.false_eq_true, ← Int.self_sub_floor] <;> push_cast <;> ring
  · cases h : b.py <;> simp only [redAxis, wrapShift, h, if_true, if_false, Bool.false_eq_true, ← Int.self_sub_floor] <;> push_cast <;> ring
  · cases h : b.pz <;> simp only [redAxis, wrapShift, h, if_true, if_false, Bool.false_eq_true, ← Int.self_sub_floor] <;> push_cast <;> ring

theorem wrap_add_lattice {b : Box K} (hb : Valid b) (v : Vec3 K) (hv : Planar b v)
    (n : Vec3 ℤ) (hn : AllowedShift b n) : b.wrap (v + lattice b n) = b.wrap v := by
  rw [wrap_eq hb _ (planar_add hv (lattice_planar hb n)), wrap_eq hb v hv,
    makeFractional_add_lattice hb v hv n (fun h => hn.2.2 (Or.inr h))]
  congr 1
  · cases h : b.px <;> simp [redAxis, hn.1, h]
  · cases h : b.py <;> simp [redAxis, hn.2.1, h]
  · cases h : b.pz
    · simp [redAxis, hn.2.2 (Or.inl h)]
    · simp [redAxis]

/-- Lattice coefficients are unique. -/
theorem comb_inj {b : Box K} (hb : Valid b) {s t u s' t' u' : K}
    (h : comb b s t u = comb b s' t' u') : s = s' ∧ t = t' ∧ (b.is2D = false → u = u') := by
  have h' := congrArg b.makeFractional h
  rw [makeFractional_comb hb, makeFractional_comb hb] at h'
  have hx := congrArg Vec3.x h'
  have hy := congrArg Vec3.y h'
  have hz := congrArg Vec3.z h'
  simp only at hx hy hz
  refine ⟨by linarith, by linarith, fun h2 => ?_⟩
  simp only [h2] at hz
  simpa using hz

theorem makeFractional_makeAbsolute {b : Box K} (hb : Valid b) (f : Vec3 K)
    (hf : b.is2D = true → f.z = 0) : b.makeFractional (b.makeAbsolute f) = f := by
  rw [makeAbsolute_eq_comb hb, makeFractional_comb hb]
  cases h2 : b.is2D with
  | true => ext <;> simp [hf h2]
  | false => ext <;> simp

theorem makeAbsolute_makeFractional {b : Box K} (hb : Valid b) (v : Vec3 K) (hv : Planar b v) :
    b.makeAbsolute (b.makeFractional v) = v := by
  rw [makeAbsolute_eq_comb hb]; exact (comb_makeFractional hb v hv).symm

/-- The image number computed by `getImage` for a fractional coordinate `f`: it is the
floor except at integers `f ≤ 0`, where it is one less. -/
theorem imageOf_sub_half (f : K) :
    Box.imageOf (f - 1 / 2) = if f ≤ 0 then ⌈f⌉ - 1 else ⌊f⌋ := by
  unfold Box.imageOf trunc
  rcases lt_or_ge f (1 / 2) with h | h
  · have h0 : ¬ (0 ≤ f - 1 / 2) := by intro; linarith
    rw [if_neg h0]
    have h1 : f - 1 / 2 - 1 / 2 = f - 1 := by ring
    have h2 : ¬ (0 ≤ f - 1) := by intro; linarith
    rw [h1, if_neg h2]
    rw [show f - 1 = f - (1 : ℤ) by push_cast; ring, Int.ceil_sub_intCast]
    split_ifs with hf
    · rfl
    · have hf' : 0 < f := not_le.mp hf
      have hc : ⌈f⌉ = 1 := by rw [Int.ceil_eq_iff]; constructor <;> push_cast <;> linarith
      have hfl : ⌊f⌋ = 0 := by rw [Int.floor_eq_iff]; constructor <;> push_cast <;> linarith
      rw [hc, hfl]; rfl
  · have h0 : 0 ≤ f - 1 / 2 := by linarith
    have h1 : f - 1 / 2 + 1 / 2 = f := by ring
    have h2 : 0 ≤ f := by linarith
    rw [if_pos h0, h1, if_pos h2, if_neg (by intro; linarith)]

theorem imageOf_eq_floor_iff (f : K) :
    Box.imageOf (f - 1 / 2) = ⌊f⌋ ↔ ¬ ∃ n : ℤ, n ≤ 0 ∧ f = n := by
  rw [imageOf_sub_half]
  constructor
  · rintro h ⟨n, hn, rfl⟩
    rw [if_pos (by exact_mod_cast hn), Int.ceil_intCast, Int.floor_intCast] at h
    omega
  · intro h
    split_ifs with hf
    · have h1 := Int.floor_le f
      have h2 : ((⌊f⌋ : ℤ) : K) ≠ f := by
        intro he
        exact h ⟨⌊f⌋, by have := Int.floor_mono hf; simpa using this, he.symm⟩
      have h3 := lt_of_le_of_ne h1 h2
      have h4 : ⌈f⌉ = ⌊f⌋ + 1 := by
        rw [Int.ceil_eq_iff]
        have := Int.lt_floor_add_one f
        constructor
        · push_cast; linarith
        · push_cast; linarith
      omega
    · rfl

end Freud
