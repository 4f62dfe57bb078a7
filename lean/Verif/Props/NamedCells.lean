import Verif.Lemmas.Crystal
import Verif.Props.Scaling

/-!
# Property C98: the named unit cells are the named structures
-/

namespace Freud
open Spec InUnits

/-! ### The cells -/

theorem ofLike_3D (x y z : ℝ) (hx : x ≠ 0) (hy : y ≠ 0) (hz : z ≠ 0) (basis : List (Vec3 ℝ)) :
    UnitCell.ofLike (.list [x, y, z]) basis = some ⟨Box.mk' x y z 0 0 0 false, basis⟩ := by
  simp [UnitCell.ofLike, fromBoxLike, fromList, boxOf, pyBox, hx, hy, hz]

theorem ofLike_2D (x y : ℝ) (hx : x ≠ 0) (hy : y ≠ 0) (basis : List (Vec3 ℝ)) :
    UnitCell.ofLike (.list [x, y]) basis = some ⟨Box.mk' x y 0 0 0 0 true, basis⟩ := by
  simp [UnitCell.ofLike, fromBoxLike, fromList, boxOf, pyBox, hx, hy]

theorem good_mk {x y z xy xz yz : ℝ} {d : Bool} (hx : 0 < x) (hy : 0 < y) (hz : d = false → 0 < z) :
    GoodCell (Box.mk' x y z xy xz yz d) := by
  refine ⟨?_, ?_, ?_⟩
  · cases d
    · constructor <;> simp [Box.mk', Box.setL, hx.ne', hy.ne', (hz rfl).ne']
    · constructor <;> simp [Box.mk', Box.setL, hx.ne', hy.ne']
  · cases d
    · simp [Positive, Box.mk', Box.setL, hx, hy, hz rfl]
    · simp [Positive, Box.mk', Box.setL, hx, hy]
  · simp [Box.mk', Box.setL]

/-- Lattice vectors of an orthorhombic cell, in integer coordinates. -/
def lat3 (P w : Vec3 ℤ) : Bool := decide (P.x ∣ w.x ∧ P.y ∣ w.y ∧ P.z ∣ w.z)

/-- Lattice vectors of a rectangular cell, in integer coordinates. -/
def lat2 (P w : Vec3 ℤ) : Bool := decide (P.x ∣ w.x ∧ P.y ∣ w.y ∧ w.z = 0)

theorem inUnits_3D (ρ : Vec3 ℝ) (P : Vec3 ℤ) (hρ : 0 < ρ.x ∧ 0 < ρ.y ∧ 0 < ρ.z)
    (hP : 0 < P.x ∧ 0 < P.y ∧ 0 < P.z) (F : List (Vec3 ℤ)) :
    InUnits ⟨Box.mk' (ρ.x * P.x) (ρ.y * P.y) (ρ.z * P.z) 0 0 0 false,
      F.map fun x => ⟨x.x / P.x, x.y / P.y, x.z / P.z⟩⟩ ρ (lat3 P) F := by
  have px : (0 : ℝ) < P.x := by exact_mod_cast hP.1
  have py : (0 : ℝ) < P.y := by exact_mod_cast hP.2.1
  have pz : (0 : ℝ) < P.z := by exact_mod_cast hP.2.2
  obtain ⟨h1, h2, h3⟩ := hρ
  refine ⟨good_mk (by positivity) (by positivity) fun _ => by positivity, ⟨h1.ne', h2.ne', h3.ne'⟩, fun v => ?_,
    ⟨0, 0, 0⟩, ?_⟩
  · constructor
    · rintro ⟨m, -, rfl⟩
      refine ⟨⟨P.x * m.x, P.y * m.y, P.z * m.z⟩, by simp [lat3], ?_⟩
      ext <;> simp [lattice, comb, a1, a2, a3, units, Box.mk', Box.setL] <;> ring
    · rintro ⟨w, hw, rfl⟩
      simp only [lat3, decide_eq_true_eq] at hw
      obtain ⟨⟨i, hi⟩, ⟨j, hj⟩, ⟨k, hk⟩⟩ := hw
      refine ⟨⟨i, j, k⟩, by simp [Box.mk', Box.setL], ?_⟩
      ext <;> simp [lattice, comb, a1, a2, a3, units, Box.mk', Box.setL, hi, hj, hk] <;> ring
  · rw [List.forall₂_map_left_iff]
    refine List.forall₂_same.mpr fun x _ => ?_
    ext <;> simp [comb, a1, a2, a3, units, Box.mk', Box.setL] <;> field_simp

theorem inUnits_2D (ρ : Vec3 ℝ) (P : Vec3 ℤ) (hρ : 0 < ρ.x ∧ 0 < ρ.y ∧ 0 < ρ.z)
    (hP : 0 < P.x ∧ 0 < P.y) (F : List (Vec3 ℤ)) (hF : ∀ x ∈ F, x.z = 0) :
    InUnits ⟨Box.mk' (ρ.x * P.x) (ρ.y * P.y) 0 0 0 0 true,
      F.map fun x => ⟨x.x / P.x, x.y / P.y, 0⟩⟩ ρ (lat2 P) F := by
  have px : (0 : ℝ) < P.x := by exact_mod_cast hP.1
  have py : (0 : ℝ) < P.y := by exact_mod_cast hP.2
  obtain ⟨h1, h2, h3⟩ := hρ
  refine ⟨good_mk (by positivity) (by positivity) fun h => by simp at h, ⟨h1.ne', h2.ne', h3.ne'⟩, fun v => ?_,
    ⟨0, 0, 0⟩, ?_⟩
  · constructor
    · rintro ⟨m, -, rfl⟩
      refine ⟨⟨P.x * m.x, P.y * m.y, 0⟩, by simp [lat2], ?_⟩
      ext <;> simp [lattice, comb, a1, a2, a3, units, Box.mk', Box.setL] <;> ring
    · rintro ⟨w, hw, rfl⟩
      simp only [lat2, decide_eq_true_eq] at hw
      obtain ⟨⟨i, hi⟩, ⟨j, hj⟩, hk⟩ := hw
      refine ⟨⟨i, j, 0⟩, by simp, ?_⟩
      ext <;> simp [lattice, comb, a1, a2, a3, units, Box.mk', Box.setL, hi, hj, hk] <;> ring
  · rw [List.forall₂_map_left_iff]
    refine List.forall₂_same.mpr fun x hx => ?_
    ext <;> simp [comb, a1, a2, a3, units, Box.mk', Box.setL, hF x hx] <;> field_simp

/-! ### The structures -/

theorem sqrt_quarter (x : ℝ) : Real.sqrt (x / 4) = Real.sqrt x / 2 := by
  rw [Real.sqrt_div' _ (by norm_num), show (4 : ℝ) = 2 ^ 2 by norm_num, Real.sqrt_sq (by norm_num)]

theorem sc_cell : UnitCell.sc = some ⟨Box.mk' 1 1 1 0 0 0 false, [⟨0, 0, 0⟩]⟩ :=
  ofLike_3D _ _ _ (by norm_num) (by norm_num) (by norm_num) _

theorem sc_shell : Shell ⟨Box.mk' 1 1 1 0 0 0 false, [⟨0, 0, 0⟩]⟩ 6 1 (Real.sqrt 2) := by
  have h := (inUnits_3D ⟨1, 1, 1⟩ ⟨1, 1, 1⟩ (by norm_num) (by norm_num) [⟨0, 0, 0⟩]).shell_int ⟨1, 1, 1⟩
    1 1 2 1 6 (by norm_num) (by norm_num) (by norm_num) (by norm_num) (by norm_num) (by decide +kernel)
    (by decide +kernel)
  simpa using h

/-- **C98**: in a simple cubic crystal, every particle has 6 neighbors at distance 1; the next are at
distance `√2`. -/
theorem C98_sc : Coordination UnitCell.sc 6 1 (Real.sqrt 2) := sc_shell.coordination sc_cell

/-- **C98**: in a body-centered cubic crystal, every particle has 8 neighbors at distance `√3 / 2`; the
next are at distance 1. -/
theorem C98_bcc : Coordination UnitCell.bcc 8 (Real.sqrt 3 / 2) 1 := by
  have h := (inUnits_3D ⟨1 / 2, 1 / 2, 1 / 2⟩ ⟨2, 2, 2⟩ (by norm_num) (by norm_num)
    [⟨1, 1, 1⟩, ⟨0, 0, 0⟩]).shell_int ⟨1, 1, 1⟩ 4 3 4 1 8 (by norm_num) (by norm_num) (by norm_num)
    (by norm_num) (by norm_num) (by decide +kernel) (by decide +kernel)
  have h' := h.coordination (cell := UnitCell.bcc) (by
    rw [UnitCell.bcc, ofLike_3D _ _ _ (by norm_num) (by norm_num) (by norm_num)]; norm_num)
  rw [← sqrt_quarter]
  simpa using h'

/-- **C98**: in a face-centered cubic crystal, every particle has 12 neighbors at distance `√2 / 2`; the
next are at distance 1. -/
theorem C98_fcc : Coordination UnitCell.fcc 12 (Real.sqrt 2 / 2) 1 := by
  have h := (inUnits_3D ⟨1 / 2, 1 / 2, 1 / 2⟩ ⟨2, 2, 2⟩ (by norm_num) (by norm_num)
    [⟨1, 1, 0⟩, ⟨1, 0, 1⟩, ⟨0, 1, 1⟩, ⟨0, 0, 0⟩]).shell_int ⟨1, 1, 1⟩ 4 2 4 1 12 (by norm_num) (by norm_num)
    (by norm_num) (by norm_num) (by norm_num) (by decide +kernel) (by decide +kernel)
  have h' := h.coordination (cell := UnitCell.fcc) (by
    rw [UnitCell.fcc, ofLike_3D _ _ _ (by norm_num) (by norm_num) (by norm_num)]; norm_num)
  rw [← sqrt_quarter]
  simpa using h'

theorem square_cell : UnitCell.square = some ⟨Box.mk' 1 1 0 0 0 0 true, [⟨0, 0, 0⟩]⟩ :=
  ofLike_2D _ _ (by norm_num) (by norm_num) _

theorem square_units : InUnits ⟨Box.mk' 1 1 0 0 0 0 true, [⟨0, 0, 0⟩]⟩ ⟨1, 1, 1⟩ (lat2 ⟨1, 1, 1⟩) [⟨0, 0, 0⟩] := by
  simpa using inUnits_2D ⟨1, 1, 1⟩ ⟨1, 1, 1⟩ (by norm_num) (by norm_num) [⟨0, 0, 0⟩] (by simp)

theorem square_shell : Shell ⟨Box.mk' 1 1 0 0 0 0 true, [⟨0, 0, 0⟩]⟩ 4 1 (Real.sqrt 2) := by
  have h := square_units.shell_int
    ⟨1, 1, 1⟩ 1 1 2 1 4 (by norm_num) (by norm_num) (by norm_num) (by norm_num) (by norm_num)
    (by decide +kernel) (by decide +kernel)
  simpa using h

/-- **C98**: in a square crystal, every particle has 4 neighbors at distance 1; the next are at distance
`√2`. -/
theorem C98_square : Coordination UnitCell.square 4 1 (Real.sqrt 2) := square_shell.coordination square_cell

theorem hex_cell : UnitCell.hex = some ⟨Box.mk' 1 (Real.sqrt 3) 0 0 0 0 true, [⟨0, 0, 0⟩, ⟨1 / 2, 1 / 2, 0⟩]⟩ :=
  ofLike_2D _ _ (by norm_num) (by simp) _

theorem hex_units : InUnits ⟨Box.mk' 1 (Real.sqrt 3) 0 0 0 0 true, [⟨0, 0, 0⟩, ⟨1 / 2, 1 / 2, 0⟩]⟩
    ⟨1 / 2, Real.sqrt 3 / 2, Real.sqrt 3 / 2⟩ (lat2 ⟨2, 2, 1⟩) [⟨0, 0, 0⟩, ⟨1, 1, 0⟩] := by
  have h := inUnits_2D ⟨1 / 2, Real.sqrt 3 / 2, Real.sqrt 3 / 2⟩ ⟨2, 2, 1⟩ (by simp) (by norm_num)
    [⟨0, 0, 0⟩, ⟨1, 1, 0⟩] (by simp)
  norm_num at h ⊢
  exact h

theorem hex_shell : Shell ⟨Box.mk' 1 (Real.sqrt 3) 0 0 0 0 true, [⟨0, 0, 0⟩, ⟨1 / 2, 1 / 2, 0⟩]⟩ 6 1
    (Real.sqrt 3) := by
  have h := hex_units.shell_int ⟨1, 3, 3⟩ 4 4 12 3 6 (by norm_num) (by norm_num)
    (by rw [div_pow, Real.sq_sqrt (by norm_num)]; norm_num)
    (by rw [div_pow, Real.sq_sqrt (by norm_num)]; norm_num) (by norm_num)
    (by decide +kernel) (by decide +kernel)
  norm_num at h ⊢
  exact h

/-- **C98**: in a hexagonal crystal, every particle has 6 neighbors at distance 1; the next are at
distance `√3`. -/
theorem C98_hex : Coordination UnitCell.hex 6 1 (Real.sqrt 3) := hex_shell.coordination hex_cell

theorem graphene_cell : UnitCell.graphene = some ⟨Box.mk' 1 (Real.sqrt 3) 0 0 0 0 true,
    [⟨0, 0, 0⟩, ⟨0, 1 / 3, 0⟩, ⟨1 / 2, 5 / 6, 0⟩, ⟨1 / 2, 1 / 2, 0⟩]⟩ :=
  ofLike_2D _ _ (by norm_num) (by simp) _

theorem graphene_shell : Shell ⟨Box.mk' 1 (Real.sqrt 3) 0 0 0 0 true,
    [⟨0, 0, 0⟩, ⟨0, 1 / 3, 0⟩, ⟨1 / 2, 5 / 6, 0⟩, ⟨1 / 2, 1 / 2, 0⟩]⟩ 3 (1 / Real.sqrt 3) 1 := by
  have h := (inUnits_2D ⟨1 / 2, Real.sqrt 3 / 6, 1⟩ ⟨2, 6, 1⟩ (by simp) (by norm_num)
    [⟨0, 0, 0⟩, ⟨0, 2, 0⟩, ⟨1, 5, 0⟩, ⟨1, 3, 0⟩] (by simp)).shell_int ⟨3, 1, 12⟩ 12 4 12 3 3 (by norm_num)
    (by norm_num) (by rw [div_pow, Real.sq_sqrt (by norm_num)]; norm_num) (by norm_num) (by norm_num)
    (by decide +kernel) (by decide +kernel)
  rw [show 1 / Real.sqrt 3 = Real.sqrt (4 / 12) by
    rw [show (4 / 12 : ℝ) = 1 / 3 by norm_num, Real.sqrt_div' _ (by norm_num), Real.sqrt_one]]
  have e1 : Real.sqrt ((12 : ℤ) / (12 : ℤ)) = 1 := by norm_num
  rw [e1] at h
  convert h using 2
  · norm_num
  · norm_num
  · norm_num

/-- **C98**: in graphene, every particle has 3 neighbors at distance `1 / √3`; the next are at
distance 1. -/
theorem C98_graphene : Coordination UnitCell.graphene 3 (1 / Real.sqrt 3) 1 :=
  graphene_shell.coordination graphene_cell

/-! ### hcp -/

theorem fromMatrix_tri (x y z : ℝ) (hy : 0 < y) (d : Bool) :
    fromMatrix ⟨1, 0, 0⟩ ⟨x, y, 0⟩ ⟨0, 0, z⟩ (some d) = pyBox 1 y z (x / y) 0 0 d := by
  unfold fromMatrix
  simp only [Vec3.dot, Vec3.cross]
  have h : Real.sqrt (y * y) = y := Real.sqrt_mul_self hy.le
  have e : x * x + y * y + 0 * 0 - x * x = y * y := by ring
  simp only [mul_zero, zero_mul, mul_one, add_zero, zero_add, sub_zero, Real.sqrt_one, div_one, one_mul, h, e,
    Option.getD_some, zero_div, ite_self, mul_div_assoc, div_self hy.ne', zero_sub, neg_zero]
  simp [h]

theorem hcp_cell : UnitCell.hcp = some ⟨Box.mk' 1 (Real.sqrt 3 / 2) (Real.sqrt (8 / 3)) (-1 / Real.sqrt 3) 0 0 false,
    [⟨1 / 3, 2 / 3, 1 / 4⟩, ⟨2 / 3, 1 / 3, 3 / 4⟩]⟩ := by
  have hpi := Real.pi_pos
  have e90 : deg2rad 90 = Real.pi / 2 := by unfold deg2rad; ring
  have e120 : deg2rad 120 = Real.pi - Real.pi / 3 := by unfold deg2rad; ring
  have s3 : 0 < Real.sqrt 3 := by simp
  have q3 : Real.sqrt 3 * Real.sqrt 3 = 3 := Real.mul_self_sqrt (by norm_num)
  have s8 : 0 < Real.sqrt (8 / 3) := Real.sqrt_pos.mpr (by norm_num)
  have hq : Real.sqrt (3 / 4) = Real.sqrt 3 / 2 := sqrt_quarter 3
  have hf : fromLengthsAngles ⟨1, 1, Real.sqrt (8 / 3), deg2rad 90, deg2rad 90, deg2rad 120⟩ none =
      some (Box.mk' 1 (Real.sqrt 3 / 2) (Real.sqrt (8 / 3)) (-1 / Real.sqrt 3) 0 0 false) := by
    generalize Real.sqrt (8 / 3) = s at s8
    unfold fromLengthsAngles
    rw [e90, e120, if_neg (by rw [not_not]; constructor <;> linarith),
      if_neg (by rw [not_not]; constructor <;> linarith), if_neg (by rw [not_not]; constructor <;> linarith)]
    simp only [Real.cos_pi_div_two, Real.cos_pi_sub, Real.sin_pi_sub, Real.cos_pi_div_three, Real.sin_pi_div_three]
    simp only [mul_neg, one_mul, zero_mul, sub_zero, zero_div, ne_eq, OfNat.ofNat_ne_zero, not_false_eq_true,
      zero_pow, mul_zero, Real.sqrt_one, mul_one, Option.getD_none, neg_zero]
    rw [if_neg (by norm_num), fromMatrix_tri _ _ _ (by positivity)]
    simp only [s8.ne', decide_false, pyBox, Bool.false_eq_true, if_false]
    rw [if_neg (by simp)]
    congr 2
    field_simp
  rw [UnitCell.hcp, hf, Option.bind_some]
  simp [UnitCell.ofLike, fromBoxLike, fromNamed, namedOf, boxOf, pyBox, Box.mk', Box.setL, s3.ne', s8.ne']

/-- Lattice vectors of the hcp cell, in integer coordinates. -/
def latHcp (w : Vec3 ℤ) : Bool := decide (2 ∣ w.z ∧ 3 ∣ w.y ∧ 2 ∣ w.x + w.y / 3)

theorem inUnits_hcp : InUnits ⟨Box.mk' 1 (Real.sqrt 3 / 2) (Real.sqrt (8 / 3)) (-1 / Real.sqrt 3) 0 0 false,
    [⟨1 / 3, 2 / 3, 1 / 4⟩, ⟨2 / 3, 1 / 3, 3 / 4⟩]⟩ ⟨1 / 2, Real.sqrt 3 / 6, Real.sqrt (8 / 3) / 2⟩ latHcp
    [⟨0, 2, 0⟩, ⟨1, 1, 1⟩] := by
  have s3 : 0 < Real.sqrt 3 := by simp
  have s8 : 0 < Real.sqrt (8 / 3) := Real.sqrt_pos.mpr (by norm_num)
  generalize Real.sqrt (8 / 3) = s at s8
  generalize Real.sqrt 3 = t at s3
  refine ⟨good_mk (by norm_num) (by positivity) fun _ => s8, ⟨by norm_num, by positivity, by positivity⟩, fun v => ?_,
    ⟨0, 0, s / 4⟩, ?_⟩
  · constructor
    · rintro ⟨m, -, rfl⟩
      refine ⟨⟨2 * m.x - m.y, 3 * m.y, 2 * m.z⟩, ?_, ?_⟩
      · simp only [latHcp, decide_eq_true_eq]
        omega
      · ext <;> simp [lattice, comb, a1, a2, a3, units, Box.mk', Box.setL] <;> field_simp <;> ring
    · rintro ⟨w, hw, rfl⟩
      simp only [latHcp, decide_eq_true_eq] at hw
      obtain ⟨⟨k, hk⟩, ⟨j, hj⟩, ⟨i, hi⟩⟩ := hw
      have hx : w.x = 2 * i - j := by omega
      refine ⟨⟨i, j, k⟩, by simp [Box.mk', Box.setL], ?_⟩
      ext <;> simp [lattice, comb, a1, a2, a3, units, Box.mk', Box.setL, hx, hj, hk] <;> field_simp <;> ring
  · refine List.Forall₂.cons ?_ (List.Forall₂.cons ?_ List.Forall₂.nil) <;>
      ext <;> simp [comb, a1, a2, a3, units, Box.mk', Box.setL] <;> field_simp <;> norm_num

/-- **C98**: in a hexagonal close-packed crystal, every particle has 12 neighbors at distance 1; the next
are at distance `√2`. -/
theorem C98_hcp : Coordination UnitCell.hcp 12 1 (Real.sqrt 2) := by
  have h := inUnits_hcp.shell_int ⟨3, 1, 8⟩ 12 12 24 4 12 (by norm_num) (by norm_num)
    (by simp only [div_pow]; rw [Real.sq_sqrt (by norm_num)]; norm_num)
    (by simp only [div_pow]; rw [Real.sq_sqrt (by norm_num)]; norm_num) (by norm_num)
    (by decide +kernel) (by decide +kernel)
  have h' := h.coordination hcp_cell
  norm_num at h'
  exact h'

/-! ### Rectangular and oblique cells -/

theorem norm_units_lt (a : ℝ) (x : Vec3 ℤ) (hz : x.z = 0) (p q r : ℝ) (hr : 0 < r) :
    Vec3.norm (units ⟨p, q, a⟩ x) < r ↔ p ^ 2 * (x.x : ℝ) ^ 2 + q ^ 2 * (x.y : ℝ) ^ 2 < r ^ 2 := by
  rw [norm_lt_iff _ _ hr.le]
  simp only [units, Vec3.dot, hz, Int.cast_zero]
  ring_nf

/-- **C98**: in a rectangular crystal with aspect ratio above 1, every particle has 2 neighbors at
distance 1; the next are at the distance of the other side or at distance 2. -/
theorem C98_rectangular (aspect : ℝ) (ha : 1 < aspect) :
    Coordination (UnitCell.rectangular aspect false) 2 1 (min aspect 2) := by
  have hu := inUnits_2D ⟨1, aspect, 1⟩ ⟨1, 1, 1⟩ (by norm_num; linarith) (by norm_num) [⟨0, 0, 0⟩] (by simp)
  refine (hu.shell (by decide +kernel) (z := 2) (d := 1) (d₂ := min aspect 2) ?_).coordination (by
    rw [UnitCell.rectangular, ofLike_2D _ _ (by norm_num) (by linarith)]; norm_num)
  intro A hA
  rw [List.mem_singleton] at hA
  subst hA
  refine ⟨[⟨1, 0, 0⟩, ⟨-1, 0, 0⟩], by decide +kernel, rfl, ?_, ?_⟩
  · intro x hx
    simp only [List.mem_cons, List.not_mem_nil, or_false] at hx
    rcases hx with rfl | rfl <;> simp [units, Vec3.norm, Vec3.dot]
  · intro x
    have hL : (∃ C ∈ [(⟨0, 0, 0⟩ : Vec3 ℤ)], lat2 ⟨1, 1, 1⟩ (x + ⟨0, 0, 0⟩ - C) = true) ↔ x.z = 0 := by
      simp [lat2]
    rw [hL]
    constructor
    · intro hx
      simp only [List.mem_cons, List.not_mem_nil, or_false] at hx
      rcases hx with rfl | rfl <;> simp [units, Vec3.norm, Vec3.dot, ha]
    · rintro ⟨hz, h0, hlt⟩
      rw [lt_min_iff, norm_units_lt _ _ hz _ _ _ (by linarith), norm_units_lt _ _ hz _ _ _ (by norm_num)] at hlt
      have hy : x.y = 0 := by
        by_contra hne
        have h1 : 1 ≤ x.y ^ 2 := by have := sq_nonneg x.y; have : x.y ^ 2 ≠ 0 := pow_ne_zero 2 hne; omega
        have h1' : (1 : ℝ) ≤ (x.y : ℝ) ^ 2 := by exact_mod_cast h1
        nlinarith [hlt.1, sq_nonneg (x.x : ℝ), sq_nonneg aspect]
      have hx4 : x.x ^ 2 < 4 := by
        have := hlt.2
        rw [hy] at this
        norm_num at this
        exact_mod_cast this
      have hxb : -2 < x.x ∧ x.x < 2 := by constructor <;> nlinarith
      have hx0 : x.x ≠ 0 := fun e => h0 (by ext <;> simp [e, hy, hz])
      have : x.x = 1 ∨ x.x = -1 := by omega
      rcases this with e | e
      · have : x = ⟨1, 0, 0⟩ := by ext <;> simp [e, hy, hz]
        simp [this]
      · have : x = ⟨-1, 0, 0⟩ := by ext <;> simp [e, hy, hz]
        simp [this]

/-- **C98**: in a centered rectangular crystal with sides that differ by a factor less than `√3`, every
particle has 4 neighbors, at half the diagonal; the next are at the distance of the shorter side. -/
theorem C98_centered (aspect : ℝ) (h0 : 0 < aspect) (h1 : 1 < 3 * aspect ^ 2) (h3 : aspect ^ 2 < 3) :
    Coordination (UnitCell.rectangular aspect true) 4 (Real.sqrt (1 + aspect ^ 2) / 2) (min 1 aspect) := by
  have hu := inUnits_2D ⟨1 / 2, aspect / 2, 1⟩ ⟨2, 2, 1⟩ (by norm_num; linarith) (by norm_num)
    [⟨0, 0, 0⟩, ⟨1, 1, 0⟩] (by simp)
  refine (hu.shell (by decide +kernel) (z := 4) (d := Real.sqrt (1 + aspect ^ 2) / 2) (d₂ := min 1 aspect)
    ?_).coordination (by
    rw [UnitCell.rectangular, ofLike_2D _ _ (by norm_num) h0.ne']; norm_num)
  intro A hA
  have hL : ∀ x : Vec3 ℤ, (∃ C ∈ [(⟨0, 0, 0⟩ : Vec3 ℤ), ⟨1, 1, 0⟩], lat2 ⟨2, 2, 1⟩ (x + A - C) = true) ↔
      x.z = 0 ∧ 2 ∣ x.x + x.y := by
    intro x
    simp only [List.mem_cons, List.not_mem_nil, or_false] at hA
    rcases hA with rfl | rfl
    · simp [lat2]; omega
    · simp [lat2]; omega
  have hnorm : ∀ x ∈ [(⟨1, 1, 0⟩ : Vec3 ℤ), ⟨1, -1, 0⟩, ⟨-1, 1, 0⟩, ⟨-1, -1, 0⟩],
      Vec3.norm (units ⟨1 / 2, aspect / 2, 1⟩ x) = Real.sqrt (1 + aspect ^ 2) / 2 := by
    intro x hx
    rw [← sqrt_quarter]
    unfold Vec3.norm
    congr 1
    simp only [List.mem_cons, List.not_mem_nil, or_false] at hx
    rcases hx with rfl | rfl | rfl | rfl <;> simp [units, Vec3.dot] <;> ring
  refine ⟨[⟨1, 1, 0⟩, ⟨1, -1, 0⟩, ⟨-1, 1, 0⟩, ⟨-1, -1, 0⟩], by decide +kernel, rfl, hnorm, fun x => ?_⟩
  rw [hL]
  constructor
  · intro hx
    rw [hnorm x hx]
    have hs : Real.sqrt (1 + aspect ^ 2) / 2 < min 1 aspect := by
      rw [lt_min_iff, div_lt_iff₀ (by norm_num), div_lt_iff₀ (by norm_num), Real.sqrt_lt' (by norm_num),
        Real.sqrt_lt' (by linarith)]
      constructor <;> nlinarith
    simp only [List.mem_cons, List.not_mem_nil, or_false] at hx
    rcases hx with rfl | rfl | rfl | rfl <;> simp [hs] <;> norm_num
  · rintro ⟨⟨hz, hpar⟩, hne, hlt⟩
    rw [lt_min_iff, norm_units_lt _ _ hz _ _ _ (by norm_num), norm_units_lt _ _ hz _ _ _ h0] at hlt
    obtain ⟨l1, l2⟩ := hlt
    have hpos : 0 < aspect ^ 2 := by positivity
    have hxx : x.x ^ 2 < 4 := by
      have : (x.x : ℝ) ^ 2 < 4 := by nlinarith [sq_nonneg (x.y : ℝ), mul_nonneg hpos.le (sq_nonneg (x.y : ℝ))]
      exact_mod_cast this
    have hyy : x.y ^ 2 < 4 := by
      have : (x.y : ℝ) ^ 2 < 4 := by
        by_contra hcon
        push Not at hcon
        nlinarith [sq_nonneg (x.x : ℝ), mul_le_mul_of_nonneg_left hcon hpos.le]
      exact_mod_cast this
    have bx : -2 < x.x ∧ x.x < 2 := by constructor <;> nlinarith
    have by' : -2 < x.y ∧ x.y < 2 := by constructor <;> nlinarith
    have h00 : ¬ (x.x = 0 ∧ x.y = 0) := fun h => hne (by ext <;> simp [h.1, h.2, hz])
    have : (x.x = 1 ∨ x.x = -1) ∧ (x.y = 1 ∨ x.y = -1) := by omega
    have ex : x = ⟨x.x, x.y, 0⟩ := by ext <;> simp [hz]
    rcases this with ⟨e | e, e' | e'⟩ <;> rw [ex, e, e'] <;> simp

/-- **C98**: an oblique cell has two box vectors of lengths 1 and `aspect` with the angle `theta` (in
degrees) between them. -/
theorem C98_oblique (aspect theta : ℝ) (ha : 0 < aspect) (h0 : 0 < theta) (h1 : theta < 180) :
    ∃ u, UnitCell.oblique aspect theta = some u ∧ GoodCell u.box ∧ u.box.is2D = true ∧ u.basis = [⟨0, 0, 0⟩] ∧
      a1 u.box = ⟨1, 0, 0⟩ ∧
      a2 u.box = ⟨aspect * Real.cos (theta / 180 * Real.pi), aspect * Real.sin (theta / 180 * Real.pi), 0⟩ := by
  have hpi := Real.pi_pos
  have e : deg2rad theta = theta / 180 * Real.pi := by unfold deg2rad; ring
  have b0 : 0 < theta / 180 * Real.pi := by positivity
  have b1 : theta / 180 * Real.pi < Real.pi := by
    have : theta / 180 < 1 := by rw [div_lt_one (by norm_num)]; exact h1
    nlinarith
  have hs := Real.sin_pos_of_pos_of_lt_pi b0 b1
  rw [← e] at b0 b1 hs ⊢
  have hf : fromLengthsAngles ⟨1, aspect, 0, Real.pi / 2, Real.pi / 2, deg2rad theta⟩ none =
      some (Box.mk' 1 (aspect * Real.sin (deg2rad theta)) 0
        (aspect * Real.cos (deg2rad theta) / (aspect * Real.sin (deg2rad theta))) 0 0 true) := by
    unfold fromLengthsAngles
    rw [if_neg (by rw [not_not]; constructor <;> linarith), if_neg (by rw [not_not]; constructor <;> linarith),
      if_neg (by rw [not_not]; exact ⟨b0, b1⟩)]
    simp only [Real.cos_pi_div_two, zero_mul, sub_zero, zero_div, ne_eq, OfNat.ofNat_ne_zero, not_false_eq_true,
      zero_pow, Real.sqrt_one, Option.getD_none]
    rw [if_neg (by norm_num), fromMatrix_tri _ _ _ (by positivity)]
    simp [pyBox, ha.ne', hs.ne']
  have hu : UnitCell.oblique aspect theta = some ⟨Box.mk' 1 (aspect * Real.sin (deg2rad theta)) 0
        (aspect * Real.cos (deg2rad theta) / (aspect * Real.sin (deg2rad theta))) 0 0 true, [⟨0, 0, 0⟩]⟩ := by
    rw [UnitCell.oblique, hf, Option.bind_some]
    simp [UnitCell.ofLike, fromBoxLike, fromNamed, namedOf, boxOf, pyBox, Box.mk', Box.setL, ha.ne', hs.ne']
  refine ⟨_, hu, good_mk (by norm_num) (by positivity) (by simp), by simp [Box.mk', Box.setL], rfl, ?_, ?_⟩
  · ext <;> simp [a1, Box.mk', Box.setL]
  · ext <;> simp [a2, Box.mk', Box.setL] <;> field_simp

/-! ### Order parameters -/

theorem hexatic_perfect {u : UnitCell ℝ} {z k : ℕ} {d d₂ : ℝ} (h : Shell u z d d₂) (hz : 0 < z)
    (h2 : u.box.is2D = true)
    (hk : ∀ f ∈ u.basis, ∀ s, SiteVector u f s → s ≠ ⟨0, 0, 0⟩ → Vec3.norm s < d₂ → direction s ^ k = 1)
    {n : Vec3 ℤ} {c : ℝ} {b' : Box ℝ} {pos : List (Vec3 ℝ)} (hg : u.generateSystem n c none = some (b', pos))
    (hsmall : pos.length ≤ 0xffffffff) {r : ℝ} (h1 : c * d < r) (hr : r ≤ c * d₂) (hhalf : BelowHalf b' r)
    {nl : NList ℝ} (hsrc : IsSource b' pos pos r 0 true (.list nl)) (weighted : Bool) (order : List ℕ)
    (hord : order.Perm (List.range pos.length)) :
    ∃ res, Hexatic.compute ⟨k, weighted⟩ b' pos nl order = some res ∧
      ∀ i < pos.length, res[i]? = some (some 1) := by
  obtain ⟨t, g⟩ := generated h.cell h.distinct hg
  obtain ⟨hl, -, hb⟩ := list_source g.system hsmall le_rfl hhalf hsrc
  have hall : allBonds (.list nl) = nl.bonds := bondsFrom_list nl
  obtain ⟨u', hu', hcoord⟩ := h.coordination (cell := some u) rfl
  cases hu'
  have hc := (hcoord n c b' pos hg r h1 hr hhalf _ hsrc).1
  rw [hall] at hc
  have key : ∀ i < pos.length, ∃ res, Hexatic.compute ⟨k, weighted⟩ b' pos nl order = some res ∧
      res[i]? = some (some 1) := by
    intro i hi
    have hex : ∃ nb ∈ nl.bonds, nb.q = i := by
      have : 0 < (nl.bonds.filter fun nb => nb.q = i).length := by rw [hc i hi]; exact hz
      obtain ⟨nb, hnb⟩ := List.exists_mem_of_length_pos this
      exact ⟨nb, (List.mem_filter.mp hnb).1, of_decide_eq_true (List.mem_filter.mp hnb).2⟩
    obtain ⟨res, w, e1, e2, e3⟩ := C75_perfect ⟨k, weighted⟩ b' (g.dim.trans h2) pos nl hl order hord
      (fun _ nb hnb => by
        obtain ⟨q, -, -, e, -⟩ := hb nb hnb
        rw [e]; exact one_pos) i hi hex
    refine ⟨res, e1, ?_⟩
    rw [e2, (e3 1 (by simp)).mpr]
    intro nb hnb hq
    have hq' := hb nb hnb
    obtain ⟨x, hx, -, hw, hdist, -, -, hlt, p, hp, him⟩ := id hq'
    have epi : pos.getD i ⟨0, 0, 0⟩ = x := by rw [List.getD_eq_getElem?_getD, ← hq, hx]; rfl
    have epj : pos.getD nb.p ⟨0, 0, 0⟩ = p := by rw [List.getD_eq_getElem?_getD, hp]; rfl
    have hpl : ∀ y ∈ pos, Planar b' y := fun y hy => ((PeriodicBuffer.inHalfOpen_iff g.valid y).mp ((g.mem y).mp hy).1).1
    have hwrap : b'.wrap (p - x) = nb.vec := (wrap_of_short g.valid hhalf
      (planar_sub (hpl p (List.mem_of_getElem? hp)) (hpl x (List.mem_of_getElem? hx))) him hlt).1
    rw [epi, epj, hwrap]
    obtain ⟨f, hf, hbonds⟩ := g.bonds i hi
    obtain ⟨s, hs, hs0, hv, hvr⟩ := (hbonds r nb.vec hhalf).mp ⟨nb.p, by
      have : nb = ⟨i, nb.p, Vec3.norm nb.vec, 1, nb.vec⟩ := by
        obtain ⟨a1, a2, a3, a4, a5⟩ := nb
        dsimp only at *
        rw [hq, hw, hdist]
      rw [← this]; exact hq'⟩
    rw [hv, direction_scaled g.scale]
    refine hk f hf s hs hs0 ?_
    rw [hv, norm_smul_pos g.scale] at hvr
    exact lt_of_mul_lt_mul_left (lt_of_lt_of_le hvr hr) g.scale.le
  have hv := C75_value ⟨k, weighted⟩ b' (g.dim.trans h2) pos nl hl order hord
  refine ⟨_, hv, fun i hi => ?_⟩
  obtain ⟨res, e, e'⟩ := key i hi
  rw [hv, Option.some.injEq] at e
  rw [e]; exact e'

theorem direction_unit {s : Vec3 ℝ} (h : s.x ^ 2 + s.y ^ 2 = 1) : direction s = ⟨s.x, s.y⟩ := by
  unfold direction
  rw [if_neg (by rintro ⟨e1, e2⟩; rw [e1, e2] at h; norm_num at h), h, Real.sqrt_one]
  simp

theorem site_planar {u : UnitCell ℝ} (hv : Valid u.box) (h2 : u.box.is2D = true) {f s : Vec3 ℝ}
    (h : SiteVector u f s) : s.z = 0 := by
  obtain ⟨g, -, m, -, rfl⟩ := h
  simp [comb, lattice, a1, a2, a3, hv.Lz_2D h2]

theorem flat_norm {s : Vec3 ℝ} (hz : s.z = 0) (hn : Vec3.norm s = 1) : s.x ^ 2 + s.y ^ 2 = 1 := by
  unfold Vec3.norm at hn
  rw [Real.sqrt_eq_one] at hn
  simp only [Vec3.dot, hz] at hn
  linarith

theorem hex_power (X Y : ℝ) (i : ℤ) (e : X = i / 2) (h : X ^ 2 + Y ^ 2 = 1)
    (hi : i = 1 ∨ i = -1 ∨ i = 2 ∨ i = -2) : (⟨X, Y⟩ : ℂ) ^ 6 = 1 := by
  have hquad : (⟨X, Y⟩ : ℂ) ^ 2 = (i : ℂ) * ⟨X, Y⟩ - 1 := by
    have e' : (i : ℝ) = 2 * X := by linarith
    apply Complex.ext
    · simp [pow_two]
      rw [e']
      linarith
    · simp [pow_two]
      rw [e']
      ring
  generalize (⟨X, Y⟩ : ℂ) = z at hquad ⊢
  rcases hi with e | e | e | e <;> rw [e] at hquad <;> push_cast at hquad
  · have h3 : z ^ 3 = -1 := by linear_combination (z + 1) * hquad
    linear_combination (z ^ 3 - 1) * h3
  · have h3 : z ^ 3 = 1 := by linear_combination (z - 1) * hquad
    linear_combination (z ^ 3 + 1) * h3
  · have h1 : z = 1 := by
      have : (z - 1) ^ 2 = 0 := by linear_combination hquad
      exact sub_eq_zero.mp (pow_eq_zero_iff (by norm_num) |>.mp this)
    rw [h1]; norm_num
  · have h1 : z = -1 := by
      have : (z + 1) ^ 2 = 0 := by linear_combination hquad
      exact eq_neg_of_add_eq_zero_left (pow_eq_zero_iff (by norm_num) |>.mp this)
    rw [h1]; norm_num

/-- **C98**: in a hexagonal crystal the sixfold order of every particle is exactly 1, for every size,
scale, cutoff between the first two shells and schedule. -/
theorem C98_hex_order : ∃ u, UnitCell.hex = some u ∧
    ∀ (n : Vec3 ℤ) (scale : ℝ) (box : Box ℝ) (points : List (Vec3 ℝ)),
      u.generateSystem n scale none = some (box, points) → points.length ≤ 0xffffffff →
      ∀ r, scale * 1 < r → r ≤ scale * Real.sqrt 3 → BelowHalf box r →
      ∀ nl, IsSource box points points r 0 true (.list nl) →
      ∀ (weighted : Bool) (order : List ℕ), order.Perm (List.range points.length) →
      ∃ res, Hexatic.compute ⟨6, weighted⟩ box points nl order = some res ∧
        ∀ i < points.length, res[i]? = some (some 1) := by
  refine ⟨_, hex_cell, fun n c b' pos hg hsmall r h1 h2 hh nl hsrc w order hord =>
    hexatic_perfect hex_shell (by norm_num) (by simp [Box.mk', Box.setL]) ?_ hg hsmall h1 h2 hh hsrc w order hord⟩
  intro f hf s hs h0 hlt
  obtain ⟨vs, -, -, hd, hmem⟩ := hex_shell.near f hf
  have hn := hd s ((hmem s).mpr ⟨hs, h0, hlt⟩)
  obtain ⟨A, -, hsite⟩ := hex_units.site hf
  have hz := site_planar (by constructor <;> simp [Box.mk', Box.setL]) (by simp [Box.mk', Box.setL]) hs
  obtain ⟨x, rfl, -⟩ := (hsite s).mp hs
  have hsq := flat_norm hz hn
  rw [direction_unit hsq]
  have q3 : Real.sqrt 3 ^ 2 = 3 := Real.sq_sqrt (by norm_num)
  have hint : x.x ^ 2 + 3 * x.y ^ 2 = 4 := by
    have : (x.x : ℝ) ^ 2 + 3 * (x.y : ℝ) ^ 2 = 4 := by
      simp only [units] at hsq
      nlinarith
    exact_mod_cast this
  have bx : -2 ≤ x.x ∧ x.x ≤ 2 := by constructor <;> nlinarith [sq_nonneg x.y]
  have hx0 : x.x ≠ 0 := by
    intro e
    rw [e] at hint
    omega
  have hx : x.x = 1 ∨ x.x = -1 ∨ x.x = 2 ∨ x.x = -2 := by omega
  exact hex_power _ _ x.x (by simp [units]; ring) hsq hx

/-- **C98**: in a square crystal the fourfold order of every particle is exactly 1. -/
theorem C98_square_order : ∃ u, UnitCell.square = some u ∧
    ∀ (n : Vec3 ℤ) (scale : ℝ) (box : Box ℝ) (points : List (Vec3 ℝ)),
      u.generateSystem n scale none = some (box, points) → points.length ≤ 0xffffffff →
      ∀ r, scale * 1 < r → r ≤ scale * Real.sqrt 2 → BelowHalf box r →
      ∀ nl, IsSource box points points r 0 true (.list nl) →
      ∀ (weighted : Bool) (order : List ℕ), order.Perm (List.range points.length) →
      ∃ res, Hexatic.compute ⟨4, weighted⟩ box points nl order = some res ∧
        ∀ i < points.length, res[i]? = some (some 1) := by
  refine ⟨_, square_cell, fun n c b' pos hg hsmall r h1 h2 hh nl hsrc w order hord =>
    hexatic_perfect square_shell (by norm_num) (by simp [Box.mk', Box.setL]) ?_ hg hsmall h1 h2 hh hsrc w order hord⟩
  intro f hf s hs h0 hlt
  obtain ⟨vs, -, -, hd, hmem⟩ := square_shell.near f hf
  have hn := hd s ((hmem s).mpr ⟨hs, h0, hlt⟩)
  obtain ⟨A, -, hsite⟩ := square_units.site hf
  have hz := site_planar (by constructor <;> simp [Box.mk', Box.setL]) (by simp [Box.mk', Box.setL]) hs
  obtain ⟨x, rfl, -⟩ := (hsite s).mp hs
  have hsq := flat_norm hz hn
  rw [direction_unit hsq]
  have hint : x.x ^ 2 + x.y ^ 2 = 1 := by
    have : (x.x : ℝ) ^ 2 + (x.y : ℝ) ^ 2 = 1 := by
      simp only [units, one_mul] at hsq
      exact hsq
    exact_mod_cast this
  have bx : -1 ≤ x.x ∧ x.x ≤ 1 := by constructor <;> nlinarith [sq_nonneg x.y]
  have by' : -1 ≤ x.y ∧ x.y ≤ 1 := by constructor <;> nlinarith [sq_nonneg x.x]
  have hI : (⟨0, 1⟩ : ℂ) = Complex.I := rfl
  have hI' : (⟨0, -1⟩ : ℂ) = -Complex.I := by apply Complex.ext <;> simp
  have h1' : (⟨1, 0⟩ : ℂ) = 1 := rfl
  have h2' : (⟨-1, 0⟩ : ℂ) = -1 := by apply Complex.ext <;> simp
  have hcases : (x.x = 0 ∧ x.y = 1) ∨ (x.x = 0 ∧ x.y = -1) ∨ (x.x = 1 ∧ x.y = 0) ∨ (x.x = -1 ∧ x.y = 0) := by
    obtain ⟨b1, b2⟩ := bx
    obtain ⟨b3, b4⟩ := by'
    generalize x.x = i at *
    generalize x.y = j at *
    interval_cases i <;> interval_cases j <;> simp at hint ⊢
  rcases hcases with ⟨e, e'⟩ | ⟨e, e'⟩ | ⟨e, e'⟩ | ⟨e, e'⟩ <;>
    simp only [units, e, e', one_mul, Int.cast_zero, Int.cast_one, Int.cast_neg]
  · rw [hI, Complex.I_pow_four]
  · rw [hI', Even.neg_pow (by decide), Complex.I_pow_four]
  · rw [h1', one_pow]
  · rw [h2', Even.neg_pow (by decide), one_pow]

/-! ### Random systems -/

/-- **C98**: `make_random_system` puts one point into the box for every sample, at the sampled box
coordinates; it raises only for a box without size. -/
theorem C98_random (boxSize : ℝ) (samples : List (Vec3 ℝ)) (is2D : Bool)
    (hs : ∀ f ∈ samples, (0 ≤ f.x ∧ f.x < 1) ∧ (0 ≤ f.y ∧ f.y < 1) ∧ (0 ≤ f.z ∧ f.z < 1)) :
    (makeRandomSystem boxSize samples is2D = none ↔ boxSize = 0) ∧
    ∀ box points, makeRandomSystem boxSize samples is2D = some (box, points) →
      Valid box ∧ FullyPeriodic box ∧ box.is2D = is2D ∧
      a1 box = ⟨boxSize, 0, 0⟩ ∧ a2 box = ⟨0, boxSize, 0⟩ ∧ (is2D = false → a3 box = ⟨0, 0, boxSize⟩) ∧
      List.Forall₂ (fun f p => InHalfOpen box p ∧
        HasCoords box p ⟨f.x, f.y, if is2D then 0 else f.z⟩) samples points := by
  unfold makeRandomSystem
  cases is2D
  · refine ⟨by simp [pyBox], ?_⟩
    intro box points h
    simp only [Bool.false_eq_true, if_false, Option.map_eq_some_iff, Prod.mk.injEq] at h
    obtain ⟨b, hb, rfl, rfl⟩ := h
    unfold pyBox at hb
    simp only [Bool.false_eq_true, if_false, or_self] at hb
    split at hb
    · cases hb
    rename_i hne
    cases hb
    have hv : Valid (Box.mk' boxSize boxSize boxSize 0 0 0 false) := by
      constructor <;> simp [Box.mk', Box.setL, hne]
    refine ⟨hv, by simp [FullyPeriodic, Box.mk', Box.setL], by simp [Box.mk', Box.setL], ?_, ?_, fun _ => ?_, ?_⟩
    · ext <;> simp [a1, Box.mk', Box.setL]
    · ext <;> simp [a2, Box.mk', Box.setL]
    · ext <;> simp [a3, Box.mk', Box.setL]
    · rw [List.forall₂_map_right_iff]
      refine List.forall₂_same.mpr fun f hf => ?_
      have hc : HasCoords (Box.mk' boxSize boxSize boxSize 0 0 0 false)
          ((Box.mk' boxSize boxSize boxSize 0 0 0 false).makeAbsolute f) f :=
        ⟨makeAbsolute_eq_comb hv _, by simp [Box.mk', Box.setL]⟩
      exact ⟨⟨f, hc, hs f hf⟩, hc⟩
  · refine ⟨by simp [pyBox], ?_⟩
    intro box points h
    simp only [if_true, Option.map_eq_some_iff, Prod.mk.injEq] at h
    obtain ⟨b, hb, rfl, rfl⟩ := h
    unfold pyBox at hb
    simp only [if_true, or_self] at hb
    split at hb
    · cases hb
    rename_i hne
    cases hb
    have hv : Valid (Box.mk' boxSize boxSize 0 0 0 0 true) := by
      constructor <;> simp [Box.mk', Box.setL, hne]
    refine ⟨hv, by simp [FullyPeriodic, Box.mk', Box.setL], by simp [Box.mk', Box.setL], ?_, ?_, by simp, ?_⟩
    · ext <;> simp [a1, Box.mk', Box.setL]
    · ext <;> simp [a2, Box.mk', Box.setL]
    · rw [List.map_map, List.forall₂_map_right_iff]
      refine List.forall₂_same.mpr fun f hf => ?_
      have hc : HasCoords (Box.mk' boxSize boxSize 0 0 0 0 true)
          ((Box.mk' boxSize boxSize 0 0 0 0 true).makeAbsolute ⟨f.x, f.y, 0⟩) ⟨f.x, f.y, 0⟩ :=
        ⟨makeAbsolute_eq_comb hv _, by simp⟩
      exact ⟨⟨_, hc, (hs f hf).1, (hs f hf).2.1, by norm_num⟩, hc⟩

/-! ### Examples -/

/-- The systems and queries of the theorems exist, for every size of a rectangular cell that is large
enough for the query. -/
theorem query_exists {u : UnitCell ℝ} {z : ℕ} {d d₂ : ℝ} (h : Shell u z d d₂) (hne : u.basis ≠ [])
    (ht : u.box.xy = 0 ∧ u.box.xz = 0 ∧ u.box.yz = 0) {n : Vec3 ℤ} {c r : ℝ}
    (hn : 0 < n.x ∧ 0 < n.y ∧ 0 < n.z) (hn2 : u.box.is2D = true → n.z = 1) (hc : 0 < c) (hr : 0 < r)
    (hx : 2 * r < c * (n.x * u.box.L.x)) (hy : 2 * r < c * (n.y * u.box.L.y))
    (hz : u.box.is2D = false → 2 * r < c * (n.z * u.box.L.z)) :
    ∃ box points src, u.generateSystem n c none = some (box, points) ∧
      (points.length : ℤ) = u.basis.length * (n.x * n.y * n.z) ∧ BelowHalf box r ∧
      IsSource box points points r 0 true src := by
  have hs : u.generateSystem n c none ≠ none := by
    rw [ne_eq, C59_raises_iff _ _ _ _ h.cell]
    rintro (h' | ⟨h', h''⟩ | h' | ⟨h', -⟩)
    · exact h' hn
    · exact h'' (hn2 h')
    · exact absurd h' (not_le.mpr hc)
    · exact hne h'
  obtain ⟨⟨box, points⟩, hg⟩ := Option.ne_none_iff_exists'.mp hs
  have hlen := C59_count u n c h.cell box points hg
  have hp : points ≠ [] := by
    rintro rfl
    have h1 : (0 : ℤ) < n.x * n.y * n.z := mul_pos (mul_pos hn.1 hn.2.1) hn.2.2
    have h2 : (0 : ℤ) < u.basis.length := by
      have := List.length_pos_of_ne_nil hne
      omega
    have := mul_pos h2 h1
    rw [← hlen] at this
    simp at this
  obtain ⟨t, g⟩ := generated h.cell h.distinct hg
  obtain ⟨_, hC⟩ := C59_exact u.box n h.cell
  obtain ⟨-, hd, ⟨e1, e2, e3⟩, hL, -⟩ := hC u.basis c box points hg
  have hh : BelowHalf box r := by
    refine ⟨fun _ => ?_, fun _ => ?_, fun _ h2 => ?_⟩ <;>
      simp [Box.getNearestPlaneDistance, e1, e2, e3, ht, hL]
    · exact hx
    · exact hy
    · exact hz (by rw [← hd]; exact h2)
  obtain ⟨src, ev, ok⟩ := exists_frame g.system hp hp le_rfl hr hh true (fun _ => ()) (fun _ => ())
  exact ⟨box, points, src, hg, hlen, hh, ok.source⟩

-- a simple cubic crystal of 27 cells, scaled by 2, with a query that finds the 6 neighbors
example : ∃ u box points src, UnitCell.sc = some u ∧ u.generateSystem ⟨3, 3, 3⟩ 2 none = some (box, points) ∧
    (points.length : ℤ) = 27 ∧ 2 * 1 < (9 / 4 : ℝ) ∧ (9 / 4 : ℝ) ≤ 2 * Real.sqrt 2 ∧ BelowHalf box (9 / 4) ∧
    IsSource box points points (9 / 4) 0 true src := by
  have h := sc_shell
  obtain ⟨box, points, src, h1, h2, h3, h4⟩ := query_exists h (by simp) (by simp [Box.mk', Box.setL])
    (n := ⟨3, 3, 3⟩) (c := 2) (r := 9 / 4) (by norm_num) (by simp [Box.mk', Box.setL]) (by norm_num) (by norm_num)
    (by norm_num [Box.mk', Box.setL]) (by norm_num [Box.mk', Box.setL]) (fun _ => by norm_num [Box.mk', Box.setL])
  refine ⟨_, box, points, src, sc_cell, h1, by simpa using h2, by norm_num, ?_, h3, h4⟩
  have : (9 / 8 : ℝ) ≤ Real.sqrt 2 := Real.le_sqrt_of_sq_le (by norm_num)
  linarith

-- graphene, 5 by 3 cells of 4 particles
example : ∃ u box points src, UnitCell.graphene = some u ∧
    u.generateSystem ⟨5, 3, 1⟩ 1 none = some (box, points) ∧ (points.length : ℤ) = 60 ∧
    1 * (1 / Real.sqrt 3) < (3 / 4 : ℝ) ∧ (3 / 4 : ℝ) ≤ 1 * 1 ∧ BelowHalf box (3 / 4) ∧
    IsSource box points points (3 / 4) 0 true src := by
  have h3 : (1.7 : ℝ) < Real.sqrt 3 := Real.lt_sqrt_of_sq_lt (by norm_num)
  obtain ⟨box, points, src, h1, h2, h4, h5⟩ := query_exists graphene_shell (by simp) (by simp [Box.mk', Box.setL])
    (n := ⟨5, 3, 1⟩) (c := 1) (r := 3 / 4) (by norm_num) (by simp) (by norm_num) (by norm_num)
    (by norm_num [Box.mk', Box.setL]) (by norm_num [Box.mk', Box.setL]; linarith) (by simp [Box.mk', Box.setL])
  refine ⟨_, box, points, src, graphene_cell, h1, by simpa using h2, ?_, by norm_num, h4, h5⟩
  rw [one_mul, div_lt_iff₀ (by linarith)]
  linarith

-- a hexagonal crystal of 5 by 3 cells with a neighbor list of the first shell
example : ∃ u box points nl, UnitCell.hex = some u ∧ u.generateSystem ⟨5, 3, 1⟩ 1 none = some (box, points) ∧
    points.length ≤ 0xffffffff ∧ 1 * 1 < (3 / 2 : ℝ) ∧ (3 / 2 : ℝ) ≤ 1 * Real.sqrt 3 ∧ BelowHalf box (3 / 2) ∧
    IsSource box points points (3 / 2) 0 true (.list nl) := by
  have h3 : (1.7 : ℝ) < Real.sqrt 3 := Real.lt_sqrt_of_sq_lt (by norm_num)
  obtain ⟨box, points, src, h1, h2, h4, s, found, hm, hf, -⟩ := query_exists hex_shell (by simp)
    (by simp [Box.mk', Box.setL]) (n := ⟨5, 3, 1⟩) (c := 1) (r := 3 / 2) (by norm_num) (by simp) (by norm_num)
    (by norm_num) (by norm_num [Box.mk', Box.setL]) (by norm_num [Box.mk', Box.setL]; linarith)
    (by simp [Box.mk', Box.setL])
  obtain ⟨nl, hnl⟩ := C20_result_exists found points.length points.length false
    ((List.range points.length).map fun i => (0, i))
  refine ⟨_, box, points, nl, hex_cell, h1, ?_, by norm_num, by linarith, h4, s, found, hm, hf, Or.inr
    ⟨false, _, nl, ?_, hnl, rfl⟩⟩
  · have : (points.length : ℤ) = 30 := by simpa using h2
    omega
  · simp [IsExecution, List.map_map, Function.comp_def]

-- aspect ratios and angles of the theorems
example : (1 : ℝ) < 2 ∧ (0 : ℝ) < 1.2 ∧ (1 : ℝ) < 3 * 1.2 ^ 2 ∧ (1.2 : ℝ) ^ 2 < 3 ∧ (0 : ℝ) < 45 ∧ (45 : ℝ) < 180 := by
  norm_num

-- two random points in the plane
example : ∃ box points, makeRandomSystem 3 [⟨0, 1 / 2, 1 / 4⟩, ⟨1 / 3, 2 / 3, 0⟩] true = some (box, points) := by
  simp [makeRandomSystem, pyBox]

end Freud
