import Verif.Model.PeriodicBuffer
import Verif.Spec.Copies
import Verif.Lemmas.Box
import Mathlib.Data.List.Nodup
import Mathlib.Tactic.LinearCombination

/-!
# Lemmas about periodic copies
-/

namespace Freud
open Spec
variable {K : Type*} [Field K] [LinearOrder K] [IsStrictOrderedRing K] [FloorRing K]
set_option linter.unusedSectionVars false

namespace PeriodicBuffer

theorem mem_loop (lo hi x : ℤ) : x ∈ loop lo hi ↔ lo ≤ x ∧ x ≤ hi := by
  unfold loop
  rw [List.mem_map]
  constructor
  · rintro ⟨i, hi', rfl⟩
    rw [List.mem_range] at hi'
    omega
  · rintro ⟨h1, h2⟩
    refine ⟨(x - lo).toNat, ?_, by omega⟩
    rw [List.mem_range]
    omega

theorem nodup_loop (lo hi : ℤ) : (loop lo hi).Nodup :=
  List.nodup_range.map fun a b h => by simpa using h

theorem length_loop (lo hi : ℤ) : (loop lo hi).length = (hi - lo + 1).toNat := by simp [loop]

/-- All values of the three loop variables in order. -/
def triples (lo hi : Vec3 ℤ) : List (Vec3 ℤ) :=
  (loop lo.x hi.x).flatMap fun i => (loop lo.y hi.y).flatMap fun j =>
    (loop lo.z hi.z).map fun k => ⟨i, j, k⟩

theorem mem_triples (lo hi m : Vec3 ℤ) : m ∈ triples lo hi ↔
    (lo.x ≤ m.x ∧ m.x ≤ hi.x) ∧ (lo.y ≤ m.y ∧ m.y ≤ hi.y) ∧ (lo.z ≤ m.z ∧ m.z ≤ hi.z) := by
  unfold triples
  simp only [List.mem_flatMap, List.mem_map, mem_loop]
  constructor
  · rintro ⟨i, h1, j, h2, k, h3, rfl⟩
    exact ⟨h1, h2, h3⟩
  · rintro ⟨h1, h2, h3⟩
    exact ⟨m.x, h1, m.y, h2, m.z, h3, rfl⟩

theorem nodup_triples (lo hi : Vec3 ℤ) : (triples lo hi).Nodup := by
  unfold triples
  rw [List.nodup_flatMap]
  refine ⟨fun i _ => ?_, ?_⟩
  · rw [List.nodup_flatMap]
    refine ⟨fun j _ => (nodup_loop _ _).map fun a b h => by simpa using h, ?_⟩
    refine (nodup_loop _ _).imp fun {a b} hab => ?_
    rw [Function.onFun, List.disjoint_left]
    intro v hv hw
    rw [List.mem_map] at hv hw
    obtain ⟨k, -, rfl⟩ := hv
    obtain ⟨k', -, h⟩ := hw
    exact hab (congrArg Vec3.y h).symm
  · refine (nodup_loop _ _).imp fun {a b} hab => ?_
    rw [Function.onFun, List.disjoint_left]
    intro v hv hw
    simp only [List.mem_flatMap, List.mem_map] at hv hw
    obtain ⟨j, -, k, -, rfl⟩ := hv
    obtain ⟨j', -, k', -, h⟩ := hw
    exact hab (congrArg Vec3.x h).symm

theorem length_triples (lo hi : Vec3 ℤ) : (triples lo hi).length =
    (hi.x - lo.x + 1).toNat * ((hi.y - lo.y + 1).toNat * (hi.z - lo.z + 1).toNat) := by
  unfold triples
  simp [List.length_flatMap, length_loop]

/-- Where the loops begin. -/
def low (n : Vec3 ℤ) (useImages : Bool) : Vec3 ℤ :=
  ⟨if useImages then 0 else -n.x, if useImages then 0 else -n.y, if useImages then 0 else -n.z⟩

theorem copies_eq (b bb : Box K) (n : Vec3 ℤ) (useImages incl : Bool) (p : Vec3 K) :
    copies b bb n useImages incl p =
      (triples (low n useImages) n).filterMap fun m => body b bb useImages incl p m.x m.y m.z := by
  unfold copies triples
  rw [List.filterMap_flatMap]
  congr 1
  funext i
  rw [List.filterMap_flatMap]
  congr 1
  funext j
  rw [List.filterMap_map]
  rfl

theorem pointImage_eq {b : Box K} (hb : Valid b) (p : Vec3 K) (i j k : ℤ) :
    pointImage b p i j k = p + lattice b ⟨i, j, k⟩ := by
  unfold pointImage
  cases h : b.is2D with
  | true => ext <;> (simp [lattice, comb, a1, a2, a3, hb.Lz_2D h]; try ring)
  | false => ext <;> simp [lattice, comb, a1, a2, a3] <;> ring

theorem hasCoords_iff {b : Box K} (hb : Valid b) (v f : Vec3 K) :
    HasCoords b v f ↔ Planar b v ∧ f = b.makeFractional v := by
  constructor
  · rintro ⟨rfl, h2⟩
    refine ⟨fun h => by simp [comb, a1, a2, a3, hb.Lz_2D h], ?_⟩
    rw [makeFractional_comb hb]
    cases h3 : b.is2D with
    | true => ext <;> simp [h2 h3]
    | false => ext <;> simp
  · rintro ⟨h1, rfl⟩
    exact ⟨comb_makeFractional hb v h1, fun h => makeFractional_planar v h⟩

theorem inHalfOpen_iff {b : Box K} (hb : Valid b) (v : Vec3 K) :
    InHalfOpen b v ↔ Planar b v ∧ (0 ≤ (b.makeFractional v).x ∧ (b.makeFractional v).x < 1) ∧
      (0 ≤ (b.makeFractional v).y ∧ (b.makeFractional v).y < 1) ∧
      (0 ≤ (b.makeFractional v).z ∧ (b.makeFractional v).z < 1) := by
  unfold InHalfOpen
  simp only [hasCoords_iff hb]
  constructor
  · rintro ⟨f, ⟨h, rfl⟩, h'⟩; exact ⟨h, h'⟩
  · rintro ⟨h, h'⟩; exact ⟨_, ⟨h, rfl⟩, h'⟩

theorem inside_iff {b : Box K} (hb : Valid b) (v : Vec3 K) (hv : Planar b v) :
    inside b b.is2D v = true ↔ InHalfOpen b v := by
  rw [inHalfOpen_iff hb]
  unfold inside
  simp only [Bool.and_eq_true, Bool.or_eq_true, decide_eq_true_eq]
  cases h : b.is2D with
  | true => simp [makeFractional_planar v h, hv, and_assoc]
  | false => simp [hv, and_assoc]

theorem mk'_valid (Lx Ly Lz xy xz yz : K) (d : Bool) (hx : Lx ≠ 0) (hy : Ly ≠ 0)
    (hz : d = false → Lz ≠ 0) : Valid (Box.mk' Lx Ly Lz xy xz yz d) := by
  cases d with
  | true => constructor <;> simp [Box.mk', Box.setL, hx, hy]
  | false => constructor <;> simp [Box.mk', Box.setL, hx, hy, hz rfl]

theorem bufferBox_2D (b : Box K) (buff : Vec3 K) (u : Bool) : (bufferBox b buff u).is2D = b.is2D := by
  unfold bufferBox; split <;> simp [Box.mk', Box.setL]

theorem bufferBox_tilts (b : Box K) (buff : Vec3 K) (u : Bool) :
    (bufferBox b buff u).xy = b.xy ∧ (bufferBox b buff u).xz = b.xz ∧ (bufferBox b buff u).yz = b.yz := by
  unfold bufferBox; split <;> simp [Box.mk', Box.setL]

theorem bufferBox_periodic (b : Box K) (buff : Vec3 K) (u : Bool) :
    (bufferBox b buff u).px = true ∧ (bufferBox b buff u).py = true ∧ (bufferBox b buff u).pz = true := by
  unfold bufferBox; split <;> simp [Box.mk', Box.setL]

theorem bufferBox_L (b : Box K) (buff : Vec3 K) :
    (bufferBox b buff false).L =
      ⟨b.L.x + 2 * buff.x, b.L.y + 2 * buff.y, if b.is2D then 0 else b.L.z + 2 * buff.z⟩ := by
  unfold bufferBox; cases h : b.is2D <;> simp [Box.mk', Box.setL]

theorem bufferBox_L_images (b : Box K) (buff : Vec3 K) :
    (bufferBox b buff true).L = ⟨((1 + ⌈buff.x⌉ : ℤ) : K) * b.L.x, ((1 + ⌈buff.y⌉ : ℤ) : K) * b.L.y,
      if b.is2D then 0 else ((1 + ⌈buff.z⌉ : ℤ) : K) * b.L.z⟩ := by
  unfold bufferBox; cases h : b.is2D <;> simp [Box.mk', Box.setL]

/-- Non-negative buffers. -/
def NonNeg (v : Vec3 K) : Prop := 0 ≤ v.x ∧ 0 ≤ v.y ∧ 0 ≤ v.z

theorem factor_pos {a : K} (h : 0 ≤ a) : (0 : K) < ((1 + ⌈a⌉ : ℤ) : K) := by
  have : (0 : ℤ) < 1 + ⌈a⌉ := by have := Int.ceil_nonneg h; omega
  exact_mod_cast this

theorem bufferBox_positive {b : Box K} (hp : Positive b) {buff : Vec3 K} (hn : NonNeg buff)
    (u : Bool) : Positive (bufferBox b buff u) := by
  obtain ⟨h1, h2, h3⟩ := hp
  obtain ⟨n1, n2, n3⟩ := hn
  cases u with
  | true =>
    rw [Positive, bufferBox_2D, bufferBox_L_images]
    refine ⟨mul_pos (factor_pos n1) h1, mul_pos (factor_pos n2) h2, fun h => ?_⟩
    rw [h]
    exact mul_pos (factor_pos n3) (h3 h)
  | false =>
    rw [Positive, bufferBox_2D, bufferBox_L]
    refine ⟨by linarith, by linarith, fun h => ?_⟩
    rw [h]
    have := h3 h
    simp only [Bool.false_eq_true, if_false]
    linarith

theorem bufferBox_valid {b : Box K} (hp : Positive b) {buff : Vec3 K} (hn : NonNeg buff)
    (u : Bool) : Valid (bufferBox b buff u) := by
  obtain ⟨h1, h2, h3⟩ := hp
  obtain ⟨n1, n2, n3⟩ := hn
  cases u with
  | true =>
    apply mk'_valid
    · exact (mul_pos (factor_pos n1) h1).ne'
    · exact (mul_pos (factor_pos n2) h2).ne'
    · exact fun h => (mul_pos (factor_pos n3) (h3 h)).ne'
  | false =>
    apply mk'_valid
    · linarith
    · linarith
    · intro h; linarith [h3 h]

theorem planar_buffer {b : Box K} {buff : Vec3 K} {u : Bool} {v : Vec3 K} :
    Planar (bufferBox b buff u) v ↔ Planar b v := by unfold Planar; rw [bufferBox_2D]

/-- Coordinates in a box with the same tilts and other lengths. -/
theorem frac_other {b bb : Box K} (hb : Valid b) (hbb : Valid bb) (hxy : bb.xy = b.xy)
    (hxz : bb.xz = b.xz) (hyz : bb.yz = b.yz) (h2 : bb.is2D = b.is2D) (v : Vec3 K) (hv : Planar b v) :
    ((bb.makeFractional v).x - 1 / 2) * bb.L.x = ((b.makeFractional v).x - 1 / 2) * b.L.x ∧
    ((bb.makeFractional v).y - 1 / 2) * bb.L.y = ((b.makeFractional v).y - 1 / 2) * b.L.y ∧
    ((bb.makeFractional v).z - 1 / 2) * bb.L.z = ((b.makeFractional v).z - 1 / 2) * b.L.z := by
  have hv' : Planar bb v := by unfold Planar; rw [h2]; exact hv
  have e1 := comb_makeFractional hb v hv
  have e2 := comb_makeFractional hbb v hv'
  set f := b.makeFractional v
  set g := bb.makeFractional v
  have e := e2.symm.trans e1
  have ex := congrArg Vec3.x e
  have ey := congrArg Vec3.y e
  have ez := congrArg Vec3.z e
  simp only [comb, a1, a2, a3, mul_zero, zero_add, add_zero, hxy, hxz, hyz] at ex ey ez
  have ey' : (g.y - 1 / 2) * bb.L.y = (f.y - 1 / 2) * b.L.y := by linear_combination ey - b.yz * ez
  refine ⟨?_, ey', ez⟩
  linear_combination ex - b.xy * ey' - b.xz * ez

end PeriodicBuffer
end Freud

namespace Freud
open Spec
variable {K : Type*} [Field K] [LinearOrder K] [IsStrictOrderedRing K] [FloorRing K]
set_option linter.unusedSectionVars false

namespace PeriodicBuffer

theorem lattice_add (b : Box K) (n m : Vec3 ℤ) : lattice b n + lattice b m = lattice b (n + m) := by
  rw [lattice, lattice, comb_add, lattice]; simp

theorem vec_add_assoc (u v w : Vec3 K) : u + v + w = u + (v + w) := by ext <;> simp [add_assoc]

theorem lattice_inj' {b : Box K} (hb : Valid b) {n m : Vec3 ℤ} (hn : b.is2D = true → n.z = 0)
    (hm : b.is2D = true → m.z = 0) (p : Vec3 K) (h : p + lattice b n = p + lattice b m) : n = m := by
  have h' : lattice b n = lattice b m := by
    have hx := congrArg Vec3.x h
    have hy := congrArg Vec3.y h
    have hz := congrArg Vec3.z h
    simp only [Vec3.add_x, Vec3.add_y, Vec3.add_z, add_right_inj] at hx hy hz
    ext <;> assumption
  obtain ⟨h1, h2, h3⟩ := comb_inj hb h'
  have e1 : n.x = m.x := by exact_mod_cast h1
  have e2 : n.y = m.y := by exact_mod_cast h2
  have e3 : n.z = m.z := by
    cases h2d : b.is2D with
    | true => rw [hn h2d, hm h2d]
    | false => exact_mod_cast h3 h2d
  ext <;> assumption

/-- The images that can lie in the enlarged box, one axis. -/
theorem range_axis {L B s g M : K} (n : ℤ) (hL : 0 < L) (hB : 0 ≤ B) (hs : 0 ≤ s ∧ s < 1)
    (hM : M = L + 2 * B) (hg : (g - 1 / 2) * M = (s + n - 1 / 2) * L) (h : 0 ≤ g ∧ g < 1) :
    -⌈B / L⌉ ≤ n ∧ n ≤ ⌈B / L⌉ := by
  have hMp : 0 < M := by rw [hM]; linarith
  have hc := Int.le_ceil (B / L)
  have e : B / L * L = B := div_mul_cancel₀ _ hL.ne'
  have l1 : -(1 / 2) * M ≤ (s + n - 1 / 2) * L := by
    rw [← hg]; exact mul_le_mul_of_nonneg_right (by linarith [h.1]) hMp.le
  have l2 : (s + n - 1 / 2) * L < 1 / 2 * M := by
    rw [← hg]; exact mul_lt_mul_of_pos_right (by linarith [h.2]) hMp
  have a1 : -1 - B / L < n := by
    by_contra hcon
    push Not at hcon
    have : (s + n - 1 / 2) * L < -(1 / 2) * M := by
      have : (s + n - 1 / 2) < -(1 / 2) - B / L := by linarith [hs.2]
      calc _ < (-(1 / 2) - B / L) * L := mul_lt_mul_of_pos_right this hL
        _ = _ := by rw [sub_mul, e, hM]; ring
    linarith
  have a2 : (n : K) < 1 + B / L := by
    by_contra hcon
    push Not at hcon
    have : 1 / 2 * M ≤ (s + n - 1 / 2) * L := by
      have : 1 / 2 + B / L ≤ (s + n - 1 / 2) := by linarith [hs.1]
      calc _ = (1 / 2 + B / L) * L := by rw [add_mul, e, hM]; ring
        _ ≤ _ := mul_le_mul_of_nonneg_right this hL.le
    linarith
  have b1 : (-(1 + ⌈B / L⌉ : ℤ) : K) < n := by push_cast; linarith
  have b2 : (n : K) < (1 + ⌈B / L⌉ : ℤ) := by push_cast; linarith
  have b1' : -(1 + ⌈B / L⌉) < n := by exact_mod_cast b1
  have b2' : n < 1 + ⌈B / L⌉ := by exact_mod_cast b2
  omega

/-- A copy of a point of the box that lies in the enlarged box is among those tried. -/
theorem copy_in_range {b : Box K} (hb : Valid b) (hp : Positive b) {buff : Vec3 K} (hn : NonNeg buff)
    {p : Vec3 K} (hpin : InHalfOpen b p) (m : Vec3 ℤ) (hm : b.is2D = true → m.z = 0)
    (hin : InHalfOpen (bufferBox b buff false) (p + lattice b m)) :
    m ∈ triples (low (images b buff false) false) (images b buff false) := by
  have hbb := bufferBox_valid hp hn false
  obtain ⟨hpl, fx, fy, fz⟩ := (inHalfOpen_iff hb p).mp hpin
  obtain ⟨-, gx, gy, gz⟩ := (inHalfOpen_iff hbb _).mp hin
  obtain ⟨t1, t2, t3⟩ := bufferBox_tilts b buff false
  obtain ⟨e1, e2, e3⟩ := frac_other hb hbb t1 t2 t3 (bufferBox_2D b buff false) (p + lattice b m)
    (planar_add hpl (lattice_planar hb m))
  rw [makeFractional_add_lattice hb p hpl m hm] at e1 e2 e3
  have hL := bufferBox_L b buff
  have r1 := range_axis m.x hp.1 hn.1 fx (by rw [hL]) e1 gx
  have r2 := range_axis m.y hp.2.1 hn.2.1 fy (by rw [hL]) e2 gy
  rw [mem_triples]
  unfold images low
  cases h2 : b.is2D with
  | true =>
    refine ⟨r1, r2, ?_⟩
    simp [hm h2]
  | false =>
    exact ⟨r1, r2, range_axis m.z (hp.2.2 h2) hn.2.2 fz (by rw [hL, h2]; simp) e3 gz⟩

end PeriodicBuffer
end Freud

namespace Freud
open Spec
variable {K : Type*} [Field K] [LinearOrder K] [IsStrictOrderedRing K] [FloorRing K]
set_option linter.unusedSectionVars false

namespace PeriodicBuffer

/-- Box vectors of the enlarged box in terms of those of the box. -/
def scaled (buff : Vec3 K) (m : Vec3 ℤ) : Vec3 ℤ :=
  ⟨(1 + ⌈buff.x⌉) * m.x, (1 + ⌈buff.y⌉) * m.y, (1 + ⌈buff.z⌉) * m.z⟩

theorem lattice_buffer {b : Box K} (hb : Valid b) (buff : Vec3 K) (m : Vec3 ℤ) :
    lattice (bufferBox b buff true) m = lattice b (scaled buff m) := by
  obtain ⟨t1, t2, t3⟩ := bufferBox_tilts b buff true
  simp only [lattice, comb, a1, a2, a3, t1, t2, t3, bufferBox_L_images, scaled]
  cases h : b.is2D with
  | true => ext <;> (simp [hb.Lz_2D h]; try ring)
  | false => ext <;> (simp; try ring)

theorem wrap_inHalfOpen {b : Box K} (hb : Valid b) (hx : b.px = true) (hy : b.py = true)
    (hz : b.pz = true) (v : Vec3 K) (hv : Planar b v) : InHalfOpen b (b.wrap v) := by
  rw [inHalfOpen_iff hb]
  refine ⟨wrap_planar hb v hv, ?_⟩
  rw [makeFractional_wrap hb v hv, hx, hy, hz]
  exact ⟨⟨Int.fract_nonneg _, Int.fract_lt_one _⟩, ⟨Int.fract_nonneg _, Int.fract_lt_one _⟩,
    ⟨Int.fract_nonneg _, Int.fract_lt_one _⟩⟩

theorem wrap_of_inHalfOpen {b : Box K} (hb : Valid b) {v : Vec3 K} (h : InHalfOpen b v) :
    b.wrap v = v := by
  obtain ⟨hv, fx, fy, fz⟩ := (inHalfOpen_iff hb v).mp h
  have key : ∀ (q : Bool) (f : K), 0 ≤ f ∧ f < 1 → redAxis q f = f := by
    intro q f hf
    cases q with
    | true => exact Int.fract_eq_self.mpr hf
    | false => rfl
  rw [wrap_eq hb v hv, key _ _ fx, key _ _ fy, key _ _ fz]
  exact (comb_makeFractional hb v hv).symm

theorem allowed_of_periodic {b : Box K} (hx : b.px = true) (hy : b.py = true)
    (hz : b.pz = true) {n : Vec3 ℤ} (hn : b.is2D = true → n.z = 0) : AllowedShift b n := by
  refine ⟨fun h => ?_, fun h => ?_, fun h => ?_⟩
  · rw [hx] at h; cases h
  · rw [hy] at h; cases h
  · rcases h with h | h
    · rw [hz] at h; cases h
    · exact hn h

/-- The copy made for the loop values `m` is the point moved by `m` plus a multiple of the box
vectors of the enlarged box. -/
theorem wrap_copy {b : Box K} (hb : Valid b) (hp : Positive b) {buff : Vec3 K} (hn : NonNeg buff)
    {p : Vec3 K} (hpl : Planar b p) (m : Vec3 ℤ) :
    InHalfOpen (bufferBox b buff true) ((bufferBox b buff true).wrap (p + lattice b m)) ∧
    ∃ s : Vec3 ℤ, (b.is2D = true → s.z = 0) ∧
      (bufferBox b buff true).wrap (p + lattice b m) = p + lattice b (m + scaled buff s) := by
  have hbb := bufferBox_valid hp hn true
  obtain ⟨px, py, pz⟩ := bufferBox_periodic b buff true
  have hv : Planar (bufferBox b buff true) (p + lattice b m) :=
    planar_buffer.mpr (planar_add hpl (lattice_planar hb m))
  refine ⟨wrap_inHalfOpen hbb px py pz _ hv,
    wrapShift (bufferBox b buff true) (p + lattice b m), fun h => ?_, ?_⟩
  rotate_left
  · rw [wrap_eq_add_lattice hbb _ hv, lattice_buffer hb, vec_add_assoc, lattice_add]
  · exact (wrapShift_allowed (bufferBox b buff true) _).2.2 (Or.inr (by rw [bufferBox_2D]; exact h))

/-- Copies that differ by box vectors of the enlarged box are wrapped to the same position. -/
theorem wrap_same {b : Box K} (hb : Valid b) (hp : Positive b) {buff : Vec3 K} (hn : NonNeg buff)
    {p : Vec3 K} (hpl : Planar b p) (m s : Vec3 ℤ) (hs : b.is2D = true → s.z = 0) :
    (bufferBox b buff true).wrap (p + lattice b (m + scaled buff s)) =
      (bufferBox b buff true).wrap (p + lattice b m) := by
  have hbb := bufferBox_valid hp hn true
  obtain ⟨px, py, pz⟩ := bufferBox_periodic b buff true
  have hv : Planar (bufferBox b buff true) (p + lattice b m) :=
    planar_buffer.mpr (planar_add hpl (lattice_planar hb m))
  rw [← lattice_add, ← vec_add_assoc, ← lattice_buffer hb]
  exact wrap_add_lattice hbb _ hv s (allowed_of_periodic px py pz (by rw [bufferBox_2D]; exact hs))


end PeriodicBuffer
end Freud
