import Verif.Lemmas.CellQuery
import Verif.Spec.AllPeriodic
import Verif.Props.BallQuery

/-!
# The grid of `CellQuery` contains all images that a ball query needs
-/

namespace Freud
namespace CellQuery
open Spec

theorem allPeriodic_valid {b : Box ℝ} (hb : Valid b) : Valid (allPeriodic b) :=
  ⟨hb.lo_eq, hb.Lx_ne, hb.Ly_ne, hb.Lz_ne, hb.Lz_2D⟩

theorem allPeriodic_eq {b : Box ℝ} (h : FullyPeriodic b) : allPeriodic b = b := by
  obtain ⟨h1, h2, h3⟩ := h
  cases b
  simp only at h1 h2 h3
  subst h1 h2 h3
  rfl

theorem allowed_all {b : Box ℝ} {n : Vec3 ℤ} (h : b.is2D = true → n.z = 0) :
    AllowedShift (allPeriodic b) n := by
  refine ⟨fun e => by simp [allPeriodic] at e, fun e => by simp [allPeriodic] at e, fun e => ?_⟩
  rcases e with e | e
  · simp [allPeriodic] at e
  · exact h e

theorem test_iff (q : Vec3 ℝ) (qi : ℕ) (r rMin : ℝ) (excl : Bool) (t : Tagged) (bd : Bond ℝ)
    (hr : 0 ≤ r) (hmin : 0 ≤ rMin) :
    test ⟨q, qi, r, rMin, excl, ⟨0, 0, 0⟩, 0, 0, none, 0, none, false⟩ t = some bd ↔
      bd.q = qi ∧ bd.weight = 1 ∧ bd.dist = Vec3.norm bd.vec ∧ (excl = true → bd.p ≠ qi) ∧
      rMin ≤ Vec3.norm bd.vec ∧ Vec3.norm bd.vec < r ∧ bd.p = realId t.idx ∧ bd.vec = t.p - q := by
  unfold test
  by_cases he : (excl && decide (realId t.idx = qi)) = true
  · rw [if_pos he]
    simp only [Bool.and_eq_true, decide_eq_true_eq] at he
    constructor
    · intro h; cases h
    · rintro ⟨-, -, -, h, -, -, h2, -⟩
      exact absurd (h2.trans he.2) (h he.1)
  · rw [if_neg he]
    simp only [Bool.and_eq_true, decide_eq_true_eq, not_and] at he
    simp only
    generalize hv : t.p - q = v
    by_cases hc : Vec3.dot v v < r * r ∧ Vec3.dot v v ≥ rMin * rMin
    · rw [if_pos hc, Option.some.injEq]
      constructor
      · rintro rfl
        exact ⟨rfl, rfl, rfl, fun h => he h, (le_norm_iff v _ hmin).mpr hc.2,
          (norm_lt_iff v _ hr).mpr hc.1, rfl, rfl⟩
      · rintro ⟨h1, h2, h3, -, -, -, h4, h5⟩
        obtain ⟨q', p', d', w', u'⟩ := bd
        simp only at h1 h2 h3 h4 h5
        subst h1 h2 h3 h4 h5
        rfl
    · rw [if_neg hc]
      constructor
      · intro h; cases h
      · rintro ⟨-, -, -, -, h1, h2, -, h3⟩
        rw [h3] at h1 h2
        exact absurd ⟨(norm_lt_iff v _ hr).mp h2, (le_norm_iff v _ hmin).mp h1⟩ hc

theorem abs_le_norm (v : Vec3 ℝ) :
    |v.x| ≤ Vec3.norm v ∧ |v.y| ≤ Vec3.norm v ∧ |v.z| ≤ Vec3.norm v := by
  have e1 : Vec3.norm v ^ 2 = Vec3.dot v v := Real.sq_sqrt (dot_nonneg _)
  have hn := norm_nonneg' v
  simp only [Vec3.dot] at e1
  refine ⟨?_, ?_, ?_⟩ <;> apply abs_le_of_sq_le_sq' _ hn |>.2 <;> rw [sq_abs, e1] <;>
    nlinarith [mul_self_nonneg v.x, mul_self_nonneg v.y, mul_self_nonneg v.z]

theorem mul_min_bounds (f a : ℝ) (h0 : 0 ≤ f) (h1 : f ≤ 1) :
    0 ≤ f * a - min 0 a ∧ f * a - min 0 a ≤ |a| := by
  rcases le_total 0 a with h | h
  · rw [min_eq_left h, abs_of_nonneg h]; constructor <;> nlinarith
  · rw [min_eq_right h, abs_of_nonpos h]; constructor <;> nlinarith

/-- Where in the grid the box is. -/
theorem inCell_grid {b : Box ℝ} (hb : Valid b) (hL : PositiveLengths b) (R : ℝ) {q : Vec3 ℝ}
    (hq : InCell b q) :
    (R ≤ q.x - (gridMin b R).x ∧
      q.x - (gridMin b R).x ≤ b.L.x + b.L.y * |b.xy| + b.L.z * |b.xz| + R) ∧
    (R ≤ q.y - (gridMin b R).y ∧ q.y - (gridMin b R).y ≤ b.L.y + b.L.z * |b.yz| + R) ∧
    (R ≤ q.z - (gridMin b R).z ∧ q.z - (gridMin b R).z ≤ b.L.z + R) := by
  obtain ⟨f, ⟨hf, -⟩, ⟨fx0, fx1⟩, ⟨fy0, fy1⟩, ⟨fz0, fz1⟩⟩ := hq
  obtain ⟨h1, h2, h3⟩ := hL
  have hz : 0 ≤ b.L.z := by
    cases h : b.is2D with
    | true => exact (hb.Lz_2D h).ge
    | false => exact (h3 h).le
  obtain ⟨a1', a2'⟩ := mul_min_bounds f.y b.xy fy0 fy1
  obtain ⟨b1', b2'⟩ := mul_min_bounds f.z b.xz fz0 fz1
  obtain ⟨c1', c2'⟩ := mul_min_bounds f.z b.yz fz0 fz1
  have e0 : b.makeAbsolute ⟨0, 0, 0⟩ = ⟨-(b.L.x / 2) + (b.xy * -(b.L.y / 2) + b.xz * -(b.L.z / 2)),
      -(b.L.y / 2) + b.yz * -(b.L.z / 2), -(b.L.z / 2)⟩ := by
    unfold Box.makeAbsolute
    rw [hb.lo_eq]
    cases h : b.is2D with
    | true => ext <;> simp [Vec3.cmul, hb.Lz_2D h]
    | false => ext <;> simp [Vec3.cmul]
  have ex : q.x - (gridMin b R).x = f.x * b.L.x + b.L.y * (f.y * b.xy - min 0 b.xy) +
      b.L.z * (f.z * b.xz - min 0 b.xz) + R := by
    rw [hf]; simp only [gridMin, e0, comb, a1, a2, a3, Vec3.add_x]; ring
  have ey : q.y - (gridMin b R).y = f.y * b.L.y + b.L.z * (f.z * b.yz - min 0 b.yz) + R := by
    rw [hf]; simp only [gridMin, e0, comb, a1, a2, a3, Vec3.add_y]; ring
  have ez : q.z - (gridMin b R).z = f.z * b.L.z + R := by
    rw [hf]; simp only [gridMin, e0, comb, a1, a2, a3, Vec3.add_z]; ring
  have m1 := mul_nonneg h2.le a1'
  have m2 := mul_le_mul_of_nonneg_left a2' h2.le
  have m3 := mul_nonneg hz b1'
  have m4 := mul_le_mul_of_nonneg_left b2' hz
  have m5 := mul_nonneg hz c1'
  have m6 := mul_le_mul_of_nonneg_left c2' hz
  have n1 := mul_nonneg fx0 h1.le
  have n2 := mul_nonneg fy0 h2.le
  have n3 := mul_nonneg fz0 hz
  have k1 : f.x * b.L.x ≤ b.L.x := by nlinarith
  have k2 : f.y * b.L.y ≤ b.L.y := by nlinarith
  have k3 : f.z * b.L.z ≤ b.L.z := by nlinarith
  rw [ex, ey, ez]
  refine ⟨⟨by linarith, by linarith⟩, ⟨by linarith, by linarith⟩, ⟨by linarith, by linarith⟩⟩

theorem floor_in (u w R : ℝ) (hR : 0 < R) (hw : 0 ≤ w) (h0 : 0 ≤ u) (h1 : u < w + 2 * R) :
    0 ≤ ⌊u * (1 / R)⌋ ∧ ⌊u * (1 / R)⌋ < ((⌊w * (1 / R)⌋₊ + 3 : ℕ) : ℤ) := by
  constructor
  · exact Int.floor_nonneg.mpr (by positivity)
  · rw [Int.floor_lt]
    have h2 := Nat.lt_floor_add_one (w * (1 / R))
    have h3 : u * (1 / R) < (w + 2 * R) * (1 / R) := by
      apply mul_lt_mul_of_pos_right h1; positivity
    have h4 : (w + 2 * R) * (1 / R) = w * (1 / R) + 2 := by field_simp
    push_cast
    linarith

theorem floor_near (u v R : ℝ) (hR : 0 < R) (h : |u - v| < R) :
    |⌊u * (1 / R)⌋ - ⌊v * (1 / R)⌋| ≤ 1 := by
  rw [abs_lt] at h
  have hi : (0 : ℝ) < 1 / R := by positivity
  have hRi : R * (1 / R) = 1 := by field_simp
  have e1 : u * (1 / R) < v * (1 / R) + 1 := by nlinarith
  have e2 : v * (1 / R) < u * (1 / R) + 1 := by nlinarith
  have f1 := Int.floor_le (u * (1 / R))
  have f2 := Int.lt_floor_add_one (u * (1 / R))
  have f3 := Int.floor_le (v * (1 / R))
  have f4 := Int.lt_floor_add_one (v * (1 / R))
  have g1 : (⌊u * (1 / R)⌋ : ℝ) < ((⌊v * (1 / R)⌋ + 2 : ℤ) : ℝ) := by push_cast; linarith
  have g2 : (⌊v * (1 / R)⌋ : ℝ) < ((⌊u * (1 / R)⌋ + 2 : ℤ) : ℝ) := by push_cast; linarith
  have k1 := Int.cast_lt.mp g1
  have k2 := Int.cast_lt.mp g2
  rw [abs_le]; omega

/-- A point less than the cell width away from the box is in the grid, and in a cell next to that of
the point of the box. -/
theorem near_grid {b : Box ℝ} (hb : Valid b) (hL : PositiveLengths b) {R : ℝ} (hR : 0 < R)
    {q t : Vec3 ℝ} (hq : InCell b q) (hs : Vec3.norm (t - q) < R) :
    (∃ c, cellIdxSafe (gridMin b R) (1 / R) (gridDims b R) t = some c) ∧
    |(cellXYZ (gridMin b R) (1 / R) t).x - (cellXYZ (gridMin b R) (1 / R) q).x| ≤ 1 ∧
    |(cellXYZ (gridMin b R) (1 / R) t).y - (cellXYZ (gridMin b R) (1 / R) q).y| ≤ 1 ∧
    |(cellXYZ (gridMin b R) (1 / R) t).z - (cellXYZ (gridMin b R) (1 / R) q).z| ≤ 1 := by
  obtain ⟨⟨gx0, gx1⟩, ⟨gy0, gy1⟩, ⟨gz0, gz1⟩⟩ := inCell_grid hb hL R hq
  obtain ⟨nx, ny, nz⟩ := abs_le_norm (t - q)
  simp only [Vec3.sub_x, Vec3.sub_y, Vec3.sub_z] at nx ny nz
  have hz : 0 ≤ b.L.z := by
    cases h : b.is2D with
    | true => exact (hb.Lz_2D h).ge
    | false => exact (hL.2.2 h).le
  have wx : 0 ≤ b.L.x + b.L.y * |b.xy| + b.L.z * |b.xz| := by
    have := hL.1; have := hL.2.1; positivity
  have wy : 0 ≤ b.L.y + b.L.z * |b.yz| := by have := hL.2.1; positivity
  have lx := abs_lt.mp (lt_of_le_of_lt nx hs)
  have ly := abs_lt.mp (lt_of_le_of_lt ny hs)
  have lz := abs_lt.mp (lt_of_le_of_lt nz hs)
  have fx := floor_in (t.x - (gridMin b R).x) _ R hR wx (by linarith) (by linarith)
  have fy := floor_in (t.y - (gridMin b R).y) _ R hR wy (by linarith) (by linarith)
  have fz := floor_in (t.z - (gridMin b R).z) _ R hR hz (by linarith) (by linarith)
  refine ⟨?_, ?_, ?_, ?_⟩
  · have hc := (cellIdxSafe_some (gridMin b R) (1 / R) (gridDims b R) t (((cellXYZ (gridMin b R) (1 / R) t).z * (gridDims b R).y +
      (cellXYZ (gridMin b R) (1 / R) t).y) * (gridDims b R).x + (cellXYZ (gridMin b R) (1 / R) t).x).toNat).mpr
      ⟨fx, fy, fz, Int.toNat_of_nonneg ?_⟩
    · exact ⟨_, hc⟩
    · have hx0 : 0 ≤ (cellXYZ (gridMin b R) (1 / R) t).x := fx.1
      have hy0 : 0 ≤ (cellXYZ (gridMin b R) (1 / R) t).y := fy.1
      have hz0 : 0 ≤ (cellXYZ (gridMin b R) (1 / R) t).z := fz.1
      positivity
  · exact floor_near _ _ R hR (by rw [show t.x - (gridMin b R).x - (q.x - (gridMin b R).x) = t.x - q.x by ring]; exact lt_of_le_of_lt nx hs)
  · exact floor_near _ _ R hR (by rw [show t.y - (gridMin b R).y - (q.y - (gridMin b R).y) = t.y - q.y by ring]; exact lt_of_le_of_lt ny hs)
  · exact floor_near _ _ R hR (by rw [show t.z - (gridMin b R).z - (q.z - (gridMin b R).z) = t.z - q.z by ring]; exact lt_of_le_of_lt nz hs)

/-- One axis: the image that is short is the one that gets a ghost. -/
theorem ghost_axis {f g D R : ℝ} {n : ℤ} (hD : 2 * R < D) (hDp : 0 < D) (f0 : 0 ≤ f) (f1 : f ≤ 1)
    (g0 : 0 ≤ g) (g1 : g ≤ 1) (h : |f + n - g| * D < R) (hn : -1 ≤ n ∧ n ≤ 1) :
    n = 0 ∨ n = ghostStep f (R / D) := by
  have hfr : R / D < 1 / 2 := by rw [div_lt_iff₀ hDp]; linarith
  have h' : |f + n - g| < R / D := by rw [lt_div_iff₀ hDp]; exact h
  rw [abs_lt] at h'
  unfold ghostStep
  have : n = -1 ∨ n = 0 ∨ n = 1 := by omega
  rcases this with rfl | rfl | rfl
  · right
    push_cast at h'
    rw [if_neg (by linarith), if_pos (by linarith)]; rfl
  · left; rfl
  · right
    push_cast at h'
    rw [if_pos (by linarith), if_neg (by linarith)]; rfl

/-- `R` is below half of all plane distances, also of the axes that are not periodic. -/
def Small (b : Box ℝ) (R : ℝ) : Prop :=
  2 * R < b.getNearestPlaneDistance.x ∧ 2 * R < b.getNearestPlaneDistance.y ∧
    (b.is2D = false → 2 * R < b.getNearestPlaneDistance.z)

theorem small_half {b : Box ℝ} {R : ℝ} (h : Small b R) : BelowHalf (allPeriodic b) R :=
  ⟨fun _ => h.1, fun _ => h.2.1, fun _ h2 => h.2.2 h2⟩

/-- The image of a point of the box that is near another one gets a ghost. -/
theorem short_ghost {b : Box ℝ} (hb : Valid b) (hL : PositiveLengths b) {R : ℝ} (hS : Small b R)
    {p q : Vec3 ℝ} (hp : InCell b p) (hq : InCell b q) {n : Vec3 ℤ}
    (hn : AllowedShift (allPeriodic b) n) (hs : Vec3.norm (p + lattice b n - q) < R) :
    GhostImage b R p n := by
  have hsteps := short_image_steps (allPeriodic_valid hb) (small_half hS) (p := p) (q := q) hp hq n hn
    (by
      have : p - q + lattice (allPeriodic b) n = p + lattice b n - q := by
        ext <;> simp [lattice, comb, allPeriodic, a1, a2, a3] <;> ring
      rw [this]; exact hs)
  obtain ⟨px, py, pz⟩ := planes_pos hL
  obtain ⟨f, hf, fx, fy, fz⟩ := hp
  obtain ⟨g, hg, gx, gy, gz⟩ := hq
  have hfr := hasCoords_frac hb hf
  have hv : p + lattice b n - q = comb b (f.x + n.x - g.x) (f.y + n.y - g.y) (f.z + n.z - g.z) := by
    rw [hf.1, hg.1]
    ext <;> simp only [lattice, comb, Vec3.add_x, Vec3.add_y, Vec3.add_z, Vec3.sub_x, Vec3.sub_y,
      Vec3.sub_z] <;> ring
  rw [hv] at hs
  obtain ⟨c1, c2, c3⟩ := comb_plane hL (f.x + n.x - g.x) (f.y + n.y - g.y) (f.z + n.z - g.z)
  refine ⟨?_, ?_, ?_⟩ <;> rw [← hfr]
  · exact ghost_axis hS.1 px fx.1 fx.2 gx.1 gx.2 (lt_of_le_of_lt c1 hs) hsteps.1
  · exact ghost_axis hS.2.1 py fy.1 fy.2 gy.1 gy.2 (lt_of_le_of_lt c2 hs) hsteps.2.1
  · cases h2 : b.is2D with
    | true => exact Or.inl (hn.2.2 (Or.inr h2))
    | false =>
      rcases ghost_axis (D := b.getNearestPlaneDistance.z) (hS.2.2 h2) (pz h2) fz.1 fz.2 gz.1 gz.2
        (lt_of_le_of_lt c3 hs) hsteps.2.2 with h | h
      · exact Or.inl h
      · exact Or.inr ⟨rfl, h⟩

/-- The bonds around a query point of the box on a grid that is at least as wide as the cutoff. -/
theorem around_exact {b : Box ℝ} (hb : Valid b) (hL : PositiveLengths b) {pts : List (Vec3 ℝ)}
    (hpts : ∀ p ∈ pts, InCell b p) {R : ℝ} (hR : 0 < R) (hS : Small b R) {g : Grid}
    (hg : Built b pts R g) {q : Vec3 ℝ} (hq : InCell b q) (qi : ℕ) {r rMin : ℝ} (hr : 0 < r)
    (hrR : r ≤ R) (hmin : 0 ≤ rMin) (excl : Bool) (bd : Bond ℝ) :
    bd ∈ around g q qi r rMin excl ↔ IsBallBond (allPeriodic b) pts q qi r rMin excl bd := by
  rw [mem_around hg]
  unfold IsBallBond
  constructor
  · rintro ⟨-, ⟨c, t⟩, hm, -, ht⟩
    simp only at ht
    obtain ⟨h1, h2, h3, h4, h5, h6, h7, h8⟩ := (test_iff q qi r rMin excl t bd hr.le hmin).mp ht
    refine ⟨h1, h2, h3, h4, h5, h6, ?_⟩
    obtain ⟨-, i, p, n, hp, hn, htp, hti⟩ := (mem_mapping b pts R c t).mp hm
    have hi : realId t.idx = i := by
      rw [hti]; split
      · exact realId_real i
      · exact realId_ghost i
    refine ⟨p, by rw [h7, hi]; exact hp, n, allowed_all (ghostImage_range hn).2.2.2, ?_⟩
    rw [h8, htp]
    ext <;> simp [lattice, comb, allPeriodic, a1, a2, a3] <;> ring
  · rintro ⟨h1, h2, h3, h4, h5, h6, p, hp, n, hn, hv⟩
    have hv' : bd.vec = p + lattice b n - q := by
      rw [hv]
      ext <;> simp [lattice, comb, allPeriodic, a1, a2, a3] <;> ring
    have hsR : Vec3.norm (p + lattice b n - q) < R := by rw [← hv']; exact lt_of_lt_of_le h6 hrR
    have hgi := short_ghost hb hL hS (hpts p (List.mem_of_getElem? hp)) hq hn hsR
    obtain ⟨⟨c, hc⟩, n1, n2, n3⟩ := near_grid hb hL hR hq hsR
    obtain ⟨⟨cq, hcq⟩, -⟩ := near_grid hb hL hR hq (t := q)
      (by
        have : Vec3.norm (q - q) = 0 := by
          simp [Vec3.norm, Vec3.dot]
        rw [this]; exact hR)
    refine ⟨⟨cq, ?_⟩, ⟨c, ⟨p + lattice b n, if n = ⟨0, 0, 0⟩ then (bd.p : ℤ) else ghostTag bd.p⟩⟩,
      (mem_mapping b pts R _ _).mpr ⟨hc, bd.p, p, n, hp, hgi, rfl, rfl⟩, ?_, ?_⟩
    · rw [hg.inv, hg.minPos, hg.nx, hg.ny, hg.nz]; exact hcq
    · simp only [Grid.xyz, hg.inv, hg.minPos]
      exact ⟨n1, n2, n3⟩
    · apply (test_iff q qi r rMin excl _ bd hr.le hmin).mpr
      refine ⟨h1, h2, h3, h4, h5, h6, ?_, hv'⟩
      simp only
      split
      · exact (realId_real _).symm
      · exact (realId_ghost _).symm

/-! ### No entry twice -/

theorem generateGhosts_nodup {b : Box ℝ} (hb : Valid b) (R : ℝ) (p : Vec3 ℝ) :
    (generateGhosts b R p).Nodup := by
  obtain ⟨dx, dy, dz, he, hi⟩ := ghost_steps b R p
  rw [he]
  apply List.Nodup.map_on _ (ghostSites_nodup dx dy dz)
  have key : ∀ s : ℤ × ℤ × ℤ, s ∈ ghostSites dx dy dz →
      newSite b s.1 s.2.1 s.2.2 = lattice b ⟨s.1, s.2.1, s.2.2⟩ ∧
      AllowedShift (allPeriodic b) ⟨s.1, s.2.1, s.2.2⟩ := by
    rintro ⟨i, j, k⟩ hm
    rw [mem_ghostSites] at hm
    have hr := ghostImage_range ((hi ⟨i, j, k⟩).mpr ⟨hm.1, hm.2.1, hm.2.2.1⟩)
    exact ⟨newSite_eq b i j k hr.1 hr.2.1 hr.2.2.1 hr.2.2.2, allowed_all hr.2.2.2⟩
  intro s hs s' hs' e
  obtain ⟨e1, a1⟩ := key s hs
  obtain ⟨e2, a2⟩ := key s' hs'
  rw [e1, e2] at e
  have := lattice_inj (allPeriodic_valid hb) a1 a2 e
  simp only [Vec3.mk.injEq] at this
  obtain ⟨i, j, k⟩ := s
  obtain ⟨i', j', k'⟩ := s'
  simp only at this
  rw [this.1, this.2.1, this.2.2]

theorem add_left_inj' {p s s' : Vec3 ℝ} (h : p + s = p + s') : s = s' := by
  have hx := congrArg Vec3.x h
  have hy := congrArg Vec3.y h
  have hz := congrArg Vec3.z h
  simp only [Vec3.add_x, Vec3.add_y, Vec3.add_z] at hx hy hz
  ext <;> linarith

theorem entries_nodup {b : Box ℝ} (hb : Valid b) (R : ℝ) (cell : Vec3 ℝ → Option ℕ) (p : Vec3 ℝ)
    (i : ℕ) : (entries b R cell p i).Nodup := by
  unfold entries
  rw [List.nodup_append]
  refine ⟨?_, ?_, ?_⟩
  · apply List.Nodup.filterMap _ (generateGhosts_nodup hb R p)
    intro s s' e h1 h2
    obtain ⟨c, -, rfl⟩ := Option.map_eq_some_iff.mp h1
    obtain ⟨c', -, h2⟩ := Option.map_eq_some_iff.mp h2
    simp only [Prod.mk.injEq, Tagged.mk.injEq] at h2
    exact (add_left_inj' h2.2.1).symm
  · cases cell p <;> simp
  · intro e he e' he' heq
    subst heq
    obtain ⟨s, -, h1⟩ := List.mem_filterMap.mp he
    obtain ⟨c, -, rfl⟩ := Option.map_eq_some_iff.mp h1
    rw [Option.mem_toList] at he'
    obtain ⟨c', -, h2⟩ := Option.map_eq_some_iff.mp he'
    simp only [Prod.mk.injEq, Tagged.mk.injEq, ghostTag] at h2
    omega

theorem entries_id {b : Box ℝ} {R : ℝ} {cell : Vec3 ℝ → Option ℕ} {p : Vec3 ℝ}
    {i : ℕ} {e : ℕ × Tagged} (h : e ∈ entries b R cell p i) : realId e.2.idx = i := by
  rcases List.mem_append.mp h with he | he
  · obtain ⟨s, -, h1⟩ := List.mem_filterMap.mp he
    obtain ⟨c, -, rfl⟩ := Option.map_eq_some_iff.mp h1
    exact realId_ghost i
  · rw [Option.mem_toList] at he
    obtain ⟨c, -, rfl⟩ := Option.map_eq_some_iff.mp he
    exact realId_real i

theorem mapping_nodup {b : Box ℝ} (hb : Valid b) (pts : List (Vec3 ℝ)) (R : ℝ) :
    (mapping b pts R).Nodup := by
  unfold mapping
  rw [List.nodup_flatMap]
  refine ⟨fun pi _ => entries_nodup hb R _ _ _, ?_⟩
  have hidx : List.Pairwise (fun a c : Vec3 ℝ × ℕ => a.2 ≠ c.2) pts.zipIdx := by
    rw [← List.pairwise_map (f := Prod.snd) (R := (· ≠ ·)), List.zipIdx_map_snd]
    exact List.nodup_range'
  refine hidx.imp ?_
  intro a c hac
  rw [Function.onFun, List.disjoint_left]
  intro e h1 h2
  exact hac ((entries_id h1).symm.trans (entries_id h2))

theorem cellList_nodup {m : List (ℕ × Tagged)} (hm : m.Nodup) (c : ℕ) : (cellList m c).Nodup := by
  unfold cellList reals ghosts
  rw [List.nodup_append]
  refine ⟨?_, ?_, ?_⟩
  · apply List.Nodup.map_on _ (hm.filter _)
    rintro ⟨x, t⟩ hx ⟨y, u⟩ hy h
    simp only [List.mem_filter, decide_eq_true_eq] at hx hy
    simp only at h
    rw [hx.2.1, hy.2.1, h]
  · apply List.Nodup.map_on _ (hm.filter _)
    rintro ⟨x, t⟩ hx ⟨y, u⟩ hy h
    simp only [List.mem_filter, decide_eq_true_eq] at hx hy
    simp only at h
    rw [hx.2.1, hy.2.1, h]
  · intro t ht u hu e
    subst e
    simp only [List.mem_map, List.mem_filter, decide_eq_true_eq] at ht hu
    obtain ⟨e1, h1, h2⟩ := ht
    obtain ⟨e2, h3, h4⟩ := hu
    rw [h2] at h1
    rw [h4] at h3
    omega

theorem rowEntries_nodup {b : Box ℝ} (hb : Valid b) {pts : List (Vec3 ℝ)} {R : ℝ} {g : Grid}
    (h : Built b pts R g) (it : Iter) (hx : 0 ≤ it.cell.x ∧ it.cell.x < g.nx) (d : ℤ × ℤ) :
    (rowEntries g it d).Nodup := by
  by_cases hd : InGrid g it.cell d
  · obtain ⟨s, e, -, hr, -⟩ := rowEntries_eq h it hx d hd
    rw [hr, List.nodup_flatMap]
    refine ⟨fun c _ => cellList_nodup (mapping_nodup hb pts R) c, ?_⟩
    refine (List.nodup_range' (s := s) (n := e + 1 - s)).imp ?_
    intro c c' hcc
    rw [Function.onFun, List.disjoint_left]
    intro t h1 h2
    rw [mem_cellList] at h1 h2
    have e1 := mapping_lt b pts R _ h1
    have e2 := mapping_lt b pts R _ h2
    exact hcc (Option.some.inj (e1.symm.trans e2))
  · rw [rowEntries, if_neg hd]
    exact List.nodup_nil

theorem nine_nodup : nine.Nodup := by decide

theorem around_nodup {b : Box ℝ} (hb : Valid b) {pts : List (Vec3 ℝ)}
    (hpts : ∀ p ∈ pts, InCell b p) {R : ℝ} (hS : Small b R) {g : Grid}
    (hg : Built b pts R g) {q : Vec3 ℝ} (hq : InCell b q) (qi : ℕ) {r rMin : ℝ} (hr : 0 < r)
    (hrR : r ≤ R) (hmin : 0 ≤ rMin) (excl : Bool) :
    ((around g q qi r rMin excl).map (·.p)).Nodup := by
  unfold around
  cases hc : cellIdxSafe g.minPos g.inv ⟨g.nx, g.ny, g.nz⟩ q with
  | none => simp
  | some c =>
    have hx := ((cellIdxSafe_some _ _ _ _ _).mp hc).1
    simp only
    set it : Iter := ⟨q, qi, r, rMin, excl, cellXYZ g.minPos g.inv q, -1, -1, none, 0, none, false⟩
      with hit
    have hflat : nine.flatMap (rowBonds g it) = (nine.flatMap (rowEntries g it)).filterMap (test it) := by
      rw [List.filterMap_flatMap]
      rfl
    rw [hflat]
    have hnd : (nine.flatMap (rowEntries g it)).Nodup := by
      rw [List.nodup_flatMap]
      refine ⟨fun d _ => rowEntries_nodup hb hg it hx d, nine_nodup.imp ?_⟩
      intro d d' hdd
      rw [Function.onFun, List.disjoint_left]
      intro t h1 h2
      obtain ⟨c1, -, e1, e2, -⟩ := (mem_rowEntries hg it hx d t).mp h1
      obtain ⟨c2, -, e3, e4, -⟩ := (mem_rowEntries hg it hx d' t).mp h2
      apply hdd
      ext <;> omega
    have hsrc : ∀ t ∈ nine.flatMap (rowEntries g it), ∀ bd, test it t = some bd →
        ∃ p n, pts[bd.p]? = some p ∧ AllowedShift (allPeriodic b) n ∧ t.p = p + lattice b n ∧
          t.idx = (if n = ⟨0, 0, 0⟩ then (bd.p : ℤ) else ghostTag bd.p) ∧
          (allPeriodic b).wrap (p - q) = p - q + lattice b n := by
      intro t ht bd htest
      obtain ⟨d, -, hd⟩ := List.mem_flatMap.mp ht
      obtain ⟨c', hm, -⟩ := (mem_rowEntries hg it hx d t).mp hd
      obtain ⟨-, -, -, -, -, h6, h7, h8⟩ := (test_iff q qi r rMin excl t bd hr.le hmin).mp htest
      obtain ⟨-, i, p, n, hp, hn, htp, hti⟩ := (mem_mapping b pts R c' t).mp hm
      have hi : realId t.idx = i := by
        rw [hti]; split
        · exact realId_real i
        · exact realId_ghost i
      have hpi : bd.p = i := h7.trans hi
      have hall := allowed_all (b := b) (ghostImage_range hn).2.2.2
      have hv : p - q + lattice b n = bd.vec := by
        rw [h8, htp]; ext <;> simp <;> ring
      refine ⟨p, n, by rw [hpi]; exact hp, hall, htp, by rw [hpi]; exact hti, ?_⟩
      have hpin := hpts p (List.mem_of_getElem? hp)
      refine (wrap_of_short (allPeriodic_valid hb) (small_half hS)
        (v := p - q) (planar_sub (inCell_planar hb hpin) (inCell_planar hb hq)) ⟨n, hall, rfl⟩ ?_).1
      have : p - q + lattice (allPeriodic b) n = bd.vec := hv
      rw [this]
      exact lt_of_lt_of_le h6 hrR
    rw [List.Nodup, List.pairwise_map, List.pairwise_filterMap]
    refine hnd.imp_of_mem ?_
    intro t t' ht ht' hne bd hbd bd' hbd' e
    apply hne
    obtain ⟨p, n, h1, h2, h3, h4, h5⟩ := hsrc t ht bd hbd
    obtain ⟨p', n', h1', h2', h3', h4', h5'⟩ := hsrc t' ht' bd' hbd'
    rw [← e] at h1' h4'
    obtain rfl : p = p' := Option.some.inj (h1.symm.trans h1')
    have hl : lattice b n = lattice b n' := add_left_inj' (h5.symm.trans h5')
    have hnn := lattice_inj (allPeriodic_valid hb) h2 h2' hl
    obtain ⟨tp, ti⟩ := t
    obtain ⟨tp', ti'⟩ := t'
    simp only at h3 h3' h4 h4'
    rw [h3, h3', h4, h4', hnn]

end CellQuery
end Freud
