import Verif.Props.RepeatCell
import Verif.Props.KPoints
import Verif.Props.NamedCells
import Verif.Props.CrystalOrder
import Mathlib.Analysis.SpecialFunctions.Complex.Circle

/-!
# Property C116: crystals have Bragg peaks
-/

namespace Freud
open Spec PeriodicBuffer

/-- The structure factor of one cell with these basis positions, at the reflection with the integer indices `q`. -/
noncomputable def Spec.cellS (basis : List (Vec3 ℝ)) (q : Vec3 ℤ) : ℝ :=
  Complex.normSq (basis.map fun f =>
    Complex.exp (((2 * Real.pi * (q.x * f.x + q.y * f.y + q.z * f.z) : ℝ)) * Complex.I)).sum / basis.length

/-- The sum of the waves that the particles scatter. -/
noncomputable def waveSum (k : Vec3 ℝ) (pts : List (Vec3 ℝ)) : ℂ :=
  (pts.map fun p => Complex.exp ((Vec3.dot k p : ℝ) * Complex.I)).sum

theorem waveSum_re (k : Vec3 ℝ) (pts : List (Vec3 ℝ)) :
    (waveSum k pts).re = (pts.map fun r => Real.cos (Vec3.dot k r)).sum ∧
    (waveSum k pts).im = (pts.map fun r => Real.sin (Vec3.dot k r)).sum := by
  unfold waveSum
  induction pts with
  | nil => simp
  | cons p l ih =>
    simp only [List.map_cons, List.sum_cons, Complex.add_re, Complex.add_im, ih, Complex.exp_ofReal_mul_I_re,
      Complex.exp_ofReal_mul_I_im, and_self]

theorem directS_waveSum (b : Box ℝ) (pts : List (Vec3 ℝ)) (k : Vec3 ℝ) :
    directS ⟨b, pts, none, none⟩ k = Complex.normSq (waveSum k pts) / pts.length := by
  rw [Direct.directS_self _ rfl, Complex.normSq_apply, (waveSum_re k pts).1, (waveSum_re k pts).2, sq, sq]
  simp [sfTotal]

theorem waveSum_range (k : Vec3 ℝ) (pts : List (Vec3 ℝ)) :
    waveSum k pts = ∑ i ∈ Finset.range pts.length,
      Complex.exp ((Vec3.dot k (pts.getD i ⟨0, 0, 0⟩) : ℝ) * Complex.I) := by
  unfold waveSum
  induction pts with
  | nil => simp
  | cons p l ih =>
    rw [List.length_cons, Finset.sum_range_succ', List.map_cons, List.sum_cons, ih, add_comm]
    simp

theorem exp_int (x : ℝ) (n : ℤ) (h : x = n * (2 * Real.pi)) : Complex.exp ((x : ℝ) * Complex.I) = 1 := by
  rw [Complex.exp_eq_one_iff]
  exact ⟨n, by rw [h]; push_cast; ring⟩

theorem dot_add_right (k p q : Vec3 ℝ) : Vec3.dot k (p + q) = Vec3.dot k p + Vec3.dot k q := by
  simp [Vec3.dot]; ring

theorem exp_dot_add (k p q : Vec3 ℝ) : Complex.exp ((Vec3.dot k (p + q) : ℝ) * Complex.I) =
    Complex.exp ((Vec3.dot k p : ℝ) * Complex.I) * Complex.exp ((Vec3.dot k q : ℝ) * Complex.I) := by
  rw [dot_add_right, ← Complex.exp_add]
  push_cast
  ring_nf

/-- A wave that is commensurate with the box has the same phase at all images. -/
theorem exp_image {b : Box ℝ} {k : Vec3 ℝ} {n : Vec3 ℤ} (hk : IsWaveVector b k n) {v w : Vec3 ℝ} (h : IsImage b v w) :
    Complex.exp ((Vec3.dot k w : ℝ) * Complex.I) = Complex.exp ((Vec3.dot k v : ℝ) * Complex.I) := by
  obtain ⟨m, hm, rfl⟩ := h
  rw [exp_dot_add, exp_int _ _ (KPoints.dot_wave_lattice hk m fun h2 => hm.2.2 (Or.inr h2)), mul_one]

/-- If a wave vector is not commensurate with the box, then the phase differs at some images. -/
theorem exists_phase {b : Box ℝ} (hp : b.px = true ∧ b.py = true ∧ b.pz = true) {k : Vec3 ℝ}
    (hz : b.is2D = true → k.z = 0) (hk : ¬ ∃ n, IsWaveVector b k n) :
    ∃ e, AllowedShift b e ∧ Complex.exp ((Vec3.dot k (lattice b e) : ℝ) * Complex.I) ≠ 1 := by
  by_contra hcon
  push Not at hcon
  apply hk
  obtain ⟨p1, p2, p3⟩ := hp
  have key : ∀ e, AllowedShift b e → ∃ n : ℤ, Vec3.dot k (lattice b e) = 2 * Real.pi * n := by
    intro e he
    obtain ⟨n, hn⟩ := Complex.exp_eq_one_iff.mp (hcon e he)
    refine ⟨n, ?_⟩
    have : ((Vec3.dot k (lattice b e) : ℝ) : ℂ) = ((2 * Real.pi * n : ℝ) : ℂ) := by
      apply mul_right_cancel₀ Complex.I_ne_zero
      rw [hn]; push_cast; ring
    exact_mod_cast this
  obtain ⟨n1, h1⟩ := key ⟨1, 0, 0⟩ (by simp [AllowedShift, p1, p2, p3])
  obtain ⟨n2, h2⟩ := key ⟨0, 1, 0⟩ (by simp [AllowedShift, p1, p2, p3])
  have e1 : lattice b ⟨1, 0, 0⟩ = a1 b := by ext <;> simp [lattice, comb]
  have e2 : lattice b ⟨0, 1, 0⟩ = a2 b := by ext <;> simp [lattice, comb]
  have e3 : lattice b ⟨0, 0, 1⟩ = a3 b := by ext <;> simp [lattice, comb]
  rw [e1] at h1
  rw [e2] at h2
  cases hd : b.is2D with
  | true => exact ⟨⟨n1, n2, 0⟩, h1, h2, by simp [hd, hz hd]⟩
  | false =>
    obtain ⟨n3, h3⟩ := key ⟨0, 0, 1⟩ (by simp [AllowedShift, p1, p2, p3, hd])
    rw [e3] at h3
    exact ⟨⟨n1, n2, n3⟩, h1, h2, by simp [hd, h3]⟩

section larger
variable {b b' : Box ℝ} {t : Vec3 ℝ} {φ : ℕ → ℕ} {pts pts' : List (Vec3 ℝ)}

/-- Between the waves of the smaller cell the particles of the larger cell scatter nothing. -/
theorem waveSum_zero (hl : CoarserLattice b b') (hp : b.px = true ∧ b.py = true ∧ b.pz = true)
    (h : Repeated b b' t φ pts pts') {k : Vec3 ℝ} {n' : Vec3 ℤ} (hk' : IsWaveVector b' k n')
    (hk : ¬ ∃ n, IsWaveVector b k n) : waveSum k pts' = 0 := by
  have hz : b.is2D = true → k.z = 0 := fun h2 => by
    have := hk'.2.2
    rw [hl.dims, if_pos h2] at this
    exact this.1
  obtain ⟨e, he, hne⟩ := exists_phase hp hz hk
  have hex : ∀ i, i < pts'.length → ∃ i', i' < pts'.length ∧ φ i' = φ i ∧
      IsImage b' (pts'.getD i ⟨0, 0, 0⟩ + lattice b e) (pts'.getD i' ⟨0, 0, 0⟩) := by
    intro i hi
    obtain ⟨p, hp, him⟩ := h.point i _ (List.getElem?_eq_getElem hi)
    obtain ⟨i', p', e1, e2, e3⟩ := h.all (φ i) p (pts'[i] + lattice b e) hp (isImage_trans him ⟨e, he, rfl⟩)
    have hi' := (List.getElem?_eq_some_iff.mp e2).1
    refine ⟨i', hi', e1, ?_⟩
    rw [List.getD_eq_getElem?_getD, List.getElem?_eq_getElem hi, List.getD_eq_getElem?_getD, e2]
    exact e3
  choose! σ hσ using hex
  have hsum : ∑ i ∈ Finset.range pts'.length, Complex.exp ((Vec3.dot k (pts'.getD (σ i) ⟨0, 0, 0⟩) : ℝ) * Complex.I) =
      ∑ i ∈ Finset.range pts'.length, Complex.exp ((Vec3.dot k (pts'.getD i ⟨0, 0, 0⟩) : ℝ) * Complex.I) := by
    have hmaps : Set.MapsTo σ (Finset.range pts'.length : Set ℕ) (Finset.range pts'.length) := fun i hi => by
      simpa using (hσ i (by simpa using hi)).1
    have hinj : Set.InjOn σ (Finset.range pts'.length : Set ℕ) := fun i hi l hl he => by
      have hi : i < pts'.length := by simpa using hi
      have hl : l < pts'.length := by simpa using hl
      obtain ⟨-, a1, a2⟩ := hσ i hi
      obtain ⟨-, b1, b2⟩ := hσ l hl
      rw [he] at a1 a2
      have him := isImage_sub (isImage_trans a2 (isImage_symm b2)) (lattice b e)
      refine h.once i l (pts'.getD i ⟨0, 0, 0⟩) (pts'.getD l ⟨0, 0, 0⟩) ?_ ?_ (a1.symm.trans b1) ?_
      · simp [List.getD_eq_getElem?_getD, hi]
      · simp [List.getD_eq_getElem?_getD, hl]
      · convert him using 1 <;> (ext <;> simp)
    exact Finset.sum_nbij σ hmaps hinj (Finset.surjOn_of_injOn_of_card_le σ hmaps hinj le_rfl) fun _ _ => rfl
  have hstep : waveSum k pts' = waveSum k pts' * Complex.exp ((Vec3.dot k (lattice b e) : ℝ) * Complex.I) := by
    conv_lhs => rw [waveSum_range, ← hsum]
    rw [waveSum_range, Finset.sum_mul]
    refine Finset.sum_congr rfl fun i hi => ?_
    rw [exp_image hk' (hσ i (Finset.mem_range.mp hi)).2.2, exp_dot_add]
  by_contra h0
  exact hne (mul_left_cancel₀ h0 (by rw [← hstep, mul_one]))

/-- At the waves of the smaller cell all copies scatter alike. -/
theorem waveSum_copies (h : Repeated b b' t φ pts pts') {m : ℕ} (hm : pts'.length = m * pts.length) {k : Vec3 ℝ}
    {n : Vec3 ℤ} (hk : IsWaveVector b k n) :
    waveSum k pts' = m * (Complex.exp ((Vec3.dot k t : ℝ) * Complex.I) * waveSum k pts) := by
  rw [waveSum_range, waveSum_range]
  have hterm : ∀ i ∈ Finset.range pts'.length, Complex.exp ((Vec3.dot k (pts'.getD i ⟨0, 0, 0⟩) : ℝ) * Complex.I) =
      Complex.exp ((Vec3.dot k t : ℝ) * Complex.I) *
        Complex.exp ((Vec3.dot k (pts.getD (φ i) ⟨0, 0, 0⟩) : ℝ) * Complex.I) := by
    intro i hi
    have hi := Finset.mem_range.mp hi
    obtain ⟨p, hp, him⟩ := h.point i _ (List.getElem?_eq_getElem hi)
    rw [List.getD_eq_getElem?_getD, List.getElem?_eq_getElem hi, List.getD_eq_getElem?_getD, hp, Option.getD_some,
      Option.getD_some, exp_image hk him, exp_dot_add, mul_comm]
  rw [Finset.sum_congr rfl hterm, ← Finset.mul_sum, ← Finset.sum_fiberwise_of_maps_to (g := φ)
    (t := Finset.range pts.length) (fun i hi => Finset.mem_range.mpr (h.lt (Finset.mem_range.mp hi)))]
  have hfib : ∀ j ∈ Finset.range pts.length, (∑ i ∈ (Finset.range pts'.length).filter fun i => φ i = j,
      Complex.exp ((Vec3.dot k (pts.getD (φ i) ⟨0, 0, 0⟩) : ℝ) * Complex.I)) =
      m * Complex.exp ((Vec3.dot k (pts.getD j ⟨0, 0, 0⟩) : ℝ) * Complex.I) := by
    intro j hj
    rw [Finset.sum_congr rfl (g := fun _ => Complex.exp ((Vec3.dot k (pts.getD j ⟨0, 0, 0⟩) : ℝ) * Complex.I))
      (fun i hi => by rw [(Finset.mem_filter.mp hi).2]), Finset.sum_const, nsmul_eq_mul]
    congr 2
    exact h.copies_card hm (Finset.mem_range.mp hj)
  rw [Finset.sum_congr rfl hfib, ← Finset.mul_sum]
  ring

/-- **C116**: a periodic system described by a cell that holds `m` cells of another description has, at the waves
that are commensurate with the smaller cell, `m` times the structure factor, and none at the other waves that are
commensurate with the larger cell. -/
theorem C116_larger_cell (m : ℕ) (hm : 1 ≤ m) (hl : CoarserLattice b b')
    (hp : b.px = true ∧ b.py = true ∧ b.pz = true) (h : Repeated b b' t φ pts pts') (hne : pts ≠ [])
    (hlen : pts'.length = m * pts.length) (k : Vec3 ℝ) (n' : Vec3 ℤ) (hk' : IsWaveVector b' k n') :
    ((∃ n, IsWaveVector b k n) →
      directS ⟨b', pts', none, none⟩ k = m * directS ⟨b, pts, none, none⟩ k) ∧
    ((¬ ∃ n, IsWaveVector b k n) → directS ⟨b', pts', none, none⟩ k = 0) := by
  rw [directS_waveSum, directS_waveSum]
  constructor
  · rintro ⟨n, hk⟩
    have hm0 : (m : ℝ) ≠ 0 := by exact_mod_cast (by omega : m ≠ 0)
    have hN : (pts.length : ℝ) ≠ 0 := by exact_mod_cast (List.length_pos_iff.mpr hne).ne'
    have he : Complex.normSq (Complex.exp ((Vec3.dot k t : ℝ) * Complex.I)) = 1 := by
      rw [Complex.normSq_eq_norm_sq, Complex.norm_exp_ofReal_mul_I]; norm_num
    rw [waveSum_copies h hlen hk, map_mul, map_mul, he, Complex.normSq_natCast, hlen]
    push_cast
    field_simp
  · intro hk
    rw [waveSum_zero hl hp h hk' hk]
    simp

end larger

/-! ### Crystals -/

theorem Placed.edges {u : UnitCell ℝ} {c : ℝ} {n : Vec3 ℤ} {t : Vec3 ℝ} {N : ℕ} {b : Box ℝ} {pos : List (Vec3 ℝ)}
    (g : Placed u c n t N b pos) : a1 b = Vec3.smul (c * n.x) (a1 u.box) ∧ a2 b = Vec3.smul (c * n.y) (a2 u.box) ∧
      a3 b = Vec3.smul (c * n.z) (a3 u.box) := by
  have h1 := g.lat ⟨1, 0, 0⟩
  have h2 := g.lat ⟨0, 1, 0⟩
  have h3 := g.lat ⟨0, 0, 1⟩
  simp only [lattice, comb, Vec3.smul, Vec3.mk.injEq] at h1 h2 h3
  refine ⟨?_, ?_, ?_⟩
  · ext <;> simp [h1] <;> simp_all <;> ring
  · ext <;> simp <;> simp_all <;> ring
  · ext <;> simp <;> simp_all <;> ring

/-- Which waves of the system are waves of the cell. -/
theorem reflection_iff {u : UnitCell ℝ} {c : ℝ} {n : Vec3 ℤ} {t t1 : Vec3 ℝ} {N N1 : ℕ} {b b1 : Box ℝ}
    {pos pos1 : List (Vec3 ℝ)} (g : Placed u c n t N b pos) (g1 : Placed u c ⟨1, 1, 1⟩ t1 N1 b1 pos1)
    (hn : 0 < n.x ∧ 0 < n.y ∧ 0 < n.z) (h2 : u.box.is2D = true → n.z = 1) {k : Vec3 ℝ} {h : Vec3 ℤ}
    (hk : IsWaveVector b k h) (q : Vec3 ℤ) :
    IsWaveVector b1 k q ↔ h = ⟨n.x * q.x, n.y * q.y, n.z * q.z⟩ := by
  obtain ⟨e1, e2, e3⟩ := g.edges
  obtain ⟨f1, f2, f3⟩ := g1.edges
  obtain ⟨k1, k2, k3⟩ := hk
  have hpi := Real.pi_pos
  have dots : ∀ (a : ℝ) (v : Vec3 ℝ), Vec3.dot k (Vec3.smul a v) = a * Vec3.dot k v := fun a v => by
    simp [Vec3.dot]; ring
  have key : ∀ (m h q : ℤ) (x : ℝ), 0 < m → c * m * x = 2 * Real.pi * h → (c * 1 * x = 2 * Real.pi * q ↔ h = m * q) := by
    intro m h q x hm e
    have hm' : (m : ℝ) ≠ 0 := by exact_mod_cast hm.ne'
    constructor
    · intro e'
      have : (h : ℝ) = m * q := by
        have : 2 * Real.pi * (h : ℝ) = 2 * Real.pi * (m * q) := by
          rw [← e]; linear_combination (m : ℝ) * e'
        exact mul_left_cancel₀ (by positivity) this
      exact_mod_cast this
    · rintro rfl
      apply mul_left_cancel₀ hm'
      push_cast at e
      linear_combination e
  rw [e1, dots] at k1
  rw [e2, dots] at k2
  have a := key n.x h.x q.x _ hn.1 k1
  have a' := key n.y h.y q.y _ hn.2.1 k2
  unfold IsWaveVector
  rw [f1, f2, f3, dots, dots, dots]
  simp only [Int.cast_one]
  rw [a, a']
  rw [g.dim] at k3
  rw [g1.dim]
  have hext : h = ⟨n.x * q.x, n.y * q.y, n.z * q.z⟩ ↔ h.x = n.x * q.x ∧ h.y = n.y * q.y ∧ h.z = n.z * q.z := by
    obtain ⟨x, y, z⟩ := h
    simp
  rw [hext]
  cases hd : u.box.is2D with
  | true =>
    rw [hd, if_pos rfl] at k3
    rw [if_pos rfl, h2 hd, one_mul, k3.2]
    simp [k3.1, eq_comm]
  | false =>
    rw [hd, if_neg (by decide), e3, dots] at k3
    rw [if_neg (by decide), key n.z h.z q.z _ hn.2.2 k3]

/-- The cell itself. -/
theorem cell_waves {u : UnitCell ℝ} (hu : GoodCell u.box) {c : ℝ} {t : Vec3 ℝ} {b : Box ℝ} {pos : List (Vec3 ℝ)}
    (g : Placed u c ⟨1, 1, 1⟩ t 1 b pos) (hlen : pos.length = u.basis.length) {k : Vec3 ℝ} {q : Vec3 ℤ}
    (hk : IsWaveVector b k q) : directS ⟨b, pos, none, none⟩ k = cellS u.basis q := by
  rw [directS_waveSum, cellS, hlen]
  congr 1
  obtain ⟨f1, f2, f3⟩ := g.edges
  set θ : ℝ := Vec3.dot k (Vec3.smul c t) - Real.pi * (q.x + q.y + q.z) with hθ
  have hk0 := hk
  obtain ⟨k1, k2, k3⟩ := hk
  have dots : ∀ (a : ℝ) (v : Vec3 ℝ), Vec3.dot k (Vec3.smul a v) = a * Vec3.dot k v := fun a v => by
    simp [Vec3.dot]; ring
  simp only [Int.cast_one, mul_one] at f1 f2 f3
  rw [f1, dots] at k1
  rw [f2, dots] at k2
  have k3' : c * Vec3.dot k (a3 u.box) = 2 * Real.pi * q.z := by
    cases hd : u.box.is2D with
    | true =>
      rw [g.dim, hd, if_pos rfl] at k3
      have hz := hu.valid.Lz_2D hd
      simp [Vec3.dot, a3, hz, k3.2]
    | false =>
      rwa [g.dim, hd, if_neg (by decide), f3, dots] at k3
  have hcomb : ∀ f : Vec3 ℝ, Vec3.dot k (Vec3.smul c (comb u.box (f.x - 1 / 2) (f.y - 1 / 2) (f.z - 1 / 2) + t)) =
      θ + 2 * Real.pi * (q.x * f.x + q.y * f.y + q.z * f.z) := by
    intro f
    have : Vec3.dot k (Vec3.smul c (comb u.box (f.x - 1 / 2) (f.y - 1 / 2) (f.z - 1 / 2) + t)) =
        (f.x - 1 / 2) * (c * Vec3.dot k (a1 u.box)) + (f.y - 1 / 2) * (c * Vec3.dot k (a2 u.box)) +
          (f.z - 1 / 2) * (c * Vec3.dot k (a3 u.box)) + Vec3.dot k (Vec3.smul c t) := by
      simp [Vec3.dot, comb]; ring
    rw [this, k1, k2, k3', hθ]
    ring
  have hsum : waveSum k pos = Complex.exp (θ * Complex.I) * (u.basis.map fun f =>
      Complex.exp (((2 * Real.pi * (q.x * f.x + q.y * f.y + q.z * f.z) : ℝ)) * Complex.I)).sum := by
    unfold waveSum
    rw [← List.sum_map_mul_left]
    congr 1
    refine List.ext_getElem? fun i => ?_
    rw [List.getElem?_map, List.getElem?_map]
    rcases lt_or_ge i pos.length with hi | hi
    · obtain ⟨f, hf, -, m, hm, e⟩ := g.point i _ (List.getElem?_eq_getElem hi)
      rw [Nat.div_one] at hf
      rw [hf, List.getElem?_eq_getElem hi, Option.map_some, Option.map_some]
      congr 1
      have him : IsImage b (Vec3.smul c (comb u.box (f.x - 1 / 2) (f.y - 1 / 2) (f.z - 1 / 2) + t)) pos[i] := by
        refine ⟨m, ?_, ?_⟩
        · rw [g.good.allowed, g.dim]; exact hm
        · rw [g.lat, e]
          ext <;> simp [lattice, comb] <;> ring
      rw [exp_image hk0 him, hcomb, ← Complex.exp_add]
      congr 1
      push_cast
      ring
    · rw [List.getElem?_eq_none hi, List.getElem?_eq_none (by omega)]
      rfl
  have he : Complex.normSq (Complex.exp (θ * Complex.I)) = 1 := by
    rw [Complex.normSq_eq_norm_sq, Complex.norm_exp_ofReal_mul_I]; norm_num
  rw [hsum, map_mul, he, one_mul]

/-- **C116**: the structure factor of the crystal that `generate_system` makes from a unit cell, at the wave vector
with the integer coordinates `h` with respect to the box of the crystal. If the numbers of replicas divide `h`, it is
the number of cells times the structure factor of one cell for the quotients, and else it is zero. -/
theorem C116_bragg (u : UnitCell ℝ) (hu : GoodCell u.box) (hne : u.basis ≠ []) (n : Vec3 ℤ) (scale : ℝ) (b : Box ℝ)
    (pos : List (Vec3 ℝ)) (hg : u.generateSystem n scale none = some (b, pos)) (k : Vec3 ℝ) (h : Vec3 ℤ)
    (hk : IsWaveVector b k h) :
    (∀ q : Vec3 ℤ, h = ⟨n.x * q.x, n.y * q.y, n.z * q.z⟩ →
      directS ⟨b, pos, none, none⟩ k = (n.x * n.y * n.z) * cellS u.basis q) ∧
    (¬ (n.x ∣ h.x ∧ n.y ∣ h.y ∧ n.z ∣ h.z) → directS ⟨b, pos, none, none⟩ k = 0) := by
  obtain ⟨hc, hn, hn2⟩ := generate_numbers hu hg
  obtain ⟨⟨b1, pos1⟩, h1⟩ : ∃ r, u.generateSystem ⟨1, 1, 1⟩ scale none = some r := by
    rw [← Option.ne_none_iff_exists', Ne, C59_raises_iff _ _ _ _ hu]
    simp [hc, hne]
  obtain ⟨t, -, g⟩ := placed hu hg
  obtain ⟨t1, -, g1⟩ := placed hu h1
  have hlen1 := C59_count u _ scale hu _ _ h1
  simp only [mul_one] at hlen1
  have hlen1 : pos1.length = u.basis.length := by exact_mod_cast hlen1
  have hg' : u.generateSystem ⟨n.x * (⟨1, 1, 1⟩ : Vec3 ℤ).x, n.y * (⟨1, 1, 1⟩ : Vec3 ℤ).y, n.z * (⟨1, 1, 1⟩ : Vec3 ℤ).z⟩
      scale none = some (b, pos) := by simpa using hg
  obtain ⟨c1, ⟨T, φ, c2⟩, -, -, m, c3, c4, c5, -⟩ := C109_generate u hu ⟨1, 1, 1⟩ n scale b1 b pos1 pos h1 hg'
  have hpne : pos1 ≠ [] := by
    rw [← List.length_pos_iff, hlen1, List.length_pos_iff]; exact hne
  obtain ⟨A, B⟩ := C116_larger_cell m c4 c1 g1.good.periodic c2 hpne c5 k h hk
  have hiff := reflection_iff g g1 hn hn2 hk
  constructor
  · intro q hq
    have hq' := (hiff q).mpr hq
    rw [A ⟨q, hq'⟩, cell_waves hu (by simpa using g1) hlen1 hq']
    have : (m : ℝ) = n.x * n.y * n.z := by exact_mod_cast c3
    rw [this]
  · intro hnd
    refine B ?_
    rintro ⟨q, hq⟩
    rw [(hiff q).mp hq] at hnd
    exact hnd ⟨dvd_mul_right _ _, dvd_mul_right _ _, dvd_mul_right _ _⟩

/-- **C116**, end to end: after a call of `compute` for such a crystal, with the wave vectors that are sampled for its
box, every bin holds the mean of these values over the wave vectors in it; so a bin without a reflection of the unit cell
holds zero, and a bin with reflections of one strength only holds this strength. -/
theorem C116_read (u : UnitCell ℝ) (hu : GoodCell u.box) (hne : u.basis ≠ []) (n : Vec3 ℤ) (scale : ℝ) (b : Box ℝ)
    (pos : List (Vec3 ℝ)) (hg : u.generateSystem n scale none = some (b, pos)) (bins : ℕ) (kMax kMin : ℝ)
    (a : RegularAxis ℝ) (ha : Direct.mkAxis bins kMax kMin = .ok a) (hs : bins ≤ OVERFLOW_BIN)
    (cast : Option ℤ → ℕ) (num : ℕ) (ks : List (Vec3 ℝ)) (hks : SampledAs cast b kMax kMin num ks) (r : Bool)
    (ev : List (ℕ × ℕ)) (hev : IsExecution ks.length ev) (order : List ℕ) (hord : order.Perm (List.range bins)) :
    ∃ s s' l, (Direct.new a).run [.compute r ⟨b, pos, none, none⟩ ks ev] = some s ∧
      s.read order = some (s', .value l) ∧ l.length = bins ∧ ∀ i < bins, ∀ k0 ∈ ks,
        edge kMin kMax bins i ≤ Vec3.norm k0 → Vec3.norm k0 < edge kMin kMax bins (i + 1) →
        ((∀ k ∈ ks, edge kMin kMax bins i ≤ Vec3.norm k → Vec3.norm k < edge kMin kMax bins (i + 1) →
          ∀ h, IsWaveVector b k h → ¬ (n.x ∣ h.x ∧ n.y ∣ h.y ∧ n.z ∣ h.z)) → l[i]? = some 0) ∧
        ∀ S, (∀ k ∈ ks, edge kMin kMax bins i ≤ Vec3.norm k → Vec3.norm k < edge kMin kMax bins (i + 1) →
          ∃ q : Vec3 ℤ, IsWaveVector b k ⟨n.x * q.x, n.y * q.y, n.z * q.z⟩ ∧ cellS u.basis q = S) →
          l[i]? = some (n.x * n.y * n.z * S) := by
  have hg0 : ¬ (bins = 0 ∨ kMax ≤ 0 ∨ kMin < 0 ∨ kMax ≤ kMin) := by
    intro hg
    rw [(Direct.C55_guards bins kMax kMin).1.mpr hg] at ha
    cases ha
  push Not at hg0
  have hpne : pos ≠ [] := generated_ne hu hne hg
  have hno : (none : Option (List (Vec3 ℝ))).isSome = (none : Option ℕ).isSome := rfl
  have hw : ∀ b, waveVectors (if r then none else none) b ks = ks := by
    intro b; cases r <;> rfl
  have legal : DirectLegal bins [.compute r ⟨b, pos, none, none⟩ ks ev] none := by
    unfold DirectLegal
    rw [if_pos hno, hw]
    exact ⟨hpne, by simp, hev, trivial⟩
  have frames : directFrames [.compute r ⟨b, pos, none, none⟩ ks ev] none [] = [(⟨b, pos, none, none⟩, ks)] := by
    unfold directFrames
    rw [if_pos hno, hw]
    unfold directFrames
    cases r <;> rfl
  have called : directCalled [.compute r ⟨b, pos, none, none⟩ ks ev] = true := by simp [directCalled]
  obtain ⟨s, s', hs1, hs2, -⟩ := Direct.C55_mean bins kMax kMin a ha hs _ legal order hord called
  rw [frames] at hs2
  obtain ⟨t, -, g⟩ := placed hu hg
  refine ⟨s, s', _, hs1, hs2, by simp, fun i hi k0 hk0 lo hi' => ?_⟩
  have hget : ∀ f : ℕ → ℝ, ((List.range bins).map f)[i]? = some (f i) := fun f => by simp [hi]
  have hsam : directSamples [(⟨b, pos, none, none⟩, ks)] =
      ks.map fun k => (Vec3.norm k, directS ⟨b, pos, none, none⟩ k) := by
    simp [directSamples]
  have const : ∀ x, (∀ k ∈ ks, edge kMin kMax bins i ≤ Vec3.norm k → Vec3.norm k < edge kMin kMax bins (i + 1) →
      directS ⟨b, pos, none, none⟩ k = x) →
      meanIn (edge kMin kMax bins i) (edge kMin kMax bins (i + 1)) (directSamples [(⟨b, pos, none, none⟩, ks)]) = x := by
    intro x hx
    rw [hsam]
    refine Direct.meanIn_const _ _ x _ _ (List.mem_map.mpr ⟨k0, hk0, rfl⟩) lo hi' fun c hc h1 h2 => ?_
    obtain ⟨k, hk, rfl⟩ := List.mem_map.mp hc
    exact hx k hk h1 h2
  constructor
  · intro hall
    rw [hget, const 0]
    intro k hk h1 h2
    obtain ⟨⟨h, hwv, -⟩, -⟩ := KPoints.C73_sound cast b g.good.valid kMax kMin hg0.2.2.1 hg0.2.1.le num ks hks k hk
    exact (C116_bragg u hu hne n scale b pos hg k h hwv).2 (hall k hk h1 h2 h hwv)
  · intro S hall
    rw [hget, const (n.x * n.y * n.z * S)]
    intro k hk h1 h2
    obtain ⟨q, hq, rfl⟩ := hall k hk h1 h2
    exact (C116_bragg u hu hne n scale b pos hg k _ hq).1 q rfl

/-! ### The named crystals -/

theorem exp_half (n : ℤ) (x : ℝ) (h : x = n / 2) : Complex.exp ((2 * Real.pi * x : ℝ) * Complex.I) = (-1) ^ n := by
  rw [h, ← Complex.exp_pi_mul_I, ← Complex.exp_int_mul]
  congr 1
  push_cast
  ring

/-- **C116** (simple cubic and square): all reflections are there. -/
theorem C116_sc (q : Vec3 ℤ) : ∃ u, UnitCell.sc = some u ∧ GoodCell u.box ∧ u.basis ≠ [] ∧ cellS u.basis q = 1 :=
  ⟨_, sc_cell, good_mk (by norm_num) (by norm_num) (by norm_num), by simp, by simp [cellS]⟩

theorem C116_square (q : Vec3 ℤ) : ∃ u, UnitCell.square = some u ∧ GoodCell u.box ∧ u.basis ≠ [] ∧ cellS u.basis q = 1 :=
  ⟨_, square_cell, good_mk (by norm_num) (by norm_num) (by simp), by simp, by simp [cellS]⟩

theorem neg_one_cases (n : ℤ) : (Even n ∧ ((-1 : ℂ) ^ n = 1)) ∨ (¬ Even n ∧ ((-1 : ℂ) ^ n = -1)) := by
  rcases Int.even_or_odd n with h | h
  · exact Or.inl ⟨h, h.neg_one_zpow⟩
  · exact Or.inr ⟨Int.not_even_iff_odd.mpr h, h.neg_one_zpow⟩

/-- **C116** (body-centered cubic): the reflections with an even sum of indices. -/
theorem C116_bcc (q : Vec3 ℤ) : ∃ u, UnitCell.bcc = some u ∧ GoodCell u.box ∧ u.basis ≠ [] ∧
    cellS u.basis q = if Even (q.x + q.y + q.z) then 2 else 0 := by
  refine ⟨_, ofLike_3D _ _ _ (by norm_num) (by norm_num) (by norm_num) _, good_mk (by norm_num) (by norm_num) (by norm_num),
    by simp, ?_⟩
  have h1 := exp_half (q.x + q.y + q.z) (q.x * (1 / 2) + q.y * (1 / 2) + q.z * (1 / 2)) (by push_cast; ring)
  have h0 := exp_half 0 (q.x * 0 + q.y * 0 + q.z * 0) (by simp)
  simp only [cellS, List.map_cons, List.map_nil, List.sum_cons, List.sum_nil, h1, h0]
  rcases neg_one_cases (q.x + q.y + q.z) with ⟨a, e⟩ | ⟨a, e⟩ <;> rw [e] <;> simp [a]
  norm_num [Complex.normSq_apply]

/-- **C116** (face-centered cubic): the reflections whose indices are all even or all odd. -/
theorem C116_fcc (q : Vec3 ℤ) : ∃ u, UnitCell.fcc = some u ∧ GoodCell u.box ∧ u.basis ≠ [] ∧
    cellS u.basis q = if (Even q.x ↔ Even q.y) ∧ (Even q.y ↔ Even q.z) then 4 else 0 := by
  refine ⟨_, ofLike_3D _ _ _ (by norm_num) (by norm_num) (by norm_num) _, good_mk (by norm_num) (by norm_num) (by norm_num),
    by simp, ?_⟩
  have h1 := exp_half (q.x + q.y) (q.x * (1 / 2) + q.y * (1 / 2) + q.z * 0) (by push_cast; ring)
  have h2 := exp_half (q.x + q.z) (q.x * (1 / 2) + q.y * 0 + q.z * (1 / 2)) (by push_cast; ring)
  have h3 := exp_half (q.y + q.z) (q.x * 0 + q.y * (1 / 2) + q.z * (1 / 2)) (by push_cast; ring)
  have h0 := exp_half 0 (q.x * 0 + q.y * 0 + q.z * 0) (by simp)
  have hz : ∀ a b : ℤ, (-1 : ℂ) ^ (a + b) = (-1) ^ a * (-1) ^ b := fun a b => zpow_add₀ (by norm_num) a b
  simp only [cellS, List.map_cons, List.map_nil, List.sum_cons, List.sum_nil, h1, h2, h3, h0, hz]
  rcases neg_one_cases q.x with ⟨a, e⟩ | ⟨a, e⟩ <;> rcases neg_one_cases q.y with ⟨a', e'⟩ | ⟨a', e'⟩ <;>
    rcases neg_one_cases q.z with ⟨a'', e''⟩ | ⟨a'', e''⟩ <;> rw [e, e', e''] <;>
    norm_num [a, a', a'', Complex.normSq_apply]

theorem centered_S (q : Vec3 ℤ) : cellS [⟨0, 0, 0⟩, ⟨1 / 2, 1 / 2, 0⟩] q = if Even (q.x + q.y) then 2 else 0 := by
  have h1 := exp_half (q.x + q.y) (q.x * (1 / 2) + q.y * (1 / 2) + q.z * 0) (by push_cast; ring)
  have h0 := exp_half 0 (q.x * 0 + q.y * 0 + q.z * 0) (by simp)
  simp only [cellS, List.map_cons, List.map_nil, List.sum_cons, List.sum_nil, h1, h0]
  rcases neg_one_cases (q.x + q.y) with ⟨a, e⟩ | ⟨a, e⟩ <;> rw [e] <;> simp [a]
  norm_num [Complex.normSq_apply]

/-- **C116** (hexagonal, in its rectangular cell): the reflections with an even sum of indices. -/
theorem C116_hex (q : Vec3 ℤ) : ∃ u, UnitCell.hex = some u ∧ GoodCell u.box ∧ u.basis ≠ [] ∧
    cellS u.basis q = if Even (q.x + q.y) then 2 else 0 :=
  ⟨_, hex_cell, good_mk (by norm_num) (by simp) (by simp), by simp, centered_S q⟩

/-- **C116** (rectangular cells, plain and centered). -/
theorem C116_rectangular (aspect : ℝ) (ha : 0 < aspect) (centered : Bool) (q : Vec3 ℤ) :
    ∃ u, UnitCell.rectangular aspect centered = some u ∧ GoodCell u.box ∧ u.basis ≠ [] ∧
      cellS u.basis q = if centered then (if Even (q.x + q.y) then 2 else 0) else 1 := by
  refine ⟨_, ofLike_2D _ _ (by norm_num) ha.ne' _, good_mk (by norm_num) ha (by simp), by simp, ?_⟩
  cases centered
  · simp [cellS]
  · simpa using centered_S q

theorem normSq_one_add (x : ℝ) : Complex.normSq (1 + Complex.exp ((x : ℝ) * Complex.I)) = 2 + 2 * Real.cos x := by
  rw [Complex.normSq_apply]
  simp only [Complex.add_re, Complex.one_re, Complex.add_im, Complex.one_im, Complex.exp_ofReal_mul_I_re,
    Complex.exp_ofReal_mul_I_im]
  nlinarith [Real.sin_sq_add_cos_sq x]

theorem cos_third (n : ℤ) : Real.cos (2 * Real.pi * (n / 3)) = if (3 : ℤ) ∣ n then 1 else -1 / 2 := by
  have e : 2 * Real.pi * ((n : ℝ) / 3) = ((n % 3 : ℤ) : ℝ) * (2 * Real.pi / 3) + (n / 3 : ℤ) * (2 * Real.pi) := by
    have := Int.emod_add_mul_ediv n 3
    have h : (n : ℝ) = ((n % 3 : ℤ) : ℝ) + 3 * ((n / 3 : ℤ) : ℝ) := by exact_mod_cast this.symm
    rw [h]; push_cast; ring
  rw [e, Real.cos_add_int_mul_two_pi]
  have c1 : Real.cos (2 * Real.pi / 3) = -1 / 2 := by
    rw [show 2 * Real.pi / 3 = Real.pi - Real.pi / 3 by ring, Real.cos_pi_sub, Real.cos_pi_div_three]; norm_num
  have c2 : Real.cos (2 * (2 * Real.pi / 3)) = -1 / 2 := by
    rw [Real.cos_two_mul, c1]; norm_num
  have h3 : n % 3 = 0 ∨ n % 3 = 1 ∨ n % 3 = 2 := by omega
  rcases h3 with h | h | h
  · rw [h, if_pos (by omega)]; simp
  · rw [h, if_neg (by omega)]; simpa using c1
  · rw [h, if_neg (by omega)]; simpa using c2

/-- **C116** (graphene, in its rectangular cell). -/
theorem C116_graphene (q : Vec3 ℤ) : ∃ u, UnitCell.graphene = some u ∧ GoodCell u.box ∧ u.basis ≠ [] ∧
    cellS u.basis q = if Even (q.x + q.y) then (if (3 : ℤ) ∣ q.y then 4 else 1) else 0 := by
  refine ⟨_, graphene_cell, good_mk (by norm_num) (by simp) (by simp), by simp, ?_⟩
  have h0 := exp_half 0 (q.x * 0 + q.y * 0 + q.z * 0) (by simp)
  have h1 := exp_half (q.x + q.y) (q.x * (1 / 2) + q.y * (1 / 2) + q.z * 0) (by push_cast; ring)
  have h2 : Complex.exp ((2 * Real.pi * (q.x * (1 / 2) + q.y * (5 / 6) + q.z * 0) : ℝ) * Complex.I) =
      (-1) ^ (q.x + q.y) * Complex.exp ((2 * Real.pi * (q.y / 3) : ℝ) * Complex.I) := by
    rw [← h1, ← Complex.exp_add]
    congr 1
    push_cast
    ring
  have h3 : Complex.exp ((2 * Real.pi * (q.x * 0 + q.y * (1 / 3) + q.z * 0) : ℝ) * Complex.I) =
      Complex.exp ((2 * Real.pi * (q.y / 3) : ℝ) * Complex.I) := by
    congr 1
    push_cast
    ring
  simp only [cellS, List.map_cons, List.map_nil, List.sum_cons, List.sum_nil, h0, h1, h2, h3]
  have hs : ∀ s E : ℂ, (-1 : ℂ) ^ (0 : ℤ) + (E + (s * E + (s + 0))) = (1 + s) * (1 + E) := fun s E => by
    rw [zpow_zero]; ring
  rw [hs, map_mul, normSq_one_add, cos_third]
  rcases neg_one_cases (q.x + q.y) with ⟨a, e⟩ | ⟨a, e⟩ <;> rw [e] <;> simp only [a, if_true, if_false]
  · by_cases h : (3 : ℤ) ∣ q.y <;> simp [h, Complex.normSq_apply] <;> norm_num
  · simp

/-- **C116** (hexagonal close-packed): the indices decide between 2, 1/2, 3/2 and 0 times the number of cells. -/
theorem C116_hcp (q : Vec3 ℤ) : ∃ u, UnitCell.hcp = some u ∧ GoodCell u.box ∧ u.basis ≠ [] ∧
    cellS u.basis q = if (3 : ℤ) ∣ q.x - q.y then (if Even q.z then 2 else 0) else (if Even q.z then 1 / 2 else 3 / 2) := by
  refine ⟨_, hcp_cell, good_mk (by norm_num) (by simp) (fun _ => Real.sqrt_pos.mpr (by norm_num)), by simp, ?_⟩
  simp only [cellS, List.map_cons, List.map_nil, List.sum_cons, List.sum_nil, add_zero]
  have h1 : Complex.exp ((2 * Real.pi * (q.x * (2 / 3) + q.y * (1 / 3) + q.z * (3 / 4)) : ℝ) * Complex.I) =
      Complex.exp ((2 * Real.pi * (q.x * (1 / 3) + q.y * (2 / 3) + q.z * (1 / 4)) : ℝ) * Complex.I) *
        Complex.exp ((2 * Real.pi * ((q.x - q.y : ℤ) / 3) + q.z * Real.pi : ℝ) * Complex.I) := by
    rw [← Complex.exp_add]
    congr 1
    push_cast
    ring
  have he : ∀ x : ℝ, Complex.normSq (Complex.exp (x * Complex.I)) = 1 := fun x => by
    rw [Complex.normSq_eq_norm_sq, Complex.norm_exp_ofReal_mul_I]; norm_num
  have hf : ∀ A E : ℂ, A + A * E = A * (1 + E) := fun A E => by ring
  rw [h1, hf, map_mul, he, one_mul, normSq_one_add, Real.cos_add_int_mul_pi, cos_third]
  rcases Int.even_or_odd q.z with h | h
  · rw [h.neg_one_zpow]
    by_cases h3 : (3 : ℤ) ∣ q.x - q.y <;> simp [h, h3] <;> norm_num
  · have h' := Int.not_even_iff_odd.mpr h
    rw [h.neg_one_zpow]
    by_cases h3 : (3 : ℤ) ∣ q.x - q.y <;> simp [h', h3] <;> norm_num

/-- **C116** (oblique cells): all reflections are there. -/
theorem C116_oblique (aspect theta : ℝ) (ha : 0 < aspect) (h0 : 0 < theta) (h1 : theta < 180) (q : Vec3 ℤ) :
    ∃ u, UnitCell.oblique aspect theta = some u ∧ GoodCell u.box ∧ u.basis ≠ [] ∧ cellS u.basis q = 1 := by
  obtain ⟨u, e, g, -, hb, -⟩ := C98_oblique aspect theta ha h0 h1
  exact ⟨u, e, g, by simp [hb], by simp [hb, cellS]⟩

/-- An fcc crystal of eight cells: the (1,1,1) reflection has the strength 32, the (1,0,0) reflection is extinct, and
between the reflections of the cell there is nothing. -/
theorem fcc_eight : ∃ u b pos, UnitCell.fcc = some u ∧ GoodCell u.box ∧ u.basis ≠ [] ∧
    u.generateSystem ⟨2, 2, 2⟩ 1 none = some (b, pos) ∧ pos.length = 32 ∧
    (∀ h : Vec3 ℤ, IsWaveVector b ⟨Real.pi * h.x, Real.pi * h.y, Real.pi * h.z⟩ h) ∧
    directS ⟨b, pos, none, none⟩ ⟨Real.pi * 2, Real.pi * 2, Real.pi * 2⟩ = 32 ∧
    directS ⟨b, pos, none, none⟩ ⟨Real.pi * 2, Real.pi * 0, Real.pi * 0⟩ = 0 ∧
    directS ⟨b, pos, none, none⟩ ⟨Real.pi * 1, Real.pi * 2, Real.pi * 2⟩ = 0 := by
  have hcell : UnitCell.fcc = some ⟨Box.mk' 1 1 1 0 0 0 false,
      [⟨1 / 2, 1 / 2, 0⟩, ⟨1 / 2, 0, 1 / 2⟩, ⟨0, 1 / 2, 1 / 2⟩, ⟨0, 0, 0⟩]⟩ :=
    ofLike_3D _ _ _ (by norm_num) (by norm_num) (by norm_num) _
  set u : UnitCell ℝ := ⟨Box.mk' 1 1 1 0 0 0 false,
    [⟨1 / 2, 1 / 2, 0⟩, ⟨1 / 2, 0, 1 / 2⟩, ⟨0, 1 / 2, 1 / 2⟩, ⟨0, 0, 0⟩]⟩ with hu0
  have hS : ∀ q : Vec3 ℤ, cellS u.basis q = if (Even q.x ↔ Even q.y) ∧ (Even q.y ↔ Even q.z) then 4 else 0 := fun q => by
    obtain ⟨v, e, -, -, h⟩ := C116_fcc q
    rw [hcell, Option.some.injEq] at e
    rw [e]; exact h
  have hu : GoodCell u.box := good_mk (by norm_num) (by norm_num) (by norm_num)
  have hne : u.basis ≠ [] := by simp [hu0]
  obtain ⟨⟨b, pos⟩, hg⟩ : ∃ r, u.generateSystem ⟨2, 2, 2⟩ 1 none = some r := by
    rw [← Option.ne_none_iff_exists', Ne, C59_raises_iff _ _ _ _ hu]
    simp [hu0, Box.mk', Box.setL]
  obtain ⟨-, d, ⟨e1, e2, e3⟩, eL, -⟩ := generate_blocks hu hg
  have hlen := C59_count u _ _ hu _ _ hg
  have hwv : ∀ h : Vec3 ℤ, IsWaveVector b ⟨Real.pi * h.x, Real.pi * h.y, Real.pi * h.z⟩ h := by
    intro h
    have hd : b.is2D = false := d
    have t1 : b.xy = 0 := e1
    have t2 : b.xz = 0 := e2
    have t3 : b.yz = 0 := e3
    have hL : b.L = ⟨2, 2, 2⟩ := by rw [eL]; simp [hu0, Box.mk', Box.setL]
    refine ⟨?_, ?_, ?_⟩
    · simp [Vec3.dot, a1, hL]; ring
    · simp [Vec3.dot, a2, hL, t1]; ring
    · rw [hd, if_neg (by decide)]
      simp [Vec3.dot, a3, hL, t2, t3]; ring
  refine ⟨u, b, pos, hcell, hu, hne, hg, ?_, hwv, ?_, ?_, ?_⟩
  · simp [hu0] at hlen; omega
  · have := (C116_bragg u hu hne _ 1 b pos hg _ _ (hwv ⟨2, 2, 2⟩)).1 ⟨1, 1, 1⟩ (by decide)
    rw [hS] at this
    norm_num at this ⊢
    exact this
  · have := (C116_bragg u hu hne _ 1 b pos hg _ _ (hwv ⟨2, 0, 0⟩)).1 ⟨1, 0, 0⟩ (by decide)
    rw [hS] at this
    norm_num at this ⊢
    exact this
  · have := (C116_bragg u hu hne _ 1 b pos hg _ _ (hwv ⟨1, 2, 2⟩)).2 (by decide)
    norm_num at this ⊢
    exact this

-- the hypotheses of `C116_larger_cell`: two cells with two particles each
example (d : Bool) : ∃ b b' t φ pts pts', CoarserLattice b b' ∧ (b.px = true ∧ b.py = true ∧ b.pz = true) ∧
    Repeated b b' t φ pts pts' ∧ pts ≠ [] ∧ pts'.length = 2 * pts.length ∧ b.is2D = d := by
  obtain ⟨b, b', t, φ, pos, pos', h1, h2, h3, h4, h5, h6, h7, -⟩ := exists_repeated d
  exact ⟨b, b', t, φ, pos, pos', h2, h3.periodic, h1, List.ne_nil_of_length_pos (by omega), by omega, h7⟩

-- the hypotheses of `C116_read`, for the crystal of `fcc_eight`
example : ∃ (u : UnitCell ℝ) (b : Box ℝ) (pos ks : List (Vec3 ℝ)), GoodCell u.box ∧ u.basis ≠ [] ∧ u.generateSystem ⟨2, 2, 2⟩ 1 none = some (b, pos) ∧
    Direct.mkAxis 10 (20 : ℝ) 1 = .ok ⟨10, 1, 20⟩ ∧ SampledAs (fun o => (o.getD 0).toNat) b 20 1 0 ks ∧
    IsExecution ks.length ((List.range ks.length).map fun i => (0, i)) := by
  obtain ⟨u, b, pos, -, hu, hne, hg, -⟩ := fcc_eight
  refine ⟨u, b, pos, _, hu, hne, hg, (Direct.C55_guards 10 20 1).2.mpr (by norm_num), ⟨fun _ _ _ => true, List.Perm.refl _⟩, ?_⟩
  simp [IsExecution, Function.comp_def]

end Freud
