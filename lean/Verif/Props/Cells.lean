import Verif.Spec.Cells
import Verif.Props.PairFrames

/-!
# Property C95: choice of the unit cell and rotations
-/

namespace Freud
open Spec

/-! ### Rotations and lattices -/

namespace Spec.Rigid
variable {Q : Vec3 ℝ → Vec3 ℝ}

theorem eq_of_dot {v : Vec3 ℝ} (h : Vec3.dot v v = 0) : v = ⟨0, 0, 0⟩ := by
  simp only [Vec3.dot] at h
  have h1 := mul_self_nonneg v.x
  have h2 := mul_self_nonneg v.y
  have h3 := mul_self_nonneg v.z
  ext <;> exact mul_self_eq_zero.mp (by linarith)

theorem add (h : Rigid Q) (u v : Vec3 ℝ) : Q (u + v) = Q u + Q v := by
  have e : Q (u + v) - (Q u + Q v) = ⟨0, 0, 0⟩ := by
    apply eq_of_dot
    have key : ∀ a b c : Vec3 ℝ, Vec3.dot (a - (b + c)) (a - (b + c)) = Vec3.dot a a + Vec3.dot b b +
        Vec3.dot c c - 2 * Vec3.dot a b - 2 * Vec3.dot a c + 2 * Vec3.dot b c := by
      intro a b c
      simp only [Vec3.dot, Vec3.sub_x, Vec3.sub_y, Vec3.sub_z, Vec3.add_x, Vec3.add_y, Vec3.add_z]
      ring
    rw [key, h, h, h, h, h, h]
    simp only [Vec3.dot, Vec3.add_x, Vec3.add_y, Vec3.add_z]
    ring
  have hx := congrArg Vec3.x e
  have hy := congrArg Vec3.y e
  have hz := congrArg Vec3.z e
  simp only [Vec3.sub_x, Vec3.sub_y, Vec3.sub_z] at hx hy hz
  ext <;> linarith

theorem norm (h : Rigid Q) (v : Vec3 ℝ) : Vec3.norm (Q v) = Vec3.norm v := by
  unfold Vec3.norm; rw [h]

theorem injective (h : Rigid Q) : Function.Injective Q := by
  intro u v e
  have k : Vec3.dot (u - v) (u - v) = 0 := by
    have key : ∀ a b : Vec3 ℝ, Vec3.dot (a - b) (a - b) = Vec3.dot a a - 2 * Vec3.dot a b + Vec3.dot b b := by
      intro a b
      simp only [Vec3.dot, Vec3.sub_x, Vec3.sub_y, Vec3.sub_z]
      ring
    rw [key, ← h u u, ← h u v, ← h v v, e]
    ring
  have e := eq_of_dot k
  have hx := congrArg Vec3.x e
  have hy := congrArg Vec3.y e
  have hz := congrArg Vec3.z e
  simp only [Vec3.sub_x, Vec3.sub_y, Vec3.sub_z] at hx hy hz
  ext <;> linarith

theorem sub (h : Rigid Q) (u v : Vec3 ℝ) : Q (u - v) = Q u - Q v := by
  have e : u = (u - v) + v := by ext <;> simp
  have := h.add (u - v) v
  rw [← e] at this
  rw [this]
  ext <;> simp

end Spec.Rigid

namespace Spec.SameLattice
variable {Q : Vec3 ℝ → Vec3 ℝ} {b b' : Box ℝ}

theorem image (hQ : Rigid Q) (h : SameLattice Q b b') {u w' : Vec3 ℝ} (hw : IsImage b' (Q u) w') :
    ∃ w, w' = Q w ∧ IsImage b u w := by
  obtain ⟨n', hn', rfl⟩ := hw
  obtain ⟨n, hn, e⟩ := h.sup n' hn'
  exact ⟨u + Spec.lattice b n, by rw [hQ.add, e], n, hn, rfl⟩

theorem isImage (hQ : Rigid Q) (h : SameLattice Q b b') (u v : Vec3 ℝ) :
    IsImage b' (Q u) (Q v) ↔ IsImage b u v := by
  constructor
  · intro hv
    obtain ⟨w, e, hw⟩ := h.image hQ hv
    rwa [hQ.injective e]
  · rintro ⟨n, hn, rfl⟩
    obtain ⟨n', hn', e⟩ := h.sub n hn
    exact ⟨n', hn', by rw [hQ.add, e]⟩

theorem nearestImage (hQ : Rigid Q) (h : SameLattice Q b b') (u v : Vec3 ℝ) :
    NearestImage b' (Q u) (Q v) ↔ NearestImage b u v := by
  unfold NearestImage
  rw [h.isImage hQ]
  refine and_congr_right fun _ => ⟨fun k w hw => ?_, fun k w' hw' => ?_⟩
  · have := k _ ((h.isImage hQ _ _).mpr hw)
    rwa [hQ.norm, hQ.norm] at this
  · obtain ⟨w, rfl, hw⟩ := h.image hQ hw'
    rw [hQ.norm, hQ.norm]
    exact k w hw

/-- The separations of the particles of the second description. -/
theorem separation (hQ : Rigid Q) {t p q p' q' : Vec3 ℝ} (hp : IsImage b' (Q p + t) p')
    (hq : IsImage b' (Q q + t) q') : IsImage b' (Q (p - q)) (p' - q') := by
  rw [hQ.sub]; exact isImage_separation hp hq

end Spec.SameLattice

/-! ### The volume of a cell -/

theorem int_abs_one {m n : ℤ} {x y : ℝ} (hx : 0 < x) (hy : 0 < y) (h1 : x ^ 2 = y ^ 2 * (m : ℝ) ^ 2)
    (h2 : y ^ 2 = x ^ 2 * (n : ℝ) ^ 2) : x = y := by
  have hm : (1 : ℝ) ≤ (m : ℝ) ^ 2 := by
    have : m ≠ 0 := by
      rintro rfl
      have : x ^ 2 = 0 := by rw [h1]; simp
      have := pow_pos hx 2
      linarith
    have : (1 : ℤ) ≤ m ^ 2 := Int.add_one_le_iff.mpr (lt_of_lt_of_eq (mul_self_pos.mpr this) (sq _).symm)
    exact_mod_cast this
  have hn : (1 : ℝ) ≤ (n : ℝ) ^ 2 := by
    have : n ≠ 0 := by
      rintro rfl
      have : y ^ 2 = 0 := by rw [h2]; simp
      have := pow_pos hy 2
      linarith
    have : (1 : ℤ) ≤ n ^ 2 := Int.add_one_le_iff.mpr (lt_of_lt_of_eq (mul_self_pos.mpr this) (sq _).symm)
    exact_mod_cast this
  have hxx := pow_pos hx 2
  have hyy := pow_pos hy 2
  have h3 : x ^ 2 = y ^ 2 := le_antisymm (by nlinarith) (by nlinarith)
  exact (pow_left_inj₀ hx.le hy.le two_ne_zero).mp h3

/-- The square of the volume spanned by three vectors, as the determinant of their scalar products. -/
theorem gram3 (u v w : Vec3 ℝ) : (Vec3.dot u (Vec3.cross v w)) ^ 2 =
    Vec3.dot u u * (Vec3.dot v v * Vec3.dot w w - Vec3.dot v w ^ 2) -
      Vec3.dot u v * (Vec3.dot u v * Vec3.dot w w - Vec3.dot v w * Vec3.dot u w) +
      Vec3.dot u w * (Vec3.dot u v * Vec3.dot v w - Vec3.dot v v * Vec3.dot u w) := by
  simp only [Vec3.dot, Vec3.cross]; ring

theorem volume_turned {Q : Vec3 ℝ → Vec3 ℝ} (h : Rigid Q) (u v w : Vec3 ℝ) :
    (Vec3.dot (Q u) (Vec3.cross (Q v) (Q w))) ^ 2 = (Vec3.dot u (Vec3.cross v w)) ^ 2 := by
  rw [gram3, gram3, h, h, h, h, h, h]

/-- The determinant of three integer vectors. -/
def det3 (l m n : Vec3 ℤ) : ℤ :=
  l.x * (m.y * n.z - m.z * n.y) - l.y * (m.x * n.z - m.z * n.x) + l.z * (m.x * n.y - m.y * n.x)

theorem volume_lattice (b : Box ℝ) (l m n : Vec3 ℤ) :
    Vec3.dot (lattice b l) (Vec3.cross (lattice b m) (lattice b n)) =
      b.L.x * b.L.y * b.L.z * (det3 l m n : ℝ) := by
  simp only [Vec3.dot, Vec3.cross, lattice, comb, a1, a2, a3, det3]
  push_cast
  ring

/-- The square of the area spanned by two vectors. -/
theorem area_turned {Q : Vec3 ℝ → Vec3 ℝ} (h : Rigid Q) (u v : Vec3 ℝ) :
    Vec3.dot (Q u) (Q u) * Vec3.dot (Q v) (Q v) - Vec3.dot (Q u) (Q v) ^ 2 =
      Vec3.dot u u * Vec3.dot v v - Vec3.dot u v ^ 2 := by
  rw [h, h, h]

theorem area_lattice (b : Box ℝ) (l m : Vec3 ℤ) (hl : l.z = 0) (hm : m.z = 0) :
    Vec3.dot (lattice b l) (lattice b l) * Vec3.dot (lattice b m) (lattice b m) -
        Vec3.dot (lattice b l) (lattice b m) ^ 2 =
      (b.L.x * b.L.y) ^ 2 * ((l.x * m.y - l.y * m.x : ℤ) : ℝ) ^ 2 := by
  simp only [Vec3.dot, lattice, comb, a1, a2, a3, hl, hm]
  push_cast
  ring

/-- Cells of the same lattice have the same volume. -/
theorem Spec.SameLattice.volume {Q : Vec3 ℝ → Vec3 ℝ} {b b' : Box ℝ} (hQ : Rigid Q)
    (h : SameLattice Q b b') (hp : PositiveLengths b) (hp' : PositiveLengths b') (hb : FullyPeriodic b)
    (hb' : FullyPeriodic b') : b'.getVolume = b.getVolume := by
  have hd := h.dims
  unfold Box.getVolume
  rw [hd]
  cases h2 : b.is2D with
  | true =>
    simp only [if_true]
    have hall : ∀ (c : Box ℝ) (n : Vec3 ℤ), FullyPeriodic c → n.z = 0 → AllowedShift c n := by
      intro c n hc hn
      exact ⟨fun e => absurd (e.symm.trans hc.1) (by decide), fun e => absurd (e.symm.trans hc.2.1) (by decide),
        fun _ => hn⟩
    obtain ⟨l, hl, el⟩ := h.sub ⟨1, 0, 0⟩ (hall b _ hb rfl)
    obtain ⟨m, hm, em⟩ := h.sub ⟨0, 1, 0⟩ (hall b _ hb rfl)
    obtain ⟨l', hl', el'⟩ := h.sup ⟨1, 0, 0⟩ (hall b' _ hb' rfl)
    obtain ⟨m', hm', em'⟩ := h.sup ⟨0, 1, 0⟩ (hall b' _ hb' rfl)
    have k1 := area_turned hQ (Spec.lattice b ⟨1, 0, 0⟩) (Spec.lattice b ⟨0, 1, 0⟩)
    rw [← el, ← em, area_lattice b' l m (hl.2.2 (Or.inr (hd.trans h2))) (hm.2.2 (Or.inr (hd.trans h2))),
      area_lattice b _ _ rfl rfl] at k1
    have k2 := area_turned hQ (Spec.lattice b l') (Spec.lattice b m')
    rw [← el', ← em', area_lattice b l' m' (hl'.2.2 (Or.inr h2)) (hm'.2.2 (Or.inr h2)),
      area_lattice b' _ _ rfl rfl] at k2
    refine int_abs_one (mul_pos hp'.1 hp'.2.1) (mul_pos hp.1 hp.2.1) (m := l'.x * m'.y - l'.y * m'.x)
      (n := l.x * m.y - l.y * m.x) ?_ ?_
    · rw [← k2]; norm_num
    · rw [k1]; norm_num
  | false =>
    simp only [Bool.false_eq_true, if_false]
    have hall : ∀ (c : Box ℝ) (n : Vec3 ℤ), FullyPeriodic c → c.is2D = false → AllowedShift c n := by
      intro c n hc hn
      exact ⟨fun e => absurd (e.symm.trans hc.1) (by decide), fun e => absurd (e.symm.trans hc.2.1) (by decide),
        fun e => e.elim (fun e => absurd (e.symm.trans hc.2.2) (by decide))
          (fun e => absurd (hn.symm.trans e) (by decide))⟩
    have h2' := hd.trans h2
    obtain ⟨l, -, el⟩ := h.sub ⟨1, 0, 0⟩ (hall b _ hb h2)
    obtain ⟨m, -, em⟩ := h.sub ⟨0, 1, 0⟩ (hall b _ hb h2)
    obtain ⟨n, -, en⟩ := h.sub ⟨0, 0, 1⟩ (hall b _ hb h2)
    obtain ⟨l', -, el'⟩ := h.sup ⟨1, 0, 0⟩ (hall b' _ hb' h2')
    obtain ⟨m', -, em'⟩ := h.sup ⟨0, 1, 0⟩ (hall b' _ hb' h2')
    obtain ⟨n', -, en'⟩ := h.sup ⟨0, 0, 1⟩ (hall b' _ hb' h2')
    have k1 := volume_turned hQ (Spec.lattice b ⟨1, 0, 0⟩) (Spec.lattice b ⟨0, 1, 0⟩) (Spec.lattice b ⟨0, 0, 1⟩)
    rw [← el, ← em, ← en, volume_lattice, volume_lattice] at k1
    have k2 := volume_turned hQ (Spec.lattice b l') (Spec.lattice b m') (Spec.lattice b n')
    rw [← el', ← em', ← en', volume_lattice, volume_lattice] at k2
    have hd1 : det3 ⟨1, 0, 0⟩ ⟨0, 1, 0⟩ ⟨0, 0, 1⟩ = 1 := by decide
    rw [hd1] at k1 k2
    simp only [Int.cast_one, mul_one] at k1 k2
    rw [mul_pow _ ((det3 l m n : ℤ) : ℝ)] at k1
    rw [mul_pow _ ((det3 l' m' n' : ℤ) : ℝ)] at k2
    exact int_abs_one (mul_pos (mul_pos hp'.1 hp'.2.1) (hp'.2.2 h2'))
      (mul_pos (mul_pos hp.1 hp.2.1) (hp.2.2 h2)) k2 k1.symm

/-! ### Bonds -/

namespace Spec.Turned
variable {b' : Box ℝ} {Q : Vec3 ℝ → Vec3 ℝ} {t : Vec3 ℝ} {σ : Equiv.Perm ℕ} {pts pts' : List (Vec3 ℝ)}

theorem renumbered (h : Turned b' Q t σ pts pts') : Renumbered b' t σ (pts.map Q) pts' := by
  refine ⟨by rw [h.length, List.length_map], fun i p' hp' => ?_⟩
  obtain ⟨p, hp, hi⟩ := h.point i p' hp'
  exact ⟨Q p, by rw [List.getElem?_map, hp]; rfl, hi⟩

theorem get (h : Turned b' Q t σ pts pts') {i : ℕ} {p : Vec3 ℝ} (hp : pts[σ i]? = some p) :
    ∃ p', pts'[i]? = some p' ∧ IsImage b' (Q p + t) p' :=
  h.renumbered.get (by rw [List.getElem?_map, hp]; rfl)

theorem lt_iff (h : Turned b' Q t σ pts pts') (i : ℕ) : σ i < pts.length ↔ i < pts'.length := by
  have := h.renumbered.lt_iff i
  rwa [List.length_map] at this

end Spec.Turned

theorem turnedBond_injective {Q : Vec3 ℝ → Vec3 ℝ} (hQ : Rigid Q) : Function.Injective (turnedBond Q) := by
  rintro ⟨q, p, d, w, v⟩ ⟨q', p', d', w', v'⟩ h
  simp only [turnedBond, Bond.mk.injEq] at h
  obtain ⟨rfl, rfl, rfl, rfl, h5⟩ := h
  rw [hQ.injective h5]

theorem queryBond_turned {b b' : Box ℝ} {Q : Vec3 ℝ → Vec3 ℝ} (hQ : Rigid Q) (hl : SameLattice Q b b')
    {t : Vec3 ℝ} {σ τ : Equiv.Perm ℕ} {pts pts' qpts qpts' : List (Vec3 ℝ)} (hp : Turned b' Q t τ pts pts')
    (hq : Turned b' Q t σ qpts qpts') {rMax rMin : ℝ} {excl : Bool} (hex : excl = true → σ = τ)
    (bd' : Bond ℝ) :
    IsQueryBond b' pts' qpts' rMax rMin excl bd' ↔
      ∃ bd, IsQueryBond b pts qpts rMax rMin excl bd ∧ turnedBond Q bd = relabel σ τ bd' := by
  have hne : (excl = true → τ bd'.p ≠ σ bd'.q) ↔ (excl = true → bd'.p ≠ bd'.q) := by
    refine imp_congr_right fun e => ?_
    rw [hex e, ne_eq, τ.injective.eq_iff]
  constructor
  · rintro ⟨q', hq', -, h1, h2, h3, h4, h5, p', hp', h6⟩
    obtain ⟨q, hq0, i1⟩ := hq.point _ _ hq'
    obtain ⟨p, hp0, i2⟩ := hp.point _ _ hp'
    obtain ⟨w, ew, hw⟩ := hl.image hQ (isImage_trans (SameLattice.separation hQ i2 i1) h6)
    have en : Vec3.norm bd'.vec = Vec3.norm w := by rw [ew, hQ.norm]
    refine ⟨⟨σ bd'.q, τ bd'.p, bd'.dist, bd'.weight, w⟩, ⟨q, hq0, rfl, h1, ?_, hne.mpr h3, ?_, ?_, p, hp0, hw⟩, ?_⟩
    · rw [← en]; exact h2
    · rw [← en]; exact h4
    · rw [← en]; exact h5
    · simp [turnedBond, relabel, ew]
  · rintro ⟨bd, ⟨q, hq0, -, h1, h2, h3, h4, h5, p, hp0, h6⟩, e⟩
    simp only [turnedBond, relabel, Bond.mk.injEq] at e
    obtain ⟨e1, e2, e3, e4, e5⟩ := e
    rw [e1] at hq0 h3
    rw [e2] at hp0 h3
    obtain ⟨q', hq', i1⟩ := hq.get hq0
    obtain ⟨p', hp', i2⟩ := hp.get hp0
    have en : Vec3.norm bd'.vec = Vec3.norm bd.vec := by rw [← e5, hQ.norm]
    refine ⟨q', hq', rfl, by rw [← e4]; exact h1, by rw [en, ← e3]; exact h2, hne.mp h3, by rw [en]; exact h4,
      by rw [en]; exact h5, p', hp', ?_⟩
    refine isImage_trans (isImage_symm (SameLattice.separation hQ i2 i1)) ?_
    rw [← e5, hl.isImage hQ]
    exact h6

/-- **C95**: if a system is described by another unit cell of its lattice, and turned or reflected, the
same bonds are found, with the turned vectors, whichever way the neighbors are specified for either
description. The numbering, the origin and the images may change too. -/
theorem C95_bonds (Q : Vec3 ℝ → Vec3 ℝ) (hQ : Rigid Q) (b b' : Box ℝ) (hl : SameLattice Q b b') (t : Vec3 ℝ)
    (σ τ : Equiv.Perm ℕ) (pts pts' qpts qpts' : List (Vec3 ℝ)) (hs : PeriodicSystem b pts qpts)
    (hs' : PeriodicSystem b' pts' qpts') (hp : Turned b' Q t τ pts pts') (hq : Turned b' Q t σ qpts qpts')
    (rMax rMin : ℝ) (hmin : 0 ≤ rMin) (hhalf : BelowHalf b rMax) (hhalf' : BelowHalf b' rMax) (excl : Bool)
    (hex : excl = true → σ = τ) (src src' : Source) (h : IsSource b pts qpts rMax rMin excl src)
    (h' : IsSource b' pts' qpts' rMax rMin excl src') :
    ((bondsFrom src').map (relabel σ τ)).Perm ((bondsFrom src).map (turnedBond Q)) := by
  obtain ⟨-, a, p, m, n⟩ := source_perm hs hmin hhalf h
  obtain ⟨-, a', p', m', n'⟩ := source_perm hs' hmin hhalf' h'
  refine ((p'.map _).trans ?_).trans (p.map _).symm
  refine (List.perm_ext_iff_of_nodup ((n'.of_map _).map (relabel_injective σ τ))
    ((n.of_map _).map (turnedBond_injective hQ))).mpr fun bd => ?_
  rw [List.mem_map, List.mem_map]
  constructor
  · rintro ⟨bd', hbd', rfl⟩
    obtain ⟨bd, h1, h2⟩ := (queryBond_turned hQ hl hp hq hex _).mp ((m' _).mp hbd')
    exact ⟨bd, (m _).mpr h1, h2⟩
  · rintro ⟨bd, hbd, rfl⟩
    have e : relabel σ τ (relabel σ.symm τ.symm (turnedBond Q bd)) = turnedBond Q bd := by
      cases bd; simp [relabel, turnedBond]
    exact ⟨_, (m' _).mpr ((queryBond_turned hQ hl hp hq hex _).mpr ⟨bd, (m _).mp hbd, e.symm⟩), e⟩

/-- **C95**: the neighbor lists of the two descriptions, made by any engines under any schedules. -/
theorem C95_neighbor_lists (Q : Vec3 ℝ → Vec3 ℝ) (hQ : Rigid Q) (b b' : Box ℝ) (hl : SameLattice Q b b')
    (t : Vec3 ℝ) (σ : Equiv.Perm ℕ) (pts pts' : List (Vec3 ℝ)) (hs : PeriodicSystem b pts pts)
    (hs' : PeriodicSystem b' pts' pts') (hp : Turned b' Q t σ pts pts') (rMax rMin : ℝ) (hmin : 0 ≤ rMin)
    (hhalf : BelowHalf b rMax) (hhalf' : BelowHalf b' rMax) (excl : Bool) (nl nl' : NList ℝ)
    (h : IsSource b pts pts rMax rMin excl (.list nl)) (h' : IsSource b' pts' pts' rMax rMin excl (.list nl')) :
    (nl'.bonds.map (relabel σ σ)).Perm (nl.bonds.map (turnedBond Q)) := by
  have := C95_bonds Q hQ b b' hl t σ σ pts pts' pts pts' hs hs' hp hp rMax rMin hmin hhalf hhalf' excl
    (fun _ => rfl) _ _ h h'
  rwa [bondsFrom_list, bondsFrom_list] at this

/-! ### The RDF -/

theorem pairsIn_turned {b b' : Box ℝ} {Q : Vec3 ℝ → Vec3 ℝ} (hQ : Rigid Q) (hl : SameLattice Q b b')
    {t : Vec3 ℝ} {σ τ : Equiv.Perm ℕ} {pts pts' qpts qpts' : List (Vec3 ℝ)} (hp : Turned b' Q t τ pts pts')
    (hq : Turned b' Q t σ qpts qpts') {excl : Bool} (hex : excl = true → σ = τ) (lo hi : ℝ) :
    (pairsIn b' pts' qpts' excl lo hi).ncard = (pairsIn b pts qpts excl lo hi).ncard := by
  rw [← Set.ncard_image_of_injective _ (σ.injective.prodMap τ.injective)]
  congr 1
  ext ⟨i, j⟩
  simp only [Set.mem_image, Prod.map, Prod.mk.injEq, Prod.exists]
  constructor
  · rintro ⟨i', j', ⟨h1, q', p', w, h2, h3, h4, h5⟩, rfl, rfl⟩
    obtain ⟨q, hq0, i1⟩ := hq.point _ _ h2
    obtain ⟨p, hp0, i2⟩ := hp.point _ _ h3
    have h4' := (nearestImage_congr (SameLattice.separation hQ i2 i1)).mpr h4
    obtain ⟨w0, rfl, -⟩ := hl.image hQ h4'.1
    rw [hl.nearestImage hQ] at h4'
    rw [hQ.norm] at h5
    refine ⟨fun e => ?_, q, p, w0, hq0, hp0, h4', h5⟩
    simp only [hex e, ne_eq, τ.injective.eq_iff]
    exact h1 e
  · rintro ⟨h1, q, p, w, h2, h3, h4, h5⟩
    simp only at h1 h2 h3
    have e1 : σ (σ.symm i) = i := σ.apply_symm_apply i
    have e2 : τ (τ.symm j) = j := τ.apply_symm_apply j
    rw [← e1] at h2
    rw [← e2] at h3
    obtain ⟨q', hq', i1⟩ := hq.get h2
    obtain ⟨p', hp', i2⟩ := hp.get h3
    refine ⟨σ.symm i, τ.symm j, ⟨fun e => ?_, q', p', Q w, hq', hp',
      (nearestImage_congr (SameLattice.separation hQ i2 i1)).mp ((hl.nearestImage hQ _ _).mpr h4),
      by rw [hQ.norm]; exact h5⟩, e1, e2⟩
    simp only [hex e, ne_eq, τ.symm.injective.eq_iff]
    exact h1 e

/-- One frame of an RDF in two cells, turned. -/
def Spec.TurnedFrame (f f' : RDFFrame) : Prop :=
  f'.excl = f.excl ∧ ∃ Q t σ τ, Rigid Q ∧ SameLattice Q f.box f'.box ∧ (f.excl = true → σ = τ) ∧
    Turned f'.box Q t τ f.pts f'.pts ∧ Turned f'.box Q t σ f.qpts f'.qpts

/-- **C95**: the RDF does not depend on the unit cell and on rotations of the system, which may change
from frame to frame. -/
theorem C95_rdf (pi : ℝ) (bins : ℕ) (rMax rMin : ℝ) (a : RegularAxis ℝ)
    (ha : RDF.mkAxis bins rMax rMin = some a) (hb : bins ≤ OVERFLOW_BIN) (mode : NormalizationMode)
    (box0 box0' : Box ℝ) (fs fs' : List RDFFrame) (hfs : ∀ f ∈ fs, f.OK rMax rMin)
    (hfs' : ∀ f ∈ fs', f.OK rMax rMin) (hsame : List.Forall₂ TurnedFrame fs fs') (last : RDFFrame)
    (hlast : fs.getLast? = some last)
    (hok : FrameOK mode ⟨last.box, last.pts.length, last.qpts.length⟩) (order order' : List ℕ)
    (hord : order.Perm (List.range bins)) (hord' : order'.Perm (List.range bins)) :
    ∃ s s1 s' s1', (RDF.new a mode box0).run (RDF.fill pi a) (RDF.zero a)
        (fs.map fun f => RDF.frameFrom ⟨f.box, f.pts.length, f.qpts.length⟩ f.src f.ev) = some s ∧
      s.refresh (RDF.fill pi a) order = some s1 ∧
      (RDF.new a mode box0').run (RDF.fill pi a) (RDF.zero a)
        (fs'.map fun f => RDF.frameFrom ⟨f.box, f.pts.length, f.qpts.length⟩ f.src f.ev) = some s' ∧
      s'.refresh (RDF.fill pi a) order' = some s1' ∧
      ∀ k < bins, s1'.out.1[k]? = s1.out.1[k]? ∧ s1'.out.2[k]? = s1.out.2[k]? := by
  have hsum : ∀ lo hi, (fs'.map fun f => (pairsIn f.box f.pts f.qpts f.excl lo hi).ncard) =
      fs.map fun f => (pairsIn f.box f.pts f.qpts f.excl lo hi).ncard := by
    intro lo hi
    clear hfs hfs' hlast
    induction hsame with
    | nil => rfl
    | cons h _ ih =>
      obtain ⟨e2, Q, t, σ, τ, hQ, hl, hex, hp, hq⟩ := h
      rw [List.map_cons, List.map_cons, ih, e2, pairsIn_turned hQ hl hp hq hex]
  obtain ⟨last', hlast', hl0⟩ := getLast_of_forall₂ hsame hlast
  obtain ⟨e2, Q, t, σ, τ, hQ, hl, hex, hp, hq⟩ := hl0
  have hs := (hfs last (List.mem_of_getLast? hlast)).system
  have hs' := (hfs' last' (List.mem_of_getLast? hlast')).system
  have hvol := hl.volume hQ hs.inBox.pos hs'.inBox.pos hs.periodic hs'.periodic
  obtain ⟨s, s1, h1, h2, h3⟩ := C85_rdf pi bins rMax rMin a ha hb mode box0 fs hfs last hlast hok order hord
  obtain ⟨s', s1', h1', h2', h3'⟩ := C85_rdf pi bins rMax rMin a ha hb mode box0' fs' hfs' last' hlast'
    ⟨by simp only [hp.length]; exact hok.points, by simp only [hq.length]; exact hok.query,
      fun e => by simp only [hq.length]; exact hok.pair e, by simp only [hvol]; exact hok.volume⟩ order' hord'
  refine ⟨s, s1, s', s1', h1, h2, h1', h2', fun k hk => ?_⟩
  have hden : density mode ⟨last'.box, last.pts.length, last.qpts.length⟩ =
      density mode ⟨last.box, last.pts.length, last.qpts.length⟩ := by
    unfold density; simp only [hvol]
  have k1 := h3 k hk
  have k2 := h3' k hk
  simp only at k1 k2
  rw [k1.1, k1.2, k2.1, k2.2, hp.length, hq.length, hl.dims, hden]
  simp only [← hsame.length_eq, hsum]
  exact ⟨trivial, trivial⟩

/-! ### The samples of a frame -/

theorem samples_turned {D β : Type*} (act : D → D) {Q : Vec3 ℝ → Vec3 ℝ} (hQ : Rigid Q)
    (S : D → D → ℝ → Vec3 ℝ → β) {f f' : DataFrame D} (h : f.OK) (h' : f'.OK) (hs : TurnedSystem act Q f f') :
    ((bondsFrom f'.src).map fun bd => S (f'.data bd.p) (f'.queryData bd.q) bd.dist bd.vec).Perm
      ((bondsFrom f.src).map fun bd =>
        S (act (f.data bd.p)) (act (f.queryData bd.q)) bd.dist (Q bd.vec)) := by
  obtain ⟨t, σ, τ, hex, hp, hq, hd, hqd⟩ := hs.moved
  have hb := C95_bonds Q hQ f.box f'.box hs.lattice t σ τ f.pts f'.pts f.qpts f'.qpts h.system h'.system hp hq
    f.cutoff f.inner h.inner0 h.half (hs.cutoff ▸ h'.half) f.excl hex f.src f'.src h.source (by
      have := h'.source
      rwa [hs.excl, hs.cutoff, hs.inner] at this)
  have hb' := hb.map fun bd => S (act (f.data bd.p)) (act (f.queryData bd.q)) bd.dist bd.vec
  rw [List.map_map, List.map_map] at hb'
  refine (List.Perm.of_eq ?_).trans hb'
  refine List.map_congr_left fun bd hbd => ?_
  obtain ⟨e1, e2⟩ := h'.ends hbd
  simp only [Function.comp_apply, relabel]
  rw [hd _ (by rw [← hp.length]; exact e2), hqd _ (by rw [← hq.length]; exact e1)]

/-- Samples that do not see a rotation. -/
theorem samples_unturned {D β : Type*} {act : D → D} {Q : Vec3 ℝ → Vec3 ℝ} (hQ : Rigid Q)
    {S : D → D → ℝ → Vec3 ℝ → β} {f f' : DataFrame D} (h : f.OK) (h' : f'.OK) (hs : TurnedSystem act Q f f')
    (hS : ∀ bd ∈ bondsFrom f.src, ∀ d q r, S (act d) (act q) r (Q bd.vec) = S d q r bd.vec) :
    ((bondsFrom f'.src).map fun bd => S (f'.data bd.p) (f'.queryData bd.q) bd.dist bd.vec).Perm
      ((bondsFrom f.src).map fun bd => S (f.data bd.p) (f.queryData bd.q) bd.dist bd.vec) :=
  (samples_turned act hQ S h h' hs).trans
    (List.Perm.of_eq (List.map_congr_left fun bd hbd => hS bd hbd _ _ _))

theorem turned_volume {D : Type*} {act : D → D} {Q : Vec3 ℝ → Vec3 ℝ} (hQ : Rigid Q) {f f' : DataFrame D}
    (h : f.OK) (h' : f'.OK) (hs : TurnedSystem act Q f f') : f'.box.getVolume = f.box.getVolume :=
  hs.lattice.volume hQ h.system.inBox.pos h'.system.inBox.pos h.system.periodic h'.system.periodic

/-- **C95**: correlation functions. -/
theorem C95_correlation {V : Type*} [Field V] [StarRing V] [CharZero V] [DecidableEq V] (bins : ℕ) (rMax : ℝ)
    (a : RegularAxis ℝ) (ha : CorrelationFunction.mkAxis bins rMax = some a) (hb : bins ≤ OVERFLOW_BIN)
    (fs fs' : List (DataFrame V)) (hfs : ∀ f ∈ fs, f.OK) (hfs' : ∀ f ∈ fs', f.OK)
    (hsame : List.Forall₂ TurnedValues fs fs') (order order' : List ℕ)
    (hord : order.Perm (List.range bins)) (hord' : order'.Perm (List.range bins)) :
    ∃ s s1 s' s1', (CorrelationFunction.new a : CorrelationFunction ℝ V).run (fs.map (·.cf)) = some s ∧
      s.getCorrelation order = some s1 ∧
      (CorrelationFunction.new a : CorrelationFunction ℝ V).run (fs'.map (·.cf)) = some s' ∧
      s'.getCorrelation order' = some s1' ∧ s1'.output = s1.output := by
  obtain ⟨s, s1, e1, e2, e3⟩ := C36_correlation bins rMax a ha hb (fs.map (·.cf))
    (by simp only [List.mem_map]; rintro _ ⟨f, hf, rfl⟩; exact cf_legal (hfs f hf) bins) order hord
  obtain ⟨s', s1', e1', e2', e3'⟩ := C36_correlation bins rMax a ha hb (fs'.map (·.cf))
    (by simp only [List.mem_map]; rintro _ ⟨f, hf, rfl⟩; exact cf_legal (hfs' f hf) bins) order' hord'
  refine ⟨s, s1, s', s1', e1, e2, e1', e2', ?_⟩
  rw [e3, e3']
  refine List.map_congr_left fun i _ => meanIn_perm ?_
  rw [cfProducts_frames fs [] hfs, cfProducts_frames fs' [] hfs', List.nil_append, List.nil_append]
  refine flatMap_perm_of_forall₂ hsame _ _ fun f hf f' hf' h => ?_
  obtain ⟨Q, hQ, h⟩ := h
  exact samples_unturned (S := fun v w d _ => (d, star v * w)) hQ (hfs f hf) (hfs' f' hf') h
    fun _ _ _ _ _ => rfl

/-! ### Bond order diagrams -/

theorem rigid_rotate {r : Quat ℝ} (h : Quat.norm2 r = 1) : Rigid (Quat.rotate r) := by
  intro u v
  rw [Quat.dot_rotate, h]; ring

theorem rigid_id : Rigid id := fun _ _ => rfl

section BondOrder
open BondOrder

/-- **C95**: the local bond order diagram and the diagram of the orientations (`lbod`, `oocd`) do not
change when the whole system is turned, with the orientations. -/
theorem C95_bond_order (nT nP : ℕ) (g : BondOrder.Grid) (hg : BondOrder.mk nT nP = some g)
    (hn : nT * nP ≤ OVERFLOW_BIN) (mode : Mode) (hmode : mode = .lbod ∨ mode = .oocd) (box0 box0' : Box ℝ)
    (fs fs' : List (DataFrame (Quat ℝ))) (hne : fs ≠ []) (hfs : ∀ f ∈ fs, f.OK) (hfs' : ∀ f ∈ fs', f.OK)
    (hdir : ∀ f ∈ fs, ∀ v ∈ callDirections mode f.boCall, v ≠ ⟨0, 0, 0⟩)
    (hsame : List.Forall₂ TurnedSpace fs fs') (order order' : List ℕ)
    (hord : order.Perm (List.range (nT * nP))) (hord' : order'.Perm (List.range (nT * nP))) :
    ∃ s s1 s' s1' bo, run g mode (new g box0) (fs.map fun f => .accumulate f.boCall) = some s ∧
      bondOrder g s order = some (s1, bo) ∧
      run g mode (new g box0') (fs'.map fun f => .accumulate f.boCall) = some s' ∧
      bondOrder g s' order' = some (s1', bo) := by
  have hp : ∀ f ∈ fs, ∀ f' ∈ fs', TurnedSpace f f' →
      (callDirections mode f'.boCall).Perm (callDirections mode f.boCall) := by
    intro f hf f' hf' h
    obtain ⟨r, hr, h⟩ := h
    rw [callDirections_frame, callDirections_frame]
    refine samples_unturned (S := fun d q r v => direction mode (fun _ => d) (fun _ => q) ⟨0, 0, r, 1, v⟩)
      (rigid_rotate hr) (hfs f hf) (hfs' f' hf') h fun bd _ d q x => ?_
    have := C79_rotation r hr (fun _ => d) (fun _ => q) ⟨0, 0, x, 1, bd.vec⟩
    rcases hmode with rfl | rfl
    · exact this.1
    · exact this.2.1
  refine bo_congr nT nP g hg hn mode box0 box0' fs fs' hne hsame.length_eq.symm hfs hfs' hdir ?_
    (fun i j => howMany_perm (flatMap_perm_of_forall₂ hsame _ _ hp)) order order' hord hord'
  intro f' hf' v hv
  obtain ⟨f, hf, h⟩ := mem_of_forall₂ hsame hf'
  exact hdir f hf v ((hp f hf f' hf' h).mem_iff.mp hv)

/-- **C95**: in every mode, the diagram does not depend on the choice of the unit cell. -/
theorem C95_bond_order_cell (nT nP : ℕ) (g : BondOrder.Grid) (hg : BondOrder.mk nT nP = some g)
    (hn : nT * nP ≤ OVERFLOW_BIN) (mode : Mode) (box0 box0' : Box ℝ) (fs fs' : List (DataFrame (Quat ℝ)))
    (hne : fs ≠ []) (hfs : ∀ f ∈ fs, f.OK) (hfs' : ∀ f ∈ fs', f.OK)
    (hdir : ∀ f ∈ fs, ∀ v ∈ callDirections mode f.boCall, v ≠ ⟨0, 0, 0⟩)
    (hsame : List.Forall₂ (TurnedSystem id id) fs fs') (order order' : List ℕ)
    (hord : order.Perm (List.range (nT * nP))) (hord' : order'.Perm (List.range (nT * nP))) :
    ∃ s s1 s' s1' bo, run g mode (new g box0) (fs.map fun f => .accumulate f.boCall) = some s ∧
      bondOrder g s order = some (s1, bo) ∧
      run g mode (new g box0') (fs'.map fun f => .accumulate f.boCall) = some s' ∧
      bondOrder g s' order' = some (s1', bo) := by
  have hp : ∀ f ∈ fs, ∀ f' ∈ fs', TurnedSystem id id f f' →
      (callDirections mode f'.boCall).Perm (callDirections mode f.boCall) := by
    intro f hf f' hf' h
    rw [callDirections_frame, callDirections_frame]
    exact samples_unturned (S := fun d q r v => direction mode (fun _ => d) (fun _ => q) ⟨0, 0, r, 1, v⟩)
      rigid_id (hfs f hf) (hfs' f' hf') h fun bd _ d q x => rfl
  refine bo_congr nT nP g hg hn mode box0 box0' fs fs' hne hsame.length_eq.symm hfs hfs' hdir ?_
    (fun i j => howMany_perm (flatMap_perm_of_forall₂ hsame _ _ hp)) order order' hord hord'
  intro f' hf' v hv
  obtain ⟨f, hf, h⟩ := mem_of_forall₂ hsame hf'
  exact hdir f hf v ((hp f hf f' hf' h).mem_iff.mp hv)

end BondOrder

/-! ### Potentials of mean force -/

section PMFT
open PMFT

theorem rigid_planeTurn (a : ℝ) : Rigid (planeTurn a) := by
  intro u v
  simp only [planeTurn, Vec3.dot]
  linear_combination (u.x * v.x + u.y * v.y) * Real.sin_sq_add_cos_sq a

theorem pmft_turned (S : ℝ → ℝ → ℝ → Vec3 ℝ → List ℝ) (g : PMFT.Grid ℝ) (hax : ∀ a ∈ g.axes, AxisOK a)
    (hS : ∀ d q r v, (S d q r v).length = g.axes.length)
    (hs : (g.axes.map (·.nbins)).prod ≤ OVERFLOW_BIN) (box0 box0' : Box ℝ) (fs fs' : List (DataFrame ℝ))
    (hne : fs ≠ []) (hfs : ∀ f ∈ fs, f.OK) (hfs' : ∀ f ∈ fs', f.OK) (h2 : ∀ f ∈ fs, f.box.is2D = true)
    (hinv : ∀ f ∈ fs, ∀ bd ∈ bondsFrom f.src, ∀ a d q r,
      S (d + a) (q + a) r (planeTurn a bd.vec) = S d q r bd.vec)
    (hsame : List.Forall₂ TurnedPlane fs fs') (order order' : List ℕ)
    (hord : order.Perm (List.range (g.axes.map (·.nbins)).prod))
    (hord' : order'.Perm (List.range (g.axes.map (·.nbins)).prod)) :
    ∃ s s1 s' s1', PMFT.run check2D () (fun _ => fill g.jf) (zero g) (PMFT.new g () box0)
        (fs.map fun f => .accumulate (callOf S f)) = some s ∧ s.refresh (fun _ => fill g.jf) order = some s1 ∧
      PMFT.run check2D () (fun _ => fill g.jf) (zero g) (PMFT.new g () box0')
        (fs'.map fun f => .accumulate (callOf S f)) = some s' ∧
      s'.refresh (fun _ => fill g.jf) order' = some s1' ∧ s1'.out = s1.out := by
  obtain ⟨f, hf⟩ : ∃ f, fs.getLast? = some f := ⟨_, List.getLast?_eq_some_getLast hne⟩
  obtain ⟨f', hf', hff⟩ := getLast_of_forall₂ hsame hf
  have hlegal : ∀ fs : List (DataFrame ℝ), (∀ f ∈ fs, f.OK) →
      ∀ a ∈ fs.map (callOf S), PMFTLegal g.axes (.accumulate a) := by
    intro fs h a ha
    obtain ⟨f, hf, rfl⟩ := List.mem_map.mp ha
    refine ⟨(h f hf).exec, fun i _ s hs => ?_, by simp [callOf, attemptFrom, NO_NUMBER]⟩
    obtain ⟨bd, -, rfl⟩ := List.mem_map.mp hs
    exact hS _ _ _ _
  have h2' : ∀ f' ∈ fs', f'.box.is2D = true := by
    intro f' hf'
    obtain ⟨f, hf, a, h⟩ := mem_of_forall₂ hsame hf'
    rw [h.lattice.dims]; exact h2 f hf
  have := pmft2D_congr g g hax hax rfl hs box0 box0' (fs.map (callOf S)) (fs'.map (callOf S)) (hlegal fs hfs)
    (hlegal fs' hfs') (by simpa [callOf, attemptFrom, DataFrame.info] using h2)
    (by simpa [callOf, attemptFrom, DataFrame.info] using h2')
    (by simpa using hsame.length_eq.symm) (fun idx _ => ?_) (callOf S f) (callOf S f')
    (by rw [List.getLast?_map, hf]; rfl) (by rw [List.getLast?_map, hf']; rfl) ?_ order order' hord hord'
  · rwa [List.map_map, List.map_map] at this
  · rw [List.flatMap_map, List.flatMap_map]
    refine countIn_perm (flatMap_perm_of_forall₂ hsame _ _ fun f hf f' hf' h => ?_)
    rw [callOf_samples, callOf_samples]
    obtain ⟨a, h⟩ := h
    exact samples_unturned (rigid_planeTurn a) (hfs f hf) (hfs' f' hf') h
      fun bd hbd d q r => hinv f hf bd hbd a d q r
  · obtain ⟨a, hff⟩ := hff
    have hv := turned_volume (rigid_planeTurn a) (hfs f (List.mem_of_getLast? hf))
      (hfs' f' (List.mem_of_getLast? hf')) hff
    obtain ⟨t, σ, τ, -, hp, hq, -⟩ := hff.moved
    refine ⟨hq.length, hp.length, fun k => ?_⟩
    simp [callOf, attemptFrom, DataFrame.info, hv]

/-- The coordinates in the frame of the query point. -/
theorem xy_turned (a q : ℝ) (v : Vec3 ℝ) :
    (Mat2.fromAngle realTrig (-(q + a))).mulVec (planeTurn a v).x (planeTurn a v).y =
      (Mat2.fromAngle realTrig (-q)).mulVec v.x v.y := by
  have h := Real.sin_sq_add_cos_sq a
  simp only [Mat2.fromAngle, Mat2.mulVec, realTrig, planeTurn, Real.cos_neg, Real.sin_neg, Real.cos_add,
    Real.sin_add, Prod.mk.injEq]
  constructor
  · linear_combination (Real.cos q * v.x + Real.sin q * v.y) * h
  · linear_combination (Real.cos q * v.y - Real.sin q * v.x) * h

theorem angle_unique {r s t ori : ℝ} (hr : 0 < r) (hs : 0 ≤ s ∧ s < 2 * Real.pi)
    (ht : 0 ≤ t ∧ t < 2 * Real.pi) (h : polar r (ori - s) = polar r (ori - t)) : s = t := by
  simp only [polar, Prod.mk.injEq, mul_eq_mul_left_iff, hr.ne', or_false] at h
  obtain ⟨k, hk⟩ := Real.Angle.angle_eq_iff_two_pi_dvd_sub.mp (Real.Angle.cos_sin_inj h.1 h.2)
  have h1 : t - s = 2 * Real.pi * k := by linarith
  have hp := Real.pi_pos
  have hk0 : k = 0 := by
    have a1 : (k : ℝ) < 1 := by
      by_contra hc; push Not at hc; nlinarith [hs.1, ht.2]
    have a2 : (-1 : ℝ) < k := by
      by_contra hc; push Not at hc; nlinarith [hs.2, ht.1]
    have b1 : k < 1 := by exact_mod_cast a1
    have b2 : -1 < k := by exact_mod_cast a2
    omega
  rw [hk0] at h1
  simp at h1
  linarith

/-- The angle between a particle and a bond. -/
theorem angle_turned (a ori x y : ℝ) (hne : ¬ (x = 0 ∧ y = 0)) :
    modulusPositive (ori + a - realTrig.atan2 (Real.sin a * x + Real.cos a * y)
      (Real.cos a * x - Real.sin a * y)) realTrig.twoPi =
      modulusPositive (ori - realTrig.atan2 y x) realTrig.twoPi := by
  have hsc := Real.sin_sq_add_cos_sq a
  have hn : (Real.cos a * x - Real.sin a * y) ^ 2 + (Real.sin a * x + Real.cos a * y) ^ 2 = x ^ 2 + y ^ 2 := by
    linear_combination (x ^ 2 + y ^ 2) * hsc
  have hpos : 0 < x ^ 2 + y ^ 2 := by
    by_contra hc
    push Not at hc
    exact hne ⟨by nlinarith [sq_nonneg x, sq_nonneg y], by nlinarith [sq_nonneg x, sq_nonneg y]⟩
  have hne' : ¬ (Real.cos a * x - Real.sin a * y = 0 ∧ Real.sin a * x + Real.cos a * y = 0) := by
    rintro ⟨h1, h2⟩
    rw [h1, h2] at hn
    linarith
  obtain ⟨l1, u1, p1⟩ := angle_spec ori x y hne
  obtain ⟨l2, u2, p2⟩ := angle_spec (ori + a) _ _ hne'
  rw [hn] at p2
  refine angle_unique (ori := ori + a) (Real.sqrt_pos.mpr hpos) ⟨l2, u2⟩ ⟨l1, u1⟩ (p2.trans ?_)
  set t := modulusPositive (ori - realTrig.atan2 y x) realTrig.twoPi
  simp only [polar, Prod.mk.injEq] at p1 ⊢
  rw [show ori + a - t = a + (ori - t) by ring, Real.cos_add, Real.sin_add]
  constructor
  · linear_combination -Real.cos a * p1.1 + Real.sin a * p1.2
  · linear_combination -Real.sin a * p1.1 - Real.cos a * p1.2

/-- **C95**: the positional correlation of a `PMFTXY` does not depend on the unit cell, and not on
rotations of the system with the orientations, by an angle that may change from frame to frame. -/
theorem C95_pmft_xy (xMax yMax : ℝ) (hx : 0 < xMax) (hy : 0 < yMax) (nx ny : ℕ) (g : PMFT.Grid ℝ)
    (hg : mkXY xMax yMax nx ny = some g) (hn : nx * ny ≤ OVERFLOW_BIN) (box0 box0' : Box ℝ)
    (fs fs' : List (DataFrame ℝ)) (hne : fs ≠ []) (hfs : ∀ f ∈ fs, f.OK) (hfs' : ∀ f ∈ fs', f.OK)
    (h2 : ∀ f ∈ fs, f.box.is2D = true) (hsame : List.Forall₂ TurnedPlane fs fs') (order order' : List ℕ)
    (hord : order.Perm (List.range (nx * ny))) (hord' : order'.Perm (List.range (nx * ny))) :
    ∃ s s1 s' s1', PMFT.run check2D () (fun _ => fill g.jf) (zero g) (PMFT.new g () box0)
        (fs.map fun f => .accumulate (xyFrom realTrig f.info f.queryData f.src f.ev)) = some s ∧
      s.refresh (fun _ => fill g.jf) order = some s1 ∧
      PMFT.run check2D () (fun _ => fill g.jf) (zero g) (PMFT.new g () box0')
        (fs'.map fun f => .accumulate (xyFrom realTrig f.info f.queryData f.src f.ev)) = some s' ∧
      s'.refresh (fun _ => fill g.jf) order' = some s1' ∧ s1'.out = s1.out := by
  obtain ⟨e, hax⟩ := xy_axes hx hy hg hn
  have hp : (g.axes.map (·.nbins)).prod = nx * ny := by rw [e]; simp
  refine pmft_turned (fun _ q r v => sampleXY realTrig (fun _ => q) ⟨0, 0, r, 1, v⟩) g hax
    (fun d q r v => by rw [e]; rfl) (by rw [hp]; exact hn) box0 box0' fs fs' hne hfs hfs' h2 ?_ hsame order
    order' (by rw [hp]; exact hord) (by rw [hp]; exact hord')
  intro f _ bd _ a d q r
  simp only [sampleXY, xy_turned]

/-- **C95**: the same for `PMFTXYT`, if the bonds have a length. -/
theorem C95_pmft_xyt (xMax yMax : ℝ) (hx : 0 < xMax) (hy : 0 < yMax) (nx ny nt : ℕ) (g : PMFT.Grid ℝ)
    (hg : mkXYT realTrig xMax yMax nx ny nt = some g) (hn : nx * (ny * nt) ≤ OVERFLOW_BIN) (box0 box0' : Box ℝ)
    (fs fs' : List (DataFrame ℝ)) (hne : fs ≠ []) (hfs : ∀ f ∈ fs, f.OK) (hfs' : ∀ f ∈ fs', f.OK)
    (h2 : ∀ f ∈ fs, f.box.is2D = true)
    (hlong : ∀ f ∈ fs, ∀ bd ∈ bondsFrom f.src, ¬ (bd.vec.x = 0 ∧ bd.vec.y = 0))
    (hsame : List.Forall₂ TurnedPlane fs fs') (order order' : List ℕ)
    (hord : order.Perm (List.range (nx * (ny * nt)))) (hord' : order'.Perm (List.range (nx * (ny * nt)))) :
    ∃ s s1 s' s1', PMFT.run check2D () (fun _ => fill g.jf) (zero g) (PMFT.new g () box0)
        (fs.map fun f => .accumulate (xytFrom realTrig f.info f.data f.queryData f.src f.ev)) = some s ∧
      s.refresh (fun _ => fill g.jf) order = some s1 ∧
      PMFT.run check2D () (fun _ => fill g.jf) (zero g) (PMFT.new g () box0')
        (fs'.map fun f => .accumulate (xytFrom realTrig f.info f.data f.queryData f.src f.ev)) = some s' ∧
      s'.refresh (fun _ => fill g.jf) order' = some s1' ∧ s1'.out = s1.out := by
  obtain ⟨e, hax⟩ := xyt_axes realTrig_pos hx hy hg hn
  have hp : (g.axes.map (·.nbins)).prod = nx * (ny * nt) := by rw [e]; simp
  refine pmft_turned (fun d q r v => sampleXYT realTrig (fun _ => d) (fun _ => q) ⟨0, 0, r, 1, v⟩) g hax
    (fun d q r v => by rw [e]; rfl) (by rw [hp]; exact hn) box0 box0' fs fs' hne hfs hfs' h2 ?_ hsame order
    order' (by rw [hp]; exact hord) (by rw [hp]; exact hord')
  intro f hf bd hbd a d q r
  have hv := hlong f hf bd hbd
  have := angle_turned a d (-bd.vec.x) (-bd.vec.y) (by simpa using hv)
  simp only [sampleXYT, xy_turned]
  rw [← this]
  congr 6
  · simp only [planeTurn]; ring
  · simp only [planeTurn]; ring

/-- **C95**: the same for `PMFTR12`. -/
theorem C95_pmft_r12 (rMax : ℝ) (hr : 0 < rMax) (nr nt1 nt2 : ℕ) (g : PMFT.Grid ℝ)
    (hg : mkR12 realTrig rMax nr nt1 nt2 = some g) (hn : nr * (nt1 * nt2) ≤ OVERFLOW_BIN) (box0 box0' : Box ℝ)
    (fs fs' : List (DataFrame ℝ)) (hne : fs ≠ []) (hfs : ∀ f ∈ fs, f.OK) (hfs' : ∀ f ∈ fs', f.OK)
    (h2 : ∀ f ∈ fs, f.box.is2D = true)
    (hlong : ∀ f ∈ fs, ∀ bd ∈ bondsFrom f.src, ¬ (bd.vec.x = 0 ∧ bd.vec.y = 0))
    (hsame : List.Forall₂ TurnedPlane fs fs') (order order' : List ℕ)
    (hord : order.Perm (List.range (nr * (nt1 * nt2)))) (hord' : order'.Perm (List.range (nr * (nt1 * nt2)))) :
    ∃ s s1 s' s1', PMFT.run check2D () (fun _ => fill g.jf) (zero g) (PMFT.new g () box0)
        (fs.map fun f => .accumulate (r12From realTrig f.info f.data f.queryData f.src f.ev)) = some s ∧
      s.refresh (fun _ => fill g.jf) order = some s1 ∧
      PMFT.run check2D () (fun _ => fill g.jf) (zero g) (PMFT.new g () box0')
        (fs'.map fun f => .accumulate (r12From realTrig f.info f.data f.queryData f.src f.ev)) = some s' ∧
      s'.refresh (fun _ => fill g.jf) order' = some s1' ∧ s1'.out = s1.out := by
  obtain ⟨e, hax⟩ := r12_axes realTrig_pos hr hg hn
  have hp : (g.axes.map (·.nbins)).prod = nr * (nt1 * nt2) := by rw [e]; simp
  refine pmft_turned (fun d q r v => sampleR12 realTrig (fun _ => d) (fun _ => q) ⟨0, 0, r, 1, v⟩) g hax
    (fun d q r v => by rw [e]; rfl) (by rw [hp]; exact hn) box0 box0' fs fs' hne hfs hfs' h2 ?_ hsame order
    order' (by rw [hp]; exact hord) (by rw [hp]; exact hord')
  intro f hf bd hbd a d q r
  have hv := hlong f hf bd hbd
  have k1 := angle_turned a d bd.vec.x bd.vec.y hv
  have k2 := angle_turned a q (-bd.vec.x) (-bd.vec.y) (by simpa using hv)
  simp only [sampleR12]
  rw [← k1, ← k2]
  congr 6
  · simp only [planeTurn]; ring
  · simp only [planeTurn]; ring

/-- **C95**: the same for `PMFTXYZ`, with any equivalent orientations. -/
theorem C95_pmft_xyz (xMax yMax zMax : ℝ) (hx : 0 < xMax) (hy : 0 < yMax) (hz : 0 < zMax) (nx ny nz : ℕ)
    (g : PMFT.Grid ℝ) (hg : mkXYZ xMax yMax zMax nx ny nz = some g) (hn : nx * (ny * nz) ≤ OVERFLOW_BIN)
    (equiv : List (Quat ℝ)) (hen : equiv.length < NO_NUMBER) (box0 box0' : Box ℝ)
    (fs fs' : List (DataFrame (Quat ℝ))) (hne : fs ≠ []) (hfs : ∀ f ∈ fs, f.OK) (hfs' : ∀ f ∈ fs', f.OK)
    (h3 : ∀ f ∈ fs, f.box.is2D = false) (hsame : List.Forall₂ TurnedSpace fs fs') (order order' : List ℕ)
    (hord : order.Perm (List.range (nx * (ny * nz)))) (hord' : order'.Perm (List.range (nx * (ny * nz)))) :
    ∃ s s1 s' s1', PMFT.run checkXYZ NO_NUMBER (fillXYZ g.jf) (zero g) (PMFT.new g NO_NUMBER box0)
        (fs.map fun f => .accumulate (f.xyz equiv)) = some s ∧ s.refresh (fillXYZ g.jf) order = some s1 ∧
      PMFT.run checkXYZ NO_NUMBER (fillXYZ g.jf) (zero g) (PMFT.new g NO_NUMBER box0')
        (fs'.map fun f => .accumulate (f.xyz equiv)) = some s' ∧ s'.refresh (fillXYZ g.jf) order' = some s1' ∧
      s1'.out = s1.out := by
  obtain ⟨e, hax⟩ := xyz_axes hx hy hz hg hn
  have hp : (g.axes.map (·.nbins)).prod = nx * (ny * nz) := by rw [e]; simp
  obtain ⟨f, hf⟩ : ∃ f, fs.getLast? = some f := ⟨_, List.getLast?_eq_some_getLast hne⟩
  obtain ⟨f', hf', hff⟩ := getLast_of_forall₂ hsame hf
  have hlegal : ∀ fs : List (DataFrame (Quat ℝ)), (∀ f ∈ fs, f.OK) →
      ∀ a ∈ fs.map (·.xyz equiv), PMFTLegal g.axes (.accumulate a) := by
    intro fs h a ha
    obtain ⟨f, hf, rfl⟩ := List.mem_map.mp ha
    exact xyz_legal (h f hf) hen (by rw [e]; rfl)
  have h3' : ∀ f' ∈ fs', f'.box.is2D = false := by
    intro f' hf'
    obtain ⟨f, hf, r, -, h⟩ := mem_of_forall₂ hsame hf'
    rw [h.lattice.dims]; exact h3 f hf
  have hm : ∀ fs : List (DataFrame (Quat ℝ)), ∀ a ∈ fs.map (·.xyz equiv), a.numEquiv = equiv.length := by
    intro fs a ha
    obtain ⟨f, -, rfl⟩ := List.mem_map.mp ha
    rfl
  have := pmftXYZ_congr g g hax hax rfl (by rw [hp]; exact hn) box0 box0' equiv.length (fs.map (·.xyz equiv))
    (fs'.map (·.xyz equiv)) (hm fs) (hm fs') (hlegal fs hfs) (hlegal fs' hfs')
    (by simpa [DataFrame.xyz, xyzFrom, DataFrame.info] using h3)
    (by simpa [DataFrame.xyz, xyzFrom, DataFrame.info] using h3')
    (by simpa using hsame.length_eq.symm) (fun idx _ => ?_) (f.xyz equiv) (f'.xyz equiv)
    (by rw [List.getLast?_map, hf]; rfl) (by rw [List.getLast?_map, hf']; rfl) ?_ order order'
    (by rw [hp]; exact hord) (by rw [hp]; exact hord')
  · rwa [List.map_map, List.map_map] at this
  · rw [List.flatMap_map, List.flatMap_map]
    refine countIn_perm (flatMap_perm_of_forall₂ hsame _ _ fun f hf f' hf' h => ?_)
    rw [xyz_samples, xyz_samples]
    obtain ⟨r, hr, h⟩ := h
    refine (samples_unturned (S := fun _ q r v => samplesXYZ (fun _ => q) equiv ⟨0, 0, r, 1, v⟩)
      (rigid_rotate hr) (hfs f hf) (hfs' f' hf') h fun bd _ d q x => ?_).flatten
    simp only [samplesXYZ, Quat.conj_mul, Quat.rotate_mul, Quat.rotate_conj_rotate r hr]
  · obtain ⟨r, hr, hff⟩ := hff
    have hv := turned_volume (rigid_rotate hr) (hfs f (List.mem_of_getLast? hf))
      (hfs' f' (List.mem_of_getLast? hf')) hff
    obtain ⟨t, σ, τ, -, hp, hq, -⟩ := hff.moved
    refine ⟨hq.length, hp.length, fun k => ?_⟩
    simp [DataFrame.xyz, xyzFrom, DataFrame.info, hv]

end PMFT

end Freud
