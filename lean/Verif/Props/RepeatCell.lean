import Verif.Props.RepeatOrder
import Verif.Lemmas.Crystal

/-!
# Property C109: systems generated with more replicas
-/

namespace Freud
open Spec PeriodicBuffer

theorem flatten_uniform {α : Type*} {N : ℕ} (hN : 0 < N) (bs : List (List α)) (h : ∀ l ∈ bs, l.length = N) (i : ℕ) :
    bs.flatten[i]? = (bs[i / N]?).bind fun l => l[i % N]? := by
  induction bs generalizing i with
  | nil => simp
  | cons l bs ih =>
    rw [List.flatten_cons]
    have hl := h l (by simp)
    by_cases hi : i < N
    · rw [List.getElem?_append_left (by omega), Nat.div_eq_of_lt hi, Nat.mod_eq_of_lt hi]
      simp
    · have hi := not_lt.mp hi
      rw [List.getElem?_append_right (by omega), hl, ih fun l' h' => h l' (by simp [h']),
        Nat.div_eq_sub_div hN hi, Nat.mod_eq_sub_mod hi]
      simp

/-- The system made from a cell, position by position. `i / N` is the basis position that particle `i` comes
from. -/
structure Placed (u : UnitCell ℝ) (c : ℝ) (n : Vec3 ℤ) (t : Vec3 ℝ) (N : ℕ) (b : Box ℝ) (pos : List (Vec3 ℝ)) :
    Prop where
  good : GoodCell b
  dim : b.is2D = u.box.is2D
  lat : ∀ k : Vec3 ℤ, lattice b k = Vec3.smul c (lattice u.box ⟨n.x * k.x, n.y * k.y, n.z * k.z⟩)
  point : ∀ i p, pos[i]? = some p → ∃ f, u.basis[i / N]? = some f ∧ InHalfOpen b p ∧ ∃ m : Vec3 ℤ,
    (u.box.is2D = true → m.z = 0) ∧
      p = Vec3.smul c (comb u.box (f.x - 1 / 2) (f.y - 1 / 2) (f.z - 1 / 2) + t + lattice u.box m)
  all : ∀ (a : ℕ) (f p : Vec3 ℝ) (m : Vec3 ℤ), u.basis[a]? = some f → InHalfOpen b p →
    (u.box.is2D = true → m.z = 0) →
    p = Vec3.smul c (comb u.box (f.x - 1 / 2) (f.y - 1 / 2) (f.z - 1 / 2) + t + lattice u.box m) →
    ∃ i, i / N = a ∧ pos[i]? = some p
  once : ∀ i k p, pos[i]? = some p → pos[k]? = some p → i / N = k / N → i = k

theorem generate_numbers {u : UnitCell ℝ} (hu : GoodCell u.box) {n : Vec3 ℤ} {c : ℝ} {b : Box ℝ} {pos : List (Vec3 ℝ)}
    (h : u.generateSystem n c none = some (b, pos)) :
    0 < c ∧ (0 < n.x ∧ 0 < n.y ∧ 0 < n.z) ∧ (u.box.is2D = true → n.z = 1) := by
  have := (C59_raises_iff u n c none hu).not
  rw [h] at this
  simp only [reduceCtorEq, not_false_eq_true, true_iff, not_or, not_not, not_le, not_and] at this
  tauto

theorem placed {u : UnitCell ℝ} (hu : GoodCell u.box) {n : Vec3 ℤ} {c : ℝ} {b : Box ℝ} {pos : List (Vec3 ℝ)}
    (h : u.generateSystem n c none = some (b, pos)) : ∃ t, Planar u.box t ∧
      Placed u c n t (n.x * n.y * n.z).toNat b pos := by
  obtain ⟨hc, ⟨h1, h2, h3⟩, -⟩ := generate_numbers hu h
  obtain ⟨g, hdim, ⟨e1, e2, e3⟩, hL, blocks, rfl, hb⟩ := generate_blocks hu h
  have hN : 0 < n.x * n.y * n.z := by positivity
  set N := (n.x * n.y * n.z).toNat with hNe
  have hN' : 0 < N := by omega
  have hfg : ∀ (a : ℕ) f, u.basis[a]? = some f → ∃ l, blocks[a]? = some l ∧ IsBlock u.box b c n (u.shift n) f l :=
    fun a f hf => by
      obtain ⟨ha, e⟩ := List.getElem?_eq_some_iff.mp hf
      have ha' : a < blocks.length := hb.length_eq ▸ ha
      exact ⟨_, List.getElem?_eq_getElem ha', by subst e; exact (List.forall₂_iff_get.mp hb).2 a ha ha'⟩
  have hgf : ∀ (a : ℕ) l, blocks[a]? = some l → ∃ f, u.basis[a]? = some f ∧ IsBlock u.box b c n (u.shift n) f l :=
    fun a l hl => by
      obtain ⟨ha, e⟩ := List.getElem?_eq_some_iff.mp hl
      have ha' : a < u.basis.length := hb.length_eq ▸ ha
      exact ⟨_, List.getElem?_eq_getElem ha', by subst e; exact (List.forall₂_iff_get.mp hb).2 a ha' ha⟩
  have hlen : ∀ l ∈ blocks, l.length = N := fun l hl => by
    obtain ⟨a, ha⟩ := List.mem_iff_getElem?.mp hl
    obtain ⟨f, -, hf⟩ := hgf a l ha
    have := hf.length
    omega
  have hget := flatten_uniform hN' blocks hlen
  refine ⟨u.shift n, shift_planar u n, g, hdim, fun k => ?_, fun i p hp => ?_, fun a f p m hf hin hm e => ?_, fun i k p hi hk e => ?_⟩
  · ext <;> simp [lattice, comb, a1, a2, a3, e1, e2, e3, hL] <;> ring
  · rw [hget, Option.bind_eq_some_iff] at hp
    obtain ⟨l, hl, hp⟩ := hp
    obtain ⟨f, hf, hblk⟩ := hgf _ l hl
    exact ⟨f, hf, (hblk.exact p).mp (List.mem_of_getElem? hp)⟩
  · obtain ⟨l, hl, hblk⟩ := hfg a f hf
    obtain ⟨r, hr⟩ := List.mem_iff_getElem?.mp ((hblk.exact p).mpr ⟨hin, m, hm, e⟩)
    have hrN : r < N := by
      rw [← hlen l (List.mem_of_getElem? hl)]
      exact (List.getElem?_eq_some_iff.mp hr).1
    have ea : (N * a + r) / N = a := by rw [Nat.mul_add_div hN', Nat.div_eq_of_lt hrN, add_zero]
    refine ⟨N * a + r, ea, ?_⟩
    rw [hget, ea, hl, Nat.mul_add_mod, Nat.mod_eq_of_lt hrN]
    exact hr
  · rw [hget, Option.bind_eq_some_iff] at hi hk
    obtain ⟨l, hl, hi⟩ := hi
    obtain ⟨l', hl', hk⟩ := hk
    rw [e, hl', Option.some.injEq] at hl
    subst hl
    obtain ⟨f, -, hblk⟩ := hgf _ _ hl'
    obtain ⟨a1, a2⟩ := List.getElem?_eq_some_iff.mp hi
    obtain ⟨b1, b2⟩ := List.getElem?_eq_some_iff.mp hk
    have := (List.nodup_iff_injective_get.mp hblk.nodup).eq_iff.mp
      (show _root_.List.get _ ⟨_, a1⟩ = _root_.List.get _ ⟨_, b1⟩ from a2.trans b2.symm)
    rw [Fin.mk.injEq] at this
    rw [← Nat.div_add_mod i N, ← Nat.div_add_mod k N, e, this]

theorem Spec.GoodCell.allowed {b : Box ℝ} (g : GoodCell b) {k : Vec3 ℤ} : AllowedShift b k ↔ (b.is2D = true → k.z = 0) := by
  obtain ⟨h1, h2, h3⟩ := g.periodic
  simp [AllowedShift, h1, h2, h3]

/-- Two images in the half-open cell are the same. -/
theorem Spec.GoodCell.image_eq {b : Box ℝ} (g : GoodCell b) {w w' : Vec3 ℝ} (h : InHalfOpen b w) (h' : InHalfOpen b w')
    (hi : IsImage b w w') : w' = w := by
  obtain ⟨k, hk, e⟩ := hi
  rw [← wrap_of_inHalfOpen g.valid h', ← wrap_of_inHalfOpen g.valid h, e,
    wrap_add_lattice g.valid _ ((inHalfOpen_iff g.valid w).mp h).1 k hk, wrap_of_inHalfOpen g.valid h]

/-- Every vector (of the plane, in 2D) has an image in the half-open cell. -/
theorem Spec.GoodCell.image {b : Box ℝ} (g : GoodCell b) {v : Vec3 ℝ} (hv : Planar b v) :
    InHalfOpen b (b.wrap v) ∧ IsImage b v (b.wrap v) :=
  ⟨wrap_inHalfOpen g.valid g.periodic.1 g.periodic.2.1 g.periodic.2.2 v hv,
    _, wrapShift_allowed b v, wrap_eq_add_lattice g.valid v hv⟩

theorem Placed.system {u : UnitCell ℝ} {c : ℝ} {n : Vec3 ℤ} {t : Vec3 ℝ} {N : ℕ} {b : Box ℝ} {pos : List (Vec3 ℝ)}
    (g : Placed u c n t N b pos) : PeriodicSystem b pos pos := by
  have hin : ∀ p ∈ pos, InCell b p := fun p hp => by
    obtain ⟨i, hi⟩ := List.mem_iff_getElem?.mp hp
    obtain ⟨-, -, ⟨f, hf, h1, h2, h3⟩, -⟩ := g.point i p hi
    exact ⟨f, hf, ⟨h1.1, h1.2.le⟩, ⟨h2.1, h2.2.le⟩, h3.1, h3.2.le⟩
  exact ⟨⟨g.good.valid, g.good.pos, hin⟩, g.good.periodic, hin⟩

/-- Systems generated from the same cell with the same scale: with `k` times as many replicas along each
direction, `generate_system` gives the same periodic system, described by a cell that holds `kx ky kz` of the
other. -/
theorem C109_generate (u : UnitCell ℝ) (hu : GoodCell u.box) (n k : Vec3 ℤ) (scale : ℝ) (b b' : Box ℝ)
    (pos pos' : List (Vec3 ℝ)) (h : u.generateSystem n scale none = some (b, pos))
    (h' : u.generateSystem ⟨k.x * n.x, k.y * n.y, k.z * n.z⟩ scale none = some (b', pos')) :
    CoarserLattice b b' ∧ (∃ t φ, Repeated b b' t φ pos pos') ∧ PeriodicSystem b pos pos ∧
      PeriodicSystem b' pos' pos' ∧ ∃ m : ℕ, (m : ℤ) = k.x * k.y * k.z ∧ 1 ≤ m ∧
        pos'.length = m * pos.length ∧ b'.getVolume = m * b.getVolume := by
  obtain ⟨hc, ⟨n1, n2, n3⟩, -⟩ := generate_numbers hu h
  obtain ⟨-, ⟨m1, m2, m3⟩, -⟩ := generate_numbers hu h'
  have k1 : 0 < k.x := (mul_pos_iff_of_pos_right n1).mp m1
  have k2 : 0 < k.y := (mul_pos_iff_of_pos_right n2).mp m2
  have k3 : 0 < k.z := (mul_pos_iff_of_pos_right n3).mp m3
  obtain ⟨t, ht, g⟩ := placed hu h
  obtain ⟨t', ht', g'⟩ := placed hu h'
  set N := (n.x * n.y * n.z).toNat
  set N' := (k.x * n.x * (k.y * n.y) * (k.z * n.z)).toNat
  have hco : CoarserLattice b b' := by
    refine ⟨by rw [g.dim, g'.dim], fun s hs => ⟨⟨k.x * s.x, k.y * s.y, k.z * s.z⟩, ?_, ?_⟩⟩
    · rw [g.good.allowed, g.dim]
      intro h2
      rw [g'.good.allowed, g'.dim] at hs
      simp [hs h2]
    · rw [g.lat, g'.lat]
      congr 2
      ext <;> simp <;> ring
  refine ⟨hco, ⟨Vec3.smul scale (t' - t), ?_⟩, g.system, g'.system, ?_⟩
  · set T := Vec3.smul scale (t' - t)
    have hT : ∀ (x : Vec3 ℝ) (m s : Vec3 ℤ), Vec3.smul scale (x + t + lattice u.box m) + T + lattice b s =
        Vec3.smul scale (x + t' + lattice u.box (m + ⟨n.x * s.x, n.y * s.y, n.z * s.z⟩)) := fun x m s => by
      rw [g.lat]
      ext <;> simp [T, lattice, comb] <;> ring
    have pl : ∀ (x : Vec3 ℝ) (m : Vec3 ℤ), Planar u.box x → Planar b (Vec3.smul scale (x + t' + lattice u.box m)) ∧
        Planar b' (Vec3.smul scale (x + t' + lattice u.box m)) := fun x m hx => by
      unfold Planar
      rw [g.dim, g'.dim, and_self]
      intro h2
      simp [hx h2, ht' h2, lattice_planar hu.valid m h2]
    have plT : Planar b T := fun h2 => by
      rw [g.dim] at h2
      simp [T, ht h2, ht' h2]
    have plc : ∀ f : Vec3 ℝ, Planar u.box (comb u.box (f.x - 1 / 2) (f.y - 1 / 2) (f.z - 1 / 2)) := fun f h2 => by
      simp [comb, a1, a2, a3, hu.valid.Lz_2D h2]
    have key : ∀ i p', pos'[i]? = some p' → ∃ j p, j / N = i / N' ∧ pos[j]? = some p ∧ IsImage b (p + T) p' := by
      intro i p' hp'
      obtain ⟨f, hf, hin, m, hm, e⟩ := g'.point i p' hp'
      have hpl : Planar b (p' - T) := by
        have := (pl _ m (plc f)).1
        rw [← e] at this
        intro h2
        simp [this h2, plT h2]
      obtain ⟨w1, s, hs, w2⟩ := g.good.image hpl
      rw [g.good.allowed, g.dim] at hs
      obtain ⟨j, e1, e2⟩ := g.all (i / N') f (b.wrap (p' - T)) (m + ⟨n.x * s.x, n.y * s.y, n.z * s.z⟩) hf w1
        (fun h2 => by simp [hm h2, hs h2]) (by
          rw [w2, g.lat, e]
          ext <;> simp [T, lattice, comb] <;> ring)
      refine ⟨j, _, e1, e2, -s, ?_, ?_⟩
      · rw [g.good.allowed, g.dim]
        intro h2
        simp [hs h2]
      · rw [w2, lattice_neg]
        ext <;> simp <;> ring
    have key' : ∀ i, ∃ j, ∀ p', pos'[i]? = some p' → j / N = i / N' ∧ ∃ p, pos[j]? = some p ∧ IsImage b (p + T) p' := by
      intro i
      cases hi : pos'[i]? with
      | none => exact ⟨0, fun p' h => by cases h⟩
      | some q =>
        obtain ⟨j, p, e1, e2, e3⟩ := key i q hi
        refine ⟨j, fun p' h => ?_⟩
        cases h
        exact ⟨e1, p, e2, e3⟩
    choose φ hφ using key'
    refine ⟨φ, fun i p' hp' => (hφ i p' hp').2, fun j p v hp hv => ?_, fun i l p v hp hv e hi => ?_⟩
    · obtain ⟨f, hf, hin, m, hm, e⟩ := g.point j p hp
      obtain ⟨s, hs, ev⟩ := id hv
      rw [g.good.allowed, g.dim] at hs
      rw [e, hT] at ev
      have hpl : Planar b' v := by
        rw [ev]
        exact (pl _ _ (plc f)).2
      obtain ⟨w1, s', hs', w2⟩ := g'.good.image hpl
      obtain ⟨i, e1, e2⟩ := g'.all (j / N) f (b'.wrap v)
        (m + ⟨n.x * s.x, n.y * s.y, n.z * s.z⟩ + ⟨k.x * n.x * s'.x, k.y * n.y * s'.y, k.z * n.z * s'.z⟩) hf w1
        (fun h2 => by
          rw [g'.good.allowed, g'.dim] at hs'
          simp [hm h2, hs h2, hs' h2]) (by
          rw [w2, g'.lat, ev]
          ext <;> simp [lattice, comb] <;> ring)
      refine ⟨i, b'.wrap v, ?_, e2, s', hs', w2⟩
      obtain ⟨a1, q, a2, a3⟩ := hφ i _ e2
      obtain ⟨-, -, hin', -⟩ := g.point _ q a2
      have hi : IsImage b (p + T) (q + T) :=
        isImage_trans hv (isImage_trans (hco.image ⟨s', hs', w2⟩) (isImage_symm a3))
      have hi' : IsImage b p q := by
        have := isImage_sub hi T
        convert this using 1 <;> (ext <;> simp)
      have := g.good.image_eq hin hin' hi'
      subst this
      exact g.once _ _ q a2 hp (a1.trans e1)
    · obtain ⟨-, -, i1, -⟩ := g'.point i p hp
      obtain ⟨-, -, i2, -⟩ := g'.point l v hv
      have := g'.good.image_eq i1 i2 hi
      subst this
      exact g'.once i l v hp hv (by rw [← (hφ i v hp).1, ← (hφ l v hv).1, e])
  · have hk : 0 < k.x * k.y * k.z := by positivity
    have hm : ((k.x * k.y * k.z).toNat : ℤ) = k.x * k.y * k.z := Int.toNat_of_nonneg hk.le
    refine ⟨(k.x * k.y * k.z).toNat, hm, by omega, ?_, ?_⟩
    · zify
      rw [hm, C59_count u _ scale hu _ _ h, C59_count u _ scale hu _ _ h']
      ring
    · have hm' : (((k.x * k.y * k.z).toNat : ℕ) : ℝ) = k.x * k.y * k.z := by exact_mod_cast hm
      obtain ⟨-, d, -, eL, -⟩ := generate_blocks hu h
      obtain ⟨-, d', -, eL', -⟩ := generate_blocks hu h'
      obtain ⟨-, -, q⟩ := generate_numbers hu h
      obtain ⟨-, -, q'⟩ := generate_numbers hu h'
      rw [hm', Box.getVolume, Box.getVolume, d, d', eL, eL']
      cases h2 : u.box.is2D
      · simp
        ring
      · have e1 := q h2
        have e2 := q' h2
        rw [e1] at e2
        simp only [mul_one] at e2
        simp [e2]
        ring

/-! ## A concrete case: a pair of particles in a cell, and two of these cells -/

/-- A square (cubic) cell with two particles at a distance of 1. -/
noncomputable def pairCell (d : Bool) : UnitCell ℝ := ⟨tilted 0 d, [⟨1 / 2, 1 / 2, 1 / 2⟩, ⟨6 / 10, 1 / 2, 1 / 2⟩]⟩

theorem pairCell_good (d : Bool) : GoodCell (pairCell d).box := ⟨tilted_valid 0 d, tilted_pos 0 d, rfl, rfl, rfl⟩

theorem exists_repeated (d : Bool) : ∃ b b' t φ pos pos', Repeated b b' t φ pos pos' ∧ CoarserLattice b b' ∧
    PeriodicSystem b pos pos ∧ PeriodicSystem b' pos' pos' ∧ pos.length = 2 ∧ pos'.length = 4 ∧ b.is2D = d ∧
    b'.getVolume = 2 * b.getVolume ∧ BelowHalf b 2 ∧ BelowHalf b' 2 := by
  have ex : ∀ n : Vec3 ℤ, 0 < n.x ∧ 0 < n.y ∧ n.z = 1 →
      ∃ r, (pairCell d).generateSystem n 1 none = some r := fun n hn => by
    rw [← Option.ne_none_iff_exists', Ne, C59_raises_iff _ _ _ _ (pairCell_good d)]
    have : 0 < n.x ∧ 0 < n.y ∧ 0 < n.z := by omega
    simp [this, hn, pairCell]
  obtain ⟨⟨b, pos⟩, h⟩ := ex ⟨1, 1, 1⟩ (by decide)
  obtain ⟨⟨b', pos'⟩, h'⟩ := ex ⟨2 * 1, 1 * 1, 1 * 1⟩ (by decide)
  obtain ⟨g1, ⟨t, φ, g2⟩, g3, g4, m, g5, -, g6, g7⟩ := C109_generate (pairCell d) (pairCell_good d) ⟨1, 1, 1⟩ ⟨2, 1, 1⟩ 1
    b b' pos pos' h h'
  obtain rfl : m = 2 := by simp at g5; omega
  have hlen : pos.length = 2 := by
    have := C59_count _ _ _ (pairCell_good d) _ _ h
    simp [pairCell] at this
    omega
  obtain ⟨-, e1, e2, e3, -⟩ := generate_blocks (pairCell_good d) h
  obtain ⟨-, e1', e2', e3', -⟩ := generate_blocks (pairCell_good d) h'
  refine ⟨b, b', t, φ, pos, pos', g2, g1, g3, g4, hlen, by omega, e1, g7, ⟨fun _ => ?_, fun _ => ?_, fun _ hh => ?_⟩,
    fun _ => ?_, fun _ => ?_, fun _ hh => ?_⟩
  · simp [Box.getNearestPlaneDistance, e2, e3, pairCell, tilted, Box.mk', Box.setL]; cases d <;> norm_num
  · simp [Box.getNearestPlaneDistance, e2, e3, pairCell, tilted, Box.mk', Box.setL]; cases d <;> norm_num
  · have hd : d = false := e1.symm.trans hh
    simp [Box.getNearestPlaneDistance, e3, pairCell, tilted, Box.mk', Box.setL, hd]; cases d <;> norm_num
  · simp [Box.getNearestPlaneDistance, e2', e3', pairCell, tilted, Box.mk', Box.setL]; cases d <;> norm_num
  · simp [Box.getNearestPlaneDistance, e2', e3', pairCell, tilted, Box.mk', Box.setL]; cases d <;> norm_num
  · have hd : d = false := e1'.symm.trans hh
    simp [Box.getNearestPlaneDistance, e3', pairCell, tilted, Box.mk', Box.setL, hd]; cases d <;> norm_num

/-- The frames of the theorems about pair functions. -/
theorem exists_repeated_frames {D : Type*} (d : Bool) (x y : D) : ∃ f f' : DataFrame D, f.OK ∧ f'.OK ∧
    RepeatedFrame 2 f f' ∧ f.box.is2D = d ∧ f.pts.length = 2 ∧ f.qpts.length = 2 ∧ f'.pts.length = 4 ∧
    f.data 0 = x ∧ f.data 1 = y := by
  obtain ⟨b, b', t, φ, pos, pos', h1, h2, h3, h4, h5, h6, h7, h8, h9, h10⟩ := exists_repeated d
  obtain ⟨src, ev, h⟩ := exists_frame h3 (List.ne_nil_of_length_pos (by omega)) (List.ne_nil_of_length_pos (by omega))
    le_rfl (show (0 : ℝ) < 2 by norm_num) h9 true (fun i => if i = 0 then x else y) (fun i => if i = 0 then x else y)
  obtain ⟨src', ev', h'⟩ := exists_frame h4 (List.ne_nil_of_length_pos (by omega))
    (List.ne_nil_of_length_pos (by omega)) le_rfl (show (0 : ℝ) < 2 by norm_num) h10 true
    (fun i => if φ i = 0 then x else y) (fun i => if φ i = 0 then x else y)
  exact ⟨_, _, h, h', ⟨⟨h2, rfl, rfl, rfl, t, φ, φ, fun _ => ⟨rfl, rfl, rfl⟩, h1, h1, fun _ _ => rfl, fun _ _ => rfl⟩,
    ⟨by decide, by exact_mod_cast h8, by simp [h5, h6], by simp [h5, h6]⟩⟩, h7, h5, h5, h6, rfl, rfl⟩

-- `C109_correlation` applied to the pair with the values 3 and 5
example : ∃ f f' : DataFrame ℝ, f.pts.length = 2 ∧ f'.pts.length = 4 ∧
    ∃ s s1 s' s1', (CorrelationFunction.new ⟨4, 0, 2⟩ : CorrelationFunction ℝ ℝ).run [f.cf] = some s ∧
      s.getCorrelation (List.range 4) = some s1 ∧
      (CorrelationFunction.new ⟨4, 0, 2⟩ : CorrelationFunction ℝ ℝ).run [f'.cf] = some s' ∧
      s'.getCorrelation (List.range 4) = some s1' ∧ s1'.output = s1.output := by
  obtain ⟨f, f', h, h', hs, -, e1, -, e2, -⟩ := exists_repeated_frames false (3 : ℝ) 5
  exact ⟨f, f', e1, e2, C109_correlation 2 (by decide) 4 2 ⟨4, 0, 2⟩ (by simp [CorrelationFunction.mkAxis]) (by decide)
    [f] [f'] (by simpa using h) (by simpa using h') (by simpa using hs) _ _ (List.Perm.refl _) (List.Perm.refl _)⟩

-- the frames of `C109_rdf` (finite-size correction included), `C109_pmft_xy`, `C109_pmft_xyt` and `C109_pmft_r12`
example : ∃ f f' : DataFrame ℝ, f.OK ∧ f'.OK ∧ RepeatedFrame 2 f f' ∧ f.box.is2D = true ∧ 2 ≤ f.qpts.length := by
  obtain ⟨f, f', h, h', hs, e, -, e2, -⟩ := exists_repeated_frames true (3 : ℝ) 5
  exact ⟨f, f', h, h', hs, e, e2.ge⟩

-- the frames of `C109_pmft_xyz`
example : ∃ f f' : DataFrame (Quat ℝ), f.OK ∧ f'.OK ∧ RepeatedFrame 2 f f' ∧ f.box.is2D = false := by
  obtain ⟨f, f', h, h', hs, e, -⟩ := exists_repeated_frames false (⟨1, 0, 0, 0⟩ : Quat ℝ) ⟨0, 0, 0, 1⟩
  exact ⟨f, f', h, h', hs, e⟩

-- the lists of `C109_local_density`, `C109_hexatic` and `C109_steinhardt`
example (d : Bool) : ∃ φ b b' pts pts' nl nl', RepeatedLists 2 φ b b' pts pts' nl nl' ∧ b.is2D = d ∧
    pts.length = 2 ∧ pts'.length = 4 := by
  have mk : ∀ {b : Box ℝ} {pts : List (Vec3 ℝ)}, PeriodicSystem b pts pts → pts ≠ [] → BelowHalf b 2 →
      ∃ nl, IsSource b pts pts 2 0 true (.list nl) := by
    intro b pts hs hne hh
    obtain ⟨src, ev, h⟩ := exists_frame hs hne hne le_rfl (show (0 : ℝ) < 2 by norm_num) hh true (fun _ => ())
      (fun _ => ())
    obtain ⟨s, found, hm, hf, -⟩ := h.source
    obtain ⟨nl, hnl⟩ := C20_result_exists found pts.length pts.length false
      ((List.range pts.length).map fun i => (0, i))
    exact ⟨nl, s, found, hm, hf, Or.inr ⟨false, _, nl, by simp [IsExecution, Function.comp_def], hnl, rfl⟩⟩
  obtain ⟨b, b', t, φ, pos, pos', h1, h2, h3, h4, h5, h6, h7, -, h9, h10⟩ := exists_repeated d
  obtain ⟨nl, h⟩ := mk h3 (List.ne_nil_of_length_pos (by omega)) h9
  obtain ⟨nl', h'⟩ := mk h4 (List.ne_nil_of_length_pos (by omega)) h10
  exact ⟨φ, b, b', pos, pos', nl, nl', ⟨h3, h4, by omega, by omega, h2, ⟨t, h1⟩, by decide, by omega,
    2, 0, true, le_rfl, h9, h10, h, h'⟩, h7, h5, h6⟩

end Freud
