import Verif.Lemmas.VoronoiNearest
import Verif.Spec.VoronoiNearest
import Verif.Props.VoronoiTurned

/-!
# Property C130: the closest particles are Voronoi neighbors
-/

namespace Freud
open Spec Voronoi

namespace Diagram

theorem lattice_eq_vector {b : Box ℝ} {k : Container} (hb : Valid b) (hk : container b = some k)
    (n : Vec3 ℤ) : ∃ n0, lattice b n = containerVector k n0 ∧ (b.is2D = true → n0.z = 0) := by
  by_cases h2 : b.is2D = true
  · refine ⟨⟨n.x, n.y, 0⟩, ?_, fun _ => rfl⟩
    rw [vector_2D hk h2]
    have := hb.Lz_2D h2
    ext <;> simp [lattice, comb, a1, a2, a3, this]
  · exact ⟨n, (vector_3D hk (by simpa using h2) n).symm, fun h => absurd h h2⟩

theorem det_ne {b : Box ℝ} {k : Container} (hb : Valid b) (hk : container b = some k) :
    k.bx * k.by' * k.bz ≠ 0 := by
  rw [container_eq hk]
  by_cases h2 : b.is2D = true
  · rw [if_pos h2]
    simpa using ⟨hb.Lx_ne, hb.Ly_ne⟩
  · rw [if_neg h2]
    exact mul_ne_zero (mul_ne_zero hb.Lx_ne hb.Ly_ne) (hb.Lz_ne (by simpa using h2))

/-- The vector from a cell to a site: to an image in the box lattice, and up or down in 2D. -/
theorem split_vector {b : Box ℝ} {k : Container} (hk : container b = some k)
    {points : List (Vec3 ℝ)} (hplane : ∀ p ∈ points, Planar b p) {i j : ℕ} {p u : Vec3 ℝ} {m : Vec3 ℤ}
    (hp : points[i]? = some p) (hu : Site k points j u) :
    ∃ (v : Vec3 ℝ) (h : ℤ), ImageVector b points i j v ∧
      u - (p + containerVector k m) = v + Vec3.smul (h : ℝ) ⟨0, 0, 1⟩ ∧ (b.is2D = false → h = 0) ∧
      (b.is2D = true → v.z = 0) := by
  obtain ⟨q, n, hq, rfl⟩ := hu
  have e : q + containerVector k n - (p + containerVector k m) =
      q + containerVector k (n + -m) - p := by
    rw [vector_add, vector_neg]; ext <;> simp <;> ring
  by_cases h2 : b.is2D = true
  · refine ⟨q + lattice b ⟨(n + -m).x, (n + -m).y, 0⟩ - p, (n + -m).z, ⟨p, q, _, hp, hq, rfl⟩, ?_,
      fun h => by simp [h2] at h, fun _ => ?_⟩
    · rw [e, vector_2D hk h2]; ext <;> simp
      ring
    · have h1 := hplane p (List.mem_of_getElem? hp) h2
      have h3 := hplane q (List.mem_of_getElem? hq) h2
      simp [lattice, comb, a1, a2, a3, h1, h3]
  · refine ⟨q + lattice b (n + -m) - p, 0, ⟨p, q, _, hp, hq, rfl⟩, ?_, fun _ => rfl,
      fun h => absurd h h2⟩
    rw [e, vector_3D hk (by simpa using h2)]; ext <;> simp

/-- In 2D the cell belongs to an image in the plane. -/
theorem cell_pos {b : Box ℝ} {k : Container} (hk : container b = some k) {points : List (Vec3 ℝ)}
    (hplane : ∀ p ∈ points, Planar b p) {area : Set (Vec3 ℝ) → ℝ} {c : Spec.Cell}
    (hc : VoroOK k points area c) :
    ∃ p m, points[c.pid]? = some p ∧ c.pos = p + containerVector k m ∧ (b.is2D = true → m.z = 0) := by
  obtain ⟨p, m, hp, hpos⟩ := hc.pos
  refine ⟨p, m, hp, hpos, fun h2 => ?_⟩
  have hp0 : p.z = 0 := hplane p (List.mem_of_getElem? hp) h2
  have hhome := hc.home
  rw [hpos] at hhome
  have hkk := container_eq hk
  rw [if_pos h2] at hkk
  have ez : (p + containerVector k m).z = m.z := by
    rw [hkk]; simp [containerVector, hp0]
  have ebz : k.bz = 1 := by rw [hkk]
  rw [ez, ebz] at hhome
  have h1 : 0 ≤ m.z := by exact_mod_cast hhome.1
  have h2 : m.z < 1 := by exact_mod_cast hhome.2
  omega

/-- Only finitely many images of the point `j` are within a distance of the point `i`. -/
theorem finite_images {b : Box ℝ} {k : Container} (hb : Valid b) (hk : container b = some k)
    (points : List (Vec3 ℝ)) (i j : ℕ) (R : ℝ) :
    {v | ImageVector b points i j v ∧ Vec3.norm v ≤ R}.Finite := by
  cases hp : points[i]? with
  | none => exact Set.Finite.subset Set.finite_empty (by rintro v ⟨⟨p, q, n, h1, -⟩, -⟩; simp [hp] at h1)
  | some p =>
    cases hq : points[j]? with
    | none =>
      exact Set.Finite.subset Set.finite_empty (by rintro v ⟨⟨p, q, n, -, h1, -⟩, -⟩; simp [hq] at h1)
    | some q =>
      refine Set.Finite.of_finite_image (f := fun v => toFun (v + (p + -q)))
        (Set.Finite.subset (ZSpan.setFinite_inter (basis k (det_ne hb hk))
          (Metric.isBounded_closedBall (x := toFun (p + -q)) (r := R))) ?_) ?_
      · rintro _ ⟨v, ⟨⟨p', q', n, h1, h2, h3⟩, hR⟩, rfl⟩
        obtain rfl := Option.some.inj (hp.symm.trans h1)
        obtain rfl := Option.some.inj (hq.symm.trans h2)
        obtain ⟨n0, hn0, -⟩ := lattice_eq_vector hb hk n
        refine ⟨?_, (mem_lattice k _ _).mpr ⟨n0, ?_⟩⟩
        · have hv : |v.x| ≤ Vec3.norm v ∧ |v.y| ≤ Vec3.norm v ∧ |v.z| ≤ Vec3.norm v := by
            refine ⟨?_, ?_, ?_⟩ <;> refine Real.abs_le_sqrt ?_ <;> simp only [Vec3.dot] <;>
              nlinarith [mul_self_nonneg v.x, mul_self_nonneg v.y, mul_self_nonneg v.z]
          refine (dist_pi_le_iff ((norm_nonneg v).trans hR)).mpr fun c => ?_
          simp only [toFun_add v, Real.dist_eq, Pi.add_apply, add_sub_cancel_right]
          fin_cases c
          · exact hv.1.trans hR
          · exact hv.2.1.trans hR
          · exact hv.2.2.trans hR
        · rw [← hn0, h3]
          refine congrArg toFun ?_
          ext <;> simp <;> ring
      · intro v _ w _ h0
        have h0 := toFun_inj _ _ h0
        have hx := congrArg Vec3.x h0
        have hy := congrArg Vec3.y h0
        have hz := congrArg Vec3.z h0
        simp only [Vec3.add_x, Vec3.add_y, Vec3.add_z] at hx hy hz
        ext <;> linarith

/-- Every point has a closest image. -/
theorem exists_closest {b : Box ℝ} {k : Container} (hb : Valid b) (hk : container b = some k)
    (points : List (Vec3 ℝ)) {i : ℕ} (hi : i < points.length) :
    ∃ j v, ClosestVector b points i j v := by
  have hp : points[i]? = some points[i] := List.getElem?_eq_getElem hi
  set v0 := points[i] + lattice b ⟨1, 0, 0⟩ - points[i]
  have h0 : v0 ≠ ⟨0, 0, 0⟩ := by
    intro h
    have := congrArg Vec3.x h
    simp [v0, lattice, comb, a1, a2, a3, hb.Lx_ne] at this
  have hfin : (⋃ j ∈ Set.Iio points.length,
      {v | ImageVector b points i j v ∧ Vec3.norm v ≤ Vec3.norm v0}).Finite :=
    (Set.finite_Iio _).biUnion fun j _ => finite_images hb hk points i j _
  have hmem : ∀ j v, ImageVector b points i j v → Vec3.norm v ≤ Vec3.norm v0 →
      v ∈ ⋃ j ∈ Set.Iio points.length,
        {v | ImageVector b points i j v ∧ Vec3.norm v ≤ Vec3.norm v0} := by
    intro j v hv hn
    obtain ⟨p, q, n, h1, h2, h3⟩ := hv
    exact Set.mem_biUnion (show j < points.length from (List.getElem?_eq_some_iff.mp h2).1)
      ⟨⟨p, q, n, h1, h2, h3⟩, hn⟩
  have himg : ImageVector b points i i v0 := ⟨_, _, _, hp, hp, rfl⟩
  obtain ⟨v, ⟨hv, hne⟩, hmin⟩ := Set.exists_min_image _ Vec3.norm
    (hfin.subset (Set.sep_subset _ fun v => v ≠ ⟨0, 0, 0⟩)) ⟨v0, hmem i v0 himg le_rfl, h0⟩
  obtain ⟨j, -, hj⟩ := Set.mem_iUnion₂.mp hv
  refine ⟨j, v, hj.1, hne, fun j' v' h1 h2 => ?_⟩
  by_cases h3 : Vec3.norm v' ≤ Vec3.norm v0
  · exact hmin v' ⟨hmem j' v' h1 h3, h2⟩
  · exact hj.2.trans (le_of_lt (not_le.mp h3))

/-- For all small enough vectors `w` the middle between the point `i` and the image, shifted by `w`, is
not closer to other images than to `i` and that image. -/
theorem gap {b : Box ℝ} {k : Container} (hb : Valid b) (hk : container b = some k)
    {points : List (Vec3 ℝ)} {i j : ℕ} {v : Vec3 ℝ} (h : NothingBetween b points i j v) :
    ∃ ε > 0, ∀ w, Vec3.norm w ≤ ε → ∀ j' a, ImageVector b points i j' a → a ≠ ⟨0, 0, 0⟩ → a ≠ v →
      0 ≤ Vec3.dot a a - Vec3.dot v a - 2 * Vec3.dot w a := by
  have hout : ∀ j' a, ImageVector b points i j' a → a ≠ ⟨0, 0, 0⟩ → a ≠ v →
      0 < Vec3.dot a a - Vec3.dot v a := by
    intro j' a h1 h2 h3
    have h4 := h.outside j' a h1 h2 h3
    rw [← not_le, norm_le_iff, not_le] at h4
    simp only [Vec3.dot, Vec3.sub_x, Vec3.sub_y, Vec3.sub_z, Vec3.smul_x, Vec3.smul_y,
      Vec3.smul_z] at h4 ⊢
    nlinarith
  have hfin : (⋃ j' ∈ Set.Iio points.length,
      {a | ImageVector b points i j' a ∧ Vec3.norm a ≤ Vec3.norm v + 1}).Finite :=
    (Set.finite_Iio _).biUnion fun j' _ => finite_images hb hk points i j' _
  have hfin2 := hfin.subset (Set.sep_subset _ fun a => a ≠ ⟨0, 0, 0⟩ ∧ a ≠ v)
  obtain ⟨γ, hγ, hmin⟩ : ∃ γ > 0, ∀ j' a, ImageVector b points i j' a → a ≠ ⟨0, 0, 0⟩ → a ≠ v →
      Vec3.norm a ≤ Vec3.norm v + 1 → γ ≤ Vec3.dot a a - Vec3.dot v a := by
    rcases Set.eq_empty_or_nonempty {a ∈ ⋃ j' ∈ Set.Iio points.length,
      {a | ImageVector b points i j' a ∧ Vec3.norm a ≤ Vec3.norm v + 1} |
        a ≠ ⟨0, 0, 0⟩ ∧ a ≠ v} with he | hne
    · refine ⟨1, one_pos, fun j' a h1 h2 h3 h4 => ?_⟩
      exfalso
      refine Set.notMem_empty a (he ▸ ⟨?_, h2, h3⟩)
      obtain ⟨p, q, n, e1, e2, e3⟩ := h1
      exact Set.mem_biUnion (show j' < points.length from (List.getElem?_eq_some_iff.mp e2).1)
        ⟨⟨p, q, n, e1, e2, e3⟩, h4⟩
    · obtain ⟨a0, ⟨ha0, hne1, hne2⟩, hm⟩ := Set.exists_min_image _
        (fun a => Vec3.dot a a - Vec3.dot v a) hfin2 hne
      obtain ⟨j0, -, hj0⟩ := Set.mem_iUnion₂.mp ha0
      refine ⟨_, hout j0 a0 hj0.1 hne1 hne2, fun j' a h1 h2 h3 h4 => hm a ⟨?_, h2, h3⟩⟩
      obtain ⟨p, q, n, e1, e2, e3⟩ := h1
      exact Set.mem_biUnion (show j' < points.length from (List.getElem?_eq_some_iff.mp e2).1)
        ⟨⟨p, q, n, e1, e2, e3⟩, h4⟩
  have hv := norm_nonneg v
  refine ⟨min (1 / 2) (γ / (2 * (Vec3.norm v + 1))), lt_min (by norm_num) (by positivity), ?_⟩
  intro w hw j' a h1 h2 h3
  have hw1 := hw.trans (min_le_left _ _)
  have hw2 := hw.trans (min_le_right _ _)
  rw [le_div_iff₀ (by positivity)] at hw2
  have hw0 := norm_nonneg w
  have ha0 := norm_nonneg a
  have h5 := dot_le w a
  by_cases h4 : Vec3.norm a ≤ Vec3.norm v + 1
  · have := hmin j' a h1 h2 h3 h4
    nlinarith [mul_le_mul_of_nonneg_left h4 hw0]
  · have h6 := dot_le v a
    have h7 := norm_sq a
    have h8 : Vec3.norm w * Vec3.norm a ≤ 1 / 2 * Vec3.norm a := mul_le_mul_of_nonneg_right hw1 ha0
    nlinarith [mul_nonneg ha0 (sub_nonneg.mpr (not_le.mp h4).le)]

/-- A closest image has nothing between. -/
theorem between_of_closest {b : Box ℝ} {points : List (Vec3 ℝ)} {i j : ℕ} {v : Vec3 ℝ}
    (h : ClosestVector b points i j v) : NothingBetween b points i j v := by
  refine ⟨h.image, h.apart, fun j' a h1 h2 h3 => ?_⟩
  have h4 := h.closest j' a h1 h2
  rw [norm_le_iff] at h4
  have h5 : 0 < Vec3.dot (a - v) (a - v) := by
    have := norm_pos (v := a - v) (by
      intro h0
      have hx := congrArg Vec3.x h0
      have hy := congrArg Vec3.y h0
      have hz := congrArg Vec3.z h0
      simp only [Vec3.sub_x, Vec3.sub_y, Vec3.sub_z] at hx hy hz
      exact h3 (by ext <;> linarith))
    rw [← norm_sq]; positivity
  rw [← not_le, norm_le_iff, not_le]
  simp only [Vec3.dot, Vec3.sub_x, Vec3.sub_y, Vec3.sub_z, Vec3.smul_x, Vec3.smul_y,
    Vec3.smul_z] at h4 h5 ⊢
  nlinarith

/-- In 2D the vectors to images are in the plane. -/
theorem image_plane {b : Box ℝ} (hb : Valid b) {points : List (Vec3 ℝ)}
    (hplane : ∀ p ∈ points, Planar b p) {i j : ℕ} {v : Vec3 ℝ} (h : ImageVector b points i j v)
    (h2 : b.is2D = true) : v.z = 0 := by
  obtain ⟨p, q, n, hp, hq, hvec⟩ := h
  have h1 := hplane p (List.mem_of_getElem? hp) h2
  have h3 := hplane q (List.mem_of_getElem? hq) h2
  rw [hvec]
  simp [lattice, comb, a1, a2, a3, h1, h3, hb.Lz_2D h2]

/-- The bonds of the particle of a cell are towards images, at which a broad facet is shared. -/
theorem bond_iff {b : Box ℝ} (hb : Valid b) {k : Container} (hk : container b = some k)
    {points : List (Vec3 ℝ)} (hplane : ∀ p ∈ points, Planar b p) {cells : List Spec.Cell}
    (h : DiagramOK b points cells) {area : Set (Vec3 ℝ) → ℝ}
    {c : Spec.Cell} (hc : c ∈ cells) (hv : VoroOK k points area c) (j : ℕ) (v : Vec3 ℝ) :
    (∃ nb ∈ ridgeBonds b.is2D c, nb.p = j ∧ nb.vec = v) ↔
      ImageVector b points c.pid j v ∧ v ≠ ⟨0, 0, 0⟩ ∧ Broad (shared k points c.pos (c.pos + v)) := by
  classical
  obtain ⟨p, m, hp, hpos, hm⟩ := cell_pos hk hplane hv
  constructor
  · rintro ⟨nb, hnb, h1, h2⟩
    obtain ⟨r, hr, rfl⟩ := List.mem_map.mp hnb
    rw [List.mem_filter] at hr
    simp only at h1 h2
    obtain ⟨hsite, hne, hbr⟩ := (hv.each _ _).mp ⟨r, hr.1, rfl, rfl⟩
    obtain ⟨q, hq, n, hn⟩ := (h.each c hc).images r hr.1 (of_decide_eq_true hr.2)
    obtain ⟨p', hp', l, hl⟩ := (h.each c hc).pos
    obtain rfl : p = p' := Option.some.inj (hp.symm.trans hp')
    have e1 : r.image = c.pos + v := by rw [← h2]; ext <;> simp
    refine ⟨⟨p, q, n + -l, hp, h1 ▸ hq, ?_⟩, ?_, e1 ▸ hbr⟩
    · rw [← h2, hn, hl]
      ext <;> simp [lattice, comb, a1, a2, a3] <;> ring
    · rintro rfl
      refine hne ?_
      rw [e1]; ext <;> simp
  · rintro ⟨himg, hne, hbr⟩
    have hvz := image_plane hb hplane himg
    obtain ⟨p', q, n, hp', hq, hvec⟩ := himg
    obtain rfl : p = p' := Option.some.inj (hp.symm.trans hp')
    obtain ⟨n0, hn0, hn0z⟩ := lattice_eq_vector hb hk n
    have ht : Site k points j (c.pos + v) := by
      refine ⟨q, n0 + m, hq, ?_⟩
      rw [hpos, hvec, vector_add, hn0]
      ext <;> simp <;> ring
    have hne' : c.pos + v ≠ c.pos := by
      intro h0
      refine hne ?_
      have hx := congrArg Vec3.x h0
      have hy := congrArg Vec3.y h0
      have hz := congrArg Vec3.z h0
      simp only [Vec3.add_x, Vec3.add_y, Vec3.add_z] at hx hy hz
      ext <;> simp only <;> linarith
    obtain ⟨r, hr, hr1, hr2⟩ := (hv.each _ _).mpr ⟨ht, hne', hbr⟩
    have hrv : r.image - c.pos = v := by rw [hr2]; ext <;> simp
    refine ⟨_, List.mem_map.mpr ⟨r, List.mem_filter.mpr ⟨hr, ?_⟩, rfl⟩, hr1, hrv⟩
    refine decide_eq_true ?_
    rintro ⟨h2, h3⟩
    have h4 := congrArg Vec3.z ((h.each c hc).ridges r hr).towards
    rw [hrv, Vec3.smul_z, hvz h2] at h4
    rw [(mul_eq_zero.mp h4.symm).resolve_left (norm_pos hne).ne'] at h3
    norm_num at h3

/-- With nothing between, a facet is shared. -/
theorem broad_of_between {b : Box ℝ} (hb : Valid b) {k : Container} (hk : container b = some k)
    {points : List (Vec3 ℝ)} (hplane : ∀ p ∈ points, Planar b p)
    {area : Set (Vec3 ℝ) → ℝ} {c : Spec.Cell} (hc : VoroOK k points area c) {j : ℕ} {v : Vec3 ℝ}
    (hcl : NothingBetween b points c.pid j v) : Broad (shared k points c.pos (c.pos + v)) := by
  obtain ⟨p, m, hp, hpos, -⟩ := cell_pos hk hplane hc
  have hvz := image_plane hb hplane hcl.image
  obtain ⟨ε, hε, hgap⟩ := gap hb hk hcl
  refine broad_of_small c.pos v hcl.apart (min (1 / 2) ε) (lt_min (by norm_num) hε) ?_
  intro w hw hwn j' u hu
  obtain ⟨a, hh, himg, ha, h3, h2⟩ := split_vector hk hplane hp hu
  rw [← hpos] at ha
  have h4 : 0 ≤ Vec3.dot a a - Vec3.dot v a - 2 * Vec3.dot w a := by
    by_cases ha0 : a = ⟨0, 0, 0⟩
    · rw [ha0]; simp [Vec3.dot]
    by_cases hav : a = v
    · have e2 : Vec3.dot w v = Vec3.dot v w := by simp only [Vec3.dot]; ring
      rw [hav, e2, hw]; simp
    exact hgap w (hwn.trans (min_le_right _ _)) j' a himg ha0 hav
  have hmain : 0 ≤ Vec3.dot (u - c.pos) (u - c.pos) - Vec3.dot v (u - c.pos) -
      2 * Vec3.dot w (u - c.pos) := by
    by_cases h2D : b.is2D = true
    · have hwz : |w.z| ≤ 1 / 2 := by
        refine le_trans ?_ (hwn.trans (min_le_left _ _))
        refine Real.abs_le_sqrt ?_
        simp only [Vec3.dot]
        nlinarith [mul_self_nonneg w.x, mul_self_nonneg w.y, mul_self_nonneg w.z]
      have h5 := int_term hh w.z hwz
      rw [ha]
      simp only [Vec3.dot, Vec3.add_x, Vec3.add_y, Vec3.add_z, Vec3.smul_x, Vec3.smul_y,
        Vec3.smul_z, h2 h2D, hvz h2D] at h4 ⊢
      nlinarith
    · have e1 : u - c.pos = a := by
        rw [ha, h3 (by simpa using h2D)]; ext <;> simp
      rwa [e1]
  rw [norm_le_iff]
  simp only [Vec3.dot, Vec3.sub_x, Vec3.sub_y, Vec3.sub_z, Vec3.add_x, Vec3.add_y, Vec3.add_z,
    Vec3.smul_x, Vec3.smul_y, Vec3.smul_z] at hmain ⊢
  nlinarith

end Diagram

/-- **C130**: if no other point or image is inside or on the sphere that has the connection from the
point `i` to an image of the point `j` as its diameter, the neighbor list of the Voronoi diagram has a
bond from `i` to that image of `j`. -/
theorem C130_between (b : Box ℝ) (hb : Valid b) (points : List (Vec3 ℝ)) (cells : List Spec.Cell)
    (hplane : ∀ p ∈ points, Planar b p) (h : DiagramOK b points cells) (area : Set (Vec3 ℝ) → ℝ)
    (k : Container) (hk : container b = some k) (hv : ∀ c ∈ cells, VoroOK k points area c)
    (sortV : List (Vec3 ℝ) → List (Vec3 ℝ)) (sortB : List (Bond ℝ) → List (Bond ℝ))
    (hs : SortsOK sortV sortB) (s : Voronoi.State) :
    ∃ s', compute b.is2D points sortV sortB s (cells.map raw) = some s' ∧
      ∀ i j v, NothingBetween b points i j v →
        ∃ nb ∈ s'.nlist.bonds, nb.q = i ∧ nb.p = j ∧ nb.vec = v ∧ nb.dist = Vec3.norm v := by
  obtain ⟨s', e, hn, -⟩ := compute_spec b points cells h sortV sortB s
  have hperm : s'.nlist.bonds.Perm (cells.flatMap (ridgeBonds b.is2D)) := by
    rw [hn]; exact (hs.bonds _).1
  refine ⟨s', e, fun i j v hcl => ?_⟩
  have hi : i ∈ cells.map (·.pid) := by
    rw [h.all.mem_iff, List.mem_range]
    obtain ⟨p, q, n, hp, -⟩ := hcl.image
    exact (List.getElem?_eq_some_iff.mp hp).1
  obtain ⟨c, hc, rfl⟩ := List.mem_map.mp hi
  obtain ⟨nb, hnb, h1, h2⟩ := (Diagram.bond_iff hb hk hplane h hc (hv c hc) j v).mpr
    ⟨hcl.image, hcl.apart, Diagram.broad_of_between hb hk hplane (hv c hc) hcl⟩
  refine ⟨nb, hperm.mem_iff.mpr (List.mem_flatMap.mpr ⟨c, hc, hnb⟩), ?_, h1, h2, ?_⟩
  · obtain ⟨r, -, rfl⟩ := List.mem_map.mp hnb; rfl
  · obtain ⟨r, -, rfl⟩ := List.mem_map.mp hnb
    exact congrArg Vec3.norm h2

/-- **C130**: the closest particles are neighbors in the Voronoi diagram. If no other point or periodic
image of a point is closer to the point `i` than a certain image of the point `j`, then the neighbor
list has a bond from `i` to that image of `j`, and no bond of `i` is shorter. Every point has such a
closest image, hence a neighbor. -/
theorem C130_closest (b : Box ℝ) (hb : Valid b) (points : List (Vec3 ℝ)) (cells : List Spec.Cell)
    (hplane : ∀ p ∈ points, Planar b p) (h : DiagramOK b points cells) (area : Set (Vec3 ℝ) → ℝ)
    (k : Container) (hk : container b = some k) (hv : ∀ c ∈ cells, VoroOK k points area c)
    (sortV : List (Vec3 ℝ) → List (Vec3 ℝ)) (sortB : List (Bond ℝ) → List (Bond ℝ))
    (hs : SortsOK sortV sortB) (s : Voronoi.State) :
    ∃ s', compute b.is2D points sortV sortB s (cells.map raw) = some s' ∧
      (∀ i j v, ClosestVector b points i j v →
        (∃ nb ∈ s'.nlist.bonds, nb.q = i ∧ nb.p = j ∧ nb.vec = v ∧ nb.dist = Vec3.norm v) ∧
        ∀ nb ∈ s'.nlist.bonds, nb.q = i → Vec3.norm v ≤ nb.dist) ∧
      ∀ i < points.length, ∃ j v, ClosestVector b points i j v := by
  obtain ⟨s1, e1, h1⟩ := C130_between b hb points cells hplane h area k hk hv sortV sortB hs s
  obtain ⟨s', e, hn, -⟩ := compute_spec b points cells h sortV sortB s
  obtain rfl : s1 = s' := Option.some.inj (e1.symm.trans e)
  have hperm : s1.nlist.bonds.Perm (cells.flatMap (ridgeBonds b.is2D)) := by
    rw [hn]; exact (hs.bonds _).1
  refine ⟨s1, e, fun i j v hcl => ⟨h1 i j v (Diagram.between_of_closest hcl), ?_⟩,
    fun i hi => Diagram.exists_closest hb hk points hi⟩
  intro nb hnb hq
  rw [hperm.mem_iff] at hnb
  obtain ⟨c, hc, hnb⟩ := List.mem_flatMap.mp hnb
  have hpid : nb.q = c.pid ∧ nb.dist = Vec3.norm nb.vec := by
    obtain ⟨r, -, rfl⟩ := List.mem_map.mp hnb; exact ⟨rfl, rfl⟩
  obtain ⟨himg, hne, -⟩ := (Diagram.bond_iff hb hk hplane h hc (hv c hc) nb.p nb.vec).mp
    ⟨nb, hnb, rfl, rfl⟩
  rw [← hpid.1, hq] at himg
  rw [hpid.2]
  exact hcl.closest _ _ himg hne

/-- The hypotheses are met by the particle in the unit cube: its image along x is one of the closest,
the one along the diagonal is not. -/
example : ∃ sortV sortB, SortsOK sortV sortB ∧ Valid (Box.mk' (1 : ℝ) 1 1 0 0 0 false) ∧
    (∀ p ∈ Diagram.lone, Planar (Box.mk' 1 1 1 0 0 0 false) p) ∧
    DiagramOK (Box.mk' 1 1 1 0 0 0 false) Diagram.lone [Diagram.cubeV] ∧
    container (Box.mk' 1 1 1 0 0 0 false) = some Diagram.unit ∧
    (∀ c ∈ [Diagram.cubeV], VoroOK Diagram.unit Diagram.lone Diagram.facetArea c) ∧
    ClosestVector (Box.mk' 1 1 1 0 0 0 false) Diagram.lone 0 0 ⟨1, 0, 0⟩ ∧
    ¬ ClosestVector (Box.mk' 1 1 1 0 0 0 false) Diagram.lone 0 0 ⟨1, 1, 0⟩ := by
  obtain ⟨sv, sb, hs⟩ := sorts_exist
  have himg : ∀ n : Vec3 ℤ, ImageVector (Box.mk' 1 1 1 0 0 0 false) Diagram.lone 0 0 ⟨n.x, n.y, n.z⟩ :=
    fun n => ⟨⟨-(1 / 4), 0, 0⟩, ⟨-(1 / 4), 0, 0⟩, n, rfl, rfl, by
      ext <;> simp [lattice, comb, a1, a2, a3, Box.mk', Box.setL]⟩
  refine ⟨sv, sb, hs, ⟨by simp [Box.mk', Box.setL], by simp [Box.mk', Box.setL],
    by simp [Box.mk', Box.setL], by simp [Box.mk', Box.setL], by simp [Box.mk', Box.setL]⟩,
    fun p _ h => by simp [Box.mk', Box.setL] at h, ?_, ?_, ?_, ⟨?_, ?_, ?_⟩, ?_⟩
  · refine ⟨fun c hc => ?_, List.Perm.refl _, by simp [Diagram.lone]⟩
    rw [List.mem_singleton] at hc
    subst hc
    have h := cube_ok.each cube (by simp)
    exact ⟨h.pos, fun r hr =>
      let k := h.ridges r hr
      ⟨k.verts, k.apart, k.unit, k.towards, k.bisects⟩, h.images⟩
  · simp [container, Box.getLatticeVector, Box.mk', Box.setL, Diagram.unit]
  · intro c hc
    rw [List.mem_singleton] at hc
    subst hc
    exact Diagram.cubeV_ok
  · simpa using himg ⟨1, 0, 0⟩
  · simp
  · rintro j v ⟨p, q, n, hp, hq, rfl⟩ hne
    have h1 : p = ⟨-(1 / 4), 0, 0⟩ := by simpa [Diagram.lone, eq_comm] using hp
    have h2 : q = ⟨-(1 / 4), 0, 0⟩ := by
      have := List.mem_of_getElem? hq
      simpa [Diagram.lone] using this
    have e : q + lattice (Box.mk' 1 1 1 0 0 0 false) n - p = (⟨n.x, n.y, n.z⟩ : Vec3 ℝ) := by
      rw [h1, h2]
      ext <;> simp [lattice, comb, a1, a2, a3, Box.mk', Box.setL]
    rw [e] at hne ⊢
    rw [Diagram.norm_le_iff]
    have hn : 1 ≤ n.x * n.x + n.y * n.y + n.z * n.z := by
      by_contra hlt
      have hx := mul_self_nonneg n.x
      have hy := mul_self_nonneg n.y
      have hz := mul_self_nonneg n.z
      have hx0 : n.x = 0 := mul_self_eq_zero.mp (by omega)
      have hy0 : n.y = 0 := mul_self_eq_zero.mp (by omega)
      have hz0 : n.z = 0 := mul_self_eq_zero.mp (by omega)
      exact hne (by simp [hx0, hy0, hz0])
    simp only [Vec3.dot]
    have : (1 : ℝ) ≤ n.x * n.x + n.y * n.y + n.z * n.z := by exact_mod_cast hn
    linarith
  · intro h
    have h1 := h.closest 0 ⟨1, 0, 0⟩ (by simpa using himg ⟨1, 0, 0⟩) (by simp)
    rw [Diagram.norm_le_iff] at h1
    norm_num [Vec3.dot] at h1

end Freud
