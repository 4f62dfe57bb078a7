import Verif.Lemmas.VoronoiDiagram

/-!
# Property C128: Voronoi volumes fill the box and ridges are mutual
-/

namespace Freud
open Spec Voronoi

/-- In a slab of height 1 with all points at the bottom, a ridge towards an image at another height is
the top or the bottom of the cell. -/
theorem Diagram.above {k : Container} (hk : k.bxz = 0 ∧ k.byz = 0 ∧ k.bz = 1) {points : List (Vec3 ℝ)}
    (hplane : ∀ p ∈ points, p.z = 0) {i j : ℕ} {s p : Vec3 ℝ} {n : Vec3 ℤ} (hs : Site k points i s)
    (hz : s.z = 0) (hp : points[j]? = some p) (hn : n.z ≠ 0)
    (hb : Broad (shared k points s (p + containerVector k n))) :
    p.x + (containerVector k n).x = s.x ∧ p.y + (containerVector k n).y = s.y := by
  have hp0 : p.z = 0 := hplane p (List.mem_of_getElem? hp)
  have hnz : (n.z : ℝ) ≠ 0 := by exact_mod_cast hn
  have ez : (containerVector k n).z = n.z := by simp [containerVector, hk.2.2]
  -- each position of the ridge is half way up and as far from `s` as from the image below
  have key : ∀ x ∈ shared k points s (p + containerVector k n), 2 * x.z = n.z ∧
      2 * ((x.x - s.x) * (p.x + (containerVector k n).x - s.x) +
        (x.y - s.y) * (p.y + (containerVector k n).y - s.y)) =
      (p.x + (containerVector k n).x - s.x) ^ 2 + (p.y + (containerVector k n).y - s.y) ^ 2 := by
    rintro x ⟨hx, he⟩
    have h1 := hx j (p + containerVector k ⟨n.x, n.y, 0⟩) ⟨p, _, hp, rfl⟩
    have h2 := hx i _ (Diagram.site_add hs ⟨0, 0, n.z⟩)
    have he1 := (Diagram.norm_le_iff _ _).mp he.le
    have he2 := (Diagram.norm_le_iff _ _).mp he.ge
    rw [Diagram.norm_le_iff] at h1 h2
    have e1 : p + containerVector k ⟨n.x, n.y, 0⟩ =
        ⟨p.x + (containerVector k n).x, p.y + (containerVector k n).y, 0⟩ := by
      ext <;> simp [containerVector, hk.1, hk.2.1, hp0]
    have e2 : s + containerVector k ⟨0, 0, n.z⟩ = ⟨s.x, s.y, n.z⟩ := by
      ext <;> simp [containerVector, hk.1, hk.2.1, hk.2.2, hz]
    rw [e1] at h1
    rw [e2] at h2
    simp only [Vec3.dot, Vec3.sub_x, Vec3.sub_y, Vec3.sub_z, Vec3.add_x, Vec3.add_y, Vec3.add_z, hz, hp0,
      ez] at h1 h2 he1 he2
    have hh : 2 * x.z = n.z := by
      refine mul_right_cancel₀ hnz ?_
      nlinarith
    refine ⟨hh, ?_⟩
    nlinarith
  obtain ⟨x, hx, y, hy, z, hz', hc⟩ := hb
  obtain ⟨x1, x2⟩ := key x hx
  obtain ⟨y1, y2⟩ := key y hy
  obtain ⟨z1, z2⟩ := key z hz'
  rw [← sub_eq_zero, ← sub_eq_zero (a := p.y + (containerVector k n).y)]
  generalize p.x + (containerVector k n).x - s.x = u at x2 y2 z2 ⊢
  generalize p.y + (containerVector k n).y - s.y = v at x2 y2 z2 ⊢
  by_contra hcon
  apply hc
  have d1 : (y.x - x.x) * u + (y.y - x.y) * v = 0 := by linarith
  have d2 : (z.x - x.x) * u + (z.y - x.y) * v = 0 := by linarith
  have d3 : y.z - x.z = 0 := by linarith
  have d4 : z.z - x.z = 0 := by linarith
  have hu : u * ((y.x - x.x) * (z.y - x.y) - (y.y - x.y) * (z.x - x.x)) = 0 := by
    linear_combination (z.y - x.y) * d1 - (y.y - x.y) * d2
  have hv : v * ((y.x - x.x) * (z.y - x.y) - (y.y - x.y) * (z.x - x.x)) = 0 := by
    linear_combination (y.x - x.x) * d2 - (z.x - x.x) * d1
  have h0 : (y.x - x.x) * (z.y - x.y) - (y.y - x.y) * (z.x - x.x) = 0 := by
    rcases mul_eq_zero.mp hu with h | h
    · rcases mul_eq_zero.mp hv with h' | h'
      · exact absurd ⟨h, h'⟩ hcon
      · exact h'
    · exact h
  ext
  · simp [Vec3.cross, d3, d4]
  · simp [Vec3.cross, d3, d4]
  · exact h0

/-- **C128**: the container has the lattice of the box. If the cells are those of the periodic Voronoi
diagram in the container that freud sets up, and the points of a 2D system have `z = 0`, then they
are cells as C80 and C81 require them: every cell and every ridge between particles belongs to images
of points under the lattice of the box, also if the box is tilted, and in 2D all other ridges are the
top and the bottom of the slab. -/
theorem C128_images (b : Box ℝ) (points : List (Vec3 ℝ)) (cells : List Cell)
    (hplane : ∀ p ∈ points, Planar b p) (area : Set (Vec3 ℝ) → ℝ) (k : Container)
    (hk : container b = some k) (hv : ∀ c ∈ cells, VoroOK k points area c)
    (hr : ∀ c ∈ cells, ∀ r ∈ c.ridges, RidgeOK c r) : ∀ c ∈ cells, CellOK b points c := by
  intro c hc
  have hvc := hv c hc
  unfold container Box.getLatticeVector at hk
  by_cases h2 : b.is2D = true
  · rw [if_pos h2, if_pos rfl, if_neg (by omega), if_pos rfl] at hk
    obtain rfl := Option.some.inj hk
    have hplane : ∀ p ∈ points, p.z = 0 := fun p hp => hplane p hp h2
    have low : ∀ (p : Vec3 ℝ) (n : Vec3 ℤ), n.z = 0 →
        LatticeImage b p (p + containerVector ⟨b.L.x, b.L.y * b.xy, b.L.y, 0, 0, 1⟩ n) := by
      intro p n hn
      refine ⟨n, ?_⟩
      ext <;> simp only [containerVector, lattice, comb, a1, a2, a3, hn, Vec3.add_x, Vec3.add_y,
        Vec3.add_z, Int.cast_zero] <;> ring
    obtain ⟨p, n, hp, hpos⟩ := id hvc.pos
    have hp0 : p.z = 0 := hplane p (List.mem_of_getElem? hp)
    have hz : c.pos.z = n.z := by rw [hpos]; simp [containerVector, hp0]
    have hn : n.z = 0 := by
      have := hvc.home
      rw [hz] at this
      have h1 : 0 ≤ n.z := by exact_mod_cast this.1
      have h2 : (n.z : ℝ) < 1 := this.2
      have h2 : n.z < 1 := by exact_mod_cast h2
      omega
    have hz0 : c.pos.z = 0 := by rw [hz, hn]; simp
    refine ⟨⟨p, hp, hpos ▸ low p n hn⟩, hr c hc, ?_⟩
    intro r hrr hhor
    obtain ⟨⟨p', m, hp', him⟩, hne, hb⟩ := (hvc.each _ _).mp ⟨r, hrr, rfl, rfl⟩
    refine ⟨p', hp', ?_⟩
    rw [him]
    refine low p' m ?_
    by_contra hm
    rw [him] at hb
    obtain ⟨hx, hy⟩ := Diagram.above ⟨rfl, rfl, rfl⟩ hplane hvc.pos hz0 hp' hm hb
    have hok := hr c hc r hrr
    have ht := hok.towards
    have hnorm : Vec3.norm (r.image - c.pos) ≠ 0 := by
      intro h0
      rw [h0] at ht
      refine hne ?_
      have hx := congrArg Vec3.x ht
      have hy := congrArg Vec3.y ht
      have hz := congrArg Vec3.z ht
      simp only [Vec3.smul_x, Vec3.smul_y, Vec3.smul_z, Vec3.sub_x, Vec3.sub_y, Vec3.sub_z,
        zero_mul] at hx hy hz
      ext <;> linarith
    have nx : r.normal.x = 0 := by
      have := congrArg Vec3.x ht
      rw [Vec3.smul_x, Vec3.sub_x, him, Vec3.add_x, hx, sub_self] at this
      exact (mul_eq_zero.mp this.symm).resolve_left (by rw [← him]; exact hnorm)
    have ny : r.normal.y = 0 := by
      have := congrArg Vec3.y ht
      rw [Vec3.smul_y, Vec3.sub_y, him, Vec3.add_y, hy, sub_self] at this
      exact (mul_eq_zero.mp this.symm).resolve_left (by rw [← him]; exact hnorm)
    refine hhor ⟨h2, ?_⟩
    have hu := hok.unit
    simp only [Vec3.dot, nx, ny, mul_zero, zero_add] at hu
    rcases mul_self_eq_one_iff.mp hu with h | h <;> rw [h] <;> norm_num
  · have h2' : b.is2D = false := by simpa using h2
    rw [if_neg h2, if_pos rfl, if_neg (by omega), if_pos rfl, if_neg (by omega), if_neg (by omega),
      if_pos ⟨rfl, h2'⟩] at hk
    obtain rfl := Option.some.inj hk
    have same : ∀ n, containerVector ⟨b.L.x, b.L.y * b.xy, b.L.y, b.L.z * b.xz, b.L.z * b.yz, b.L.z⟩ n =
        lattice b n := by
      intro n
      ext <;> simp only [containerVector, lattice, comb, a1, a2, a3] <;> ring
    obtain ⟨p, n, hp, hpos⟩ := id hvc.pos
    refine ⟨⟨p, hp, n, by rw [hpos]; exact congrArg (p + ·) (same n)⟩, hr c hc, ?_⟩
    intro r hrr _
    obtain ⟨⟨p', m, hp', him⟩, -⟩ := (hvc.each _ _).mp ⟨r, hrr, rfl, rfl⟩
    exact ⟨p', hp', m, by rw [him]; exact congrArg (p' + ·) (same m)⟩

/-- **C128**: given the cells of the periodic Voronoi diagram in the container that freud sets up
from the box, of points no two of which coincide modulo the lattice, the volumes that freud reports
add up to the volume of the box (in 2D, to its area), and each of them is positive. -/
theorem C128_volumes (b : Box ℝ) (points : List (Vec3 ℝ)) (cells : List Cell)
    (hL : 0 < b.L.x ∧ 0 < b.L.y ∧ (b.is2D = false → 0 < b.L.z)) (hne : points ≠ [])
    (h : DiagramOK b points cells) (area : Set (Vec3 ℝ) → ℝ) (k : Container)
    (hk : container b = some k) (hsep : Separate k points)
    (hv : ∀ c ∈ cells, VoroOK k points area c)
    (sortV : List (Vec3 ℝ) → List (Vec3 ℝ)) (sortB : List (Bond ℝ) → List (Bond ℝ))
    (s : Voronoi.State) :
    ∃ s', compute b.is2D points sortV sortB s (cells.map raw) = some s' ∧
      s'.volumes.length = points.length ∧ s'.volumes.sum = b.getVolume ∧
      ∀ v ∈ s'.volumes, 0 < v := by
  obtain ⟨s', e, -, -, hlen, hc⟩ := compute_spec b points cells h sortV sortB s
  have hcell : ∀ i : Fin points.length, ∃ c ∈ cells, c.pid = i := by
    intro i
    have : (i : ℕ) ∈ cells.map (·.pid) := h.all.mem_iff.mpr (List.mem_range.mpr i.2)
    obtain ⟨c, hc, e⟩ := List.mem_map.mp this
    exact ⟨c, hc, e⟩
  choose cell hmem hpid using hcell
  have hvol : ∀ i : Fin points.length,
      s'.volumes[(i : ℕ)]'(by rw [hlen]; exact i.2) = volumeOf (region k points (cell i).pos) := by
    intro i
    have h1 := (hc (cell i) (hmem i)).2
    rw [hpid i, (hv _ (hmem i)).volume] at h1
    exact (List.getElem?_eq_some_iff.mp h1).2
  have hvolume : k.bx * k.by' * k.bz = b.getVolume ∧ 0 < k.bx * k.by' * k.bz := by
    unfold container Box.getLatticeVector at hk
    unfold Box.getVolume
    by_cases h2 : b.is2D = true
    · rw [if_pos h2, if_pos rfl, if_neg (by omega), if_pos rfl] at hk
      obtain rfl := Option.some.inj hk
      rw [if_pos h2]
      dsimp only
      rw [mul_one]
      exact ⟨rfl, mul_pos hL.1 hL.2.1⟩
    · have h2' : b.is2D = false := by simpa using h2
      rw [if_neg h2, if_pos rfl, if_neg (by omega), if_pos rfl, if_neg (by omega), if_neg (by omega),
        if_pos ⟨rfl, h2'⟩] at hk
      obtain rfl := Option.some.inj hk
      rw [if_neg h2]
      exact ⟨rfl, mul_pos (mul_pos hL.1 hL.2.1) (hL.2.2 h2')⟩
  obtain ⟨hsum, hpos⟩ := Diagram.sum_region hvolume.2.ne' hne hsep (fun i => (cell i).pos) (fun i => by
    have := (hv _ (hmem i)).pos
    rwa [hpid i] at this)
  refine ⟨s', e, hlen, ?_, ?_⟩
  · rw [abs_of_pos hvolume.2, hvolume.1] at hsum
    rw [← hsum, ← Fin.sum_univ_getElem, ← Fin.sum_congr' _ hlen.symm]
    exact Finset.sum_congr rfl fun i _ => hvol i
  · intro v hv
    obtain ⟨i, hi, rfl⟩ := List.getElem_of_mem hv
    rw [hvol ⟨i, hlen ▸ hi⟩]
    exact hpos _

/-- No bond occurs twice. -/
theorem Diagram.bonds_nodup {b : Box ℝ} {points : List (Vec3 ℝ)} {cells : List Cell}
    (h : DiagramOK b points cells) {area : Set (Vec3 ℝ) → ℝ} {k : Container}
    (hv : ∀ c ∈ cells, VoroOK k points area c) : (cells.flatMap (ridgeBonds b.is2D)).Nodup := by
  classical
  have hcn : (cells.map (·.pid)).Nodup := h.all.nodup_iff.mpr List.nodup_range
  rw [List.nodup_flatMap]
  constructor
  · intro c hc
    have h1 : (c.ridges.filter (fun r => decide (¬ Horizontal b.is2D r))).Nodup :=
      ((hv c hc).once.of_map _).filter _
    unfold ridgeBonds
    refine List.Nodup.map_on ?_ h1
    intro r hr r' hr' he
    have hr := List.mem_of_mem_filter hr
    have hr' := List.mem_of_mem_filter hr'
    simp only [Bond.mk.injEq, true_and] at he
    refine List.inj_on_of_nodup_map (hv c hc).once hr hr' ?_
    refine Prod.ext he.1 ?_
    have h3 := he.2.2.2
    have hx := congrArg Vec3.x h3
    have hy := congrArg Vec3.y h3
    have hz := congrArg Vec3.z h3
    simp only [Vec3.sub_x, Vec3.sub_y, Vec3.sub_z] at hx hy hz
    ext <;> simp only <;> linarith
  · have := List.pairwise_map.mp hcn
    refine this.imp ?_
    intro c c' hne nb h1 h2
    obtain ⟨r, -, rfl⟩ := List.mem_map.mp h1
    obtain ⟨r', -, he⟩ := List.mem_map.mp h2
    exact hne (congrArg Bond.q he).symm

/-- **C128**: each ridge is seen from both sides. Given the cells of the periodic Voronoi diagram,
the bonds of the neighbor list are the same as the bonds seen from their other ends: for each bond
from `i` to `j` there is exactly one from `j` to `i` with the same distance and weight and the
opposite vector. -/
theorem C128_mutual (b : Box ℝ) (points : List (Vec3 ℝ)) (cells : List Cell)
    (h : DiagramOK b points cells) (area : Set (Vec3 ℝ) → ℝ)
    (harea : ∀ S v, area ((fun x => x + v) '' S) = area S) (k : Container)
    (hv : ∀ c ∈ cells, VoroOK k points area c)
    (sortV : List (Vec3 ℝ) → List (Vec3 ℝ)) (sortB : List (Bond ℝ) → List (Bond ℝ))
    (hs : SortsOK sortV sortB) (s : Voronoi.State) :
    ∃ s', compute b.is2D points sortV sortB s (cells.map raw) = some s' ∧
      s'.nlist.bonds.Nodup ∧ s'.nlist.bonds.Perm (s'.nlist.bonds.map flipped) := by
  classical
  obtain ⟨s', e, hn, -⟩ := compute_spec b points cells h sortV sortB s
  have hperm : s'.nlist.bonds.Perm (cells.flatMap (ridgeBonds b.is2D)) := by
    rw [hn]; exact (hs.bonds _).1
  have hcn : (cells.map (·.pid)).Nodup := h.all.nodup_iff.mpr List.nodup_range
  have hnodup := Diagram.bonds_nodup h hv
  have hflip : ∀ nb ∈ cells.flatMap (ridgeBonds b.is2D),
      flipped nb ∈ cells.flatMap (ridgeBonds b.is2D) := by
    intro nb hnb
    obtain ⟨c, hc, hnb⟩ := List.mem_flatMap.mp hnb
    obtain ⟨r, hr, rfl⟩ := List.mem_map.mp hnb
    rw [List.mem_filter] at hr
    obtain ⟨hr, hhor⟩ := hr
    have hhor := of_decide_eq_true hhor
    obtain ⟨hsite, hne, hbroad⟩ := ((hv c hc).each _ _).mp ⟨r, hr, rfl, rfl⟩
    have hj : r.neighbor ∈ cells.map (·.pid) := by
      obtain ⟨p, -, hp, -⟩ := hsite
      exact h.all.mem_iff.mpr (List.mem_range.mpr (List.getElem?_eq_some_iff.mp hp).1)
    obtain ⟨c', hc', hpid⟩ := List.mem_map.mp hj
    have hpos' := (hv c' hc').pos
    rw [hpid] at hpos'
    obtain ⟨n, hn⟩ := Diagram.site_diff hsite hpos'
    have hshared : shared k points c'.pos (c.pos + containerVector k n) =
        (fun x => x + containerVector k n) '' shared k points c.pos r.image := by
      rw [hn, Diagram.shared_image, Diagram.shared_comm]
    obtain ⟨r', hr', hr1, hr2⟩ := ((hv c' hc').each c.pid (c.pos + containerVector k n)).mpr
      ⟨Diagram.site_add (hv c hc).pos n, by
        intro he
        rw [hn] at he
        have hx := congrArg Vec3.x he
        have hy := congrArg Vec3.y he
        have hz := congrArg Vec3.z he
        simp only [Vec3.add_x, Vec3.add_y, Vec3.add_z] at hx hy hz
        refine hne ?_
        ext <;> linarith, by
        rw [hshared]
        exact Diagram.broad_image _ _ hbroad⟩
    have hw : r'.area = r.area := by
      rw [(hv c' hc').area r' hr', hr2, hshared, harea, (hv c hc).area r hr]
    have hvec : r'.image - c'.pos = -(r.image - c.pos) := by
      rw [hr2, hn]; ext <;> simp
    have hnorm : Vec3.norm (r'.image - c'.pos) = Vec3.norm (r.image - c.pos) := by
      rw [hvec]
      unfold Vec3.norm
      congr 1
      simp only [Vec3.dot, Vec3.neg_x, Vec3.neg_y, Vec3.neg_z]
      ring
    have hok := (h.each c hc).ridges r hr
    have hok' := (h.each c' hc').ridges r' hr'
    have hzn : r'.normal.z = -r.normal.z := by
      have h1 := hok.towards
      have h2 := hok'.towards
      rw [hnorm, hvec, h1] at h2
      have hd : Vec3.norm (r.image - c.pos) ≠ 0 := by
        intro h0
        rw [h0] at h1
        refine hne ?_
        have hx := congrArg Vec3.x h1
        have hy := congrArg Vec3.y h1
        have hz := congrArg Vec3.z h1
        simp only [Vec3.smul_x, Vec3.smul_y, Vec3.smul_z, Vec3.sub_x, Vec3.sub_y, Vec3.sub_z,
          zero_mul] at hx hy hz
        ext <;> linarith
      have hnn : Vec3.norm (Vec3.smul (Vec3.norm (r.image - c.pos)) r.normal) =
          Vec3.norm (r.image - c.pos) := by rw [← h1]
      rw [hnn] at h2
      have hz := congrArg Vec3.z h2
      simp only [Vec3.smul_z, Vec3.neg_z] at hz
      refine mul_left_cancel₀ hd ?_
      linarith
    refine List.mem_flatMap.mpr ⟨c', hc', List.mem_map.mpr ⟨r', List.mem_filter.mpr ⟨hr', ?_⟩, ?_⟩⟩
    · refine decide_eq_true ?_
      rintro ⟨h2, h3⟩
      rw [hzn, abs_neg] at h3
      exact hhor ⟨h2, h3⟩
    · unfold flipped
      rw [hr1, hw, hnorm, hvec, hpid]
  refine ⟨s', e, hperm.nodup_iff.mpr hnodup, ?_⟩
  refine hperm.trans (List.Perm.trans ?_ (hperm.map flipped).symm)
  have hinj : Function.Injective flipped := fun x y hxy => by
    rw [← Diagram.flipped_flipped x, hxy, Diagram.flipped_flipped]
  refine (List.perm_ext_iff_of_nodup hnodup (hnodup.map hinj)).mpr ?_
  intro nb
  constructor
  · intro hnb
    exact List.mem_map.mpr ⟨flipped nb, hflip nb hnb, Diagram.flipped_flipped nb⟩
  · intro hnb
    obtain ⟨nb', hnb', rfl⟩ := List.mem_map.mp hnb
    exact hflip nb' hnb'

namespace Diagram

/-- The container of the unit cube. -/
noncomputable def unit : Container := ⟨1, 0, 1, 0, 0, 1⟩

/-- The particle in the unit cube. -/
noncomputable def lone : List (Vec3 ℝ) := [⟨-(1 / 4), 0, 0⟩]

theorem site_iff (j : ℕ) (t : Vec3 ℝ) : Site unit lone j t ↔
    j = 0 ∧ ∃ n : Vec3 ℤ, t = cube.pos + ⟨n.x, n.y, n.z⟩ := by
  constructor
  · rintro ⟨p, n, hp, rfl⟩
    have hj : j = 0 := by
      have := (List.getElem?_eq_some_iff.mp hp).1
      simpa [lone] using this
    subst hj
    obtain rfl : (⟨-(1 / 4), 0, 0⟩ : Vec3 ℝ) = p := Option.some.inj hp
    refine ⟨rfl, ⟨n.x - 1, n.y, n.z⟩, ?_⟩
    ext <;> simp [containerVector, unit, cube]
    ring
  · rintro ⟨rfl, n, rfl⟩
    refine ⟨_, ⟨n.x + 1, n.y, n.z⟩, rfl, ?_⟩
    ext <;> simp [containerVector, unit, cube]
    ring

theorem int_term (n : ℤ) (y : ℝ) (hy : |y| ≤ 1 / 2) : 0 ≤ (n : ℝ) * n - 2 * (y * n) := by
  rw [abs_le] at hy
  rcases lt_trichotomy n 0 with h | rfl | h
  · have : (n : ℝ) ≤ -1 := by exact_mod_cast (by omega : n ≤ -1)
    nlinarith
  · simp
  · have : (1 : ℝ) ≤ n := by exact_mod_cast (by omega : 1 ≤ n)
    nlinarith

theorem sub_pos (y : Vec3 ℝ) : cube.pos + y - cube.pos = y := by ext <;> simp

theorem mem_region (y : Vec3 ℝ) :
    cube.pos + y ∈ region unit lone cube.pos ↔ |y.x| ≤ 1 / 2 ∧ |y.y| ≤ 1 / 2 ∧ |y.z| ≤ 1 / 2 := by
  have key : ∀ n : Vec3 ℤ, Vec3.norm (cube.pos + y - cube.pos) ≤
      Vec3.norm (cube.pos + y - (cube.pos + ⟨n.x, n.y, n.z⟩)) ↔
      0 ≤ ((n.x : ℝ) * n.x - 2 * (y.x * n.x)) + ((n.y : ℝ) * n.y - 2 * (y.y * n.y)) +
        ((n.z : ℝ) * n.z - 2 * (y.z * n.z)) := by
    intro n
    rw [norm_le_iff]
    simp only [Vec3.dot, Vec3.sub_x, Vec3.sub_y, Vec3.sub_z, Vec3.add_x, Vec3.add_y, Vec3.add_z]
    constructor <;> intro h <;> nlinarith
  constructor
  · intro h
    have h' : ∀ n : Vec3 ℤ, _ := fun n => (key n).mp (h 0 _ ((site_iff 0 _).mpr ⟨rfl, n, rfl⟩))
    have h1 := h' ⟨1, 0, 0⟩
    have h2 := h' ⟨-1, 0, 0⟩
    have h3 := h' ⟨0, 1, 0⟩
    have h4 := h' ⟨0, -1, 0⟩
    have h5 := h' ⟨0, 0, 1⟩
    have h6 := h' ⟨0, 0, -1⟩
    norm_num at h1 h2 h3 h4 h5 h6
    simp only [abs_le]
    refine ⟨⟨?_, ?_⟩, ⟨?_, ?_⟩, ⟨?_, ?_⟩⟩ <;> linarith
  · rintro ⟨hx, hy, hz⟩ j t ht
    obtain ⟨-, n, rfl⟩ := (site_iff j t).mp ht
    rw [key]
    have := int_term n.x _ hx
    have := int_term n.y _ hy
    have := int_term n.z _ hz
    linarith

theorem mem_shared (y : Vec3 ℝ) (n : Vec3 ℤ) :
    cube.pos + y ∈ shared unit lone cube.pos (cube.pos + ⟨n.x, n.y, n.z⟩) ↔
      (|y.x| ≤ 1 / 2 ∧ |y.y| ≤ 1 / 2 ∧ |y.z| ≤ 1 / 2) ∧ (n.x : ℝ) * n.x = 2 * (y.x * n.x) ∧
        (n.y : ℝ) * n.y = 2 * (y.y * n.y) ∧ (n.z : ℝ) * n.z = 2 * (y.z * n.z) := by
  unfold shared
  rw [Set.mem_ofPred_eq, mem_region]
  refine and_congr_right fun h => ?_
  have h1 := int_term n.x _ h.1
  have h2 := int_term n.y _ h.2.1
  have h3 := int_term n.z _ h.2.2
  rw [le_antisymm_iff, norm_le_iff, norm_le_iff]
  simp only [Vec3.dot, Vec3.sub_x, Vec3.sub_y, Vec3.sub_z, Vec3.add_x, Vec3.add_y, Vec3.add_z]
  constructor
  · rintro ⟨_, h4⟩
    refine ⟨?_, ?_, ?_⟩ <;> nlinarith
  · rintro ⟨h4, h5, h6⟩
    constructor <;> nlinarith

/-- If a component of the lattice vector is not zero it is 1 or -1. -/
theorem int_one (n : ℤ) (y : ℝ) (hy : |y| ≤ 1 / 2) (h : (n : ℝ) * n = 2 * (y * n)) :
    n = 0 ∨ ((n = 1 ∨ n = -1) ∧ y = n / 2) := by
  by_cases h0 : n = 0
  · exact Or.inl h0
  right
  have hn : (n : ℝ) ≠ 0 := by exact_mod_cast h0
  have hyn : y = n / 2 := by
    have : (n : ℝ) * (n - 2 * y) = 0 := by linarith
    rcases mul_eq_zero.mp this with h | h
    · exact absurd h hn
    · linarith
  refine ⟨?_, hyn⟩
  rw [hyn, abs_le] at hy
  have h1 : (n : ℝ) ≤ 1 := by linarith [hy.2]
  have h2 : (-1 : ℝ) ≤ n := by linarith [hy.1]
  have h1 : n ≤ 1 := by exact_mod_cast h1
  have h2 : -1 ≤ n := by exact_mod_cast h2
  omega

theorem split (x : Vec3 ℝ) : ∃ y, x = cube.pos + y := ⟨x - cube.pos, by ext <;> simp⟩

theorem six (n : Vec3 ℤ) (hxy : n.x = 0 ∨ n.y = 0) (hxz : n.x = 0 ∨ n.z = 0) (hyz : n.y = 0 ∨ n.z = 0)
    (o1 : n.x = 0 ∨ n.x = 1 ∨ n.x = -1) (o2 : n.y = 0 ∨ n.y = 1 ∨ n.y = -1)
    (o3 : n.z = 0 ∨ n.z = 1 ∨ n.z = -1) (hn : ¬ (n.x = 0 ∧ n.y = 0 ∧ n.z = 0)) :
    n = ⟨1, 0, 0⟩ ∨ n = ⟨-1, 0, 0⟩ ∨ n = ⟨0, 1, 0⟩ ∨ n = ⟨0, -1, 0⟩ ∨ n = ⟨0, 0, 1⟩ ∨
      n = ⟨0, 0, -1⟩ := by
  obtain ⟨x, y, z⟩ := n
  simp only at *
  by_cases hx : x = 0
  · subst hx
    by_cases hy : y = 0
    · subst hy
      rcases o3 with rfl | rfl | rfl <;> simp at *
    · obtain rfl : z = 0 := hyz.resolve_left hy
      rcases o2 with rfl | rfl | rfl <;> simp at *
  · obtain rfl : y = 0 := hxy.resolve_left hx
    obtain rfl : z = 0 := hxz.resolve_left hx
    rcases o1 with rfl | rfl | rfl <;> simp at *

/-- The particle shares facets with its six closest images only. -/
theorem broad_iff (n : Vec3 ℤ) (hn : n ≠ ⟨0, 0, 0⟩) :
    Broad (shared unit lone cube.pos (cube.pos + ⟨n.x, n.y, n.z⟩)) ↔
      n = ⟨1, 0, 0⟩ ∨ n = ⟨-1, 0, 0⟩ ∨ n = ⟨0, 1, 0⟩ ∨ n = ⟨0, -1, 0⟩ ∨ n = ⟨0, 0, 1⟩ ∨
        n = ⟨0, 0, -1⟩ := by
  constructor
  · rintro ⟨a, ha, b, hb, c, hc, hne⟩
    obtain ⟨a, rfl⟩ := split a
    obtain ⟨b, rfl⟩ := split b
    obtain ⟨c, rfl⟩ := split c
    rw [mem_shared] at ha hb hc
    have two : ∀ m : ℤ, ∀ u v w : ℝ, m ≠ 0 → (m : ℝ) * m = 2 * (u * m) → (m : ℝ) * m = 2 * (v * m) →
        (m : ℝ) * m = 2 * (w * m) → v - u = 0 ∧ w - u = 0 := by
      intro m u v w hm h1 h2 h3
      have hm : (m : ℝ) ≠ 0 := by exact_mod_cast hm
      refine ⟨mul_right_cancel₀ hm ?_, mul_right_cancel₀ hm ?_⟩ <;> linarith
    obtain ⟨⟨x1, x2, x3⟩, a1, a2, a3⟩ := ha
    obtain ⟨-, b1, b2, b3⟩ := hb
    obtain ⟨-, c1, c2, c3⟩ := hc
    have e : ∀ u v : Vec3 ℝ, cube.pos + u - (cube.pos + v) = u - v := fun u v => by ext <;> simp
    rw [e, e] at hne
    have hxy : n.x = 0 ∨ n.y = 0 := by
      by_contra hcon
      rw [not_or] at hcon
      obtain ⟨p1, p2⟩ := two n.x _ _ _ hcon.1 a1 b1 c1
      obtain ⟨q1, q2⟩ := two n.y _ _ _ hcon.2 a2 b2 c2
      exact hne (by ext <;> simp [Vec3.cross, p1, p2, q1, q2])
    have hxz : n.x = 0 ∨ n.z = 0 := by
      by_contra hcon
      rw [not_or] at hcon
      obtain ⟨p1, p2⟩ := two n.x _ _ _ hcon.1 a1 b1 c1
      obtain ⟨q1, q2⟩ := two n.z _ _ _ hcon.2 a3 b3 c3
      exact hne (by ext <;> simp [Vec3.cross, p1, p2, q1, q2])
    have hyz : n.y = 0 ∨ n.z = 0 := by
      by_contra hcon
      rw [not_or] at hcon
      obtain ⟨p1, p2⟩ := two n.y _ _ _ hcon.1 a2 b2 c2
      obtain ⟨q1, q2⟩ := two n.z _ _ _ hcon.2 a3 b3 c3
      exact hne (by ext <;> simp [Vec3.cross, p1, p2, q1, q2])
    have o1 := int_one n.x _ x1 a1
    have o2 := int_one n.y _ x2 a2
    have o3 := int_one n.z _ x3 a3
    have hn' : ¬ (n.x = 0 ∧ n.y = 0 ∧ n.z = 0) := fun h => hn (Vec3.ext h.1 h.2.1 h.2.2)
    have o1 : n.x = 0 ∨ n.x = 1 ∨ n.x = -1 := o1.imp id (·.1)
    have o2 : n.y = 0 ∨ n.y = 1 ∨ n.y = -1 := o2.imp id (·.1)
    have o3 : n.z = 0 ∨ n.z = 1 ∨ n.z = -1 := o3.imp id (·.1)
    exact six n hxy hxz hyz o1 o2 o3 hn'
  · intro h
    rcases h with rfl | rfl | rfl | rfl | rfl | rfl
    · refine ⟨cube.pos + ⟨1 / 2, 0, 0⟩, (mem_shared _ _).mpr ?_, cube.pos + ⟨1 / 2, 1 / 4, 0⟩,
        (mem_shared _ _).mpr ?_, cube.pos + ⟨1 / 2, 0, 1 / 4⟩, (mem_shared _ _).mpr ?_, ?_⟩ <;>
        norm_num [Vec3.cross, abs_le, Vec3.ext_iff]
    · refine ⟨cube.pos + ⟨-(1 / 2), 0, 0⟩, (mem_shared _ _).mpr ?_, cube.pos + ⟨-(1 / 2), 1 / 4, 0⟩,
        (mem_shared _ _).mpr ?_, cube.pos + ⟨-(1 / 2), 0, 1 / 4⟩, (mem_shared _ _).mpr ?_, ?_⟩ <;>
        norm_num [Vec3.cross, abs_le, Vec3.ext_iff]
    · refine ⟨cube.pos + ⟨0, 1 / 2, 0⟩, (mem_shared _ _).mpr ?_, cube.pos + ⟨1 / 4, 1 / 2, 0⟩,
        (mem_shared _ _).mpr ?_, cube.pos + ⟨0, 1 / 2, 1 / 4⟩, (mem_shared _ _).mpr ?_, ?_⟩ <;>
        norm_num [Vec3.cross, abs_le, Vec3.ext_iff]
    · refine ⟨cube.pos + ⟨0, -(1 / 2), 0⟩, (mem_shared _ _).mpr ?_, cube.pos + ⟨1 / 4, -(1 / 2), 0⟩,
        (mem_shared _ _).mpr ?_, cube.pos + ⟨0, -(1 / 2), 1 / 4⟩, (mem_shared _ _).mpr ?_, ?_⟩ <;>
        norm_num [Vec3.cross, abs_le, Vec3.ext_iff]
    · refine ⟨cube.pos + ⟨0, 0, 1 / 2⟩, (mem_shared _ _).mpr ?_, cube.pos + ⟨1 / 4, 0, 1 / 2⟩,
        (mem_shared _ _).mpr ?_, cube.pos + ⟨0, 1 / 4, 1 / 2⟩, (mem_shared _ _).mpr ?_, ?_⟩ <;>
        norm_num [Vec3.cross, abs_le, Vec3.ext_iff]
    · refine ⟨cube.pos + ⟨0, 0, -(1 / 2)⟩, (mem_shared _ _).mpr ?_, cube.pos + ⟨1 / 4, 0, -(1 / 2)⟩,
        (mem_shared _ _).mpr ?_, cube.pos + ⟨0, 1 / 4, -(1 / 2)⟩, (mem_shared _ _).mpr ?_, ?_⟩ <;>
        norm_num [Vec3.cross, abs_le, Vec3.ext_iff]

open Classical in
/-- The facets of the cube have area 1. -/
noncomputable def facetArea (S : Set (Vec3 ℝ)) : ℝ := if Broad S then 1 else 0

/-- The cube with the volume of its region. -/
noncomputable def cubeV : Cell := { cube with volume := volumeOf (region unit lone cube.pos) }

theorem cubeV_ok : VoroOK unit lone facetArea cubeV := by
  have heach : ∀ j t, (∃ r ∈ cubeV.ridges, r.neighbor = j ∧ r.image = t) ↔
      (Site unit lone j t ∧ t ≠ cube.pos ∧ Broad (shared unit lone cube.pos t)) := by
    intro j t
    have hsix : (∃ r ∈ cubeV.ridges, r.neighbor = j ∧ r.image = t) ↔ j = 0 ∧ ∃ n : Vec3 ℤ,
        t = cube.pos + ⟨n.x, n.y, n.z⟩ ∧ (n = ⟨1, 0, 0⟩ ∨ n = ⟨-1, 0, 0⟩ ∨ n = ⟨0, 1, 0⟩ ∨
          n = ⟨0, -1, 0⟩ ∨ n = ⟨0, 0, 1⟩ ∨ n = ⟨0, 0, -1⟩) := by
      constructor
      · rintro ⟨r, hr, rfl, rfl⟩
        simp only [cubeV, cube, List.mem_cons, List.not_mem_nil, or_false] at hr
        rcases hr with rfl | rfl | rfl | rfl | rfl | rfl
        · exact ⟨rfl, ⟨-1, 0, 0⟩, by ext <;> norm_num [cube], by simp⟩
        · exact ⟨rfl, ⟨1, 0, 0⟩, by ext <;> norm_num [cube], by simp⟩
        · exact ⟨rfl, ⟨0, -1, 0⟩, by ext <;> norm_num [cube], by simp⟩
        · exact ⟨rfl, ⟨0, 1, 0⟩, by ext <;> norm_num [cube], by simp⟩
        · exact ⟨rfl, ⟨0, 0, -1⟩, by ext <;> norm_num [cube], by simp⟩
        · exact ⟨rfl, ⟨0, 0, 1⟩, by ext <;> norm_num [cube], by simp⟩
      · rintro ⟨rfl, n, rfl, h⟩
        rcases h with rfl | rfl | rfl | rfl | rfl | rfl
        · exact ⟨⟨0, ⟨7 / 4, 0, 0⟩, 1, ⟨1, 0, 0⟩, [1, 3, 7, 5]⟩, by simp [cubeV, cube], rfl,
            by ext <;> norm_num [cube]⟩
        · exact ⟨⟨0, ⟨-(1 / 4), 0, 0⟩, 1, ⟨-1, 0, 0⟩, [0, 2, 6, 4]⟩, by simp [cubeV, cube], rfl,
            by ext <;> norm_num [cube]⟩
        · exact ⟨⟨0, ⟨3 / 4, 1, 0⟩, 1, ⟨0, 1, 0⟩, [2, 3, 7, 6]⟩, by simp [cubeV, cube], rfl,
            by ext <;> norm_num [cube]⟩
        · exact ⟨⟨0, ⟨3 / 4, -1, 0⟩, 1, ⟨0, -1, 0⟩, [0, 1, 5, 4]⟩, by simp [cubeV, cube], rfl,
            by ext <;> norm_num [cube]⟩
        · exact ⟨⟨0, ⟨3 / 4, 0, 1⟩, 1, ⟨0, 0, 1⟩, [4, 5, 7, 6]⟩, by simp [cubeV, cube], rfl,
            by ext <;> norm_num [cube]⟩
        · exact ⟨⟨0, ⟨3 / 4, 0, -1⟩, 1, ⟨0, 0, -1⟩, [0, 1, 3, 2]⟩, by simp [cubeV, cube], rfl,
            by ext <;> norm_num [cube]⟩
    rw [hsix, site_iff]
    constructor
    · rintro ⟨hj, n, rfl, h⟩
      have hn : n ≠ ⟨0, 0, 0⟩ := by rcases h with rfl | rfl | rfl | rfl | rfl | rfl <;> decide
      refine ⟨⟨hj, n, rfl⟩, ?_, (broad_iff n hn).mpr h⟩
      intro he
      apply hn
      have hx := congrArg Vec3.x he
      have hy := congrArg Vec3.y he
      have hz := congrArg Vec3.z he
      simpa [Vec3.ext_iff] using (⟨hx, hy, hz⟩ : _ ∧ _ ∧ _)
    · rintro ⟨⟨hj, n, rfl⟩, hne, hb⟩
      have hn : n ≠ ⟨0, 0, 0⟩ := by
        rintro rfl
        exact hne (by ext <;> simp)
      exact ⟨hj, n, rfl, (broad_iff n hn).mp hb⟩
  refine ⟨(site_iff 0 _).mpr ⟨rfl, ⟨0, 0, 0⟩, by ext <;> simp [cubeV]⟩,
    by norm_num [cubeV, cube, unit], rfl, ?_, heach, ?_⟩
  · simp only [cubeV, cube, List.map_cons, List.map_nil, List.nodup_cons, List.mem_cons,
      Prod.mk.injEq, Vec3.mk.injEq, List.not_mem_nil, or_false, List.nodup_nil]
    norm_num
  · intro r hr
    have hb := ((heach r.neighbor r.image).mp ⟨r, hr, rfl, rfl⟩).2.2
    have h1 : r.area = 1 := by
      simp only [cubeV, cube, List.mem_cons, List.not_mem_nil, or_false] at hr
      rcases hr with rfl | rfl | rfl | rfl | rfl | rfl <;> rfl
    rw [h1]
    exact (if_pos hb).symm

theorem facetArea_add (S : Set (Vec3 ℝ)) (v : Vec3 ℝ) :
    facetArea ((fun x => x + v) '' S) = facetArea S := by
  have : Broad ((fun x => x + v) '' S) ↔ Broad S := by
    refine ⟨fun h => ?_, broad_image S v⟩
    have h1 := broad_image _ (-v) h
    have e : (fun x => x + -v) '' ((fun x => x + v) '' S) = S := by
      rw [Set.image_image]
      refine (Set.image_congr fun x _ => ?_).trans (Set.image_id S)
      show x + v + -v = x
      ext <;> simp
    rwa [e] at h1
  unfold facetArea
  by_cases h : Broad S
  · rw [if_pos h, if_pos (this.mpr h)]
  · rw [if_neg h, if_neg (mt this.mp h)]

end Diagram

/-- The hypotheses of both theorems are met by the particle in the unit cube; its volume is 1 and it
has a bond to each of its six closest images. -/
example : ∃ sortV sortB, SortsOK sortV sortB ∧
    DiagramOK (Box.mk' 1 1 1 0 0 0 false) Diagram.lone [Diagram.cubeV] ∧
    container (Box.mk' 1 1 1 0 0 0 false) = some Diagram.unit ∧
    Separate Diagram.unit Diagram.lone ∧
    (∀ c ∈ [Diagram.cubeV], VoroOK Diagram.unit Diagram.lone Diagram.facetArea c) ∧
    (∀ S v, Diagram.facetArea ((fun x => x + v) '' S) = Diagram.facetArea S) ∧
    Diagram.cubeV.volume = 1 ∧ (ridgeBonds false Diagram.cubeV).length = 6 := by
  obtain ⟨sv, sb, hs⟩ := sorts_exist
  have hd : DiagramOK (Box.mk' 1 1 1 0 0 0 false) Diagram.lone [Diagram.cubeV] := by
    refine ⟨fun c hc => ?_, List.Perm.refl _, by simp [Diagram.lone]⟩
    rw [List.mem_singleton] at hc
    subst hc
    have h := cube_ok.each cube (by simp)
    exact ⟨h.pos, fun r hr =>
      let k := h.ridges r hr
      ⟨k.verts, k.apart, k.unit, k.towards, k.bisects⟩, h.images⟩
  have hc : container (Box.mk' 1 1 1 0 0 0 false) = some Diagram.unit := by
    simp [container, Box.getLatticeVector, Box.mk', Box.setL, Diagram.unit]
  have hsep : Separate Diagram.unit Diagram.lone := by
    intro i j s h1 h2
    rw [Diagram.site_iff] at h1 h2
    rw [h1.1, h2.1]
  have hv : ∀ c ∈ [Diagram.cubeV], VoroOK Diagram.unit Diagram.lone Diagram.facetArea c := by
    intro c hc
    rw [List.mem_singleton] at hc
    subst hc
    exact Diagram.cubeV_ok
  refine ⟨sv, sb, hs, hd, hc, hsep, hv, Diagram.facetArea_add, ?_, ?_⟩
  · obtain ⟨h1, -⟩ := Diagram.sum_region (k := Diagram.unit) (by norm_num [Diagram.unit])
      (points := Diagram.lone) (by simp [Diagram.lone]) hsep (fun _ => cube.pos) (fun i => by
        have : (i : ℕ) = 0 := by
          have := i.2
          simp only [Diagram.lone, List.length_singleton] at this
          omega
        rw [this]
        exact Diagram.cubeV_ok.pos)
    rw [Finset.sum_const, Finset.card_univ, Fintype.card_fin] at h1
    simpa [Diagram.lone, Diagram.unit, Diagram.cubeV] using h1
  · unfold ridgeBonds
    rw [List.length_map, List.filter_eq_self.mpr (by intro r _; simp [Horizontal])]
    rfl

/-- The same cell is the one of a particle in the unit square: the hypotheses of `C128_images` are met
and it gives those of the other theorems; the particle has a bond to each of its four closest images. -/
example : (∀ p ∈ Diagram.lone, Planar (Box.mk' 1 1 0 0 0 0 true) p) ∧
    container (Box.mk' 1 1 0 0 0 0 true) = some Diagram.unit ∧
    (∀ c ∈ [Diagram.cubeV], ∀ r ∈ c.ridges, RidgeOK c r) ∧
    DiagramOK (Box.mk' 1 1 0 0 0 0 true) Diagram.lone [Diagram.cubeV] ∧
    (ridgeBonds true Diagram.cubeV).length = 4 := by
  have hp : ∀ p ∈ Diagram.lone, Planar (Box.mk' 1 1 0 0 0 0 true) p := by
    intro p hp
    simp only [Diagram.lone, List.mem_singleton] at hp
    subst hp
    exact fun _ => rfl
  have hc : container (Box.mk' 1 1 0 0 0 0 true) = some Diagram.unit := by
    simp [container, Box.getLatticeVector, Box.mk', Box.setL, Diagram.unit]
  have hr : ∀ c ∈ [Diagram.cubeV], ∀ r ∈ c.ridges, RidgeOK c r := by
    intro c hc r hr
    rw [List.mem_singleton] at hc
    subst hc
    have k := (cube_ok.each cube (by simp)).ridges r hr
    exact ⟨k.verts, k.apart, k.unit, k.towards, k.bisects⟩
  refine ⟨hp, hc, hr, ⟨?_, List.Perm.refl _, by simp [Diagram.lone]⟩, ?_⟩
  · refine C128_images _ _ _ hp Diagram.facetArea Diagram.unit hc (fun c hc => ?_) hr
    rw [List.mem_singleton] at hc
    subst hc
    exact Diagram.cubeV_ok
  · unfold ridgeBonds
    rw [List.length_map]
    norm_num [Diagram.cubeV, cube, Horizontal, List.filter_cons]

end Freud
