import Verif.Props.VoronoiNearest
import Verif.Spec.VoronoiLattice

/-!
# Property C131: the Voronoi diagrams of lattices
-/

namespace Freud
open Spec Voronoi

namespace Diagram

theorem site_image {b : Box ℝ} {k : Container} (hb : Valid b) (hk : container b = some k)
    {points : List (Vec3 ℝ)} {i j : ℕ} {s v : Vec3 ℝ} (hs : Site k points i s)
    (hv : ImageVector b points i j v) : Site k points j (s + v) := by
  obtain ⟨p, m, hp, rfl⟩ := hs
  obtain ⟨p', q, n, hp', hq, rfl⟩ := hv
  obtain rfl : p = p' := Option.some.inj (hp.symm.trans hp')
  obtain ⟨n0, hn0, -⟩ := lattice_eq_vector hb hk n
  refine ⟨q, n0 + m, hq, ?_⟩
  rw [vector_add, hn0]
  ext <;> simp <;> ring

theorem image_sub {b : Box ℝ} {points : List (Vec3 ℝ)} {i j j' : ℕ} {v a : Vec3 ℝ}
    (hv : ImageVector b points i j v) (ha : ImageVector b points i j' a) :
    ImageVector b points j' j (v - a) := by
  obtain ⟨p, q, n, hp, hq, rfl⟩ := hv
  obtain ⟨p', q', n', hp', hq', rfl⟩ := ha
  obtain rfl : p = p' := Option.some.inj (hp.symm.trans hp')
  refine ⟨q', q, n + -n', hq', hq, ?_⟩
  ext <;> simp [lattice, comb] <;> ring

theorem image_lt {b : Box ℝ} {points : List (Vec3 ℝ)} {i j : ℕ} {v : Vec3 ℝ}
    (hv : ImageVector b points i j v) : i < points.length ∧ j < points.length := by
  obtain ⟨p, q, n, hp, hq, -⟩ := hv
  exact ⟨(List.getElem?_eq_some_iff.mp hp).1, (List.getElem?_eq_some_iff.mp hq).1⟩

/-- Vectors across two vectors that are at right angles are on one line. -/
theorem cross_eq_zero {a c d e : Vec3 ℝ} (ha : a ≠ ⟨0, 0, 0⟩) (hc : c ≠ ⟨0, 0, 0⟩)
    (hac : Vec3.dot a c = 0) (h1 : Vec3.dot d a = 0) (h2 : Vec3.dot d c = 0)
    (h3 : Vec3.dot e a = 0) (h4 : Vec3.dot e c = 0) : Vec3.cross d e = ⟨0, 0, 0⟩ := by
  have hpa : 0 < Vec3.dot a a := by have := norm_pos ha; rw [← norm_sq]; positivity
  have hpc : 0 < Vec3.dot c c := by have := norm_pos hc; rw [← norm_sq]; positivity
  have hN : Vec3.dot (Vec3.cross a c) (Vec3.cross a c) = Vec3.dot a a * Vec3.dot c c := by
    have : Vec3.dot (Vec3.cross a c) (Vec3.cross a c) =
        Vec3.dot a a * Vec3.dot c c - Vec3.dot a c ^ 2 := by
      simp only [Vec3.dot, Vec3.cross]; ring
    rw [this, hac]; ring
  set N := Vec3.cross a c with hNdef
  have hline : ∀ d, Vec3.dot d a = 0 → Vec3.dot d c = 0 →
      Vec3.smul (Vec3.dot N N) d = Vec3.smul (Vec3.dot d N) N := by
    intro d h1 h2
    have hx : Vec3.cross d N = ⟨0, 0, 0⟩ := by
      have : Vec3.cross d N = Vec3.smul (Vec3.dot d c) a - Vec3.smul (Vec3.dot d a) c := by
        rw [hNdef]
        ext <;> simp [Vec3.dot, Vec3.cross] <;> ring
      rw [this, h1, h2]
      ext <;> simp
    have e1 : Vec3.smul (Vec3.dot N N) d - Vec3.smul (Vec3.dot d N) N =
        Vec3.cross N (Vec3.cross d N) := by
      ext <;> simp [Vec3.dot, Vec3.cross] <;> ring
    rw [hx] at e1
    have ex := congrArg Vec3.x e1
    have ey := congrArg Vec3.y e1
    have ez := congrArg Vec3.z e1
    simp only [Vec3.sub_x, Vec3.sub_y, Vec3.sub_z, Vec3.cross] at ex ey ez
    ext <;> linarith
  have hd := hline d h1 h2
  have he := hline e h3 h4
  have hpos : 0 < Vec3.dot N N := by rw [hN]; positivity
  have hz : Vec3.smul (Vec3.dot N N * Vec3.dot N N) (Vec3.cross d e) = ⟨0, 0, 0⟩ := by
    have : Vec3.smul (Vec3.dot N N * Vec3.dot N N) (Vec3.cross d e) =
        Vec3.cross (Vec3.smul (Vec3.dot N N) d) (Vec3.smul (Vec3.dot N N) e) := by
      ext <;> simp [Vec3.cross] <;> ring
    rw [this, hd, he]
    ext <;> simp [Vec3.cross] <;> ring
  have hne : Vec3.dot N N * Vec3.dot N N ≠ 0 := by positivity
  have ex := congrArg Vec3.x hz
  have ey := congrArg Vec3.y hz
  have ez := congrArg Vec3.z hz
  simp only [Vec3.smul_x, Vec3.smul_y, Vec3.smul_z] at ex ey ez
  ext
  · exact (mul_eq_zero.mp ex).resolve_left hne
  · exact (mul_eq_zero.mp ey).resolve_left hne
  · exact (mul_eq_zero.mp ez).resolve_left hne

/-- In a lattice a broad facet is shared only if nothing is between. -/
theorem between_of_broad {b : Box ℝ} (hb : Valid b) {k : Container} (hk : container b = some k)
    {points : List (Vec3 ℝ)} (hview : LatticePoints b points) {i j : ℕ} {s v : Vec3 ℝ}
    (hs : Site k points i s) (hv : ImageVector b points i j v) (hne : v ≠ ⟨0, 0, 0⟩)
    (hbr : Broad (shared k points s (s + v))) : NothingBetween b points i j v := by
  refine ⟨hv, hne, fun j' a ha ha0 hav => ?_⟩
  by_contra hlt
  rw [not_lt, norm_le_iff] at hlt
  obtain ⟨j'', hc⟩ := hview _ (image_lt ha).2 _ (image_lt hv).1 _ ⟨j, image_sub hv ha⟩
  have hsa := site_image hb hk hs ha
  have hsc := site_image hb hk hs hc
  have hc0 : v - a ≠ ⟨0, 0, 0⟩ := by
    intro h0
    have hx := congrArg Vec3.x h0
    have hy := congrArg Vec3.y h0
    have hz := congrArg Vec3.z h0
    simp only [Vec3.sub_x, Vec3.sub_y, Vec3.sub_z] at hx hy hz
    exact hav (by ext <;> linarith)
  have hac : 0 ≤ Vec3.dot a (v - a) := by
    simp only [Vec3.dot, Vec3.sub_x, Vec3.sub_y, Vec3.sub_z, Vec3.smul_x, Vec3.smul_y,
      Vec3.smul_z] at hlt ⊢
    nlinarith
  have hplane : ∀ x ∈ shared k points s (s + v), 2 * Vec3.dot (x - s) a = Vec3.dot a a ∧
      2 * Vec3.dot (x - s) (v - a) = Vec3.dot (v - a) (v - a) ∧ Vec3.dot a (v - a) = 0 := by
    rintro x ⟨hx, hxe⟩
    have h1 := hx _ _ hsa
    have h2 := hx _ _ hsc
    have h3 := le_of_eq hxe.symm
    have h4 := le_of_eq hxe
    rw [norm_le_iff] at h1 h2 h3 h4
    simp only [Vec3.dot, Vec3.sub_x, Vec3.sub_y, Vec3.sub_z, Vec3.add_x, Vec3.add_y,
      Vec3.add_z] at h1 h2 h3 h4 hac ⊢
    refine ⟨?_, ?_, ?_⟩ <;> nlinarith
  obtain ⟨x, hx, y, hy, z, hz, hcr⟩ := hbr
  obtain ⟨x1, x2, h0⟩ := hplane x hx
  obtain ⟨y1, y2, -⟩ := hplane y hy
  obtain ⟨z1, z2, -⟩ := hplane z hz
  refine hcr (cross_eq_zero ha0 hc0 h0 ?_ ?_ ?_ ?_)
  all_goals
    simp only [Vec3.dot, Vec3.sub_x, Vec3.sub_y, Vec3.sub_z] at x1 x2 y1 y2 z1 z2 ⊢
    linarith

/-- The regions of all sites of a lattice are translates of each other. -/
theorem region_same {b : Box ℝ} (hb : Valid b) {k : Container} (hk : container b = some k)
    {points : List (Vec3 ℝ)} (hplane : ∀ p ∈ points, Planar b p) (hview : LatticePoints b points)
    {area : Set (Vec3 ℝ) → ℝ} {c c' : Spec.Cell} (hc : VoroOK k points area c)
    (hc' : VoroOK k points area c') :
    region k points c'.pos = (fun x => x + (c'.pos - c.pos)) '' region k points c.pos := by
  have move : ∀ {c c' : Spec.Cell}, VoroOK k points area c → VoroOK k points area c' → ∀ j u,
      Site k points j u → ∃ j', Site k points j' (u + (c'.pos - c.pos)) := by
    intro c c' hc hc' j u hu
    obtain ⟨p, m, hp, hpos, -⟩ := cell_pos hk hplane hc
    obtain ⟨v, h, himg, e, h3, -⟩ := split_vector hk hplane hp hu
    obtain ⟨p', m', hp', -, -⟩ := cell_pos hk hplane hc'
    obtain ⟨j', hj'⟩ := hview _ (image_lt himg).1 c'.pid (List.getElem?_eq_some_iff.mp hp').1 v
      ⟨j, himg⟩
    have hsite := site_add (site_image hb hk hc'.pos hj') ⟨0, 0, h⟩
    refine ⟨j', ?_⟩
    rw [← hpos] at e
    have e2 : u + (c'.pos - c.pos) = c'.pos + v + containerVector k ⟨0, 0, h⟩ := by
      have e3 : containerVector k ⟨0, 0, h⟩ = Vec3.smul (h : ℝ) ⟨0, 0, 1⟩ := by
        by_cases h2 : b.is2D = true
        · have hkk := container_eq hk
          rw [if_pos h2] at hkk
          rw [hkk]; ext <;> simp [containerVector]
        · rw [h3 (by simpa using h2)]
          ext <;> simp [containerVector]
      rw [e3]
      have ex := congrArg Vec3.x e
      have ey := congrArg Vec3.y e
      have ez := congrArg Vec3.z e
      simp only [Vec3.sub_x, Vec3.sub_y, Vec3.sub_z, Vec3.add_x, Vec3.add_y, Vec3.add_z] at ex ey ez
      ext <;> simp only [Vec3.sub_x, Vec3.sub_y, Vec3.sub_z, Vec3.add_x, Vec3.add_y, Vec3.add_z] <;>
        linarith
    rw [e2]; exact hsite
  ext x
  constructor
  · intro hx
    refine ⟨x - (c'.pos - c.pos), fun j u hu => ?_, by ext <;> simp⟩
    obtain ⟨j', hj'⟩ := move hc hc' j u hu
    have := hx j' _ hj'
    have e1 : x - (c'.pos - c.pos) - c.pos = x - c'.pos := by ext <;> simp <;> ring
    have e2 : x - (c'.pos - c.pos) - u = x - (u + (c'.pos - c.pos)) := by ext <;> simp <;> ring
    rw [e1, e2]; exact this
  · rintro ⟨y, hy, rfl⟩ j u hu
    obtain ⟨j', hj'⟩ := move hc' hc j u hu
    have := hy j' _ hj'
    have e1 : y + (c'.pos - c.pos) - c'.pos = y - c.pos := by ext <;> simp <;> ring
    have e2 : y + (c'.pos - c.pos) - u = y - (u + (c.pos - c'.pos)) := by ext <;> simp <;> ring
    simp only [e1, e2]; exact this

end Diagram

/-- **C131**: in a lattice the Voronoi neighbors are exactly the images with nothing between: there is a
bond from `i` to an image of `j` if and only if all other points and images are outside the sphere that
has their connection as its diameter. -/
theorem C131_neighbors (b : Box ℝ) (hb : Valid b) (points : List (Vec3 ℝ)) (cells : List Spec.Cell)
    (hplane : ∀ p ∈ points, Planar b p) (hview : LatticePoints b points) (h : DiagramOK b points cells)
    (area : Set (Vec3 ℝ) → ℝ) (k : Container) (hk : container b = some k)
    (hv : ∀ c ∈ cells, VoroOK k points area c)
    (sortV : List (Vec3 ℝ) → List (Vec3 ℝ)) (sortB : List (Bond ℝ) → List (Bond ℝ))
    (hs : SortsOK sortV sortB) (s : Voronoi.State) :
    ∃ s', compute b.is2D points sortV sortB s (cells.map raw) = some s' ∧
      ∀ i j v, (∃ nb ∈ s'.nlist.bonds, nb.q = i ∧ nb.p = j ∧ nb.vec = v) ↔
        NothingBetween b points i j v := by
  obtain ⟨s1, e1, h1⟩ := C130_between b hb points cells hplane h area k hk hv sortV sortB hs s
  obtain ⟨s', e, hn, -⟩ := compute_spec b points cells h sortV sortB s
  obtain rfl : s1 = s' := Option.some.inj (e1.symm.trans e)
  have hperm : s1.nlist.bonds.Perm (cells.flatMap (ridgeBonds b.is2D)) := by
    rw [hn]; exact (hs.bonds _).1
  refine ⟨s1, e, fun i j v => ⟨?_, fun hcl => ?_⟩⟩
  · rintro ⟨nb, hnb, rfl, rfl, rfl⟩
    obtain ⟨c, hc, hnb⟩ := List.mem_flatMap.mp (hperm.mem_iff.mp hnb)
    have hpid : nb.q = c.pid := by obtain ⟨r, -, rfl⟩ := List.mem_map.mp hnb; rfl
    obtain ⟨himg, hne, hbr⟩ := (Diagram.bond_iff hb hk hplane h hc (hv c hc) nb.p nb.vec).mp
      ⟨nb, hnb, rfl, rfl⟩
    rw [hpid]
    exact Diagram.between_of_broad hb hk hview (hv c hc).pos himg hne hbr
  · obtain ⟨nb, hnb, h2, h3, h4, -⟩ := h1 i j v hcl
    exact ⟨nb, hnb, h2, h3, h4⟩

/-- **C131**: in a lattice all particles have the same volume, an equal part of the volume of the box
(in 2D of its area). -/
theorem C131_volumes (b : Box ℝ) (hb : Valid b) (points : List (Vec3 ℝ)) (cells : List Spec.Cell)
    (hL : 0 < b.L.x ∧ 0 < b.L.y ∧ (b.is2D = false → 0 < b.L.z))
    (hplane : ∀ p ∈ points, Planar b p) (hview : LatticePoints b points) (h : DiagramOK b points cells)
    (area : Set (Vec3 ℝ) → ℝ) (k : Container) (hk : container b = some k) (hsep : Separate k points)
    (hv : ∀ c ∈ cells, VoroOK k points area c)
    (sortV : List (Vec3 ℝ) → List (Vec3 ℝ)) (sortB : List (Bond ℝ) → List (Bond ℝ))
    (s : Voronoi.State) :
    ∃ s', compute b.is2D points sortV sortB s (cells.map raw) = some s' ∧
      s'.volumes = List.replicate points.length (b.getVolume / points.length) := by
  obtain ⟨s', e, -, -, hlen, hc⟩ := compute_spec b points cells h sortV sortB s
  refine ⟨s', e, ?_⟩
  by_cases hne : points = []
  · rw [hne] at hlen ⊢
    simpa using hlen
  obtain ⟨s1, e1, -, hsum, -⟩ := C128_volumes b points cells hL hne h area k hk hsep hv sortV sortB s
  obtain rfl : s1 = s' := Option.some.inj (e1.symm.trans e)
  have hsame : ∀ x ∈ s1.volumes, ∀ y ∈ s1.volumes, x = y := by
    have hcell : ∀ x ∈ s1.volumes, ∃ c ∈ cells, x = c.volume := by
      intro x hx
      obtain ⟨i, hi, rfl⟩ := List.getElem_of_mem hx
      have : i ∈ cells.map (·.pid) := h.all.mem_iff.mpr (List.mem_range.mpr (hlen ▸ hi))
      obtain ⟨c, hcc, rfl⟩ := List.mem_map.mp this
      refine ⟨c, hcc, ?_⟩
      have := (hc c hcc).2
      rw [List.getElem?_eq_getElem hi] at this
      exact Option.some.inj this
    intro x hx y hy
    obtain ⟨c, hcc, rfl⟩ := hcell x hx
    obtain ⟨c', hcc', rfl⟩ := hcell y hy
    rw [(hv c hcc).volume, (hv c' hcc').volume,
      Diagram.region_same hb hk hplane hview (hv c hcc) (hv c' hcc')]
    have hid : Rigid (fun v : Vec3 ℝ => v) := fun _ _ => rfl
    exact (Diagram.volumeOf_image hid _ _).symm
  have hpos : 0 < points.length := List.length_pos_iff.mpr hne
  have hx0 : s1.volumes[0]'(hlen ▸ hpos) ∈ s1.volumes := List.getElem_mem _
  set x0 := s1.volumes[0]'(hlen ▸ hpos)
  have hrep : s1.volumes = List.replicate points.length x0 := by
    rw [List.eq_replicate_iff]
    exact ⟨hlen, fun y hy => hsame y hy x0 hx0⟩
  rw [hrep] at hsum ⊢
  rw [List.sum_replicate, nsmul_eq_mul] at hsum
  rw [← hsum, mul_div_cancel_left₀]
  exact_mod_cast hpos.ne'

/-- A single particle sees its images as a lattice; the other hypotheses are met as shown for C130, and
for the crystals of `Props/VoronoiCrystals.lean`. -/
example : LatticePoints (Box.mk' 1 1 1 0 0 0 false) Diagram.lone ∧
    ∃ v, v ≠ ⟨0, 0, 0⟩ ∧ ImageVector (Box.mk' 1 1 1 0 0 0 false) Diagram.lone 0 0 v := by
  refine ⟨fun i hi i' hi' v hv => ?_, ⟨1, 0, 0⟩, by simp, ⟨-(1 / 4), 0, 0⟩, ⟨-(1 / 4), 0, 0⟩, ⟨1, 0, 0⟩, rfl, rfl, by
    ext <;> simp [lattice, comb, a1, a2, a3, Box.mk', Box.setL]⟩
  have : i = i' := by simp [Diagram.lone] at hi hi'; omega
  exact this ▸ hv

end Freud
