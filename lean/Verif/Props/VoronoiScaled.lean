import Verif.Lemmas.VoronoiScaled

/-!
# Property C132: Voronoi diagrams in another unit of length
-/

namespace Freud
open Spec Voronoi

namespace Diagram

variable {c : ℝ} {b b' : Box ℝ} {k k' : Container} {points : List (Vec3 ℝ)}

/-- What a bond of a cell holds. -/
theorem bond_data {area : Set (Vec3 ℝ) → ℝ} {d : Spec.Cell} (hv : VoroOK k points area d) {f : Bool}
    {nb : Bond ℝ} (h : nb ∈ ridgeBonds f d) : nb.q = d.pid ∧ nb.dist = Vec3.norm nb.vec ∧
      nb.weight = area (shared k points d.pos (d.pos + nb.vec)) := by
  classical
  obtain ⟨r, hr, rfl⟩ := List.mem_map.mp h
  refine ⟨rfl, rfl, ?_⟩
  rw [hv.area r (List.mem_of_mem_filter hr)]
  refine congrArg (fun t => area (shared k points d.pos t)) ?_
  ext <;> simp

theorem image_stretch (h : ScaledBox c b b') {i j : ℕ} {v' : Vec3 ℝ} :
    ImageVector b' (scaledPoints c points) i j v' ↔
      ∃ v, ImageVector b points i j v ∧ v' = ⟨c * v.x, c * v.y, c * v.z⟩ := by
  have hl : ∀ n, lattice b' n = ⟨c * (lattice b n).x, c * (lattice b n).y, c * (lattice b n).z⟩ := by
    intro n
    simp only [lattice, comb, a1, a2, a3, h.L, h.tilts.1, h.tilts.2.1, h.tilts.2.2]
    ext <;> simp only <;> ring
  unfold ImageVector scaledPoints
  constructor
  · rintro ⟨p', q', n, hp', hq', rfl⟩
    rw [List.getElem?_map] at hp' hq'
    obtain ⟨p, hp, rfl⟩ := Option.map_eq_some_iff.mp hp'
    obtain ⟨q, hq, rfl⟩ := Option.map_eq_some_iff.mp hq'
    refine ⟨_, ⟨p, q, n, hp, hq, rfl⟩, ?_⟩
    rw [hl]
    ext <;> simp <;> ring
  · rintro ⟨v, ⟨p, q, n, hp, hq, rfl⟩, rfl⟩
    refine ⟨⟨c * p.x, c * p.y, c * p.z⟩, ⟨c * q.x, c * q.y, c * q.z⟩, n,
      by rw [List.getElem?_map, hp]; rfl, by rw [List.getElem?_map, hq]; rfl, ?_⟩
    rw [hl]
    ext <;> simp <;> ring

theorem planar_stretch (h : ScaledBox c b b') (hplane : ∀ p ∈ points, Planar b p) :
    ∀ p ∈ scaledPoints c points, Planar b' p := by
  intro p' hp' h2
  obtain ⟨p, hp, rfl⟩ := List.mem_map.mp hp'
  rw [h.dims] at h2
  simp [hplane p hp h2]

theorem cell_height (hk : container b = some k) (hplane : ∀ p ∈ points, Planar b p)
    {area : Set (Vec3 ℝ) → ℝ} {d : Spec.Cell} (hv : VoroOK k points area d) (h2 : b.is2D = true) :
    d.pos.z = 0 := by
  obtain ⟨p, m, hp, hpos, hm⟩ := cell_pos hk hplane hv
  have hp0 : p.z = 0 := hplane p (List.mem_of_getElem? hp) h2
  rw [hpos]
  simp [containerVector, hp0, hm h2]

/-- A facet towards an image in the plane is upright. -/
theorem upright_shared (s : Vec3 ℝ) {v : Vec3 ℝ} (hv : v ≠ ⟨0, 0, 0⟩) (hz : v.z = 0) :
    Upright (shared k points s (s + v)) := by
  refine ⟨v, hv, hz, Vec3.dot v s + Vec3.dot v v / 2, ?_⟩
  rintro x ⟨-, hx⟩
  rw [dist_eq_iff] at hx
  simp only [across, along, Vec3.add_x, Vec3.add_y, Vec3.add_z] at hx
  simp only [Vec3.dot]
  linarith

theorem norm_scaled (hc : 0 < c) (v : Vec3 ℝ) :
    Vec3.norm ⟨c * v.x, c * v.y, c * v.z⟩ = c * Vec3.norm v := by
  unfold Vec3.norm
  rw [← Real.sqrt_sq hc.le, ← Real.sqrt_mul (sq_nonneg c), Real.sqrt_sq hc.le]
  congr 1
  simp only [Vec3.dot]
  ring

/-- The bonds of the cells of one particle in the two units. -/
theorem bonds_stretch (hc : 0 < c) (hb : Valid b) (h : ScaledBox c b b') (hk : container b = some k)
    (hk' : container b' = some k') (hplane : ∀ p ∈ points, Planar b p)
    {area area' : Set (Vec3 ℝ) → ℝ} (hshift : ∀ S v, area' ((fun x => x + v) '' S) = area' S)
    (harea : ∀ S, (b.is2D = true → Upright S) →
      area' (stretch c b.is2D '' S) = ridgeFactor c b.is2D * area S)
    {cells cells' : List Spec.Cell} (hd : DiagramOK b points cells)
    (hd' : DiagramOK b' (scaledPoints c points) cells') {d d' : Spec.Cell} (hm : d ∈ cells)
    (hm' : d' ∈ cells') (hv : VoroOK k points area d) (hv' : VoroOK k' (scaledPoints c points) area' d')
    (hpid : d'.pid = d.pid) (nb : Bond ℝ) :
    nb ∈ ridgeBonds b'.is2D d' ↔ nb ∈ (ridgeBonds b.is2D d).map (scaledRidge c b.is2D) := by
  have hz := cell_height hk hplane hv
  obtain ⟨n, hn⟩ := site_diff ((site_stretch hc h hk hk' hplane d.pid d.pos).mpr hv.pos)
    (hpid ▸ hv'.pos)
  -- the facets
  have facet : ∀ j v, ImageVector b points d.pid j v →
      shared k' (scaledPoints c points) d'.pos (d'.pos + ⟨c * v.x, c * v.y, c * v.z⟩) =
        (fun x => x + containerVector k' n) '' (stretch c b.is2D '' shared k points d.pos (d.pos + v)) := by
    intro j v himg
    have e : d'.pos + ⟨c * v.x, c * v.y, c * v.z⟩ =
        stretch c b.is2D (d.pos + v) + containerVector k' n := by
      have : (⟨c * v.x, c * v.y, c * v.z⟩ : Vec3 ℝ) = stretch c b.is2D v := by
        have hvz := image_plane hb hplane himg
        cases h2 : b.is2D
        · simp [stretch]
        · simp [stretch, hvz h2]
      rw [hn, stretch_add, this]
      ext <;> simp <;> ring
    rw [e, hn, shared_image,
      shared_stretch hc h hk hk' hplane hv.pos hz (site_image hb hk hv.pos himg)]
  have hne : ∀ v : Vec3 ℝ, (⟨c * v.x, c * v.y, c * v.z⟩ : Vec3 ℝ) ≠ ⟨0, 0, 0⟩ ↔ v ≠ ⟨0, 0, 0⟩ := by
    intro v
    obtain ⟨x, y, z⟩ := v
    simp [hc.ne']
  have hbroad : ∀ j v, ImageVector b points d.pid j v →
      (Broad (shared k' (scaledPoints c points) d'.pos (d'.pos + ⟨c * v.x, c * v.y, c * v.z⟩)) ↔
        Broad (shared k points d.pos (d.pos + v))) := by
    intro j v himg
    rw [facet j v himg, ← broad_stretch hc b.is2D (shared k points d.pos (d.pos + v))]
    exact broad_turned rigid_id _ _
  -- bonds with the same ends are the same
  have same : ∀ nb0 ∈ ridgeBonds b.is2D d, ∀ nb1 ∈ ridgeBonds b'.is2D d', nb1.p = nb0.p →
      nb1.vec = ⟨c * nb0.vec.x, c * nb0.vec.y, c * nb0.vec.z⟩ → scaledRidge c b.is2D nb0 = nb1 := by
    intro nb0 h0 nb1 h1 hp hvec
    obtain ⟨himg, hne0, -⟩ := (bond_iff hb hk hplane hd hm hv nb0.p nb0.vec).mp ⟨nb0, h0, rfl, rfl⟩
    obtain ⟨q0, d0, w0⟩ := bond_data hv h0
    obtain ⟨q1, d1, w1⟩ := bond_data hv' h1
    have hw : nb1.weight = ridgeFactor c b.is2D * nb0.weight := by
      rw [w1, hvec, facet _ _ himg, hshift, w0,
        harea _ fun h2 => upright_shared d.pos hne0 (image_plane hb hplane himg h2)]
    have hdist : nb1.dist = c * nb0.dist := by rw [d1, hvec, norm_scaled hc, d0]
    cases nb1
    simp only at hp hvec hw hdist q1
    simp only [scaledRidge, Bond.mk.injEq]
    exact ⟨by rw [q0, q1, hpid], hp.symm, hdist.symm, hw.symm, hvec.symm⟩
  have iff' := bond_iff h.valid hk' (planar_stretch h hplane) hd' hm' hv'
  rw [List.mem_map]
  constructor
  · intro h1
    obtain ⟨himg', hne', hbr'⟩ := (iff' nb.p nb.vec).mp ⟨nb, h1, rfl, rfl⟩
    rw [hpid] at himg'
    obtain ⟨v, himg, e⟩ := (image_stretch h).mp himg'
    rw [e] at hne' hbr'
    obtain ⟨nb0, h0, hp, hvec⟩ := (bond_iff hb hk hplane hd hm hv nb.p v).mpr
      ⟨himg, (hne v).mp hne', (hbroad _ v himg).mp hbr'⟩
    exact ⟨nb0, h0, same nb0 h0 nb h1 hp.symm (by rw [e, hvec])⟩
  · rintro ⟨nb0, h0, rfl⟩
    obtain ⟨himg, hne0, hbr⟩ := (bond_iff hb hk hplane hd hm hv nb0.p nb0.vec).mp ⟨nb0, h0, rfl, rfl⟩
    obtain ⟨nb1, h1, hp, hvec⟩ := (iff' nb0.p _).mpr
      ⟨hpid.symm ▸ (image_stretch h).mpr ⟨nb0.vec, himg, rfl⟩, (hne _).mpr hne0,
        (hbroad _ _ himg).mpr hbr⟩
    rw [same nb0 h0 nb1 h1 hp hvec]
    exact h1

end Diagram

/-- **C132**: in another unit of length the Voronoi diagram is the same. If box and points are
multiplied by `c`, the neighbor list has the same bonds with vectors and distances multiplied by `c` and
weights multiplied by `c ^ 2` (in 2D, where they are lengths, by `c`), and the volumes are multiplied by
`c ^ 3` (in 2D, where they are areas, by `c ^ 2`). `area` and `area'` are the measures of facets in the
two units. -/
theorem C132_units (c : ℝ) (hc : 0 < c) (b b' : Box ℝ) (hb : Valid b) (hs : ScaledBox c b b')
    (points : List (Vec3 ℝ)) (hplane : ∀ p ∈ points, Planar b p) (area area' : Set (Vec3 ℝ) → ℝ)
    (hshift : ∀ S v, area' ((fun x => x + v) '' S) = area' S)
    (harea : ∀ S, (b.is2D = true → Upright S) →
      area' (stretch c b.is2D '' S) = ridgeFactor c b.is2D * area S)
    (k k' : Container) (hk : container b = some k) (hk' : container b' = some k')
    (cells cells' : List Spec.Cell) (h : DiagramOK b points cells)
    (h' : DiagramOK b' (scaledPoints c points) cells') (hv : ∀ d ∈ cells, VoroOK k points area d)
    (hv' : ∀ d ∈ cells', VoroOK k' (scaledPoints c points) area' d)
    (sortV sortV' : List (Vec3 ℝ) → List (Vec3 ℝ)) (sortB sortB' : List (Bond ℝ) → List (Bond ℝ))
    (hso : SortsOK sortV sortB) (hso' : SortsOK sortV' sortB') (s s' : Voronoi.State) :
    ∃ s1 s1', compute b.is2D points sortV sortB s (cells.map raw) = some s1 ∧
      compute b'.is2D (scaledPoints c points) sortV' sortB' s' (cells'.map raw) = some s1' ∧
      s1'.nlist.bonds.Perm (s1.nlist.bonds.map (scaledRidge c b.is2D)) ∧
      s1'.volumes = s1.volumes.map (cellFactor c b.is2D * ·) := by
  classical
  obtain ⟨s1, e, hn, -, hl, hvol⟩ := compute_spec b points cells h sortV sortB s
  obtain ⟨s1', e', hn', -, hl', hvol'⟩ := compute_spec b' _ cells' h' sortV' sortB' s'
  have hperm : s1.nlist.bonds.Perm (cells.flatMap (ridgeBonds b.is2D)) := by
    rw [hn]; exact (hso.bonds _).1
  have hperm' : s1'.nlist.bonds.Perm (cells'.flatMap (ridgeBonds b'.is2D)) := by
    rw [hn']; exact (hso'.bonds _).1
  have hlen : (scaledPoints c points).length = points.length := by simp [scaledPoints]
  have hall : ∀ i, i ∈ cells'.map (·.pid) ↔ i ∈ cells.map (·.pid) := fun i => by
    rw [h.all.mem_iff, h'.all.mem_iff, hlen]
  have cell : ∀ d' ∈ cells', ∃ d ∈ cells, d'.pid = d.pid := fun d' hd' => by
    obtain ⟨d, hd, e⟩ := List.mem_map.mp ((hall _).mp (List.mem_map.mpr ⟨d', hd', rfl⟩))
    exact ⟨d, hd, e.symm⟩
  have cell' : ∀ d ∈ cells, ∃ d' ∈ cells', d'.pid = d.pid := fun d hd => by
    obtain ⟨d', hd', e⟩ := List.mem_map.mp ((hall _).mpr (List.mem_map.mpr ⟨d, hd, rfl⟩))
    exact ⟨d', hd', e⟩
  have step := fun d hd d' hd' hpid nb => Diagram.bonds_stretch hc hb hs hk hk' hplane hshift harea h h'
    (d := d) (d' := d') hd hd' (hv d hd) (hv' d' hd') hpid nb
  have hinj : Function.Injective (scaledRidge c b.is2D) := by
    have hf : ridgeFactor c b.is2D ≠ 0 := by
      unfold ridgeFactor
      cases b.is2D
      · simpa using hc.ne'
      · simpa using hc.ne'
    rintro ⟨q, p, d, w, v⟩ ⟨q', p', d', w', v'⟩ he
    simp only [scaledRidge, Bond.mk.injEq, Vec3.mk.injEq, mul_right_inj' hc.ne',
      mul_right_inj' hf] at he ⊢
    exact ⟨he.1, he.2.1, he.2.2.1, he.2.2.2.1, Vec3.ext he.2.2.2.2.1 he.2.2.2.2.2.1 he.2.2.2.2.2.2⟩
  refine ⟨s1, s1', e, e', ?_, ?_⟩
  · refine hperm'.trans (List.Perm.trans ?_ (hperm.map _).symm)
    refine (List.perm_ext_iff_of_nodup (Diagram.bonds_nodup h' hv')
      ((Diagram.bonds_nodup h hv).map hinj)).mpr fun nb => ?_
    rw [List.map_flatMap, List.mem_flatMap, List.mem_flatMap]
    constructor
    · rintro ⟨d', hd', hnb⟩
      obtain ⟨d, hd, hpid⟩ := cell d' hd'
      exact ⟨d, hd, (step d hd d' hd' hpid nb).mp hnb⟩
    · rintro ⟨d, hd, hnb⟩
      obtain ⟨d', hd', hpid⟩ := cell' d hd
      exact ⟨d', hd', (step d hd d' hd' hpid nb).mpr hnb⟩
  · refine List.ext_getElem? fun i => ?_
    rw [List.getElem?_map]
    by_cases hi : i < points.length
    · have h1 : i ∈ cells.map (·.pid) := by rw [h.all.mem_iff, List.mem_range]; exact hi
      obtain ⟨d, hd, rfl⟩ := List.mem_map.mp h1
      obtain ⟨d', hd', hpid⟩ := cell' d hd
      rw [← hpid, (hvol' d' hd').2, hpid, (hvol d hd).2, Option.map_some, (hv d hd).volume,
        (hv' d' hd').volume]
      obtain ⟨n, hn⟩ := Diagram.site_diff
        ((Diagram.site_stretch hc hs hk hk' hplane d.pid d.pos).mpr (hv d hd).pos)
        (hpid ▸ (hv' d' hd').pos)
      have e1 : region k' (scaledPoints c points) (stretch c b.is2D d.pos + containerVector k' n) =
          (fun x => id x + containerVector k' n) ''
            region k' (scaledPoints c points) (stretch c b.is2D d.pos) := by
        ext x
        have e2 : x + -containerVector k' n + containerVector k' n = x := by ext <;> simp
        constructor
        · intro hx
          refine ⟨x + -containerVector k' n, ?_, e2⟩
          rw [← Diagram.region_add _ _ n, e2]
          exact hx
        · rintro ⟨y, hy, rfl⟩
          exact (Diagram.region_add _ y n).mpr hy
      rw [hn, e1, Diagram.volumeOf_image rigid_id,
        Diagram.region_stretch hc hs hk hk' hplane (hv d hd).pos
          (Diagram.cell_height hk hplane (hv d hd)), Diagram.volumeOf_stretch hc]
    · rw [List.getElem?_eq_none (by rw [hl', hlen]; omega), List.getElem?_eq_none (by rw [hl]; omega)]
      rfl

namespace Diagram

/-- The box of the particle in the unit cube or square. -/
noncomputable def unitBox (c : ℝ) (f : Bool) : Box ℝ := Box.mk' c c (if f then 0 else c) 0 0 0 f

/-- The cell of the particle in the cube of side 2, or in the square of side 2. -/
noncomputable def cube2 (f : Bool) : Spec.Cell where
  pid := 0
  pos := stretch 2 f cubeV.pos
  verts := cubeV.verts.map (stretch 2 f)
  ridges := cubeV.ridges.map fun r =>
    { r with image := stretch 2 f r.image, area := ridgeFactor 2 f * r.area }
  volume := cellFactor 2 f * cubeV.volume

/-- The areas in the other unit. -/
noncomputable def facetArea2 (f : Bool) (S : Set (Vec3 ℝ)) : ℝ := ridgeFactor 2 f * facetArea S

/-- The container of the larger box. -/
noncomputable def unit2 (f : Bool) : Container := ⟨2, 0, 2, 0, 0, if f then 1 else 2⟩

theorem unitBox_valid (c : ℝ) (hc : c ≠ 0) (f : Bool) : Valid (unitBox c f) := by
  cases f <;> constructor <;> simp [unitBox, Box.mk', Box.setL, hc]

theorem unitBox_scaled (f : Bool) : ScaledBox 2 (unitBox 1 f) (unitBox 2 f) := by
  refine ⟨?_, ⟨?_, ?_, ?_⟩, ⟨?_, ?_, ?_⟩, ?_, unitBox_valid 2 two_ne_zero f⟩ <;>
    cases f <;> simp [unitBox, Box.mk', Box.setL]

theorem unitBox_2D (c : ℝ) (f : Bool) : (unitBox c f).is2D = f := by
  cases f <;> simp [unitBox, Box.mk', Box.setL]

theorem unit_container (f : Bool) : container (unitBox 1 f) = some unit ∧
    container (unitBox 2 f) = some (unit2 f) := by
  cases f <;> simp [container, Box.getLatticeVector, unitBox, Box.mk', Box.setL, unit, unit2]

theorem lone_planar (f : Bool) : ∀ p ∈ lone, Planar (unitBox 1 f) p := by
  intro p hp
  simp only [lone, List.mem_singleton] at hp
  subst hp
  exact fun _ => rfl

theorem cubeV_z : cubeV.pos.z = 0 := rfl

theorem facet_stretch (f : Bool) (S : Set (Vec3 ℝ)) :
    facetArea2 f (stretch 2 f '' S) = ridgeFactor 2 f * facetArea S := by
  unfold facetArea2 facetArea
  by_cases h : Broad S
  · rw [if_pos h, if_pos ((broad_stretch two_pos f S).mpr h)]
  · rw [if_neg h, if_neg (mt (broad_stretch two_pos f S).mp h)]

theorem cube2_ok (f : Bool) : VoroOK (unit2 f) (scaledPoints 2 lone) (facetArea2 f) (cube2 f) := by
  have hb := unitBox_scaled f
  obtain ⟨hk, hk'⟩ := unit_container f
  have hp := lone_planar f
  have hok := cubeV_ok
  have site := site_stretch two_pos hb hk hk' hp
  have sh := fun j t => shared_stretch two_pos hb hk hk' hp (i := cubeV.pid) (j := j) (t := t) hok.pos
    (fun _ => cubeV_z)
  have reg := region_stretch two_pos hb hk hk' hp (i := cubeV.pid) hok.pos (fun _ => cubeV_z)
  rw [unitBox_2D] at site sh reg
  refine ⟨(site _ _).mpr hok.pos, ?_, ?_, ?_, ?_, ?_⟩
  · cases f <;> norm_num [cube2, stretch, cubeV_z, unit2]
  · show cellFactor 2 f * cubeV.volume = volumeOf (region _ _ (stretch 2 f cubeV.pos))
    rw [reg, volumeOf_stretch two_pos, hok.volume]
  · have e : (cube2 f).ridges.map (fun r => (r.neighbor, r.image)) =
        (cubeV.ridges.map (fun r => (r.neighbor, r.image))).map (Prod.map id (stretch 2 f)) := by
      simp only [cube2, List.map_map]
      rfl
    rw [e]
    exact hok.once.map (Function.injective_id.prodMap (stretch_injective two_pos f))
  · intro j t'
    obtain ⟨t, rfl⟩ := stretch_surjective two_pos f t'
    have e : (∃ r ∈ (cube2 f).ridges, r.neighbor = j ∧ r.image = stretch 2 f t) ↔
        ∃ r ∈ cubeV.ridges, r.neighbor = j ∧ r.image = t := by
      simp only [cube2, List.mem_map, exists_exists_and_eq_and, (stretch_injective two_pos f).eq_iff]
    rw [e, hok.each, site]
    refine and_congr_right fun hs => ?_
    show _ ∧ _ ↔ stretch 2 f t ≠ stretch 2 f cubeV.pos ∧ Broad (shared _ _ (stretch 2 f cubeV.pos) _)
    rw [sh j t hs, broad_stretch two_pos, (stretch_injective two_pos f).ne_iff]
  · intro r' hr'
    obtain ⟨r, hr, rfl⟩ := List.mem_map.mp hr'
    obtain ⟨hs, -⟩ := (hok.each _ _).mp ⟨r, hr, rfl, rfl⟩
    show ridgeFactor 2 f * r.area = facetArea2 f (shared _ _ (stretch 2 f cubeV.pos) (stretch 2 f r.image))
    rw [sh _ _ hs, facet_stretch, hok.area r hr]

theorem cube2_ridges (f : Bool) : ∀ r ∈ (cube2 f).ridges, RidgeOK (cube2 f) r := by
  intro r' hr'
  obtain ⟨r, hr, rfl⟩ := List.mem_map.mp hr'
  have hok := cubeV_ridges cubeV (by simp) r hr
  have hn : Vec3.norm (r.image - cubeV.pos) = 1 := cube_norm r hr
  have hvec : r.image - cubeV.pos = r.normal := by
    rw [hok.towards, hn]; ext <;> simp
  -- the normals are along the axes
  have haxis : r.normal.z = 0 ∨ (r.normal.x = 0 ∧ r.normal.y = 0) := by
    simp only [cubeV, cube, List.mem_cons, List.not_mem_nil, or_false] at hr
    rcases hr with rfl | rfl | rfl | rfl | rfl | rfl <;> simp
  obtain ⟨l, hl, hs⟩ : ∃ l : ℝ, 0 < l ∧ stretch 2 f r.normal = Vec3.smul l r.normal := by
    cases f
    · exact ⟨2, two_pos, by ext <;> simp [stretch]⟩
    · rcases haxis with h | h
      · exact ⟨2, two_pos, by ext <;> simp [stretch, h]⟩
      · exact ⟨1, one_pos, by ext <;> simp [stretch, h]⟩
  have hsub : stretch 2 f r.image - stretch 2 f cubeV.pos = Vec3.smul l r.normal := by
    rw [← hs, ← hvec]
    cases f <;> ext <;> simp [stretch] <;> ring
  refine ⟨hok.verts, (stretch_injective two_pos f).ne hok.apart, hok.unit, ?_, ?_⟩
  · show stretch 2 f r.image - stretch 2 f cubeV.pos =
      Vec3.smul (Vec3.norm (stretch 2 f r.image - stretch 2 f cubeV.pos)) r.normal
    rw [hsub]
    have : Vec3.norm (Vec3.smul l r.normal) = l := by
      have h1 : Vec3.norm r.normal = 1 := by rw [← hvec]; exact hn
      have h2 := norm_scaled hl r.normal
      rw [h1, mul_one] at h2
      exact h2
    rw [this]
  · intro i hi
    obtain ⟨v, hv, he⟩ := hok.bisects i hi
    refine ⟨stretch 2 f v, ?_, ?_⟩
    · show (cubeV.verts.map (stretch 2 f))[i]? = _
      rw [List.getElem?_map, hv]; rfl
    · show Vec3.norm (_ - stretch 2 f cubeV.pos) = Vec3.norm (_ - stretch 2 f r.image)
      rw [dist_eq_iff] at he ⊢
      rw [across_stretch, along_stretch]
      have hx := congrArg Vec3.x hvec
      have hy := congrArg Vec3.y hvec
      have hz := congrArg Vec3.z hvec
      simp only [Vec3.sub_x, Vec3.sub_y, Vec3.sub_z] at hx hy hz
      rcases haxis with h | h
      · have h0 : along v cubeV.pos r.image = 0 := by simp [along, hz, h]
        rw [h0] at he ⊢
        rw [add_zero] at he
        simp [he]
      · have h0 : across v cubeV.pos r.image = 0 := by simp [across, hx, hy, h.1, h.2]
        rw [h0] at he ⊢
        rw [zero_add] at he
        simp [he]

theorem planar2 (f : Bool) : ∀ p ∈ scaledPoints 2 lone, Planar (unitBox 2 f) p :=
  planar_stretch (unitBox_scaled f) (lone_planar f)

end Diagram

/-- The hypotheses of the theorem are met by the particle in the unit cube and the one in the cube of
side 2, and by those in the squares of sides 1 and 2. -/
example (f : Bool) : Valid (Diagram.unitBox 1 f) ∧
    ScaledBox 2 (Diagram.unitBox 1 f) (Diagram.unitBox 2 f) ∧
    (Diagram.unitBox 1 f).is2D = f ∧
    (∀ p ∈ Diagram.lone, Planar (Diagram.unitBox 1 f) p) ∧
    (∀ S v, Diagram.facetArea2 f ((fun x => x + v) '' S) = Diagram.facetArea2 f S) ∧
    (∀ S, Diagram.facetArea2 f (stretch 2 f '' S) = ridgeFactor 2 f * Diagram.facetArea S) ∧
    container (Diagram.unitBox 1 f) = some Diagram.unit ∧
    container (Diagram.unitBox 2 f) = some (Diagram.unit2 f) ∧
    DiagramOK (Diagram.unitBox 1 f) Diagram.lone [Diagram.cubeV] ∧
    DiagramOK (Diagram.unitBox 2 f) (scaledPoints 2 Diagram.lone) [Diagram.cube2 f] ∧
    VoroOK Diagram.unit Diagram.lone Diagram.facetArea Diagram.cubeV ∧
    VoroOK (Diagram.unit2 f) (scaledPoints 2 Diagram.lone) (Diagram.facetArea2 f) (Diagram.cube2 f) := by
  obtain ⟨hk, hk'⟩ := Diagram.unit_container f
  refine ⟨Diagram.unitBox_valid 1 one_ne_zero f, Diagram.unitBox_scaled f, Diagram.unitBox_2D 1 f,
    Diagram.lone_planar f, fun S v => ?_, Diagram.facet_stretch f, hk, hk',
    ⟨?_, List.Perm.refl _, by simp [Diagram.lone]⟩,
    ⟨?_, List.Perm.refl _, by simp [Diagram.lone, scaledPoints]⟩, Diagram.cubeV_ok, Diagram.cube2_ok f⟩
  · unfold Diagram.facetArea2
    rw [Diagram.facetArea_add]
  · refine C128_images _ _ _ (Diagram.lone_planar f) Diagram.facetArea _ hk (fun c hc => ?_) Diagram.cubeV_ridges
    rw [List.mem_singleton] at hc
    subst hc
    exact Diagram.cubeV_ok
  · refine C128_images _ _ _ (Diagram.planar2 f) (Diagram.facetArea2 f) _ hk' (fun c hc => ?_) (fun c hc => ?_)
    · rw [List.mem_singleton] at hc
      subst hc
      exact Diagram.cube2_ok f
    · rw [List.mem_singleton] at hc
      subst hc
      exact Diagram.cube2_ridges f

end Freud
