import Verif.Lemmas.VoronoiTurned
import Verif.Props.VoronoiDiagram

/-!
# Property C129: Voronoi diagrams do not depend on how a system is described
-/

namespace Freud
open Spec Voronoi

namespace Diagram

/-- The ridges of two cells of the same particle. -/
theorem ridge_iff {Q : Vec3 ℝ → Vec3 ℝ} (hQ : Rigid Q) {k k' : Container} {pts pts' : List (Vec3 ℝ)}
    {σ : Equiv.Perm ℕ} {o : Vec3 ℝ} (hs : ∀ j s, Site k' pts' j (Q s + o) ↔ Site k pts (σ j) s)
    {area : Set (Vec3 ℝ) → ℝ} {c c' : Spec.Cell} (hc : VoroOK k pts area c) (hc' : VoroOK k' pts' area c')
    (hpos : c'.pos = Q c.pos + o) (j : ℕ) (t : Vec3 ℝ) :
    (∃ r' ∈ c'.ridges, r'.neighbor = j ∧ r'.image = Q t + o) ↔
      ∃ r ∈ c.ridges, r.neighbor = σ j ∧ r.image = t := by
  rw [hc.each, hc'.each, hs, hpos, shared_turned hQ hs, broad_turned hQ]
  refine and_congr_right fun _ => and_congr_left fun _ => not_congr ?_
  constructor
  · intro h
    refine hQ.injective ?_
    have hx := congrArg Vec3.x h
    have hy := congrArg Vec3.y h
    have hz := congrArg Vec3.z h
    simp only [Vec3.add_x, Vec3.add_y, Vec3.add_z] at hx hy hz
    ext <;> linarith
  · rintro rfl; rfl

/-- The normal of a ridge. -/
theorem normal_turned {Q : Vec3 ℝ → Vec3 ℝ} (hQ : Rigid Q) {c c' : Spec.Cell} {r r' : Ridge}
    (h : RidgeOK c r) (h' : RidgeOK c' r') (e : r'.image - c'.pos = Q (r.image - c.pos)) :
    r'.normal = Q r.normal := by
  have h1 := h'.towards
  rw [e, hQ.norm] at h1
  have h2 : Vec3.norm (r.image - c.pos) ≠ 0 := by
    intro h0
    have h3 := h.towards
    rw [h0] at h3
    refine h.apart ?_
    have hx := congrArg Vec3.x h3
    have hy := congrArg Vec3.y h3
    have hz := congrArg Vec3.z h3
    simp only [Vec3.smul_x, Vec3.smul_y, Vec3.smul_z, Vec3.sub_x, Vec3.sub_y, Vec3.sub_z,
      zero_mul] at hx hy hz
    ext <;> linarith
  have h4 : Q (r.image - c.pos) = Vec3.smul (Vec3.norm (r.image - c.pos)) (Q r.normal) := by
    rw [← rigid_smul hQ, ← h.towards]
  rw [h4] at h1
  have hx := congrArg Vec3.x h1
  have hy := congrArg Vec3.y h1
  have hz := congrArg Vec3.z h1
  simp only [Vec3.smul_x, Vec3.smul_y, Vec3.smul_z] at hx hy hz
  ext
  · exact (mul_left_cancel₀ h2 hx).symm
  · exact (mul_left_cancel₀ h2 hy).symm
  · exact (mul_left_cancel₀ h2 hz).symm

open Classical in
/-- The bonds of two cells of the same particle. -/
theorem bonds_iff {Q : Vec3 ℝ → Vec3 ℝ} (hQ : Rigid Q) {k k' : Container} {pts pts' : List (Vec3 ℝ)}
    {σ : Equiv.Perm ℕ} {o : Vec3 ℝ} (hs : ∀ j s, Site k' pts' j (Q s + o) ↔ Site k pts (σ j) s)
    {area : Set (Vec3 ℝ) → ℝ}
    (harea : ∀ R, Rigid R → ∀ v S, area ((fun x => R x + v) '' S) = area S) {c c' : Spec.Cell}
    (hc : VoroOK k pts area c) (hc' : VoroOK k' pts' area c') (hr : ∀ r ∈ c.ridges, RidgeOK c r)
    (hr' : ∀ r ∈ c'.ridges, RidgeOK c' r) (hpid : c.pid = σ c'.pid) (hpos : c'.pos = Q c.pos + o)
    (is2D : Bool) (hz : is2D = true → ∀ v, |(Q v).z| = |v.z|) (nb : Bond ℝ) :
    nb ∈ (ridgeBonds is2D c').map (relabel σ σ) ↔ nb ∈ (ridgeBonds is2D c).map (turnedBond Q) := by
  -- two ridges that correspond to one another have bonds that do
  have key : ∀ r ∈ c.ridges, ∀ r' ∈ c'.ridges, r.neighbor = σ r'.neighbor → r'.image = Q r.image + o →
      (Horizontal is2D r' ↔ Horizontal is2D r) ∧
      relabel σ σ ⟨c'.pid, r'.neighbor, Vec3.norm (r'.image - c'.pos), r'.area, r'.image - c'.pos⟩ =
        turnedBond Q ⟨c.pid, r.neighbor, Vec3.norm (r.image - c.pos), r.area, r.image - c.pos⟩ := by
    intro r h1 r' h1' hn hi
    have hvec : r'.image - c'.pos = Q (r.image - c.pos) := by
      rw [hi, hpos, hQ.sub]; ext <;> simp
    constructor
    · unfold Horizontal
      refine and_congr_right fun h2 => ?_
      rw [normal_turned hQ (hr r h1) (hr' r' h1') hvec, hz h2]
    · unfold relabel turnedBond
      rw [hvec, hQ.norm, hc.area r h1, hc'.area r' h1', hi, hpos, shared_turned hQ hs, harea Q hQ, hpid,
        hn]
  have hsurj : ∀ x, ∃ y, Q y + o = x := fun x => by
    obtain ⟨y, hy⟩ := rigid_surjective hQ (x - o)
    exact ⟨y, by rw [hy]; ext <;> simp⟩
  unfold ridgeBonds
  rw [List.mem_map, List.mem_map]
  constructor
  · rintro ⟨_, hnb, rfl⟩
    obtain ⟨r', h1, rfl⟩ := List.mem_map.mp hnb
    rw [List.mem_filter] at h1
    obtain ⟨u, hu⟩ := hsurj r'.image
    obtain ⟨r, h2, h3, h4⟩ := (ridge_iff hQ hs hc hc' hpos r'.neighbor u).mp ⟨r', h1.1, rfl, hu.symm⟩
    obtain ⟨hh, he⟩ := key r h2 r' h1.1 h3 (by rw [h4, hu])
    refine ⟨_, List.mem_map.mpr ⟨r, List.mem_filter.mpr ⟨h2, ?_⟩, rfl⟩, he.symm⟩
    rw [← hh]
    exact h1.2
  · rintro ⟨_, hnb, rfl⟩
    obtain ⟨r, h1, rfl⟩ := List.mem_map.mp hnb
    rw [List.mem_filter] at h1
    obtain ⟨r', h2, h3, h4⟩ := (ridge_iff hQ hs hc hc' hpos (σ.symm r.neighbor) r.image).mpr
      ⟨r, h1.1, by rw [Equiv.apply_symm_apply], rfl⟩
    obtain ⟨hh, he⟩ := key r h1.1 r' h2 (by rw [h3, Equiv.apply_symm_apply]) h4
    refine ⟨_, List.mem_map.mpr ⟨r', List.mem_filter.mpr ⟨h2, ?_⟩, rfl⟩, he⟩
    rw [hh]
    exact h1.2

/-- In 2D heights are kept. -/
theorem height {Q : Vec3 ℝ → Vec3 ℝ} (hQ : Rigid Q) (h : Q ⟨0, 0, 1⟩ = ⟨0, 0, 1⟩ ∨ Q ⟨0, 0, 1⟩ = ⟨0, 0, -1⟩)
    (v : Vec3 ℝ) : |(Q v).z| = |v.z| := by
  have := hQ v ⟨0, 0, 1⟩
  rcases h with h | h <;> rw [h] at this <;>
    simp only [Vec3.dot, mul_zero, zero_add, mul_one, mul_neg] at this
  · rw [this]
  · rw [← this, abs_neg]

end Diagram

/-- **C129**: two descriptions of a periodic system give the same Voronoi diagram. If the second one
uses another unit cell of the lattice, other numbers, another origin and other periodic images, and the
system may be turned or reflected, then the neighbor lists have the same bonds with the same distances
and weights and the turned vectors, and each particle has the same volume. -/
theorem C129_diagram (Q : Vec3 ℝ → Vec3 ℝ) (hQ : Rigid Q) (b b' : Box ℝ) (hl : SameLattice Q b b')
    (hL : b'.L.x ≠ 0 ∧ b'.L.y ≠ 0) (hper : FullyPeriodic b) (hper' : FullyPeriodic b') (t : Vec3 ℝ)
    (σ : Equiv.Perm ℕ) (pts pts' : List (Vec3 ℝ)) (hp : Turned b' Q t σ pts pts')
    (area : Set (Vec3 ℝ) → ℝ)
    (harea : ∀ R, Rigid R → ∀ v S, area ((fun x => R x + v) '' S) = area S) (k k' : Container)
    (hk : container b = some k) (hk' : container b' = some k') (cells cells' : List Spec.Cell)
    (h : DiagramOK b pts cells) (h' : DiagramOK b' pts' cells')
    (hv : ∀ c ∈ cells, VoroOK k pts area c) (hv' : ∀ c ∈ cells', VoroOK k' pts' area c)
    (sortV sortV' : List (Vec3 ℝ) → List (Vec3 ℝ)) (sortB sortB' : List (Bond ℝ) → List (Bond ℝ))
    (hs : SortsOK sortV sortB) (hs' : SortsOK sortV' sortB') (s s' : Voronoi.State) :
    ∃ s1 s1', compute b.is2D pts sortV sortB s (cells.map raw) = some s1 ∧
      compute b'.is2D pts' sortV' sortB' s' (cells'.map raw) = some s1' ∧
      (s1'.nlist.bonds.map (relabel σ σ)).Perm (s1.nlist.bonds.map (turnedBond Q)) ∧
      ∀ i < pts'.length, s1'.volumes[i]? = s1.volumes[σ i]? := by
  classical
  obtain ⟨s1, e, hn, -, -, hvol⟩ := compute_spec b pts cells h sortV sortB s
  obtain ⟨s1', e', hn', -, -, hvol'⟩ := compute_spec b' pts' cells' h' sortV' sortB' s'
  have hnd := (C128_mutual b pts cells h area (fun S v => harea id rigid_id v S) k hv sortV sortB hs s)
  have hnd' := (C128_mutual b' pts' cells' h' area (fun S v => harea id rigid_id v S) k' hv' sortV'
    sortB' hs' s')
  rw [e] at hnd
  rw [e'] at hnd'
  obtain ⟨_, h1, hnd, -⟩ := hnd
  obtain ⟨_, h1', hnd', -⟩ := hnd'
  obtain rfl := Option.some.inj h1
  obtain rfl := Option.some.inj h1'
  have hperm : s1.nlist.bonds.Perm (cells.flatMap (ridgeBonds b.is2D)) := by
    rw [hn]; exact (hs.bonds _).1
  have hperm' : s1'.nlist.bonds.Perm (cells'.flatMap (ridgeBonds b'.is2D)) := by
    rw [hn']; exact (hs'.bonds _).1
  have hsite := Diagram.sites hQ hl hL hper hper' hk hk' hp
  have hz : b.is2D = true → ∀ v, |(Q v).z| = |v.z| := fun h2 =>
    Diagram.height hQ (Diagram.vertical hQ hl hL hper' (by rw [hl.dims]; exact h2))
  -- the cells of one particle
  have matched : ∀ c ∈ cells, ∀ c' ∈ cells', c.pid = σ c'.pid → ∃ o,
      (∀ j s, Site k' pts' j (Q s + o) ↔ Site k pts (σ j) s) ∧ c'.pos = Q c.pos + o := by
    intro c hc c' hc' hpid
    have h1 : Site k' pts' c'.pid (Q c.pos + t) := (hsite _ _).mpr (hpid ▸ (hv c hc).pos)
    obtain ⟨n, hn⟩ := Diagram.site_diff h1 (hv' c' hc').pos
    refine ⟨t + containerVector k' n, fun j s => ?_, ?_⟩
    · rw [← hsite]
      have e1 : Q s + (t + containerVector k' n) = Q s + t + containerVector k' n := by
        ext <;> simp <;> ring
      rw [e1]
      constructor
      · intro h2
        have := Diagram.site_add h2 (-n)
        have e2 : Q s + t + containerVector k' n + containerVector k' (-n) = Q s + t := by
          rw [Diagram.vector_neg]; ext <;> simp
        rwa [e2] at this
      · intro h2
        exact Diagram.site_add h2 n
    · rw [hn]; ext <;> simp <;> ring
  have cell' : ∀ c ∈ cells, ∃ c' ∈ cells', c.pid = σ c'.pid := by
    intro c hc
    have h1 : c.pid ∈ cells.map (·.pid) := List.mem_map.mpr ⟨c, hc, rfl⟩
    rw [h.all.mem_iff, List.mem_range] at h1
    have h2 : σ.symm c.pid ∈ cells'.map (·.pid) := by
      rw [h'.all.mem_iff, List.mem_range, ← hp.lt_iff, Equiv.apply_symm_apply]
      exact h1
    obtain ⟨c', hc', he⟩ := List.mem_map.mp h2
    exact ⟨c', hc', by rw [he, Equiv.apply_symm_apply]⟩
  have cell : ∀ c' ∈ cells', ∃ c ∈ cells, c.pid = σ c'.pid := by
    intro c' hc'
    have h1 : c'.pid ∈ cells'.map (·.pid) := List.mem_map.mpr ⟨c', hc', rfl⟩
    rw [h'.all.mem_iff, List.mem_range, ← hp.lt_iff] at h1
    have h2 : σ c'.pid ∈ cells.map (·.pid) := by
      rw [h.all.mem_iff, List.mem_range]
      exact h1
    obtain ⟨c, hc, he⟩ := List.mem_map.mp h2
    exact ⟨c, hc, he⟩
  refine ⟨s1, s1', e, e', ?_, ?_⟩
  · refine (List.perm_ext_iff_of_nodup (hnd'.map (relabel_injective σ σ))
      (hnd.map (turnedBond_injective hQ))).mpr fun nb => ?_
    rw [(hperm'.map _).mem_iff, (hperm.map _).mem_iff, List.map_flatMap, List.map_flatMap,
      List.mem_flatMap, List.mem_flatMap, hl.dims]
    have step : ∀ c ∈ cells, ∀ c' ∈ cells', c.pid = σ c'.pid →
        (nb ∈ (ridgeBonds b.is2D c').map (relabel σ σ) ↔
          nb ∈ (ridgeBonds b.is2D c).map (turnedBond Q)) := by
      intro c hc c' hc' hpid
      obtain ⟨o, ho, hpos⟩ := matched c hc c' hc' hpid
      exact Diagram.bonds_iff hQ ho harea (hv c hc) (hv' c' hc') (h.each c hc).ridges
        (h'.each c' hc').ridges hpid hpos b.is2D hz nb
    constructor
    · rintro ⟨c', hc', hnb⟩
      obtain ⟨c, hc, hpid⟩ := cell c' hc'
      exact ⟨c, hc, (step c hc c' hc' hpid).mp hnb⟩
    · rintro ⟨c, hc, hnb⟩
      obtain ⟨c', hc', hpid⟩ := cell' c hc
      exact ⟨c', hc', (step c hc c' hc' hpid).mpr hnb⟩
  · intro i hi
    have h1 : i ∈ cells'.map (·.pid) := by rw [h'.all.mem_iff, List.mem_range]; exact hi
    obtain ⟨c', hc', rfl⟩ := List.mem_map.mp h1
    obtain ⟨c, hc, hpid⟩ := cell c' hc'
    obtain ⟨o, ho, hpos⟩ := matched c hc c' hc' hpid
    rw [(hvol' c' hc').2, ← hpid, (hvol c hc).2, (hv c hc).volume, (hv' c' hc').volume, hpos,
      Diagram.region_turned hQ ho, Diagram.volumeOf_image hQ]

namespace Diagram

/-- The container of the tilted cell of the same lattice. -/
noncomputable def tilted : Container := ⟨1, 1, 1, 0, 0, 1⟩

theorem tilted_site (j : ℕ) (t : Vec3 ℝ) :
    Site tilted [⟨3 / 4, 0, 0⟩] j t ↔ Site unit lone j t := by
  rw [site_iff]
  constructor
  · rintro ⟨p, n, hp, rfl⟩
    have hj : j = 0 := by
      have := (List.getElem?_eq_some_iff.mp hp).1
      simpa using this
    subst hj
    obtain rfl : (⟨3 / 4, 0, 0⟩ : Vec3 ℝ) = p := Option.some.inj hp
    refine ⟨rfl, ⟨n.x + n.y, n.y, n.z⟩, ?_⟩
    ext <;> simp [containerVector, tilted, cube]
  · rintro ⟨rfl, n, rfl⟩
    refine ⟨_, ⟨n.x - n.y, n.y, n.z⟩, rfl, ?_⟩
    ext <;> simp [containerVector, tilted, cube]

theorem tilted_ok : VoroOK tilted [⟨3 / 4, 0, 0⟩] facetArea cubeV := by
  have hr : ∀ s, region tilted [⟨3 / 4, 0, 0⟩] s = region unit lone s := fun s => by
    ext x; simp only [region, tilted_site]
  have hsh : ∀ s t, shared tilted [⟨3 / 4, 0, 0⟩] s t = shared unit lone s t := fun s t => by
    ext x; simp only [shared, hr]
  have h := cubeV_ok
  refine ⟨(tilted_site _ _).mpr h.pos, by norm_num [cubeV, cube, tilted], ?_, h.once, ?_, ?_⟩
  · rw [hr]; exact h.volume
  · intro j t
    rw [hsh, tilted_site]
    exact h.each j t
  · intro r hrr
    rw [hsh]
    exact h.area r hrr

theorem cubeV_ridges : ∀ c ∈ [cubeV], ∀ r ∈ c.ridges, RidgeOK c r := by
  intro c hc r hr
  rw [List.mem_singleton] at hc
  subst hc
  have k := (cube_ok.each cube (by simp)).ridges r hr
  exact ⟨k.verts, k.apart, k.unit, k.towards, k.bisects⟩

end Diagram

/-- The hypotheses of the theorem are met by the particle in the unit cube, described once by the cubic
cell and once, with another image of the particle, by a tilted one. -/
example : SameLattice id (Box.mk' 1 1 1 0 0 0 false) (Box.mk' 1 1 1 1 0 0 false) ∧
    FullyPeriodic (Box.mk' (1 : ℝ) 1 1 0 0 0 false) ∧ FullyPeriodic (Box.mk' (1 : ℝ) 1 1 1 0 0 false) ∧
    Turned (Box.mk' 1 1 1 1 0 0 false) id ⟨0, 0, 0⟩ (Equiv.refl ℕ) Diagram.lone [⟨3 / 4, 0, 0⟩] ∧
    (∀ R, Rigid R → ∀ v S, Diagram.facetArea ((fun x => R x + v) '' S) = Diagram.facetArea S) ∧
    container (Box.mk' 1 1 1 0 0 0 false) = some Diagram.unit ∧
    container (Box.mk' 1 1 1 1 0 0 false) = some Diagram.tilted ∧
    DiagramOK (Box.mk' 1 1 1 0 0 0 false) Diagram.lone [Diagram.cubeV] ∧
    DiagramOK (Box.mk' 1 1 1 1 0 0 false) [⟨3 / 4, 0, 0⟩] [Diagram.cubeV] ∧
    (∀ c ∈ [Diagram.cubeV], VoroOK Diagram.unit Diagram.lone Diagram.facetArea c) ∧
    (∀ c ∈ [Diagram.cubeV], VoroOK Diagram.tilted [⟨3 / 4, 0, 0⟩] Diagram.facetArea c) := by
  have hper : ∀ xy : ℝ, FullyPeriodic (Box.mk' 1 1 1 xy 0 0 false) := fun _ => ⟨rfl, rfl, rfl⟩
  have hall : ∀ (xy : ℝ) n, AllowedShift (Box.mk' 1 1 1 xy 0 0 false) n := fun xy n =>
    Diagram.allowed (hper xy) n (fun h => by simp [Box.mk', Box.setL] at h)
  have hc : container (Box.mk' 1 1 1 0 0 0 false) = some Diagram.unit := by
    simp [container, Box.getLatticeVector, Box.mk', Box.setL, Diagram.unit]
  have hc' : container (Box.mk' 1 1 1 1 0 0 false) = some Diagram.tilted := by
    simp [container, Box.getLatticeVector, Box.mk', Box.setL, Diagram.tilted]
  have hv : ∀ c ∈ [Diagram.cubeV], VoroOK Diagram.unit Diagram.lone Diagram.facetArea c := by
    intro c hc
    rw [List.mem_singleton] at hc
    subst hc
    exact Diagram.cubeV_ok
  have hv' : ∀ c ∈ [Diagram.cubeV], VoroOK Diagram.tilted [⟨3 / 4, 0, 0⟩] Diagram.facetArea c := by
    intro c hc
    rw [List.mem_singleton] at hc
    subst hc
    exact Diagram.tilted_ok
  have flat : ∀ (xy : ℝ) (p : Vec3 ℝ), Planar (Box.mk' 1 1 1 xy 0 0 false) p := fun xy p h => by
    simp [Box.mk', Box.setL] at h
  refine ⟨⟨rfl, ?_, ?_⟩, hper 0, hper 1, ⟨rfl, ?_⟩, ?_, hc, hc', ?_, ?_, hv, hv'⟩
  · intro n _
    refine ⟨⟨n.x - n.y, n.y, n.z⟩, hall 1 _, ?_⟩
    ext <;> simp [lattice, comb, a1, a2, a3, Box.mk', Box.setL]
  · intro n _
    refine ⟨⟨n.x + n.y, n.y, n.z⟩, hall 0 _, ?_⟩
    ext <;> simp [lattice, comb, a1, a2, a3, Box.mk', Box.setL]
  · intro i p' hp'
    have hi : i = 0 := by
      have := (List.getElem?_eq_some_iff.mp hp').1
      simpa using this
    subst hi
    obtain rfl : (⟨3 / 4, 0, 0⟩ : Vec3 ℝ) = p' := Option.some.inj hp'
    refine ⟨_, rfl, ⟨1, 0, 0⟩, hall 1 _, ?_⟩
    ext <;> norm_num [lattice, comb, a1, a2, a3, Box.mk', Box.setL]
  · intro R hR v S
    unfold Diagram.facetArea
    by_cases h : Broad S
    · rw [if_pos h, if_pos ((Diagram.broad_turned hR v S).mpr h)]
    · rw [if_neg h, if_neg (mt (Diagram.broad_turned hR v S).mp h)]
  · exact ⟨C128_images _ _ _ (fun p _ => flat 0 p) _ _ hc hv Diagram.cubeV_ridges, List.Perm.refl _,
      by simp [Diagram.lone]⟩
  · exact ⟨C128_images _ _ _ (fun p _ => flat 1 p) _ _ hc' hv' Diagram.cubeV_ridges, List.Perm.refl _,
      by simp⟩

end Freud
