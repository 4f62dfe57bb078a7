import Verif.Spec.VoronoiCrystals
import Verif.Props.VoronoiLattice
import Verif.Props.CrystalOrder

/-!
# Property C131: the Voronoi diagrams of crystals
-/

namespace Freud
open Spec Voronoi InUnits PeriodicBuffer

namespace Diagram

/-- The vectors from a particle of a crystal to all particles and images. -/
theorem images_crystal {u : UnitCell ℝ} {c : ℝ} {n : Vec3 ℤ} {t : Vec3 ℝ} {b' : Box ℝ}
    {pos : List (Vec3 ℝ)} (g : Generated u c n t b' pos) (i : ℕ) (hi : i < pos.length) :
    ∃ f ∈ u.basis, ∀ v, (∃ j, ImageVector b' pos i j v) ↔ ∃ s, SiteVector u f s ∧ v = Vec3.smul c s := by
  obtain ⟨hin, f, hf, m, hm, e⟩ := (g.mem pos[i]).mp (List.getElem_mem hi)
  have hpi : pos[i]? = some pos[i] := List.getElem?_eq_getElem hi
  refine ⟨f, hf, fun v => ⟨?_, ?_⟩⟩
  · rintro ⟨j, p, q, k, hp, hq, rfl⟩
    obtain rfl : pos[i] = p := Option.some.inj (hpi.symm.trans hp)
    obtain ⟨-, f', hf', m', hm', e'⟩ := (g.mem q).mp (List.mem_of_getElem? hq)
    -- in 2D the third component of `k` does not matter
    obtain ⟨k', hk', ek⟩ : ∃ k' : Vec3 ℤ, (u.box.is2D = true → k'.z = 0) ∧ lattice b' k = lattice b' k' := by
      by_cases h2 : u.box.is2D = true
      · refine ⟨⟨k.x, k.y, 0⟩, fun _ => rfl, ?_⟩
        have := g.valid.Lz_2D (by rw [g.dim]; exact h2)
        ext <;> simp [lattice, comb, a1, a2, a3, this]
      · exact ⟨k, fun h => absurd h h2, rfl⟩
    refine ⟨_, ⟨f', hf', m' - m + ⟨n.x * k'.x, n.y * k'.y, n.z * k'.z⟩, fun h => ?_, rfl⟩, ?_⟩
    · simp [hm h, hm' h, hk' h]
    · have h1 : q + lattice b' k - pos[i] = q - pos[i] + lattice b' k := by ext <;> simp <;> ring
      rw [h1, ek, e, e', ← smul_sub', comb_diff, g.lat, smul_add', lattice_add]
      congr 1
      ext <;> simp <;> ring
  · rintro ⟨s, ⟨f', hf', m', hm', rfl⟩, rfl⟩
    set s := comb u.box (f'.x - f.x) (f'.y - f.y) (f'.z - f.z) + lattice u.box m' with hs
    have hw : pos[i] + Vec3.smul c s =
        Vec3.smul c (comb u.box (f'.x - 1 / 2) (f'.y - 1 / 2) (f'.z - 1 / 2) + t + lattice u.box (m' + m)) := by
      rw [e, smul_add', hs]
      congr 1
      ext <;> simp [comb, lattice] <;> ring
    have hpl : Planar b' (pos[i] + Vec3.smul c s) := by
      refine planar_add ((inHalfOpen_iff g.valid _).mp hin).1 fun h => ?_
      rw [g.dim] at h
      simp [hs, comb, lattice, a1, a2, a3, g.cell.Lz_2D h]
    have hin' := wrap_inHalfOpen g.valid g.periodic.1 g.periodic.2.1 g.periodic.2.2 _ hpl
    have hwr := wrap_eq_add_lattice g.valid _ hpl
    have hal := wrapShift_allowed b' (pos[i] + Vec3.smul c s)
    set k := wrapShift b' (pos[i] + Vec3.smul c s)
    have hk' := g.allowed.mp hal
    set w := b'.wrap (pos[i] + Vec3.smul c s)
    have hmem : w ∈ pos := by
      refine (g.mem w).mpr ⟨hin', f', hf', m' + m + ⟨n.x * k.x, n.y * k.y, n.z * k.z⟩, fun h => ?_, ?_⟩
      · simp [hm h, hm' h, hk' (by rw [g.dim]; exact h)]
      · rw [hwr, hw, g.lat, smul_add', lattice_add _ (m' + m)]
        congr 1
        ext <;> simp <;> ring
    obtain ⟨j, hj, hjw⟩ := List.getElem_of_mem hmem
    refine ⟨j, pos[i], w, -k, hpi, by rw [List.getElem?_eq_getElem hj, hjw], ?_⟩
    rw [hwr, lattice_neg]
    ext <;> simp

theorem planar_crystal {u : UnitCell ℝ} {c : ℝ} {n : Vec3 ℤ} {t : Vec3 ℝ} {b' : Box ℝ}
    {pos : List (Vec3 ℝ)} (g : Generated u c n t b' pos) : ∀ p ∈ pos, Planar b' p := fun p hp =>
  ((inHalfOpen_iff g.valid p).mp ((g.mem p).mp hp).1).1

theorem separate_crystal {u : UnitCell ℝ} {c : ℝ} {n : Vec3 ℤ} {t : Vec3 ℝ} {b' : Box ℝ}
    {pos : List (Vec3 ℝ)} (g : Generated u c n t b' pos) {k : Container} (hk : container b' = some k) :
    Separate k pos := by
  rintro i j s ⟨p, m, hp, rfl⟩ hj
  have hj' := site_add hj (-m)
  have e0 : p + containerVector k m + containerVector k (-m) = p := by
    rw [vector_neg]; ext <;> simp
  rw [e0] at hj'
  obtain ⟨q, l, hq, e⟩ := hj'
  have hpm := List.mem_of_getElem? hp
  have hqm := List.mem_of_getElem? hq
  have hpq : p = q := by
    by_cases h2 : b'.is2D = true
    · rw [vector_2D hk h2] at e
      have ez := congrArg Vec3.z e
      have h1 := planar_crystal g p hpm h2
      have h3 := planar_crystal g q hqm h2
      refine g.image_eq hqm hpm (k := ⟨l.x, l.y, 0⟩) (fun _ => rfl) ?_
      have hl : (l.z : ℝ) = 0 := by
        simpa [lattice, comb, a1, a2, a3, h1, h3, eq_comm] using ez
      rw [e, hl]
      ext <;> simp
    · rw [vector_3D hk (by simpa using h2)] at e
      exact g.image_eq hqm hpm (fun h => absurd h h2) e
  subst hpq
  obtain ⟨hi, e1⟩ := List.getElem?_eq_some_iff.mp hp
  obtain ⟨hj, e2⟩ := List.getElem?_eq_some_iff.mp hq
  exact (g.nodup.getElem_inj_iff).mp (e1.trans e2.symm)

theorem dot_units {ρ : Vec3 ℝ} {q : Vec3 ℤ} {N : ℤ} (hx : ρ.x ^ 2 = q.x / N) (hy : ρ.y ^ 2 = q.y / N)
    (hz : ρ.z ^ 2 = q.z / N) (c : ℝ) (x y : Vec3 ℤ) :
    Vec3.dot (Vec3.smul c (units ρ x)) (Vec3.smul c (units ρ y)) = c ^ 2 / N * bilin q x y := by
  have : Vec3.dot (Vec3.smul c (units ρ x)) (Vec3.smul c (units ρ y)) =
      c ^ 2 * (ρ.x ^ 2 * x.x * y.x + ρ.y ^ 2 * x.y * y.y + ρ.z ^ 2 * x.z * y.z) := by
    simp only [Vec3.dot, Vec3.smul_x, Vec3.smul_y, Vec3.smul_z, units]; ring
  rw [this, hx, hy, hz]
  simp only [bilin]
  push_cast
  ring

/-- Nothing between, in integer coordinates: `P` tells which coordinates are those of particles. -/
def Between (q : Vec3 ℤ) (P : Vec3 ℤ → Bool) (x : Vec3 ℤ) : Prop :=
  P x = true ∧ x ≠ ⟨0, 0, 0⟩ ∧ ∀ a, P a = true → a ≠ ⟨0, 0, 0⟩ → a ≠ x → bilin q x a < bilin q a a

/-- The vectors from a particle of a crystal to all particles and images, in integer coordinates. -/
theorem images_int {u : UnitCell ℝ} {ρ : Vec3 ℝ} {Lat : Vec3 ℤ → Bool} {F : List (Vec3 ℤ)}
    (h : InUnits u ρ Lat F) (P : Vec3 ℤ → Bool)
    (hP : ∀ A ∈ F, ∀ x, (∃ C ∈ F, Lat (x + A - C) = true) ↔ P x = true) {c : ℝ} {n : Vec3 ℤ} {t : Vec3 ℝ}
    {box : Box ℝ} {points : List (Vec3 ℝ)} (g : Generated u c n t box points) :
    ∀ i < points.length, ∀ v, (∃ j, ImageVector box points i j v) ↔
      ∃ x, P x = true ∧ v = Vec3.smul c (units ρ x) := by
  intro i hi v
  obtain ⟨f, hf, hv⟩ := images_crystal g i hi
  obtain ⟨A, hA, hsite⟩ := h.site hf
  rw [hv]
  constructor
  · rintro ⟨s, hs, rfl⟩
    obtain ⟨x, rfl, hC⟩ := (hsite s).mp hs
    exact ⟨x, (hP A hA x).mp hC, rfl⟩
  · rintro ⟨x, hx, rfl⟩
    exact ⟨_, (hsite _).mpr ⟨x, rfl, (hP A hA x).mpr hx⟩, rfl⟩

/-- From integer coordinates to the diagrams of crystals. -/
theorem voronoi_int {u : UnitCell ℝ} {ρ : Vec3 ℝ} {Lat : Vec3 ℤ → Bool} {F : List (Vec3 ℤ)}
    (h : InUnits u ρ Lat F) {q : Vec3 ℤ} {N : ℤ} (hN : 0 < N)
    (hx : ρ.x ^ 2 = q.x / N) (hy : ρ.y ^ 2 = q.y / N) (hz : ρ.z ^ 2 = q.z / N)
    (hp : F.Pairwise fun A C => Lat (A - C) = false) (P : Vec3 ℤ → Bool)
    (hP : ∀ A ∈ F, ∀ x, (∃ C ∈ F, Lat (x + A - C) = true) ↔ P x = true)
    (D : List (Vec3 ℤ)) (hD : D.Nodup) (hbet : ∀ x, Between q P x ↔ x ∈ D)
    {cell : Option (UnitCell ℝ)} (hcell : cell = some u) : VoronoiIs cell (D.map (units ρ)) := by
  classical
  refine ⟨u, hcell, fun n c box points hg cells hd area k hk hv sortV sortB hs s => ?_⟩
  obtain ⟨t, g⟩ := generated h.cell (h.distinct hp) hg
  have hplane := planar_crystal g
  have hsep := separate_crystal g hk
  have hc := g.scale
  have himg := images_int h P hP g
  have hview : LatticePoints box points := by
    intro i hi i' hi' v hv
    rw [himg i' hi']
    exact (himg i hi v).mp hv
  have hinj : ∀ x y : Vec3 ℤ, Vec3.smul c (units ρ x) = Vec3.smul c (units ρ y) → x = y :=
    fun x y e => units_inj h.nonzero (smul_inj hc e)
  have hzero : Vec3.smul c (units ρ ⟨0, 0, 0⟩) = ⟨0, 0, 0⟩ := by ext <;> simp [units]
  have hN' : (0 : ℝ) < N := by exact_mod_cast hN
  have hfac : 0 < c ^ 2 / N := by positivity
  have hnb : ∀ i < points.length, ∀ x, (∃ j, NothingBetween box points i j (Vec3.smul c (units ρ x))) ↔
      Between q P x := by
    intro i hi x
    have hiff : ∀ a : Vec3 ℤ,
        (Vec3.norm (Vec3.smul (1 / 2) (Vec3.smul c (units ρ x))) <
          Vec3.norm (Vec3.smul c (units ρ a) - Vec3.smul (1 / 2) (Vec3.smul c (units ρ x)))) ↔
        bilin q x a < bilin q a a := by
      intro a
      have e1 := dot_units hx hy hz c x a
      have e2 := dot_units hx hy hz c a a
      rw [← not_le, norm_le_iff, not_le]
      have : (bilin q x a < bilin q a a) ↔ Vec3.dot (Vec3.smul c (units ρ x)) (Vec3.smul c (units ρ a)) <
          Vec3.dot (Vec3.smul c (units ρ a)) (Vec3.smul c (units ρ a)) := by
        rw [e1, e2, mul_lt_mul_iff_right₀ hfac]
        exact_mod_cast Iff.rfl
      rw [this]
      generalize Vec3.smul c (units ρ x) = v
      generalize Vec3.smul c (units ρ a) = w
      simp only [Vec3.dot, Vec3.sub_x, Vec3.sub_y, Vec3.sub_z, Vec3.smul_x, Vec3.smul_y, Vec3.smul_z]
      constructor <;> intro h <;> nlinarith
    constructor
    · rintro ⟨j, hb⟩
      obtain ⟨x', hx', e⟩ := (himg i hi _).mp ⟨j, hb.image⟩
      obtain rfl := hinj _ _ e
      refine ⟨hx', fun h0 => hb.apart (by rw [h0, hzero]), fun a ha ha0 hax => ?_⟩
      obtain ⟨j', hj'⟩ := (himg i hi _).mpr ⟨a, ha, rfl⟩
      refine (hiff a).mp (hb.outside j' _ hj' (fun h0 => ha0 ?_) fun h0 => hax (hinj _ _ h0))
      rw [← hzero] at h0
      exact hinj _ _ h0
    · rintro ⟨h1, h2, h3⟩
      obtain ⟨j, hj⟩ := (himg i hi _).mpr ⟨x, h1, rfl⟩
      refine ⟨j, hj, fun h0 => h2 ?_, fun j' v' hv' h0 hne => ?_⟩
      · rw [← hzero] at h0
        exact hinj _ _ h0
      · obtain ⟨a, ha, rfl⟩ := (himg i hi _).mp ⟨j', hv'⟩
        exact (hiff a).mpr (h3 a ha (fun e => h0 (by rw [e, hzero])) fun e => hne (by rw [e]))
  obtain ⟨s', e, hbonds⟩ := C131_neighbors box g.valid points cells hplane hview hd area k hk hv sortV
    sortB hs s
  have hL : 0 < box.L.x ∧ 0 < box.L.y ∧ (box.is2D = false → 0 < box.L.z) :=
    ⟨g.positive.1, g.positive.2.1, g.positive.2.2⟩
  obtain ⟨s1, e1, hvol⟩ := C131_volumes box g.valid points cells hL hplane hview hd area k hk hsep hv
    sortV sortB s
  obtain rfl : s1 = s' := Option.some.inj (e1.symm.trans e)
  obtain ⟨s2, e2, hn, -⟩ := compute_spec box points cells hd sortV sortB s
  obtain rfl : s2 = s1 := Option.some.inj (e2.symm.trans e)
  have hnodup : s2.nlist.bonds.Nodup := by
    rw [hn]; exact (hs.bonds _).1.nodup_iff.mpr (bonds_nodup hd hv)
  refine ⟨s2, e, fun i hi => ?_, hvol⟩
  rw [List.perm_ext_iff_of_nodup]
  · intro v
    rw [List.map_map]
    simp only [List.mem_map, List.mem_filter, decide_eq_true_eq, Function.comp_apply]
    constructor
    · rintro ⟨nb, ⟨h1, h2⟩, rfl⟩
      have h3 := (hbonds i nb.p nb.vec).mp ⟨nb, h1, h2, rfl, rfl⟩
      obtain ⟨x, -, ex⟩ := (himg i hi _).mp ⟨_, h3.image⟩
      rw [ex] at h3
      exact ⟨x, (hbet x).mp ((hnb i hi x).mp ⟨_, h3⟩), ex.symm⟩
    · rintro ⟨x, hxD, rfl⟩
      obtain ⟨j, hj⟩ := (hnb i hi x).mpr ((hbet x).mpr hxD)
      obtain ⟨nb, h1, h2, -, h3⟩ := (hbonds i j _).mpr hj
      exact ⟨nb, ⟨h1, h2⟩, h3⟩
  · refine (hnodup.filter _).map_on fun nb h1 nb' h1' hvec => ?_
    simp only [List.mem_filter, decide_eq_true_eq] at h1 h1'
    have hm := (hs.bonds (cells.flatMap (ridgeBonds box.is2D))).1
    have hb := h1.1
    have hb' := h1'.1
    rw [hn] at hb hb'
    obtain ⟨cl, hcl, hr⟩ := List.mem_flatMap.mp (hm.mem_iff.mp hb)
    obtain ⟨cl', hcl', hr'⟩ := List.mem_flatMap.mp (hm.mem_iff.mp hb')
    obtain ⟨r, hr1, rfl⟩ := List.mem_map.mp hr
    obtain ⟨r', hr1', rfl⟩ := List.mem_map.mp hr'
    simp only at h1 h1' hvec
    have hcc : cl = cl' := List.inj_on_of_nodup_map (hd.all.nodup_iff.mpr List.nodup_range) hcl hcl'
      (h1.2.trans h1'.2.symm)
    subst hcc
    have hr := List.mem_of_mem_filter hr1
    have hr' := List.mem_of_mem_filter hr1'
    have himgs : r.image = r'.image := by
      have ex := congrArg Vec3.x hvec
      have ey := congrArg Vec3.y hvec
      have ez := congrArg Vec3.z hvec
      simp only [Vec3.sub_x, Vec3.sub_y, Vec3.sub_z] at ex ey ez
      ext <;> linarith
    have h5 := (((hv cl hcl).each _ _).mp ⟨r, hr, rfl, rfl⟩).1
    have h6 := (((hv cl hcl).each _ _).mp ⟨r', hr', rfl, rfl⟩).1
    rw [← himgs] at h6
    have : r = r' := List.inj_on_of_nodup_map (hv cl hcl).once hr hr'
      (Prod.ext (hsep _ _ _ h5 h6) himgs)
    rw [this]
  · rw [List.map_map]
    exact hD.map_on fun x _ y _ e => hinj _ _ e

/-- Only coordinates close to `x / 2` can be between, so a finite check decides. -/
theorem between_of_check {q : Vec3 ℤ} (hq : 1 ≤ q.x ∧ 1 ≤ q.y ∧ 1 ≤ q.z) {P : Vec3 ℤ → Bool} {x : Vec3 ℤ}
    (hx : P x = true ∧ x ≠ ⟨0, 0, 0⟩ ∧ bilin q x x ≤ 4 ∧
      ∀ a ∈ grid 2, P a = true → a ≠ ⟨0, 0, 0⟩ → a ≠ x → bilin q x a < bilin q a a) :
    Between q P x := by
  obtain ⟨h1, h2, h3, h4⟩ := hx
  refine ⟨h1, h2, fun a ha ha0 hax => ?_⟩
  by_contra hlt
  refine hlt (h4 a ?_ ha ha0 hax)
  simp only [bilin, not_lt] at h3 hlt
  have hsum : q.x * (2 * a.x - x.x) ^ 2 + q.y * (2 * a.y - x.y) ^ 2 + q.z * (2 * a.z - x.z) ^ 2 ≤ 4 := by
    nlinarith
  have bound : ∀ {p y z : ℤ}, 1 ≤ p → 0 ≤ y → p * z ^ 2 + y ≤ 4 → -2 ≤ z ∧ z ≤ 2 := by
    intro p y z hp hy hz
    have : z ^ 2 ≤ 4 := by nlinarith [sq_nonneg z]
    constructor <;> nlinarith
  have nn : ∀ {p z : ℤ}, 1 ≤ p → 0 ≤ p * z ^ 2 := fun hp => mul_nonneg (by omega) (sq_nonneg _)
  have bx := bound hq.1 (add_nonneg (nn hq.2.1 (z := 2 * a.y - x.y)) (nn hq.2.2 (z := 2 * a.z - x.z)))
    (z := 2 * a.x - x.x) (by linarith)
  have bY := bound hq.2.1 (add_nonneg (nn hq.1 (z := 2 * a.x - x.x)) (nn hq.2.2 (z := 2 * a.z - x.z)))
    (z := 2 * a.y - x.y) (by linarith)
  have bz := bound hq.2.2 (add_nonneg (nn hq.1 (z := 2 * a.x - x.x)) (nn hq.2.1 (z := 2 * a.y - x.y)))
    (z := 2 * a.z - x.z) (by linarith)
  have cx := bound hq.1 (add_nonneg (nn hq.2.1 (z := x.y)) (nn hq.2.2 (z := x.z)))
    (z := x.x) (by linarith)
  have cy := bound hq.2.1 (add_nonneg (nn hq.1 (z := x.x)) (nn hq.2.2 (z := x.z)))
    (z := x.y) (by linarith)
  have cz := bound hq.2.2 (add_nonneg (nn hq.1 (z := x.x)) (nn hq.2.1 (z := x.y)))
    (z := x.z) (by linarith)
  rw [mem_grid, mem_around, mem_around, mem_around]
  push_cast
  omega

theorem sc_between (x : Vec3 ℤ) : Between ⟨1, 1, 1⟩ (fun _ => true) x ↔ x ∈ scNear := by
  constructor
  · rintro ⟨-, h0, h⟩
    by_contra hx
    have key : ∀ a ∈ scNear, a ≠ ⟨0, 0, 0⟩ → bilin ⟨1, 1, 1⟩ x a < bilin ⟨1, 1, 1⟩ a a :=
      fun a ha ha0 => h a rfl ha0 fun e => hx (e ▸ ha)
    simp [scNear, bilin] at key
    exact h0 (by ext <;> simp only <;> omega)
  · intro hx
    refine between_of_check (by simp) ?_
    revert x
    decide +kernel

/-- The coordinates of the particles of fcc, in half lengths of the cell. -/
def fccSite (x : Vec3 ℤ) : Bool := decide ((x.x + x.y + x.z) % 2 = 0)

theorem fcc_between (x : Vec3 ℤ) : Between ⟨1, 1, 1⟩ fccSite x ↔ x ∈ fccNear := by
  constructor
  · rintro ⟨hP, h0, h⟩
    by_contra hx
    have key : ∀ a ∈ fccNear, fccSite a = true → a ≠ ⟨0, 0, 0⟩ →
        bilin ⟨1, 1, 1⟩ x a < bilin ⟨1, 1, 1⟩ a a :=
      fun a ha hs ha0 => h a hs ha0 fun e => hx (e ▸ ha)
    simp [fccNear, bilin, fccSite] at key hP
    have hx : x.x = -1 ∨ x.x = 0 ∨ x.x = 1 := by omega
    have hy : x.y = -1 ∨ x.y = 0 ∨ x.y = 1 := by omega
    have hz : x.z = -1 ∨ x.z = 0 ∨ x.z = 1 := by omega
    exact h0 (by ext <;> simp only <;> omega)
  · intro hx
    refine between_of_check (by simp) ?_
    revert x
    decide +kernel

/-- The coordinates of the particles of bcc, in half lengths of the cell. -/
def bccSite (x : Vec3 ℤ) : Bool := decide ((x.x - x.y) % 2 = 0 ∧ (x.x - x.z) % 2 = 0)

/-- The 8 nearest and the 6 next neighbors in bcc, in half lengths of the cell. -/
def bccFaces : List (Vec3 ℤ) :=
  bccNear ++ [⟨2, 0, 0⟩, ⟨-2, 0, 0⟩, ⟨0, 2, 0⟩, ⟨0, -2, 0⟩, ⟨0, 0, 2⟩, ⟨0, 0, -2⟩]

theorem bcc_between (x : Vec3 ℤ) : Between ⟨1, 1, 1⟩ bccSite x ↔ x ∈ bccFaces := by
  constructor
  · rintro ⟨hP, h0, h⟩
    by_contra hx
    have key : ∀ a ∈ bccFaces, bccSite a = true → a ≠ ⟨0, 0, 0⟩ →
        bilin ⟨1, 1, 1⟩ x a < bilin ⟨1, 1, 1⟩ a a :=
      fun a ha hs ha0 => h a hs ha0 fun e => hx (e ▸ ha)
    simp [bccFaces, bccNear, bilin, bccSite] at key hP
    exact h0 (by ext <;> simp only <;> omega)
  · intro hx
    refine between_of_check (by simp) ?_
    revert x
    decide +kernel

/-- The neighbors in the square crystal. -/
def squareFaces : List (Vec3 ℤ) := [⟨1, 0, 0⟩, ⟨-1, 0, 0⟩, ⟨0, 1, 0⟩, ⟨0, -1, 0⟩]

theorem square_between (x : Vec3 ℤ) : Between ⟨1, 1, 1⟩ (fun x => decide (x.z = 0)) x ↔ x ∈ squareFaces := by
  constructor
  · rintro ⟨hP, h0, h⟩
    by_contra hx
    have key : ∀ a ∈ squareFaces, decide (a.z = 0) = true → a ≠ ⟨0, 0, 0⟩ →
        bilin ⟨1, 1, 1⟩ x a < bilin ⟨1, 1, 1⟩ a a :=
      fun a ha hs ha0 => h a hs ha0 fun e => hx (e ▸ ha)
    simp [squareFaces, bilin] at key hP
    exact h0 (by ext <;> simp only <;> omega)
  · intro hx
    refine between_of_check (by simp) ?_
    revert x
    decide +kernel

/-- The coordinates of the particles of the hexagonal crystal, in half lengths of the cell. -/
def hexSite (x : Vec3 ℤ) : Bool := decide ((x.x + x.y) % 2 = 0 ∧ x.z = 0)

/-- The neighbors in the hexagonal crystal, in half lengths of the cell. -/
def hexFaces : List (Vec3 ℤ) :=
  [⟨2, 0, 0⟩, ⟨-2, 0, 0⟩, ⟨1, 1, 0⟩, ⟨1, -1, 0⟩, ⟨-1, 1, 0⟩, ⟨-1, -1, 0⟩]

theorem hex_between (x : Vec3 ℤ) : Between ⟨1, 3, 3⟩ hexSite x ↔ x ∈ hexFaces := by
  constructor
  · rintro ⟨hP, h0, h⟩
    by_contra hx
    have key : ∀ a ∈ hexFaces, hexSite a = true → a ≠ ⟨0, 0, 0⟩ →
        bilin ⟨1, 3, 3⟩ x a < bilin ⟨1, 3, 3⟩ a a :=
      fun a ha hs ha0 => h a hs ha0 fun e => hx (e ▸ ha)
    simp [hexFaces, bilin, hexSite] at key hP
    exact h0 (by ext <;> simp only <;> omega)
  · intro hx
    refine between_of_check (by simp) ?_
    revert x
    decide +kernel

end Diagram

open Diagram

/-- **C131**: in a simple cubic crystal every particle has 6 Voronoi neighbors. -/
theorem C131_sc : VoronoiIs UnitCell.sc
    [⟨-1, 0, 0⟩, ⟨0, -1, 0⟩, ⟨0, 0, -1⟩, ⟨0, 0, 1⟩, ⟨0, 1, 0⟩, ⟨1, 0, 0⟩] := by
  have h := inUnits_3D ⟨1, 1, 1⟩ ⟨1, 1, 1⟩ (by norm_num) (by norm_num) [⟨0, 0, 0⟩]
  have := voronoi_int h (q := ⟨1, 1, 1⟩) (N := 1) (by norm_num) (by norm_num) (by norm_num) (by norm_num)
    (by decide +kernel) (fun _ => true) (by simp [lat3]) scNear (by decide +kernel) sc_between
    (cell := UnitCell.sc) (by rw [sc_cell]; norm_num)
  simpa [scNear, units] using this

/-- **C131**: in a square crystal every particle has 4 Voronoi neighbors. -/
theorem C131_square : VoronoiIs UnitCell.square [⟨1, 0, 0⟩, ⟨-1, 0, 0⟩, ⟨0, 1, 0⟩, ⟨0, -1, 0⟩] := by
  have := voronoi_int square_units (q := ⟨1, 1, 1⟩) (N := 1) (by norm_num) (by norm_num) (by norm_num)
    (by norm_num) (by decide +kernel) (fun x => decide (x.z = 0)) (by simp [lat2]) squareFaces
    (by decide +kernel) square_between square_cell
  simpa [squareFaces, units] using this

/-- **C131**: in an fcc crystal every particle has 12 Voronoi neighbors, the nearest ones. -/
theorem C131_fcc : VoronoiIs UnitCell.fcc
    [⟨-(1 / 2), -(1 / 2), 0⟩, ⟨-(1 / 2), 0, -(1 / 2)⟩, ⟨-(1 / 2), 0, 1 / 2⟩, ⟨-(1 / 2), 1 / 2, 0⟩,
      ⟨0, -(1 / 2), -(1 / 2)⟩, ⟨0, -(1 / 2), 1 / 2⟩, ⟨0, 1 / 2, -(1 / 2)⟩, ⟨0, 1 / 2, 1 / 2⟩,
      ⟨1 / 2, -(1 / 2), 0⟩, ⟨1 / 2, 0, -(1 / 2)⟩, ⟨1 / 2, 0, 1 / 2⟩, ⟨1 / 2, 1 / 2, 0⟩] := by
  have := voronoi_int fcc_units (q := ⟨1, 1, 1⟩) (N := 4) (by norm_num) (by norm_num) (by norm_num)
    (by norm_num) (by decide +kernel) fccSite (by
      intro A hA x
      simp only [List.mem_cons, List.not_mem_nil, or_false] at hA
      rcases hA with rfl | rfl | rfl | rfl <;> simp [lat3, fccSite] <;> omega) fccNear
    (by decide +kernel) fcc_between fcc_cell
  simpa [fccNear, units] using this

/-- **C131**: in a bcc crystal every particle has 14 Voronoi neighbors, the 8 nearest and the 6 next. -/
theorem C131_bcc : VoronoiIs UnitCell.bcc
    [⟨-(1 / 2), -(1 / 2), -(1 / 2)⟩, ⟨-(1 / 2), -(1 / 2), 1 / 2⟩, ⟨-(1 / 2), 1 / 2, -(1 / 2)⟩, ⟨-(1 / 2), 1 / 2, 1 / 2⟩,
      ⟨1 / 2, -(1 / 2), -(1 / 2)⟩, ⟨1 / 2, -(1 / 2), 1 / 2⟩, ⟨1 / 2, 1 / 2, -(1 / 2)⟩, ⟨1 / 2, 1 / 2, 1 / 2⟩,
      ⟨1, 0, 0⟩, ⟨-1, 0, 0⟩, ⟨0, 1, 0⟩, ⟨0, -1, 0⟩,
      ⟨0, 0, 1⟩, ⟨0, 0, -1⟩] := by
  have := voronoi_int bcc_units (q := ⟨1, 1, 1⟩) (N := 4) (by norm_num) (by norm_num) (by norm_num)
    (by norm_num) (by decide +kernel) bccSite (by
      intro A hA x
      simp only [List.mem_cons, List.not_mem_nil, or_false] at hA
      rcases hA with rfl | rfl <;> simp [lat3, bccSite] <;> omega) bccFaces
    (by decide +kernel) bcc_between bcc_cell
  simpa [bccFaces, bccNear, units] using this

/-- **C131**: in a hexagonal crystal every particle has 6 Voronoi neighbors. -/
theorem C131_hex : VoronoiIs UnitCell.hex
    [⟨1, 0, 0⟩, ⟨-1, 0, 0⟩, ⟨1 / 2, Real.sqrt 3 / 2, 0⟩, ⟨1 / 2, -(Real.sqrt 3 / 2), 0⟩,
      ⟨-(1 / 2), Real.sqrt 3 / 2, 0⟩, ⟨-(1 / 2), -(Real.sqrt 3 / 2), 0⟩] := by
  have h3 : (Real.sqrt 3 / 2) ^ 2 = ((3 : ℤ) : ℝ) / (4 : ℤ) := by
    rw [div_pow, Real.sq_sqrt (by norm_num)]; norm_num
  have := voronoi_int hex_units (q := ⟨1, 3, 3⟩) (N := 4) (by norm_num) (by norm_num) h3 h3
    (by decide +kernel) hexSite (by
      intro A hA x
      simp only [List.mem_cons, List.not_mem_nil, or_false] at hA
      rcases hA with rfl | rfl <;> simp [lat2, hexSite] <;> omega) hexFaces
    (by decide +kernel) hex_between hex_cell
  simpa [hexFaces, units] using this

namespace Diagram

/-- A cell moved by `o`. -/
noncomputable def moved (c : Spec.Cell) (o : Vec3 ℝ) : Spec.Cell :=
  { c with
    pos := c.pos + o
    verts := c.verts.map (· + o)
    ridges := c.ridges.map fun r => { r with image := r.image + o } }

theorem ridge_moved {c : Spec.Cell} {r : Ridge} (h : RidgeOK c r) (o : Vec3 ℝ) :
    RidgeOK (moved c o) { r with image := r.image + o } := by
  have e : ∀ x y : Vec3 ℝ, x + o - (y + o) = x - y := by intro x y; ext <;> simp
  refine ⟨h.verts, fun h0 => h.apart ?_, h.unit, ?_, fun i hi => ?_⟩
  · have hx := congrArg Vec3.x h0
    have hy := congrArg Vec3.y h0
    have hz := congrArg Vec3.z h0
    simp only [moved, Vec3.add_x, Vec3.add_y, Vec3.add_z] at hx hy hz
    ext <;> linarith
  · simp only [moved, e]
    exact h.towards
  · obtain ⟨v, hv, h1⟩ := h.bisects i hi
    refine ⟨v + o, by simp [moved, hv], ?_⟩
    simp only [moved, e]
    exact h1

theorem voro_moved {k : Container} {points : List (Vec3 ℝ)} {o : Vec3 ℝ} {points' : List (Vec3 ℝ)}
    {area : Set (Vec3 ℝ) → ℝ} (harea : ∀ S v, area ((fun x => x + v) '' S) = area S)
    (hs : ∀ j s, Site k points' j (s + o) ↔ Site k points j s) {c : Spec.Cell}
    (h : VoroOK k points area c) (hz : 0 ≤ (c.pos + o).z ∧ (c.pos + o).z < k.bz) :
    VoroOK k points' area (moved c o) := by
  have hid : Rigid (fun v : Vec3 ℝ => v) := fun _ _ => rfl
  have hreg := region_turned hid (σ := Equiv.refl ℕ) hs
  have hsh := shared_turned hid (σ := Equiv.refl ℕ) hs
  have hinj : ∀ x y : Vec3 ℝ, x + o = y + o → x = y := by
    intro x y h0
    have hx := congrArg Vec3.x h0
    have hy := congrArg Vec3.y h0
    have hz := congrArg Vec3.z h0
    simp only [Vec3.add_x, Vec3.add_y, Vec3.add_z] at hx hy hz
    ext <;> linarith
  refine ⟨(hs _ _).mpr h.pos, hz, ?_, ?_, fun j t => ?_, ?_⟩
  · change c.volume = volumeOf (region k points' (c.pos + o))
    rw [hreg, volumeOf_image hid, h.volume]
  · have : ((moved c o).ridges.map fun r => (r.neighbor, r.image)) =
        (c.ridges.map fun r => (r.neighbor, r.image)).map fun p => (p.1, p.2 + o) := by
      simp [moved, List.map_map, Function.comp_def]
    rw [this]
    refine h.once.map_on fun p _ p' _ e => ?_
    simp only [Prod.mk.injEq] at e
    exact Prod.ext e.1 (hinj _ _ e.2)
  · obtain ⟨t, rfl⟩ : ∃ t', t = t' + o := ⟨t - o, by ext <;> simp⟩
    have e1 : (∃ r ∈ (moved c o).ridges, r.neighbor = j ∧ r.image = t + o) ↔
        ∃ r ∈ c.ridges, r.neighbor = j ∧ r.image = t := by
      constructor
      · rintro ⟨r, hr, h1, h2⟩
        obtain ⟨r', hr', rfl⟩ := List.mem_map.mp hr
        exact ⟨r', hr', h1, hinj _ _ h2⟩
      · rintro ⟨r, hr, h1, rfl⟩
        exact ⟨_, List.mem_map.mpr ⟨r, hr, rfl⟩, h1, rfl⟩
    rw [e1, h.each, hs]
    change _ ↔ _ ∧ t + o ≠ c.pos + o ∧ Broad (shared k points' (c.pos + o) (t + o))
    rw [hsh, broad_turned hid]
    refine and_congr_right fun _ => and_congr_left fun _ => not_congr ?_
    exact ⟨fun e => by rw [e], hinj _ _⟩
  · intro r hr
    obtain ⟨r', hr', rfl⟩ := List.mem_map.mp hr
    change r'.area = area (shared k points' (c.pos + o) (r'.image + o))
    rw [hsh, harea]
    exact h.area r' hr'

end Diagram

/-- The crystal of one simple cubic cell: its diagram is the one of the particle in the unit cube. -/
theorem sc_one : ∃ u box p o, UnitCell.sc = some u ∧
    u.generateSystem ⟨1, 1, 1⟩ 1 none = some (box, [p]) ∧
    DiagramOK box [p] [moved Diagram.cubeV o] ∧ container box = some Diagram.unit ∧
    (∀ c ∈ [moved Diagram.cubeV o], VoroOK Diagram.unit [p] facetArea c) ∧ box.is2D = false ∧
    box.getVolume = 1 := by
  have hg0 : GoodCell (Box.mk' (1 : ℝ) 1 1 0 0 0 false) := by
    have h := (inUnits_3D ⟨1, 1, 1⟩ ⟨1, 1, 1⟩ (by norm_num) (by norm_num) [⟨0, 0, 0⟩]).cell
    simpa using h
  obtain ⟨⟨box, points⟩, hg⟩ : ∃ r, (⟨Box.mk' 1 1 1 0 0 0 false, [⟨0, 0, 0⟩]⟩ : UnitCell ℝ).generateSystem
      ⟨1, 1, 1⟩ 1 none = some r := by
    rw [← Option.isSome_iff_exists, Option.isSome_iff_ne_none]
    intro h0
    have := (C59_raises_iff _ _ _ _ hg0).mp h0
    norm_num [Box.mk', Box.setL] at this
  have hlen : points.length = 1 := by
    have := C59_count _ _ _ hg0 _ _ hg
    simpa using this
  obtain ⟨p, rfl⟩ := List.length_eq_one_iff.mp hlen
  obtain ⟨t, ht⟩ := C59_exact (Box.mk' (1 : ℝ) 1 1 0 0 0 false) ⟨1, 1, 1⟩ hg0
  obtain ⟨hgood, hdim, ⟨e1, e2, e3⟩, hL, -⟩ := ht _ _ _ _ hg
  have hk : container box = some Diagram.unit := by
    have h2 : box.is2D = false := by rw [hdim]; simp [Box.mk', Box.setL]
    simp [container, Box.getLatticeVector, h2, e1, e2, e3, hL, Box.mk', Box.setL, Diagram.unit]
  have h2D : box.is2D = false := by rw [hdim]; simp [Box.mk', Box.setL]
  set o : Vec3 ℝ := p - ⟨-(1 / 4), 0, 0⟩ + ⟨0, 0, ⌈-p.z⌉⟩ with ho
  have hsite : ∀ j s, Site Diagram.unit [p] j (s + o) ↔ Site Diagram.unit Diagram.lone j s := by
    intro j s
    constructor
    · rintro ⟨q, n, hq, e⟩
      have hj : j = 0 := by
        have := (List.getElem?_eq_some_iff.mp hq).1
        simpa using this
      subst hj
      obtain rfl : p = q := by simpa using hq
      refine ⟨⟨-(1 / 4), 0, 0⟩, ⟨n.x, n.y, n.z - ⌈-p.z⌉⟩, rfl, ?_⟩
      have ex := congrArg Vec3.x e
      have ey := congrArg Vec3.y e
      have ez := congrArg Vec3.z e
      simp [ho, containerVector, Diagram.unit] at ex ey ez
      ext <;> simp [containerVector, Diagram.unit] <;> linarith
    · rintro ⟨q, n, hq, rfl⟩
      have hj : j = 0 := by
        have := (List.getElem?_eq_some_iff.mp hq).1
        simpa [Diagram.lone] using this
      subst hj
      obtain rfl : (⟨-(1 / 4), 0, 0⟩ : Vec3 ℝ) = q := by simpa [Diagram.lone] using hq
      refine ⟨p, ⟨n.x, n.y, n.z + ⌈-p.z⌉⟩, rfl, ?_⟩
      ext <;> simp [ho, containerVector, Diagram.unit] <;> ring
  have hvo : ∀ c ∈ [moved Diagram.cubeV o], VoroOK Diagram.unit [p] facetArea c := by
    intro c hc
    rw [List.mem_singleton] at hc
    subst hc
    refine voro_moved facetArea_add hsite cubeV_ok ?_
    have h1 := Int.le_ceil (-p.z)
    have h2 := Int.ceil_lt_add_one (-p.z)
    constructor <;> simp [ho, Diagram.cubeV, cube, Diagram.unit] <;> linarith
  have hri : ∀ c ∈ [moved Diagram.cubeV o], ∀ r ∈ c.ridges, RidgeOK c r := by
    intro c hc r hr
    rw [List.mem_singleton] at hc
    subst hc
    obtain ⟨r', hr', rfl⟩ := List.mem_map.mp hr
    have k := (cube_ok.each cube (by simp)).ridges r' hr'
    exact ridge_moved (c := Diagram.cubeV) ⟨k.verts, k.apart, k.unit, k.towards, k.bisects⟩ o
  exact ⟨_, box, p, o, sc_cell, hg,
    ⟨C128_images box [p] _ (fun q _ h => by rw [h2D] at h; cases h) facetArea _ hk hvo hri,
      List.Perm.refl _, by simp⟩, hk, hvo, h2D, by simp [Box.getVolume, h2D, hL, Box.mk', Box.setL]⟩

/-- The hypotheses of `C131_sc` (and with them those of `C131_neighbors` and `C131_volumes`) are met by
the crystal of one cell. -/
example : ∃ u box points cells k, UnitCell.sc = some u ∧
    u.generateSystem ⟨1, 1, 1⟩ 1 none = some (box, points) ∧ points.length = 1 ∧
    DiagramOK box points cells ∧ container box = some k ∧
    (∀ c ∈ cells, VoroOK k points facetArea c) ∧ ∃ sortV sortB, SortsOK sortV sortB := by
  obtain ⟨u, box, p, o, h1, h2, h3, h4, h5, -⟩ := sc_one
  exact ⟨u, box, [p], _, _, h1, h2, rfl, h3, h4, h5, sorts_exist⟩

end Freud
