import Verif.Spec.VoronoiBcc
import Verif.Props.VoronoiOrder

/-!
# Property C136: order parameters of the bcc crystal with its 14 Voronoi neighbors
-/

namespace Freud
open Spec Voronoi Diagram InUnits

/-- All Voronoi neighbors, at distances of at most `d`. -/
theorem voronoi_bonds {u : UnitCell ℝ} {d : ℝ} (hcell : GoodCell u.box) (hdis : DistinctSites u) (hbas : u.basis ≠ [])
    {cell : Option (UnitCell ℝ)} (hu : cell = some u) {V : List (Vec3 ℝ)} (hv : VoronoiIs cell V)
    (hd : ∀ v ∈ V, Vec3.norm v ≤ d) {l : ℕ}
    {c : Steinhardt.Call} (hn : VoronoiNeighbors u d c.box c.points c.nlist)
    (h1 : IsExecution c.points.length c.ev) (h2 : IsExecution c.points.length c.evAve)
    (h3 : c.reduceOrder.Perm (List.range (2 * l + 1))) :
    LegalSteinhardt l c ∧ c.nlist.numQueryPoints = c.points.length ∧ c.nlist.numPoints = c.points.length ∧
      c.points ≠ [] ∧ ∃ scale : ℝ, 0 < scale ∧
        (∀ i < c.points.length, ((c.nlist.bonds.filter fun nb => nb.q = i).map Bond.vec).Perm
          (V.map (Vec3.smul scale))) ∧
        (∀ nb ∈ c.nlist.bonds, bondVector c.box c.points nb = nb.vec ∧ nb.dist = Vec3.norm nb.vec ∧ 0 < nb.weight) ∧
        ∀ V', EqualRidges cell V' → ∃ w, ∀ nb ∈ c.nlist.bonds, (∃ v ∈ V', nb.vec = Vec3.smul scale v) →
          nb.weight = w := by
  obtain ⟨u1, hu1, hv⟩ := hv
  obtain rfl : u = u1 := Option.some.inj (hu.symm.trans hu1)
  obtain ⟨⟨n, sc, hg, r, hr, hhalf⟩, cells, area, k, sortV, sortB, s, s', hok, harea, hk, hvo, hpos, hs, e, hnl⟩ :=
    hn
  obtain ⟨t, g⟩ := generated hcell hdis hg
  obtain ⟨s1, e1, hper, -⟩ := hv n sc _ _ hg cells hok area k hk hvo sortV sortB hs s
  obtain rfl : s' = s1 := Option.some.inj (e.symm.trans e1)
  obtain ⟨s3, e3, hperm, -, hq, hp, -, hgood⟩ := C80_neighbor_list c.box c.points cells hok sortV sortB hs s
  obtain rfl : s' = s3 := Option.some.inj (e.symm.trans e3)
  obtain ⟨s4, e4, hvec⟩ := C80_vectors c.box c.points cells hok sortV sortB hs s
  obtain rfl : s' = s4 := Option.some.inj (e.symm.trans e4)
  rw [← hnl] at hper hperm hq hp hgood hvec
  have hpl := planar_crystal g
  have hne : c.points ≠ [] := generated_ne hcell hbas hg
  have hlong : ∀ nb ∈ c.nlist.bonds, (∃ v ∈ V, nb.vec = Vec3.smul sc v) ∧ Vec3.norm nb.vec < r := by
    intro nb hnb
    have hlt : nb.q < c.points.length := by
      rw [← hq]; exact hgood.qlt nb hnb
    have hm : nb.vec ∈ V.map (Vec3.smul sc) := (hper nb.q hlt).mem_iff.mp
      (List.mem_map.mpr ⟨nb, List.mem_filter.mpr ⟨hnb, by simp⟩, rfl⟩)
    obtain ⟨v, hvV, hvv⟩ := List.mem_map.mp hm
    refine ⟨⟨v, hvV, hvv.symm⟩, ?_⟩
    rw [← hvv, norm_smul_pos g.scale]
    exact (mul_le_mul_of_nonneg_left (hd v hvV) g.scale.le).trans_lt hr
  have hbv : ∀ nb ∈ c.nlist.bonds, bondVector c.box c.points nb = nb.vec := by
    intro nb hnb
    obtain ⟨-, -, p, x, hp, hx, m, hm⟩ := hvec nb hnb
    have epi : c.points.getD nb.q ⟨0, 0, 0⟩ = x := by rw [List.getD_eq_getElem?_getD, hx]; rfl
    have epj : c.points.getD nb.p ⟨0, 0, 0⟩ = p := by rw [List.getD_eq_getElem?_getD, hp]; rfl
    unfold bondVector
    rw [epi, epj]
    refine (wrap_of_short g.valid hhalf
      (planar_sub (hpl p (List.mem_of_getElem? hp)) (hpl x (List.mem_of_getElem? hx))) ?_ (hlong nb hnb).2).1
    obtain ⟨f1, f2, f3⟩ := g.periodic
    by_cases h2D : c.box.is2D = true
    · refine ⟨⟨m.x, m.y, 0⟩, ⟨by simp [f1], by simp [f2], fun _ => rfl⟩, ?_⟩
      rw [hm]
      ext <;> simp [lattice, comb, a1, a2, a3, g.valid.Lz_2D h2D]
    · exact ⟨m, ⟨by simp [f1], by simp [f2], fun h0 => by rcases h0 with h0 | h0 <;> simp_all⟩, hm⟩
  refine ⟨⟨⟨hgood, fun nb hnb _ => ?_⟩, fun nb hnb _ => ?_, h1, h2, h3⟩, hq, hp, hne, sc, g.scale, hper,
    fun nb hnb => ⟨hbv nb hnb, (hvec nb hnb).1, ?_⟩, fun V' he => ?_⟩
  · rw [← hp]; exact hgood.plt nb hnb
  · rw [hbv nb hnb, (hvec nb hnb).1]; rfl
  · obtain ⟨cl, hcl, hnb⟩ := List.mem_flatMap.mp (hperm.mem_iff.mp hnb)
    obtain ⟨rd, hrd, rfl⟩ := List.mem_map.mp hnb
    exact hpos cl hcl rd (List.mem_of_mem_filter hrd)
  · obtain ⟨u2, hu2, he⟩ := he
    obtain rfl : u = u2 := Option.some.inj (hu.symm.trans hu2)
    obtain ⟨s2, e2, w, hw⟩ := he n sc _ _ hg cells hok area harea k hk hvo sortV sortB hs s
    obtain rfl : s' = s2 := Option.some.inj (e.symm.trans e2)
    rw [← hnl] at hw
    exact ⟨w, hw⟩

theorem voronoi_plain {u : UnitCell ℝ} {d : ℝ} {D : List (Vec3 ℝ)} (hcell : GoodCell u.box)
    (hdis : DistinctSites u) (hbas : u.basis ≠ [])
    {cell : Option (UnitCell ℝ)} (hu : cell = some u) {V : List (Vec3 ℝ)} (hv : VoronoiIs cell V)
    (hV : (V.map unit).Perm D) (hd : ∀ v ∈ V, Vec3.norm v ≤ d) {l : ℕ}
    {c : Steinhardt.Call} (hn : VoronoiNeighbors u d c.box c.points c.nlist)
    (h1 : IsExecution c.points.length c.ev) (h2 : IsExecution c.points.length c.evAve)
    (h3 : c.reduceOrder.Perm (List.range (2 * l + 1))) :
    LegalSteinhardt l c ∧ c.nlist.numQueryPoints = c.points.length ∧ c.nlist.numPoints = c.points.length ∧
      c.points ≠ [] ∧ SameSurroundings l c D := by
  obtain ⟨hl, hnq, hnp, hne, sc, hsc, hper, hb, -⟩ := voronoi_bonds hcell hdis hbas hu hv hd hn h1 h2 h3
  refine ⟨hl, hnq, hnp, hne, fun i hi => .inl ?_⟩
  have e : ((c.nlist.bonds.filter fun nb => nb.q = i).map fun nb => unit (bondVector c.box c.points nb)) =
      ((c.nlist.bonds.filter fun nb => nb.q = i).map Bond.vec).map unit := by
    rw [List.map_map]
    refine List.map_congr_left fun nb hnb => ?_
    rw [(hb nb (List.mem_filter.mp hnb).1).1]; rfl
  have e' : (V.map (Vec3.smul sc)).map unit = V.map unit := by
    rw [List.map_map]
    exact List.map_congr_left fun v _ => Steinhardt.unit_scaled hsc v
  have hperm' := (hper i hi).map unit
  rw [e', ← e] at hperm'
  exact hperm'.trans hV

/-- The sum over all pairs of directions, for a polynomial `p` in the square of the cosine. -/
def squareSum (p : ℚ → ℚ) (q : Vec3 ℤ) (xs : List (Vec3 ℤ)) : ℚ :=
  (xs.map fun x => (xs.map fun y => p ((bilin q x y : ℚ) ^ 2 / (quad q x * quad q y))).sum).sum

theorem dot_unit_sq {ρ : Vec3 ℝ} {q : Vec3 ℤ} {N : ℤ} (hN : 0 < N) (hx : ρ.x ^ 2 = q.x / N)
    (hy : ρ.y ^ 2 = q.y / N) (hz : ρ.z ^ 2 = q.z / N) {x y : Vec3 ℤ} (h1 : 0 < quad q x) (h2 : 0 < quad q y) :
    Vec3.dot (unit (units ρ x)) (unit (units ρ y)) ^ 2 =
      (((bilin q x y : ℚ) ^ 2 / (quad q x * quad q y) : ℚ) : ℝ) := by
  have hN' : (0 : ℝ) < N := by exact_mod_cast hN
  have hs : ∀ z, 0 < quad q z → unit (units ρ z) = Vec3.smul (1 / Real.sqrt (quad q z / N)) (units ρ z) := by
    intro z hz'
    have hz'' : (0 : ℝ) < quad q z := by exact_mod_cast hz'
    have hn := norm_units hx hy hz z
    unfold Vec3.norm at hn
    unfold Spec.unit
    rw [hn, if_neg]
    intro h0
    rw [h0] at hn
    have : 0 < Real.sqrt ((quad q z : ℝ) / N) := Real.sqrt_pos.mpr (by positivity)
    rw [← hn] at this
    simp [Vec3.dot] at this
  have h1' : (0 : ℝ) < quad q x := by exact_mod_cast h1
  have h2' : (0 : ℝ) < quad q y := by exact_mod_cast h2
  rw [hs x h1, hs y h2]
  have e : Vec3.dot (Vec3.smul (1 / Real.sqrt (quad q x / N)) (units ρ x))
      (Vec3.smul (1 / Real.sqrt (quad q y / N)) (units ρ y)) ^ 2 =
      Vec3.dot (units ρ x) (units ρ y) ^ 2 / (Real.sqrt (quad q x / N) ^ 2 * Real.sqrt (quad q y / N) ^ 2) := by
    simp only [Vec3.dot, Vec3.smul]
    ring
  rw [e, Real.sq_sqrt (by positivity), Real.sq_sqrt (by positivity)]
  have e2 : Vec3.dot (units ρ x) (units ρ y) = (bilin q x y : ℝ) / N := by
    simp only [Vec3.dot, units, bilin]
    rw [show ρ.x * (x.x : ℝ) * (ρ.x * (y.x : ℝ)) = ρ.x ^ 2 * x.x * y.x by ring,
      show ρ.y * (x.y : ℝ) * (ρ.y * (y.y : ℝ)) = ρ.y ^ 2 * x.y * y.y by ring,
      show ρ.z * (x.z : ℝ) * (ρ.z * (y.z : ℝ)) = ρ.z ^ 2 * x.z * y.z by ring, hx, hy, hz]
    push_cast
    ring
  rw [e2]
  push_cast
  field_simp

/-- `q_l` for even `l` of directions in integer coordinates, to neighbors at any distances. -/
theorem qValue_square {ρ : Vec3 ℝ} {q : Vec3 ℤ} {N : ℤ} (hN : 0 < N) (hx : ρ.x ^ 2 = q.x / N)
    (hy : ρ.y ^ 2 = q.y / N) (hz : ρ.z ^ 2 = q.z / N) {l : ℕ} {p : ℚ → ℚ}
    (hp : ∀ (x : ℝ) (t : ℚ), x ^ 2 = t → legendre l x = p t) {xs : List (Vec3 ℤ)} (h : ∀ x ∈ xs, 0 < quad q x) :
    qValue l ((xs.map fun x => unit (units ρ x)).map fun d =>
      (1 / ((xs.map fun x => unit (units ρ x)).length : ℝ), d)) =
    Real.sqrt ((squareSum p q xs : ℝ) / ((xs.length : ℝ) ^ 2)) := by
  have hc : (squareSum p q xs : ℝ) = (xs.map fun x => (xs.map fun y =>
      ((p ((bilin q x y : ℚ) ^ 2 / (quad q x * quad q y)) : ℚ) : ℝ)).sum).sum := by
    unfold squareSum
    rw [Rat.cast_list_sum, List.map_map]
    congr 1
    refine List.map_congr_left fun x _ => ?_
    rw [Function.comp_apply, Rat.cast_list_sum, List.map_map]
    rfl
  rw [hc, div_eq_mul_inv _ ((xs.length : ℝ) ^ 2), ← List.sum_map_mul_right]
  unfold qValue
  congr 1
  rw [List.map_map, List.map_map, List.length_map]
  congr 1
  refine List.map_congr_left fun x hx' => ?_
  simp only [Function.comp_apply]
  rw [← List.sum_map_mul_right, List.map_map, List.map_map]
  congr 1
  refine List.map_congr_left fun y hy' => ?_
  simp only [Function.comp_apply]
  rw [hp _ _ (dot_unit_sq hN hx hy hz (h x hx') (h y hy'))]
  ring

theorem legendre_four (x : ℝ) (t : ℚ) (h : x ^ 2 = t) :
    legendre 4 x = ((35 * t ^ 2 - 30 * t + 3) / 8 : ℚ) := by
  push_cast
  rw [← h]
  norm_num [legendre]
  ring

theorem legendre_six (x : ℝ) (t : ℚ) (h : x ^ 2 = t) :
    legendre 6 x = ((231 * t ^ 3 - 315 * t ^ 2 + 105 * t - 5) / 16 : ℚ) := by
  push_cast
  rw [← h]
  norm_num [legendre]
  ring

section
variable {u : UnitCell ℝ} {d : ℝ} {D : List (Vec3 ℝ)} {cell : Option (UnitCell ℝ)} {V : List (Vec3 ℝ)}

theorem plain_steinhardt (hcell : GoodCell u.box) (hdis : DistinctSites u) (hbas : u.basis ≠ [])
    (hu : cell = some u) (hv : VoronoiIs cell V) (hV : (V.map unit).Perm D) (hd : ∀ v ∈ V, Vec3.norm v ≤ d)
    (hD : D ≠ []) {l : ℕ} {q : ℝ} (hq : qValue l (D.map fun d => (1 / (D.length : ℝ), d)) = q) :
    SteinhardtUnweighted cell d l q := by
  refine ⟨u, hu, fun c hn h1 h2 h3 sph hf history hh average normalize => ?_⟩
  obtain ⟨hl, hnq, hnp, hne, hs⟩ := voronoi_plain hcell hdis hbas hu hv hV hd hn h1 h2 h3
  rw [← hq]
  exact C106_same_surroundings sph ⟨l, average, false, false, normalize⟩ rfl hf history hh c hl
    (fun nb hnb => by rw [← hnq]; exact hl.list.good.qlt nb hnb) (fun h => by cases h) D hD hs hne

theorem plain_solid (hcell : GoodCell u.box) (hdis : DistinctSites u) (hbas : u.basis ≠ [])
    (hu : cell = some u) (hv : VoronoiIs cell V) (hV : (V.map unit).Perm D) (hd : ∀ v ∈ V, Vec3.norm v ≤ d)
    {l : ℕ} (hq : qValue l (D.map fun d => (1 / (D.length : ℝ), d)) ≠ 0) : SolidVoronoi cell d l D.length := by
  refine ⟨u, hu, fun c hn h1 h2 h3 order hord sph hf history hh thr sthr hthr hthr1 => ?_⟩
  obtain ⟨hl, hnq, hnp, hne, hs⟩ := voronoi_plain hcell hdis hbas hu hv hV hd hn h1 h2 h3
  refine C104_crystal sph ⟨l, thr, sthr, true⟩ hthr hthr1 rfl hf history hh c order
    ⟨hl, hnq, hnp, hord⟩ D hs fun h0 => hq ?_
  change Real.sqrt (dirOverlap l _ _) = 0 at h0
  show Real.sqrt (dirOverlap l _ _) = 0
  rw [show (D.map fun d => (1 / (D.length : ℝ), d)) =
      (D.map fun d => ((1 : ℝ), d)).map fun d => (d.1 / (D.length : ℝ), d.2) by simp,
    SolidLiquid.dirOverlap_scaled, SolidLiquid.dirOverlap_comm, SolidLiquid.dirOverlap_scaled, div_div,
    Real.sqrt_div' _ (mul_self_nonneg _), h0, zero_div]

end

/-- The vectors to the 14 neighbors. -/
noncomputable def bccV : List (Vec3 ℝ) := bccFaces.map (units ⟨1 / 2, 1 / 2, 1 / 2⟩)

theorem bcc_voronoi : VoronoiIs UnitCell.bcc bccV := by
  have := C131_bcc
  simpa [bccV, bccFaces, bccNear, units] using this

theorem bcc_dirs : (bccV.map unit).Perm (bccFaces.map fun x => unit (units ⟨1 / 2, 1 / 2, 1 / 2⟩ x)) := by
  simp [bccV, List.map_map, Function.comp_def]

theorem bcc_norm : ∀ v ∈ bccV, Vec3.norm v ≤ 1 := by
  intro v hv
  obtain ⟨x, hx, rfl⟩ := List.mem_map.mp hv
  rw [norm_units (q := ⟨1, 1, 1⟩) (N := 4) (by norm_num) (by norm_num) (by norm_num) x, Real.sqrt_le_one]
  have : ∀ x ∈ bccFaces, quad ⟨1, 1, 1⟩ x ≤ 4 := by decide +kernel
  have h : ((quad ⟨1, 1, 1⟩ x : ℤ) : ℝ) ≤ 4 := by exact_mod_cast this x hx
  rw [div_le_one (by norm_num)]
  exact_mod_cast h

theorem bcc_q4_all : qValue 4 ((bccFaces.map fun x => unit (units ⟨1 / 2, 1 / 2, 1 / 2⟩ x)).map fun d =>
    (1 / ((bccFaces.map fun x => unit (units ⟨1 / 2, 1 / 2, 1 / 2⟩ x)).length : ℝ), d)) = Real.sqrt (1 / 756) := by
  rw [qValue_square (q := ⟨1, 1, 1⟩) (N := 4) (by norm_num) (by norm_num) (by norm_num) (by norm_num)
      legendre_four (by decide +kernel),
    show squareSum (fun t => (35 * t ^ 2 - 30 * t + 3) / 8) ⟨1, 1, 1⟩ bccFaces = 1 / 756 * 196 by decide +kernel]
  norm_num [bccFaces, bccNear]

theorem bcc_q6_all : qValue 6 ((bccFaces.map fun x => unit (units ⟨1 / 2, 1 / 2, 1 / 2⟩ x)).map fun d =>
    (1 / ((bccFaces.map fun x => unit (units ⟨1 / 2, 1 / 2, 1 / 2⟩ x)).length : ℝ), d)) = Real.sqrt (169 / 648) := by
  rw [qValue_square (q := ⟨1, 1, 1⟩) (N := 4) (by norm_num) (by norm_num) (by norm_num) (by norm_num)
      legendre_six (by decide +kernel),
    show squareSum (fun t => (231 * t ^ 3 - 315 * t ^ 2 + 105 * t - 5) / 16) ⟨1, 1, 1⟩ bccFaces =
      169 / 648 * 196 by decide +kernel]
  norm_num [bccFaces, bccNear]

/-- **C136**: `q_4` in bcc with Voronoi neighbors. -/
theorem C136_bcc_q4 : SteinhardtUnweighted UnitCell.bcc 1 4 (Real.sqrt (1 / 756)) :=
  plain_steinhardt bcc_star.cell bcc_star.distinct bcc_star.basis bcc_cell bcc_voronoi bcc_dirs bcc_norm
    (by simp [bccFaces, bccNear]) bcc_q4_all

/-- **C136**: `q_6` in bcc with Voronoi neighbors. -/
theorem C136_bcc_q6 : SteinhardtUnweighted UnitCell.bcc 1 6 (Real.sqrt (169 / 648)) :=
  plain_steinhardt bcc_star.cell bcc_star.distinct bcc_star.basis bcc_cell bcc_voronoi bcc_dirs bcc_norm
    (by simp [bccFaces, bccNear]) bcc_q6_all

/-- **C136**: `q_l` for odd `l` in bcc with Voronoi neighbors. -/
theorem C136_bcc_odd (l : ℕ) (hl : Odd l) : SteinhardtUnweighted UnitCell.bcc 1 l 0 :=
  plain_steinhardt bcc_star.cell bcc_star.distinct bcc_star.basis bcc_cell bcc_voronoi bcc_dirs bcc_norm
    (by simp [bccFaces, bccNear])
    (qValue_odd hl (perm_neg (by norm_num) (by decide +kernel) (by decide +kernel)) _)

/-- **C136**: `SolidLiquid` with `l = 4` in bcc with Voronoi neighbors. -/
theorem C136_bcc_solid4 : SolidVoronoi UnitCell.bcc 1 4 14 :=
  plain_solid bcc_star.cell bcc_star.distinct bcc_star.basis bcc_cell bcc_voronoi bcc_dirs bcc_norm (by
    rw [bcc_q4_all]
    exact (Real.sqrt_pos.mpr (by norm_num)).ne')

/-- **C136**: `SolidLiquid` with `l = 6` in bcc with Voronoi neighbors. -/
theorem C136_bcc_solid6 : SolidVoronoi UnitCell.bcc 1 6 14 :=
  plain_solid bcc_star.cell bcc_star.distinct bcc_star.basis bcc_cell bcc_voronoi bcc_dirs bcc_norm (by
    rw [bcc_q6_all]
    exact (Real.sqrt_pos.mpr (by norm_num)).ne')

/-! ### With weights -/

open SolidLiquid in
/-- If all particles see the same directions with the same weights `D`, then `Steinhardt` gives `q_l` of `D` to every
particle, with or without averaging, and to the system. -/
theorem C136_same_surroundings (sph : Steinhardt.Sph) (p : Steinhardt.Params) (hw : p.wl = false)
    (hf : FsphOK sph p.l (sphericalHarmonic p.l)) (history : List Steinhardt.Call)
    (hh : ∀ c ∈ history, LegalSteinhardt p.l c) (c : Steinhardt.Call) (hc : LegalSteinhardt p.l c)
    (hq : ∀ nb ∈ c.nlist.bonds, nb.q < c.points.length) (D : List (ℝ × Vec3 ℝ)) (hne : (D.map (·.1)).sum ≠ 0)
    (hD : ∀ i < c.points.length, (directions c.box c.points p.weighted c.nlist.bonds i).Perm D)
    (hpts : c.points ≠ []) :
    ∃ r, Steinhardt.resultAfter sph p history c = some r ∧
      r.particleOrder p =
        List.replicate c.points.length (some (qValue p.l (D.map fun d => (d.1 / (D.map (·.1)).sum, d.2)))) ∧
      r.order = some (qValue p.l (D.map fun d => (d.1 / (D.map (·.1)).sum, d.2))) := by
  obtain ⟨r, e, -, h2, h3⟩ := C76_value sph p _ (C101_harmonics p.l) hf (by simp [hw]) history hh c hc
  obtain ⟨h3, h4⟩ := h3 hw
  set E := D.map fun d => (d.1 / (D.map (·.1)).sum, d.2) with hE
  have hnrm : ∀ i < c.points.length, ∃ L, normalized (directions c.box c.points p.weighted c.nlist.bonds i) = some L ∧
      ∀ M, dirOverlap p.l L M = dirOverlap p.l E M := by
    intro i hi
    have hsum : ((directions c.box c.points p.weighted c.nlist.bonds i).map (·.1)).sum = (D.map (·.1)).sum :=
      ((hD i hi).map _).sum_eq
    refine ⟨_, by rw [normalized, hsum, if_neg hne], fun M => ?_⟩
    exact dirOverlap_perm _ ((hD i hi).map _) M
  have hdist : ∀ i < c.points.length, ∃ L, distribution c.box c.points p.weighted p.average c.nlist.bonds i = some L ∧
      ∀ M, dirOverlap p.l L M = dirOverlap p.l E M := by
    intro i hi
    unfold distribution
    split_ifs
    · refine dirOverlap_mix (by simp) fun L hL => ?_
      obtain ⟨j, hj, rfl⟩ := List.mem_map.mp hL
      refine hnrm j ?_
      rcases List.mem_append.mp hj with hj | hj
      · obtain ⟨nb, hnb, rfl⟩ := List.mem_map.mp hj
        have := (List.mem_filter.mp hnb).1
        exact hc.list.points nb this (hq nb this)
      · rw [List.mem_singleton.mp hj]; exact hi
    · exact hnrm i hi
  refine ⟨r, e, ?_, ?_⟩
  · rw [h3, h2, List.eq_replicate_iff]
    refine ⟨by simp, fun v hv => ?_⟩
    obtain ⟨i, hi, rfl⟩ := List.mem_map.mp hv
    obtain ⟨L, e1, e2⟩ := hdist i (List.mem_range.mp hi)
    rw [e1, Option.map_some, qValue_of_same e2]
  · obtain ⟨L, e1, e2⟩ := dirOverlap_mix (l := p.l) (D := E)
      (Ls := (List.range c.points.length).map (distribution c.box c.points p.weighted p.average c.nlist.bonds))
      (by simpa using hpts) (fun L hL => by
        obtain ⟨i, hi, rfl⟩ := List.mem_map.mp hL
        exact hdist i (List.mem_range.mp hi))
    rw [h4, e1, Option.map_some, qValue_of_same e2]

/-- The sum over pairs of directions of two sets. -/
def crossSum (p : ℚ → ℚ) (q : Vec3 ℤ) (xs ys : List (Vec3 ℤ)) : ℚ :=
  (xs.map fun x => (ys.map fun y => p ((bilin q x y : ℚ) ^ 2 / (quad q x * quad q y))).sum).sum

theorem dirOverlap_cross {ρ : Vec3 ℝ} {q : Vec3 ℤ} {N : ℤ} (hN : 0 < N) (hx : ρ.x ^ 2 = q.x / N)
    (hy : ρ.y ^ 2 = q.y / N) (hz : ρ.z ^ 2 = q.z / N) {l : ℕ} {p : ℚ → ℚ}
    (hp : ∀ (x : ℝ) (t : ℚ), x ^ 2 = t → legendre l x = p t) {xs ys : List (Vec3 ℤ)}
    (h : ∀ x ∈ xs, 0 < quad q x) (h' : ∀ x ∈ ys, 0 < quad q x) (a b : ℝ) :
    dirOverlap l (xs.map fun x => (a, unit (units ρ x))) (ys.map fun x => (b, unit (units ρ x))) =
      a * b * (crossSum p q xs ys : ℝ) := by
  have hc : (crossSum p q xs ys : ℝ) = (xs.map fun x => (ys.map fun y =>
      ((p ((bilin q x y : ℚ) ^ 2 / (quad q x * quad q y)) : ℚ) : ℝ)).sum).sum := by
    unfold crossSum
    rw [Rat.cast_list_sum, List.map_map]
    congr 1
    refine List.map_congr_left fun x _ => ?_
    rw [Function.comp_apply, Rat.cast_list_sum, List.map_map]
    rfl
  rw [hc, ← List.sum_map_mul_left]
  unfold dirOverlap
  rw [List.map_map]
  congr 1
  refine List.map_congr_left fun x hx' => ?_
  simp only [Function.comp_apply]
  rw [← List.sum_map_mul_left, List.map_map]
  congr 1
  refine List.map_congr_left fun y hy' => ?_
  simp only [Function.comp_apply]
  rw [hp _ _ (dot_unit_sq hN hx hy hz (h x hx') (h' y hy'))]

/-- The 6 next neighbors in bcc. -/
def bccNext : List (Vec3 ℤ) := [⟨2, 0, 0⟩, ⟨-2, 0, 0⟩, ⟨0, 2, 0⟩, ⟨0, -2, 0⟩, ⟨0, 0, 2⟩, ⟨0, 0, -2⟩]

/-- The directions in bcc with weights. -/
noncomputable def bccDirs (a b : ℝ) : List (ℝ × Vec3 ℝ) :=
  (bccNear.map fun x => (a, unit (units ⟨1 / 2, 1 / 2, 1 / 2⟩ x))) ++
    bccNext.map fun x => (b, unit (units ⟨1 / 2, 1 / 2, 1 / 2⟩ x))

theorem bccDirs_sum (a b : ℝ) : ((bccDirs a b).map (·.1)).sum = 8 * a + 6 * b := by
  simp [bccDirs, bccNear, bccNext]
  ring

open SolidLiquid in
theorem bccDirs_q {l : ℕ} {p : ℚ → ℚ} (hp : ∀ (x : ℝ) (t : ℚ), x ^ 2 = t → legendre l x = p t) {f g h : ℚ}
    (h1 : crossSum p ⟨1, 1, 1⟩ bccNear bccNear = f) (h2 : crossSum p ⟨1, 1, 1⟩ bccNear bccNext = g)
    (h3 : crossSum p ⟨1, 1, 1⟩ bccNext bccNext = h) {a b : ℝ} (ha : 0 < a) (hb : 0 < b) :
    qValue l ((bccDirs a b).map fun d => (d.1 / ((bccDirs a b).map (·.1)).sum, d.2)) =
      Real.sqrt (f * a ^ 2 + 2 * g * a * b + h * b ^ 2) / (8 * a + 6 * b) := by
  have hpos : 0 < 8 * a + 6 * b := by linarith
  rw [bccDirs_sum]
  show Real.sqrt (dirOverlap l _ _) = _
  rw [dirOverlap_scaled, dirOverlap_comm, dirOverlap_scaled, div_div, Real.sqrt_div' _ (mul_self_nonneg _),
    Real.sqrt_mul_self hpos.le]
  refine congrArg (fun t => Real.sqrt t / (8 * a + 6 * b)) ?_
  have cross := fun {xs ys : List (Vec3 ℤ)} (h : ∀ x ∈ xs, 0 < quad ⟨1, 1, 1⟩ x)
    (h' : ∀ x ∈ ys, 0 < quad ⟨1, 1, 1⟩ x) => dirOverlap_cross (ρ := ⟨1 / 2, 1 / 2, 1 / 2⟩) (q := ⟨1, 1, 1⟩) (N := 4)
      (by norm_num) (by norm_num) (by norm_num) (by norm_num) hp h h'
  have q1 : ∀ x ∈ bccNear, 0 < quad ⟨1, 1, 1⟩ x := by decide +kernel
  have q2 : ∀ x ∈ bccNext, 0 < quad ⟨1, 1, 1⟩ x := by decide +kernel
  unfold bccDirs
  rw [dirOverlap_append, dirOverlap_comm l (bccNear.map _), dirOverlap_comm l (bccNext.map _), dirOverlap_append,
    dirOverlap_append, dirOverlap_comm l (bccNext.map _) (bccNear.map _), cross q1 q1, cross q1 q2, cross q2 q2, h1, h2, h3]
  ring

theorem bcc_weighted {l : ℕ} {value : ℝ → ℝ → ℝ} (hval : ∀ a b : ℝ, 0 < a → 0 < b →
      qValue l ((bccDirs a b).map fun d => (d.1 / ((bccDirs a b).map (·.1)).sum, d.2)) = value a b) :
    SteinhardtWeighted UnitCell.bcc 1 l value := by
  refine ⟨_, bcc_cell, fun c hn h1 h2 h3 => ?_⟩
  obtain ⟨hl, hnq, hnp, hne, sc, hsc, hper, hb, hw⟩ := voronoi_bonds bcc_star.cell bcc_star.distinct bcc_star.basis
    bcc_cell bcc_voronoi bcc_norm hn h1 h2 h3
  have near := C133_bcc_near
  have next := C133_bcc_next
  obtain ⟨a, ha⟩ := hw (bccNear.map (units ⟨1 / 2, 1 / 2, 1 / 2⟩)) (by simpa [bccNear, units] using near)
  obtain ⟨b, hb'⟩ := hw (bccNext.map (units ⟨1 / 2, 1 / 2, 1 / 2⟩)) (by simpa [bccNext, units] using next)
  have hlt : ∀ nb ∈ c.nlist.bonds, nb.q < c.points.length := fun nb hnb => by
    rw [← hnq]; exact hl.list.good.qlt nb hnb
  have hn3 : ∀ x ∈ bccNear, Vec3.norm (Vec3.smul sc (units ⟨1 / 2, 1 / 2, 1 / 2⟩ x)) = sc * Real.sqrt (3 / 4) := by
    intro x hx
    have k : ∀ x ∈ bccNear, quad ⟨1, 1, 1⟩ x = 3 := by decide +kernel
    rw [norm_smul_pos hsc, norm_units (q := ⟨1, 1, 1⟩) (N := 4) (by norm_num) (by norm_num) (by norm_num) x, k x hx]
    norm_num
  have hn4 : ∀ x ∈ bccNext, Vec3.norm (Vec3.smul sc (units ⟨1 / 2, 1 / 2, 1 / 2⟩ x)) = sc := by
    intro x hx
    have k : ∀ x ∈ bccNext, quad ⟨1, 1, 1⟩ x = 4 := by decide +kernel
    rw [norm_smul_pos hsc, norm_units (q := ⟨1, 1, 1⟩) (N := 4) (by norm_num) (by norm_num) (by norm_num) x, k x hx]
    norm_num
  have hsq : Real.sqrt (3 / 4) < 1 := (Real.sqrt_lt' (by norm_num)).mpr (by norm_num)
  have hshort : sc * Real.sqrt (3 / 4) < sc := by nlinarith
  have hkind : ∀ nb ∈ c.nlist.bonds, (nb.weight = a ∧ nb.dist = sc * Real.sqrt (3 / 4)) ∨
      (nb.weight = b ∧ nb.dist = sc) := by
    intro nb hnb
    have hm := (hper nb.q (hlt nb hnb)).mem_iff.mp
      (List.mem_map.mpr ⟨nb, List.mem_filter.mpr ⟨hnb, by simp⟩, rfl⟩)
    obtain ⟨v, hv, e⟩ := List.mem_map.mp hm
    obtain ⟨x, hx, rfl⟩ := List.mem_map.mp hv
    rw [(hb nb hnb).2.1, ← e]
    rcases List.mem_append.mp (show x ∈ bccNear ++ bccNext from hx) with hx | hx
    · exact .inl ⟨ha nb hnb ⟨_, List.mem_map.mpr ⟨x, hx, rfl⟩, e.symm⟩, hn3 x hx⟩
    · exact .inr ⟨hb' nb hnb ⟨_, List.mem_map.mpr ⟨x, hx, rfl⟩, e.symm⟩, hn4 x hx⟩
  have hex : ∀ x ∈ bccNear ++ bccNext, ∃ nb ∈ c.nlist.bonds, nb.vec = Vec3.smul sc (units ⟨1 / 2, 1 / 2, 1 / 2⟩ x) := by
    intro x hx
    have hm := (hper 0 (List.length_pos_iff.mpr hne)).mem_iff.mpr
      (List.mem_map.mpr ⟨_, List.mem_map.mpr ⟨x, hx, rfl⟩, rfl⟩)
    obtain ⟨nb, hnb, e⟩ := List.mem_map.mp hm
    exact ⟨nb, (List.mem_filter.mp hnb).1, e⟩
  obtain ⟨n1, m1, e1⟩ := hex ⟨1, 1, 1⟩ (by decide)
  obtain ⟨n2, m2, e2⟩ := hex ⟨2, 0, 0⟩ (by decide)
  have w1 : n1.weight = a := ha n1 m1 ⟨_, List.mem_map.mpr ⟨⟨1, 1, 1⟩, by decide, rfl⟩, e1⟩
  have w2 : n2.weight = b := hb' n2 m2 ⟨_, List.mem_map.mpr ⟨⟨2, 0, 0⟩, by decide, rfl⟩, e2⟩
  have ha0 : 0 < a := w1 ▸ (hb n1 m1).2.2
  have hb0 : 0 < b := w2 ▸ (hb n2 m2).2.2
  refine ⟨a, b, ha0, hb0, ⟨n1, m1, n2, m2, ?_⟩, fun nb hnb nb' hnb' hlt => ?_,
    fun sph hf history hh average normalize => ?_⟩
  · rw [(hb n1 m1).2.1, (hb n2 m2).2.1, e1, e2, hn3 _ (by decide), hn4 _ (by decide)]
    exact hshort
  · rcases hkind nb hnb with ⟨k1, k2⟩ | ⟨k1, k2⟩ <;> rcases hkind nb' hnb' with ⟨k3, k4⟩ | ⟨k3, k4⟩ <;>
      rw [k2, k4] at hlt
    · exact absurd hlt (lt_irrefl _)
    · exact ⟨k1, k3⟩
    · exact absurd hlt hshort.not_gt
    · exact absurd hlt (lt_irrefl _)
  · rw [← hval a b ha0 hb0]
    refine C136_same_surroundings sph ⟨l, average, false, true, normalize⟩ rfl hf history hh c hl hlt (bccDirs a b)
      (by rw [bccDirs_sum]; positivity) (fun i hi => ?_) hne
    have e : directions c.box c.points true c.nlist.bonds i =
        ((c.nlist.bonds.filter fun nb => nb.q = i).map Bond.vec).map
          fun v => (if Vec3.norm v < sc then a else b, unit v) := by
      unfold directions
      rw [List.map_map]
      refine List.map_congr_left fun nb hnb => ?_
      have hnb := (List.mem_filter.mp hnb).1
      rw [Function.comp_apply, if_pos rfl, (hb nb hnb).1]
      change (nb.weight, unit nb.vec) = (if Vec3.norm nb.vec < sc then a else b, unit nb.vec)
      rw [← (hb nb hnb).2.1]
      rcases hkind nb hnb with ⟨k1, k2⟩ | ⟨k1, k2⟩
      · rw [k1, k2, if_pos hshort]
      · rw [k1, k2, if_neg (lt_irrefl _)]
    have e' : (bccV.map (Vec3.smul sc)).map (fun v => (if Vec3.norm v < sc then a else b, unit v)) =
        bccDirs a b := by
      unfold bccV bccDirs
      rw [show bccFaces = bccNear ++ bccNext from rfl, List.map_append, List.map_append, List.map_append]
      simp only [List.map_map]
      congr 1
      · refine List.map_congr_left fun x hx => ?_
        simp only [Function.comp_apply]
        rw [if_pos ((hn3 x hx).trans_lt hshort), Steinhardt.unit_scaled hsc]
      · refine List.map_congr_left fun x hx => ?_
        simp only [Function.comp_apply]
        rw [if_neg (hn4 x hx).not_lt, Steinhardt.unit_scaled hsc]
    have hp := (hper i hi).map (fun v => (if Vec3.norm v < sc then a else b, unit v))
    rw [e', ← e] at hp
    exact hp

/-- **C136**: `q_4` in bcc with Voronoi neighbors, weighted with the areas of the facets. -/
theorem C136_bcc_q4_weighted : SteinhardtWeighted UnitCell.bcc 1 4 fun near far =>
    Real.sqrt (7 / 12) * |6 * far - 16 / 3 * near| / (8 * near + 6 * far) :=
  bcc_weighted fun a b ha hb => by
    rw [bccDirs_q legendre_four (f := 7 / 12 * (16 / 3) ^ 2) (g := -(7 / 12 * 16 / 3 * 6)) (h := 7 / 12 * 6 ^ 2)
      (by decide +kernel) (by decide +kernel) (by decide +kernel) ha hb, ← Real.sqrt_sq_eq_abs,
      ← Real.sqrt_mul (by norm_num)]
    refine congrArg (fun t => Real.sqrt t / (8 * a + 6 * b)) ?_
    push_cast
    ring

/-- **C136**: `q_6` in bcc with Voronoi neighbors, weighted with the areas of the facets. -/
theorem C136_bcc_q6_weighted : SteinhardtWeighted UnitCell.bcc 1 6 fun near far =>
    Real.sqrt (1 / 8) * (128 / 9 * near + 6 * far) / (8 * near + 6 * far) :=
  bcc_weighted fun a b ha hb => by
    rw [bccDirs_q legendre_six (f := 1 / 8 * (128 / 9) ^ 2) (g := 1 / 8 * 128 / 9 * 6) (h := 1 / 8 * 6 ^ 2)
      (by decide +kernel) (by decide +kernel) (by decide +kernel) ha hb,
      ← Real.sqrt_sq (by positivity : 0 ≤ 128 / 9 * a + 6 * b), ← Real.sqrt_mul (by norm_num)]
    refine congrArg (fun t => Real.sqrt t / (8 * a + 6 * b)) ?_
    push_cast
    ring

theorem qValue_odd_weights {l : ℕ} (hl : Odd l) {L : List (ℝ × Vec3 ℝ)} (h : (L.map fun d => (d.1, -d.2)).Perm L) :
    qValue l L = 0 := by
  show Real.sqrt (dirOverlap l L L) = 0
  have h1 := SolidLiquid.dirOverlap_perm l h L
  have h2 := dirOverlap_odd hl L L
  rw [show dirOverlap l L L = 0 by linarith, Real.sqrt_zero]

theorem bccDirs_neg (a b : ℝ) (t : ℝ) : (((bccDirs a b).map fun d => (d.1 / t, d.2)).map fun d => (d.1, -d.2)).Perm
    ((bccDirs a b).map fun d => (d.1 / t, d.2)) := by
  have one : ∀ (w : ℝ) {xs : List (Vec3 ℤ)}, (∀ x ∈ xs, x ≠ ⟨0, 0, 0⟩) → (xs.map fun x => -x).Perm xs →
      ((xs.map fun x => (w, Spec.unit (units ⟨1 / 2, 1 / 2, 1 / 2⟩ x))).map fun d => (d.1, -d.2)).Perm
        (xs.map fun x => (w, Spec.unit (units ⟨1 / 2, 1 / 2, 1 / 2⟩ x))) := by
    intro w xs h0 h
    have := (perm_neg (ρ := ⟨1 / 2, 1 / 2, 1 / 2⟩) (by norm_num) h0 h).map fun d => (w, d)
    simpa only [List.map_map, Function.comp_def] using this
  unfold bccDirs
  simp only [List.map_append]
  refine List.Perm.append ?_ ?_
  · simpa only [List.map_map, Function.comp_def] using one (a / t) (xs := bccNear) (by decide +kernel) (by decide +kernel)
  · simpa only [List.map_map, Function.comp_def] using one (b / t) (xs := bccNext) (by decide +kernel) (by decide +kernel)

/-- **C136**: `q_l` for odd `l` in bcc with Voronoi neighbors, weighted with the areas of the facets. -/
theorem C136_bcc_odd_weighted (l : ℕ) (hl : Odd l) : SteinhardtWeighted UnitCell.bcc 1 l fun _ _ => 0 :=
  bcc_weighted fun a b _ _ => qValue_odd_weights hl (bccDirs_neg a b _)

/-- The diagram of a crystal in which all particles see the same lattice: `D` are the neighbors and `W` the vertices of
a cell, in integer coordinates, those of the vertices in half units. -/
theorem crystal_diagram {u : UnitCell ℝ} {ρ : Vec3 ℝ} {Lat : Vec3 ℤ → Bool} {F : List (Vec3 ℤ)}
    (h : InUnits u ρ Lat F) {q : Vec3 ℤ} {N : ℤ} (hN : 0 < N)
    (hx : ρ.x ^ 2 = q.x / N) (hy : ρ.y ^ 2 = q.y / N) (hz : ρ.z ^ 2 = q.z / N) (P : Vec3 ℤ → Bool)
    (hP : ∀ A ∈ F, ∀ x, (∃ C ∈ F, Lat (x + A - C) = true) ↔ P x = true)
    (D : List (Vec3 ℤ)) (hD : D.Nodup) (hbet : ∀ x, Between q P x ↔ x ∈ D) (W : List (Vec3 ℤ))
    (hW : ∀ x ∈ D, ∃ w ∈ W, bilin q w x = bilin q x x) {c : ℝ} {n : Vec3 ℤ} {t : Vec3 ℝ} {box : Box ℝ}
    {points : List (Vec3 ℝ)} (g : Generated u c n t box points) (h2D : box.is2D = false)
    (hlen : points.length ≤ 0xffffffff) {k : Container} (hk : container box = some k) :
    ∃ cells, DiagramOK box points cells ∧ (∀ c ∈ cells, VoroOK k points facetArea c) ∧
      ∀ c ∈ cells, ∀ r ∈ c.ridges, r.area = 1 := by
  classical
  have hc := g.scale
  have hplane := planar_crystal g
  have himg := images_int h P hP g
  have hsep := separate_crystal g hk
  have hview : LatticePoints box points := by
    intro i hi i' hi' v hv
    rw [himg i' hi']
    exact (himg i hi v).mp hv
  have hinj : ∀ x y : Vec3 ℤ, Vec3.smul c (units ρ x) = Vec3.smul c (units ρ y) → x = y :=
    fun x y e => units_inj h.nonzero (smul_inj hc e)
  have hzero : Vec3.smul c (units ρ ⟨0, 0, 0⟩) = ⟨0, 0, 0⟩ := by ext <;> simp [units]
  have hN' : (0 : ℝ) < N := by exact_mod_cast hN
  have hfac : 0 < c ^ 2 / N := by positivity
  have hbz : 0 < k.bz := by
    have := g.positive.2.2 h2D
    simp [container, Box.getLatticeVector, h2D] at hk
    rw [← hk]
    simpa using this
  have hnb : ∀ i < points.length, ∀ x j, NothingBetween box points i j (Vec3.smul c (units ρ x)) →
      Between q P x := by
    intro i hi x j hb
    obtain ⟨x', hx', e⟩ := (himg i hi _).mp ⟨j, hb.image⟩
    obtain rfl := hinj _ _ e
    refine ⟨hx', fun h0 => hb.apart (by rw [h0, hzero]), fun a ha ha0 hax => ?_⟩
    obtain ⟨j', hj'⟩ := (himg i hi _).mpr ⟨a, ha, rfl⟩
    have ho := hb.outside j' _ hj' (fun h0 => ha0 (by rw [← hzero] at h0; exact hinj _ _ h0))
      fun h0 => hax (hinj _ _ h0)
    have e1 := dot_units hx hy hz c x a
    have e2 := dot_units hx hy hz c a a
    rw [← not_le, norm_le_iff, not_le] at ho
    have : (bilin q x a < bilin q a a) ↔ Vec3.dot (Vec3.smul c (units ρ x)) (Vec3.smul c (units ρ a)) <
        Vec3.dot (Vec3.smul c (units ρ a)) (Vec3.smul c (units ρ a)) := by
      rw [e1, e2, mul_lt_mul_iff_right₀ hfac]
      exact_mod_cast Iff.rfl
    rw [this]
    revert ho
    generalize Vec3.smul c (units ρ x) = v
    generalize Vec3.smul c (units ρ a) = w
    simp only [Vec3.dot, Vec3.sub_x, Vec3.sub_y, Vec3.sub_z, Vec3.smul_x, Vec3.smul_y, Vec3.smul_z]
    intro h
    nlinarith
  set f : Vec3 ℝ → ℕ := fun s => if h : ∃ j, Site k points j s then h.choose else 0 with hfdef
  have hf : ∀ s, (∃ j, Site k points j s) → Site k points (f s) s := by
    intro s h
    simp only [hfdef, dif_pos h]
    exact h.choose_spec
  set A : ℕ → Vec3 ℝ := fun i => points.getD i ⟨0, 0, 0⟩ with hA
  set o : ℕ → Vec3 ℝ := fun i => A i + containerVector k ⟨0, 0, ⌈-(A i).z / k.bz⌉⟩ with ho
  set V : Vec3 ℤ → Vec3 ℝ := fun x => Vec3.smul c (units ρ x) with hVdef
  set ridge : ℕ → Vec3 ℤ → Ridge := fun i x => ⟨f (o i + V x), o i + V x,
    facetArea (shared k points (o i) (o i + V x)), Vec3.smul (1 / Vec3.norm (V x)) (V x),
    (List.range W.length).filter fun m => bilin q (W.getD m ⟨0, 0, 0⟩) x = bilin q x x⟩ with hridge
  set cell : ℕ → Spec.Cell := fun i => ⟨i, o i, W.map fun w => o i + Vec3.smul (c / 2) (units ρ w),
    (D.filter fun x => decide (Broad (shared k points (o i) (o i + V x)))).map (ridge i),
    volumeOf (region k points (o i))⟩ with hcell
  set cells := (List.range points.length).map cell with hcells
  have hD0 : ∀ x ∈ D, V x ≠ ⟨0, 0, 0⟩ := by
    intro x hxD h0
    have h0 : Vec3.smul c (units ρ x) = ⟨0, 0, 0⟩ := h0
    rw [← hzero] at h0
    exact ((hbet x).mpr hxD).2.1 (hinj _ _ h0)
  have hshift : ∀ a b b' : Vec3 ℝ, a + b = a + b' → b = b' := by
    intro a b b' e
    have ex := congrArg Vec3.x e
    have ey := congrArg Vec3.y e
    have ez := congrArg Vec3.z e
    simp only [Vec3.add_x, Vec3.add_y, Vec3.add_z] at ex ey ez
    ext <;> linarith
  have hadd0 : ∀ a b : Vec3 ℝ, a + b = a → b = ⟨0, 0, 0⟩ := by
    intro a b e
    exact hshift a b ⟨0, 0, 0⟩ (by rw [e]; ext <;> simp)
  have hpi : ∀ i < points.length, points[i]? = some (A i) := fun i hi => by simp [hA, hi]
  have hsi : ∀ i < points.length, Site k points i (o i) := fun i hi => ⟨_, _, hpi i hi, rfl⟩
  have hvo : ∀ c ∈ cells, VoroOK k points facetArea c := by
    intro c' hc'
    obtain ⟨i, hi, rfl⟩ := List.mem_map.mp hc'
    rw [List.mem_range] at hi
    refine ⟨hsi i hi, ?_, rfl, ?_, fun j s => ?_, ?_⟩
    · have h1 := Int.le_ceil (-(A i).z / k.bz)
      have h2 := Int.ceil_lt_add_one (-(A i).z / k.bz)
      rw [div_le_iff₀ hbz] at h1
      rw [← sub_lt_iff_lt_add, lt_div_iff₀ hbz] at h2
      constructor <;> simp [hcell, ho, containerVector] <;> linarith
    · change (((D.filter _).map (ridge i)).map _).Nodup
      rw [List.map_map]
      refine (hD.filter _).map_on fun x _ y _ e => ?_
      simp only [Function.comp_apply, Prod.mk.injEq] at e
      exact hinj _ _ (hshift _ _ _ e.2)
    · constructor
      · rintro ⟨r, hr, rfl, rfl⟩
        obtain ⟨x, hxD, rfl⟩ := List.mem_map.mp hr
        obtain ⟨hxD, hbr⟩ := List.mem_filter.mp hxD
        obtain ⟨j, hj⟩ := (himg i hi _).mpr ⟨x, ((hbet x).mpr hxD).1, rfl⟩
        exact ⟨hf _ ⟨j, site_image g.valid hk (hsi i hi) hj⟩, fun e => hD0 x hxD (hadd0 _ _ e),
          of_decide_eq_true hbr⟩
      · rintro ⟨hs, hne, hbr⟩
        obtain ⟨v, hh, hv, e, h0, -⟩ := split_vector hk hplane (m := ⟨0, 0, ⌈-(A i).z / k.bz⌉⟩) (hpi i hi) hs
        have es : s = o i + v := by
          rw [h0 h2D] at e
          have ex := congrArg Vec3.x e
          have ey := congrArg Vec3.y e
          have ez := congrArg Vec3.z e
          simp at ex ey ez
          ext <;> simp [ho] <;> linarith
        have hv0 : v ≠ ⟨0, 0, 0⟩ := by
          rintro rfl
          exact hne (by rw [es]; ext <;> simp [hcell])
        rw [es] at hbr
        have hb := between_of_broad g.valid hk hview (hsi i hi) hv hv0 hbr
        obtain ⟨x, hxP, rfl⟩ := (himg i hi v).mp ⟨j, hv⟩
        have hxD := (hbet x).mp (hnb i hi x j hb)
        refine ⟨ridge i x, List.mem_map.mpr ⟨x, List.mem_filter.mpr ⟨hxD, decide_eq_true hbr⟩, rfl⟩, ?_, es.symm⟩
        rw [es] at hs
        exact hsep _ _ _ (hf _ ⟨j, hs⟩) hs
    · intro r hr
      obtain ⟨x, -, rfl⟩ := List.mem_map.mp hr
      rfl
  have hri : ∀ c ∈ cells, ∀ r ∈ c.ridges, RidgeOK c r ∧ r.area = 1 := by
    intro c' hc' r hr
    obtain ⟨i, hi, rfl⟩ := List.mem_map.mp hc'
    obtain ⟨x, hxD, rfl⟩ := List.mem_map.mp hr
    obtain ⟨hxD, hbr⟩ := List.mem_filter.mp hxD
    have hV := norm_pos (hD0 x hxD)
    have hsq : Vec3.norm (V x) * Vec3.norm (V x) = Vec3.dot (V x) (V x) := by
      unfold Vec3.norm
      exact Real.mul_self_sqrt (by simp only [Vec3.dot]; nlinarith)
    have hdiff : o i + V x - o i = V x := by ext <;> simp
    refine ⟨⟨?_, fun e => hD0 x hxD (hadd0 _ _ e), ?_, ?_, fun m hm => ?_⟩, ?_⟩
    · obtain ⟨w, hw, e⟩ := hW x hxD
      obtain ⟨m, hm, rfl⟩ := List.getElem_of_mem hw
      refine List.ne_nil_of_mem (a := m) (List.mem_filter.mpr ⟨List.mem_range.mpr hm, ?_⟩)
      simp [hm, e]
    · change Vec3.dot (Vec3.smul (1 / Vec3.norm (V x)) (V x)) (Vec3.smul (1 / Vec3.norm (V x)) (V x)) = 1
      have : Vec3.dot (Vec3.smul (1 / Vec3.norm (V x)) (V x)) (Vec3.smul (1 / Vec3.norm (V x)) (V x)) =
          Vec3.dot (V x) (V x) / (Vec3.norm (V x) * Vec3.norm (V x)) := by
        simp only [Vec3.dot, Vec3.smul]
        ring
      rw [this, hsq, div_self]
      rw [← hsq]
      positivity
    · change o i + V x - o i = Vec3.smul (Vec3.norm (o i + V x - o i)) (Vec3.smul (1 / Vec3.norm (V x)) (V x))
      rw [hdiff]
      ext <;> simp only [Vec3.smul_x, Vec3.smul_y, Vec3.smul_z] <;> field_simp
    · obtain ⟨hm, e⟩ := List.mem_filter.mp hm
      rw [List.mem_range] at hm
      have e := of_decide_eq_true e
      have hg : W.getD m ⟨0, 0, 0⟩ = W[m] := by simp [hm]
      rw [hg] at e
      refine ⟨o i + Vec3.smul (c / 2) (units ρ W[m]), by simp [hcell, hm], ?_⟩
      change Vec3.norm (o i + Vec3.smul (c / 2) (units ρ W[m]) - o i) =
        Vec3.norm (o i + Vec3.smul (c / 2) (units ρ W[m]) - (o i + V x))
      have e1 := dot_units hx hy hz c W[m] x
      have e2 := dot_units hx hy hz c x x
      rw [e, ← e2] at e1
      unfold Vec3.norm
      refine congrArg Real.sqrt ?_
      simp only [Vec3.dot, Vec3.sub_x, Vec3.sub_y, Vec3.sub_z, Vec3.add_x, Vec3.add_y, Vec3.add_z, Vec3.smul_x,
        Vec3.smul_y, Vec3.smul_z, hVdef] at e1 ⊢
      nlinarith
    · change facetArea (shared k points (o i) (o i + V x)) = 1
      unfold facetArea
      rw [if_pos (of_decide_eq_true hbr)]
  refine ⟨cells, ⟨C128_images box points cells hplane facetArea k hk hvo fun c hc r hr => (hri c hc r hr).1, ?_, hlen⟩,
    hvo, fun c hc r hr => (hri c hc r hr).2⟩
  simp [hcells, List.map_map, Function.comp_def, hcell]

/-- The crystal of `m ^ 3` cubic cells and its Voronoi neighbors. -/
theorem cubic_neighbors {basis : List (Vec3 ℝ)} {F : List (Vec3 ℤ)}
    (h : InUnits ⟨Box.mk' 1 1 1 0 0 0 false, basis⟩ ⟨1 / 2, 1 / 2, 1 / 2⟩ (lat3 ⟨2, 2, 2⟩) F)
    (hdis : DistinctSites ⟨Box.mk' 1 1 1 0 0 0 false, basis⟩) (hbas : basis ≠ []) (P : Vec3 ℤ → Bool)
    (hP : ∀ A ∈ F, ∀ x, (∃ C ∈ F, lat3 ⟨2, 2, 2⟩ (x + A - C) = true) ↔ P x = true)
    (D : List (Vec3 ℤ)) (hD : D.Nodup) (hbet : ∀ x, Between ⟨1, 1, 1⟩ P x ↔ x ∈ D) (W : List (Vec3 ℤ))
    (hW : ∀ x ∈ D, ∃ w ∈ W, bilin ⟨1, 1, 1⟩ w x = bilin ⟨1, 1, 1⟩ x x) {m : ℕ} (hm : 0 < m)
    (hsmall : basis.length * m ^ 3 ≤ 0xffffffff) {d : ℝ} (hd : d < m / 2) :
    ∃ box points nl, points.length = basis.length * m ^ 3 ∧
      VoronoiNeighbors ⟨Box.mk' 1 1 1 0 0 0 false, basis⟩ d box points nl := by
  have hg0 : GoodCell (Box.mk' (1 : ℝ) 1 1 0 0 0 false) := h.cell
  have hm' : (0 : ℝ) < m := by exact_mod_cast hm
  obtain ⟨⟨box, points⟩, hg⟩ : ∃ r, (⟨Box.mk' 1 1 1 0 0 0 false, basis⟩ : UnitCell ℝ).generateSystem
      ⟨m, m, m⟩ 1 none = some r := by
    rw [← Option.isSome_iff_exists, Option.isSome_iff_ne_none]
    intro h0
    have := (C59_raises_iff _ _ _ _ hg0).mp h0
    simp [Box.mk', Box.setL, hm, hbas] at this
    linarith
  have hlen : points.length = basis.length * m ^ 3 := by
    have := C59_count _ _ _ hg0 _ _ hg
    zify
    rw [this]
    push_cast
    ring
  obtain ⟨t, ht⟩ := C59_exact (Box.mk' (1 : ℝ) 1 1 0 0 0 false) ⟨m, m, m⟩ hg0
  obtain ⟨-, hdim, ⟨e1, e2, e3⟩, hL, -⟩ := ht _ _ _ _ hg
  obtain ⟨t, g⟩ := generated hg0 hdis hg
  have h2D : box.is2D = false := by rw [hdim]; simp [Box.mk', Box.setL]
  have hk : container box = some ⟨m, 0, m, 0, 0, m⟩ := by
    simp [container, Box.getLatticeVector, h2D, e1, e2, e3, hL, Box.mk', Box.setL]
  obtain ⟨cells, hok, hvo, har⟩ := crystal_diagram h (q := ⟨1, 1, 1⟩) (N := 4) (by norm_num) (by norm_num)
    (by norm_num) (by norm_num) P hP D hD hbet W hW g h2D (hlen ▸ hsmall) hk
  obtain ⟨sortV, sortB, hs⟩ := sorts_exist
  obtain ⟨s', e, -⟩ := C80_neighbor_list box points cells hok sortV sortB hs ⟨⟨0, 0, [], false, [], []⟩, [], []⟩
  refine ⟨box, points, s'.nlist, hlen, ⟨⟨⟨m, m, m⟩, 1, hg, (d + m / 2) / 2, by linarith, ?_⟩,
    ⟨cells, facetArea, _, sortV, sortB, _, s', hok, facetArea_rigid, hk, hvo,
      fun c hc r hr => by rw [har c hc r hr]; norm_num, hs, e, rfl⟩⟩⟩
  refine ⟨fun _ => ?_, fun _ => ?_, fun _ _ => ?_⟩ <;>
    simp [Box.getNearestPlaneDistance, e1, e2, e3, hL, Box.mk', Box.setL] <;> linarith

/-- The vertices of the cells of bcc, truncated octahedra. -/
def bccVerts : List (Vec3 ℤ) :=
  ([1, -1].flatMap fun a : ℤ => [2, -2].flatMap fun b : ℤ =>
    [⟨0, a, b⟩, ⟨0, b, a⟩, ⟨a, 0, b⟩, ⟨b, 0, a⟩, ⟨a, b, 0⟩, ⟨b, a, 0⟩])

/-- The vertices of the cells of fcc, rhombic dodecahedra. -/
def fccVerts : List (Vec3 ℤ) :=
  [⟨2, 0, 0⟩, ⟨-2, 0, 0⟩, ⟨0, 2, 0⟩, ⟨0, -2, 0⟩, ⟨0, 0, 2⟩, ⟨0, 0, -2⟩] ++
    ([1, -1].flatMap fun a : ℤ => [1, -1].flatMap fun b : ℤ => [⟨a, b, 1⟩, ⟨a, b, -1⟩])

/-- The vertices belong to the cells: they are not closer to any neighbor than to the particle. -/
example : (∀ w ∈ bccVerts, ∀ x ∈ bccFaces, bilin ⟨1, 1, 1⟩ w x ≤ bilin ⟨1, 1, 1⟩ x x) ∧
    ∀ w ∈ fccVerts, ∀ x ∈ fccNear, bilin ⟨1, 1, 1⟩ w x ≤ bilin ⟨1, 1, 1⟩ x x := by decide +kernel

/-- The crystal of 27 bcc cells and its Voronoi neighbors. -/
theorem bcc_three : ∃ u box points nl, UnitCell.bcc = some u ∧ points.length = 54 ∧
    VoronoiNeighbors u 1 box points nl := by
  obtain ⟨box, points, nl, hlen, hn⟩ := cubic_neighbors bcc_units bcc_star.distinct bcc_star.basis bccSite bcc_sites bccFaces
    (by decide +kernel) bcc_between bccVerts (by decide +kernel) (m := 3) (by norm_num) (by norm_num) (d := 1)
    (by norm_num)
  exact ⟨_, box, points, nl, bcc_cell, hlen, hn⟩

/-- The crystal of 8 fcc cells and its Voronoi neighbors. -/
theorem fcc_two : ∃ u box points nl, UnitCell.fcc = some u ∧ points.length = 32 ∧
    VoronoiNeighbors u (Real.sqrt 2 / 2) box points nl := by
  obtain ⟨box, points, nl, hlen, hn⟩ := cubic_neighbors fcc_units fcc_star.distinct fcc_star.basis fccSite (by
      intro A hA x
      simp only [List.mem_cons, List.not_mem_nil, or_false] at hA
      rcases hA with rfl | rfl | rfl | rfl <;> simp [lat3, fccSite] <;> omega) fccNear
    (by decide +kernel) fcc_between fccVerts (by decide +kernel) (m := 2) (by norm_num) (by norm_num)
    (d := Real.sqrt 2 / 2) (by
      have : Real.sqrt 2 < 2 := (Real.sqrt_lt' (by norm_num)).mpr (by norm_num)
      norm_num
      linarith)
  exact ⟨_, box, points, nl, fcc_cell, hlen, hn⟩

/-- The hypotheses of the theorems about bcc are met by the crystal of 27 cells. -/
example : ∃ u, ∃ c : Steinhardt.Call, UnitCell.bcc = some u ∧ c.points.length = 54 ∧
    VoronoiNeighbors u 1 c.box c.points c.nlist ∧ IsExecution c.points.length c.ev ∧
    IsExecution c.points.length c.evAve ∧ c.reduceOrder.Perm (List.range (2 * 6 + 1)) := by
  obtain ⟨u, box, points, nl, hu, hlen, hn⟩ := bcc_three
  exact ⟨u, ⟨box, points, nl, (List.range points.length).map fun i => (0, i),
    (List.range points.length).map fun i => (0, i), List.range (2 * 6 + 1)⟩, hu, hlen, hn,
    by simp [IsExecution, List.map_map, Function.comp_def],
    by simp [IsExecution, List.map_map, Function.comp_def], List.Perm.refl _⟩

/-- The hypotheses of the theorems of C134 about fcc are met by the crystal of 8 cells. -/
example : ∃ u, ∃ c : Steinhardt.Call, UnitCell.fcc = some u ∧ c.points.length = 32 ∧
    VoronoiNeighbors u (Real.sqrt 2 / 2) c.box c.points c.nlist ∧ IsExecution c.points.length c.ev ∧
    IsExecution c.points.length c.evAve ∧ c.reduceOrder.Perm (List.range (2 * 6 + 1)) := by
  obtain ⟨u, box, points, nl, hu, hlen, hn⟩ := fcc_two
  exact ⟨u, ⟨box, points, nl, (List.range points.length).map fun i => (0, i),
    (List.range points.length).map fun i => (0, i), List.range (2 * 6 + 1)⟩, hu, hlen, hn,
    by simp [IsExecution, List.map_map, Function.comp_def],
    by simp [IsExecution, List.map_map, Function.comp_def], List.Perm.refl _⟩

end Freud
