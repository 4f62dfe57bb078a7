import Verif.Spec.VoronoiOrder
import Verif.Props.VoronoiSymmetry

/-!
# Property C134: order parameters of crystals with Voronoi neighbors
-/

namespace Freud
open Spec Voronoi Diagram

/-- Nearest neighbors that are all the Voronoi neighbors, with equal ridges. -/
theorem voronoi_call {u : UnitCell ℝ} {d d₂ : ℝ} {D : List (Vec3 ℝ)} (h : Star u d d₂ D false)
    {cell : Option (UnitCell ℝ)} (hu : cell = some u) {V : List (Vec3 ℝ)} (hv : VoronoiIs cell V)
    (he : EqualRidges cell V) (hV : (V.map unit).Perm D) (hd : ∀ v ∈ V, Vec3.norm v = d) {l : ℕ}
    {c : Steinhardt.Call} (hn : VoronoiNeighbors u d c.box c.points c.nlist)
    (h1 : IsExecution c.points.length c.ev) (h2 : IsExecution c.points.length c.evAve)
    (h3 : c.reduceOrder.Perm (List.range (2 * l + 1))) : CrystalCall l c D := by
  obtain ⟨u1, hu1, hv⟩ := hv
  obtain ⟨u2, hu2, he⟩ := he
  obtain rfl : u = u1 := Option.some.inj (hu.symm.trans hu1)
  obtain rfl : u = u2 := Option.some.inj (hu.symm.trans hu2)
  obtain ⟨⟨n, sc, hg, r, hr, hhalf⟩, cells, area, k, sortV, sortB, s, s', hok, harea, hk, hvo, hpos, hs, e, hnl⟩ :=
    hn
  obtain ⟨t, g⟩ := generated h.cell h.distinct hg
  obtain ⟨s1, e1, hper, -⟩ := hv n sc _ _ hg cells hok area k hk hvo sortV sortB hs s
  obtain rfl : s' = s1 := Option.some.inj (e.symm.trans e1)
  obtain ⟨s2, e2, w, hw⟩ := he n sc _ _ hg cells hok area harea k hk hvo sortV sortB hs s
  obtain rfl : s' = s2 := Option.some.inj (e.symm.trans e2)
  obtain ⟨s3, e3, hperm, -, hq, hp, -, hgood⟩ := C80_neighbor_list c.box c.points cells hok sortV sortB hs s
  obtain rfl : s' = s3 := Option.some.inj (e.symm.trans e3)
  obtain ⟨s4, e4, hvec⟩ := C80_vectors c.box c.points cells hok sortV sortB hs s
  obtain rfl : s' = s4 := Option.some.inj (e.symm.trans e4)
  rw [← hnl] at hper hw hperm hq hp hgood hvec
  have hpl := planar_crystal g
  have hne : c.points ≠ [] := generated_ne h.cell h.basis hg
  have hlong : ∀ nb ∈ c.nlist.bonds, (∃ v ∈ V, nb.vec = Vec3.smul sc v) ∧ Vec3.norm nb.vec < r := by
    intro nb hnb
    have hlt : nb.q < c.points.length := by
      rw [← hq]; exact hgood.qlt nb hnb
    have hm : nb.vec ∈ V.map (Vec3.smul sc) := (hper nb.q hlt).mem_iff.mp
      (List.mem_map.mpr ⟨nb, List.mem_filter.mpr ⟨hnb, by simp⟩, rfl⟩)
    obtain ⟨v, hvV, hvv⟩ := List.mem_map.mp hm
    refine ⟨⟨v, hvV, hvv.symm⟩, ?_⟩
    rw [← hvv, norm_smul_pos g.scale, hd v hvV]
    exact hr
  have hbv : ∀ nb ∈ c.nlist.bonds, bondVector c.box c.points nb = nb.vec := by
    intro nb hnb
    obtain ⟨-, -, p, x, hp, hx, m, hm⟩ := hvec nb hnb
    have epi : c.points.getD nb.q ⟨0, 0, 0⟩ = x := by rw [List.getD_eq_getElem?_getD, hx]; rfl
    have epj : c.points.getD nb.p ⟨0, 0, 0⟩ = p := by rw [List.getD_eq_getElem?_getD, hp]; rfl
    unfold bondVector
    rw [epi, epj]
    refine (wrap_of_short g.valid hhalf
      (planar_sub (hpl p (List.mem_of_getElem? hp)) (hpl x (List.mem_of_getElem? hx))) ?_ (hlong nb hnb).2).1
    obtain ⟨f1, f2, f3⟩ := g.periodic
    by_cases h2D : c.box.is2D = true
    · refine ⟨⟨m.x, m.y, 0⟩, ⟨by simp [f1], by simp [f2], fun _ => rfl⟩, ?_⟩
      rw [hm]
      ext <;> simp [lattice, comb, a1, a2, a3, g.valid.Lz_2D h2D]
    · exact ⟨m, ⟨by simp [f1], by simp [f2], fun h0 => by rcases h0 with h0 | h0 <;> simp_all⟩, hm⟩
  refine ⟨⟨⟨hgood, fun nb hnb _ => ?_⟩, fun nb hnb _ => ?_, h1, h2, h3⟩, hq, hp, hne, ?_, fun i hi => .inl ?_⟩
  · rw [← hp]; exact hgood.plt nb hnb
  · rw [hbv nb hnb, (hvec nb hnb).1]; rfl
  · by_cases hb : c.nlist.bonds = []
    · exact ⟨1, one_ne_zero, by simp [hb]⟩
    obtain ⟨nb, hnb⟩ := List.exists_mem_of_ne_nil _ hb
    refine ⟨w, ?_, fun nb hnb => hw nb hnb (hlong nb hnb).1⟩
    rw [← hw nb hnb (hlong nb hnb).1]
    obtain ⟨cl, hcl, hnb⟩ := List.mem_flatMap.mp (hperm.mem_iff.mp hnb)
    obtain ⟨rd, hrd, rfl⟩ := List.mem_map.mp hnb
    exact (hpos cl hcl rd (List.mem_of_mem_filter hrd)).ne'
  · have e : ((c.nlist.bonds.filter fun nb => nb.q = i).map fun nb => unit (bondVector c.box c.points nb)) =
        ((c.nlist.bonds.filter fun nb => nb.q = i).map Bond.vec).map unit := by
      rw [List.map_map]
      refine List.map_congr_left fun nb hnb => ?_
      rw [hbv nb (List.mem_filter.mp hnb).1]; rfl
    have e' : (V.map (Vec3.smul sc)).map unit = V.map unit := by
      rw [List.map_map]
      exact List.map_congr_left fun v _ => Steinhardt.unit_scaled g.scale v
    have hperm' := (hper i hi).map unit
    rw [e', ← e] at hperm'
    exact hperm'.trans hV

section
variable {u : UnitCell ℝ} {d d₂ : ℝ} {D : List (Vec3 ℝ)} {cell : Option (UnitCell ℝ)} {V : List (Vec3 ℝ)}

theorem voronoi_steinhardt (h : Star u d d₂ D false) (hu : cell = some u) (hv : VoronoiIs cell V)
    (he : EqualRidges cell V) (hV : (V.map unit).Perm D) (hd : ∀ v ∈ V, Vec3.norm v = d) (hD : D ≠ []) {l : ℕ}
    {q : ℝ} (hq : qValue l (D.map fun d => (1 / (D.length : ℝ), d)) = q) : SteinhardtVoronoi cell d l q := by
  refine ⟨u, hu, fun c hn h1 h2 h3 sph hf history hh average weighted normalize => ?_⟩
  have hc := voronoi_call h hu hv he hV hd hn h1 h2 h3
  rw [← hq]
  exact C106_same_surroundings sph ⟨l, average, false, weighted, normalize⟩ rfl hf history hh c hc.legal hc.source
    (fun _ => hc.weights) D hD hc.same hc.nonempty

theorem voronoi_solid (h : Star u d d₂ D false) (hu : cell = some u) (hv : VoronoiIs cell V)
    (he : EqualRidges cell V) (hV : (V.map unit).Perm D) (hd : ∀ v ∈ V, Vec3.norm v = d) {l : ℕ}
    (hq : qValue l (D.map fun d => (1 / (D.length : ℝ), d)) ≠ 0) : SolidVoronoi cell d l D.length :=
  ⟨u, hu, fun _ hn h1 h2 h3 _ hord _ hf _ hh _ _ hthr hthr1 =>
    (voronoi_call h hu hv he hV hd hn h1 h2 h3).solid hq hord hf hh hthr hthr1⟩

theorem voronoi_hexatic (h : Star u d d₂ D false) (hu : cell = some u) (hv : VoronoiIs cell V)
    (he : EqualRidges cell V) (hV : (V.map unit).Perm D) (hd : ∀ v ∈ V, Vec3.norm v = d)
    (h2 : u.box.is2D = true) (hD : D ≠ []) (hz : ∀ e ∈ D, e.z = 0) {k : ℕ} {value : ℂ}
    (hs : (D.map fun e => flat e ^ k).sum = D.length * value) : HexaticVoronoi cell d k value := by
  refine ⟨u, hu, fun box points nl hn order hord weighted => ?_⟩
  have hc := voronoi_call h hu hv he hV hd (l := k) (c := ⟨box, points, nl,
    (List.range points.length).map fun i => (0, i), (List.range points.length).map fun i => (0, i),
    List.range (2 * k + 1)⟩) hn (by simp [IsExecution, List.map_map, Function.comp_def])
    (by simp [IsExecution, List.map_map, Function.comp_def]) (List.Perm.refl _)
  obtain ⟨⟨n, s, hg, -⟩, -⟩ := hn
  obtain ⟨t, g⟩ := generated h.cell h.distinct hg
  exact hc.hexatic (g.dim.trans h2) hD hz hs hord weighted

end

theorem sc_dirs : (([⟨-1, 0, 0⟩, ⟨0, -1, 0⟩, ⟨0, 0, -1⟩, ⟨0, 0, 1⟩, ⟨0, 1, 0⟩, ⟨1, 0, 0⟩] : List (Vec3 ℝ)).map
    unit).Perm (scNear.map fun x => unit (units ⟨1, 1, 1⟩ x)) := by
  simp [scNear, units]

theorem fcc_dirs : (([⟨-(1 / 2), -(1 / 2), 0⟩, ⟨-(1 / 2), 0, -(1 / 2)⟩, ⟨-(1 / 2), 0, 1 / 2⟩, ⟨-(1 / 2), 1 / 2, 0⟩,
      ⟨0, -(1 / 2), -(1 / 2)⟩, ⟨0, -(1 / 2), 1 / 2⟩, ⟨0, 1 / 2, -(1 / 2)⟩, ⟨0, 1 / 2, 1 / 2⟩,
      ⟨1 / 2, -(1 / 2), 0⟩, ⟨1 / 2, 0, -(1 / 2)⟩, ⟨1 / 2, 0, 1 / 2⟩, ⟨1 / 2, 1 / 2, 0⟩] : List (Vec3 ℝ)).map
    unit).Perm (fccNear.map fun x => unit (units ⟨1 / 2, 1 / 2, 1 / 2⟩ x)) := by
  simp [fccNear, units]

theorem square_dirs : (([⟨1, 0, 0⟩, ⟨-1, 0, 0⟩, ⟨0, 1, 0⟩, ⟨0, -1, 0⟩] : List (Vec3 ℝ)).map unit).Perm
    (squareNear.map fun x => unit (units ⟨1, 1, 1⟩ x)) := by
  have h : squareFaces.Perm squareNear := by decide +kernel
  have := h.map fun x => unit (units ⟨1, 1, 1⟩ x)
  simpa [squareFaces, units] using this

theorem hex_dirs : (([⟨1, 0, 0⟩, ⟨-1, 0, 0⟩, ⟨1 / 2, Real.sqrt 3 / 2, 0⟩, ⟨1 / 2, -(Real.sqrt 3 / 2), 0⟩,
      ⟨-(1 / 2), Real.sqrt 3 / 2, 0⟩, ⟨-(1 / 2), -(Real.sqrt 3 / 2), 0⟩] : List (Vec3 ℝ)).map unit).Perm
    (hexNear.map fun x => unit (units ⟨1 / 2, Real.sqrt 3 / 2, Real.sqrt 3 / 2⟩ x)) := by
  have h : hexFaces.Perm hexNear := by decide +kernel
  have := h.map fun x => unit (units ⟨1 / 2, Real.sqrt 3 / 2, Real.sqrt 3 / 2⟩ x)
  simpa [hexFaces, units] using this

theorem sc_norm : ∀ v ∈ ([⟨-1, 0, 0⟩, ⟨0, -1, 0⟩, ⟨0, 0, -1⟩, ⟨0, 0, 1⟩, ⟨0, 1, 0⟩, ⟨1, 0, 0⟩] : List (Vec3 ℝ)),
    Vec3.norm v = 1 := by
  simp [Vec3.norm, Vec3.dot]

theorem square_norm : ∀ v ∈ ([⟨1, 0, 0⟩, ⟨-1, 0, 0⟩, ⟨0, 1, 0⟩, ⟨0, -1, 0⟩] : List (Vec3 ℝ)), Vec3.norm v = 1 := by
  simp [Vec3.norm, Vec3.dot]

theorem fcc_norm : ∀ v ∈ ([⟨-(1 / 2), -(1 / 2), 0⟩, ⟨-(1 / 2), 0, -(1 / 2)⟩, ⟨-(1 / 2), 0, 1 / 2⟩,
      ⟨-(1 / 2), 1 / 2, 0⟩, ⟨0, -(1 / 2), -(1 / 2)⟩, ⟨0, -(1 / 2), 1 / 2⟩, ⟨0, 1 / 2, -(1 / 2)⟩, ⟨0, 1 / 2, 1 / 2⟩,
      ⟨1 / 2, -(1 / 2), 0⟩, ⟨1 / 2, 0, -(1 / 2)⟩, ⟨1 / 2, 0, 1 / 2⟩, ⟨1 / 2, 1 / 2, 0⟩] : List (Vec3 ℝ)),
    Vec3.norm v = Real.sqrt 2 / 2 := by
  have e : Real.sqrt 2 / 2 = Real.sqrt (1 / 2) := by
    rw [← Real.sqrt_sq (by positivity : (0 : ℝ) ≤ Real.sqrt 2 / 2), div_pow, Real.sq_sqrt (by norm_num)]
    norm_num
  intro d hd
  simp only [List.mem_cons, List.not_mem_nil, or_false] at hd
  unfold Vec3.norm
  rw [e]
  refine congrArg Real.sqrt ?_
  rcases hd with rfl | rfl | rfl | rfl | rfl | rfl | rfl | rfl | rfl | rfl | rfl | rfl <;>
    norm_num [Vec3.dot]

theorem hex_norm : ∀ v ∈ ([⟨1, 0, 0⟩, ⟨-1, 0, 0⟩, ⟨1 / 2, Real.sqrt 3 / 2, 0⟩, ⟨1 / 2, -(Real.sqrt 3 / 2), 0⟩,
      ⟨-(1 / 2), Real.sqrt 3 / 2, 0⟩, ⟨-(1 / 2), -(Real.sqrt 3 / 2), 0⟩] : List (Vec3 ℝ)), Vec3.norm v = 1 := by
  have h3 : Real.sqrt 3 / 2 * (Real.sqrt 3 / 2) = 3 / 4 := by
    rw [div_mul_div_comm, Real.mul_self_sqrt (by norm_num)]; norm_num
  intro d hd
  simp only [List.mem_cons, List.not_mem_nil, or_false] at hd
  unfold Vec3.norm
  rw [← Real.sqrt_one]
  refine congrArg Real.sqrt ?_
  rcases hd with rfl | rfl | rfl | rfl | rfl | rfl <;> simp [Vec3.dot, h3] <;> norm_num

/-- **C134**: `q_4` in sc with Voronoi neighbors. -/
theorem C134_sc_q4 : SteinhardtVoronoi UnitCell.sc 1 4 (Real.sqrt (7 / 12)) :=
  voronoi_steinhardt sc_star sc_cell C131_sc C133_sc sc_dirs sc_norm (by simp [scNear]) sc_q4

/-- **C134**: `q_6` in sc with Voronoi neighbors. -/
theorem C134_sc_q6 : SteinhardtVoronoi UnitCell.sc 1 6 (Real.sqrt (1 / 8)) :=
  voronoi_steinhardt sc_star sc_cell C131_sc C133_sc sc_dirs sc_norm (by simp [scNear]) sc_q6

/-- **C134**: `q_l` for odd `l` in sc with Voronoi neighbors. -/
theorem C134_sc_odd (l : ℕ) (hl : Odd l) : SteinhardtVoronoi UnitCell.sc 1 l 0 :=
  voronoi_steinhardt sc_star sc_cell C131_sc C133_sc sc_dirs sc_norm (by simp [scNear])
    (qValue_odd hl (perm_neg (by norm_num) (by decide +kernel) (by decide +kernel)) _)

/-- **C134**: `q_4` in fcc with Voronoi neighbors. -/
theorem C134_fcc_q4 : SteinhardtVoronoi UnitCell.fcc (Real.sqrt 2 / 2) 4 (Real.sqrt (7 / 192)) :=
  voronoi_steinhardt fcc_star fcc_cell C131_fcc C133_fcc fcc_dirs fcc_norm (by simp [fccNear]) fcc_q4

/-- **C134**: `q_6` in fcc with Voronoi neighbors. -/
theorem C134_fcc_q6 : SteinhardtVoronoi UnitCell.fcc (Real.sqrt 2 / 2) 6 (Real.sqrt (169 / 512)) :=
  voronoi_steinhardt fcc_star fcc_cell C131_fcc C133_fcc fcc_dirs fcc_norm (by simp [fccNear]) fcc_q6

/-- **C134**: `q_l` for odd `l` in fcc with Voronoi neighbors. -/
theorem C134_fcc_odd (l : ℕ) (hl : Odd l) : SteinhardtVoronoi UnitCell.fcc (Real.sqrt 2 / 2) l 0 :=
  voronoi_steinhardt fcc_star fcc_cell C131_fcc C133_fcc fcc_dirs fcc_norm (by simp [fccNear])
    (qValue_odd hl (perm_neg (by norm_num) (by decide +kernel) (by decide +kernel)) _)

/-- **C134**: `SolidLiquid` with `l = 6` in sc with Voronoi neighbors. -/
theorem C134_sc_solid6 : SolidVoronoi UnitCell.sc 1 6 6 :=
  voronoi_solid sc_star sc_cell C131_sc C133_sc sc_dirs sc_norm (by
    rw [sc_q6]
    exact (Real.sqrt_pos.mpr (by norm_num)).ne')

/-- **C134**: `SolidLiquid` with `l = 4` in sc with Voronoi neighbors. -/
theorem C134_sc_solid4 : SolidVoronoi UnitCell.sc 1 4 6 :=
  voronoi_solid sc_star sc_cell C131_sc C133_sc sc_dirs sc_norm (by
    rw [sc_q4]
    exact (Real.sqrt_pos.mpr (by norm_num)).ne')

/-- **C134**: `SolidLiquid` with `l = 4` in fcc with Voronoi neighbors. -/
theorem C134_fcc_solid4 : SolidVoronoi UnitCell.fcc (Real.sqrt 2 / 2) 4 12 :=
  voronoi_solid fcc_star fcc_cell C131_fcc C133_fcc fcc_dirs fcc_norm (by
    rw [fcc_q4]
    exact (Real.sqrt_pos.mpr (by norm_num)).ne')

/-- **C134**: `SolidLiquid` with `l = 6` in fcc with Voronoi neighbors. -/
theorem C134_fcc_solid6 : SolidVoronoi UnitCell.fcc (Real.sqrt 2 / 2) 6 12 :=
  voronoi_solid fcc_star fcc_cell C131_fcc C133_fcc fcc_dirs fcc_norm (by
    rw [fcc_q6]
    exact (Real.sqrt_pos.mpr (by norm_num)).ne')

/-- **C134**: the k-atic order of the square crystal with Voronoi neighbors. -/
theorem C134_square_order (k : ℕ) : HexaticVoronoi UnitCell.square 1 k (if 4 ∣ k then 1 else 0) :=
  voronoi_hexatic square_star square_cell C131_square C133_square square_dirs square_norm
    (by simp [Box.mk', Box.setL]) (by simp [squareNear]) (square_atic k).1 (square_atic k).2

/-- **C134**: the k-atic order of the hexagonal crystal with Voronoi neighbors. -/
theorem C134_hex_order (k : ℕ) : HexaticVoronoi UnitCell.hex 1 k (if 6 ∣ k then 1 else 0) :=
  voronoi_hexatic hex_star hex_cell C131_hex C133_hex hex_dirs hex_norm
    (by simp [Box.mk', Box.setL]) (by simp [hexNear]) (hex_atic k).1 (hex_atic k).2

namespace Diagram

/-- A cell moved by `o`, of the particle `i`, between particles that are found by `f`. -/
noncomputable def relabeled (c : Spec.Cell) (o : Vec3 ℝ) (i : ℕ) (f : Vec3 ℝ → ℕ) : Spec.Cell :=
  { moved c o with
    pid := i
    ridges := c.ridges.map fun r => { r with image := r.image + o, neighbor := f (r.image + o) } }

theorem voro_relabeled {k k' : Container} {points points' : List (Vec3 ℝ)} {o : Vec3 ℝ}
    {area : Set (Vec3 ℝ) → ℝ} (harea : ∀ S v, area ((fun x => x + v) '' S) = area S)
    (hs : ∀ s, (∃ j, Site k' points' j (s + o)) ↔ ∃ j, Site k points j s) (hsep : Separate k points)
    (hsep' : Separate k' points') {f : Vec3 ℝ → ℕ}
    (hf : ∀ s, (∃ j, Site k' points' j s) → Site k' points' (f s) s) {c : Spec.Cell}
    (h : VoroOK k points area c) {i : ℕ} (hi : Site k' points' i (c.pos + o))
    (hz : 0 ≤ (c.pos + o).z ∧ (c.pos + o).z < k'.bz) : VoroOK k' points' area (relabeled c o i f) := by
  have hid : Rigid (fun v : Vec3 ℝ => v) := fun _ _ => rfl
  have e : ∀ x y : Vec3 ℝ, x + o - (y + o) = x - y := by intro x y; ext <;> simp
  have back : ∀ x : Vec3 ℝ, ∃ y, x = y + o := fun x => ⟨x - o, by ext <;> simp⟩
  have hinj : ∀ x y : Vec3 ℝ, x + o = y + o → x = y := by
    intro x y h0
    have hx := congrArg Vec3.x h0
    have hy := congrArg Vec3.y h0
    have hz := congrArg Vec3.z h0
    simp only [Vec3.add_x, Vec3.add_y, Vec3.add_z] at hx hy hz
    ext <;> linarith
  have hmem : ∀ s x, x + o ∈ region k' points' (s + o) ↔ x ∈ region k points s := by
    intro s x
    constructor
    · intro hx j t ht
      obtain ⟨j', hj'⟩ := (hs t).mpr ⟨j, ht⟩
      have := hx j' _ hj'
      rwa [e, e] at this
    · intro hx j t ht
      obtain ⟨t, rfl⟩ := back t
      obtain ⟨j', hj'⟩ := (hs t).mp ⟨j, ht⟩
      rw [e, e]
      exact hx j' t hj'
  have hreg : ∀ s, region k' points' (s + o) = (fun x => x + o) '' region k points s := by
    intro s
    ext x
    obtain ⟨x, rfl⟩ := back x
    rw [hmem]
    exact ⟨fun h => ⟨x, h, rfl⟩, fun ⟨y, hy, e⟩ => by rwa [← hinj _ _ e]⟩
  have hsh : ∀ s t, shared k' points' (s + o) (t + o) = (fun x => x + o) '' shared k points s t := by
    intro s t
    ext x
    obtain ⟨x, rfl⟩ := back x
    have : x + o ∈ shared k' points' (s + o) (t + o) ↔ x ∈ shared k points s t := by
      change (_ ∧ Vec3.norm (x + o - (s + o)) = Vec3.norm (x + o - (t + o))) ↔
        (_ ∧ Vec3.norm (x - s) = Vec3.norm (x - t))
      rw [hmem, e, e]
    rw [this]
    exact ⟨fun h => ⟨x, h, rfl⟩, fun ⟨y, hy, e⟩ => by rwa [← hinj _ _ e]⟩
  refine ⟨hi, hz, ?_, ?_, fun j t => ?_, ?_⟩
  · change c.volume = volumeOf (region k' points' (c.pos + o))
    rw [hreg, volumeOf_image hid, h.volume]
  · have : ((relabeled c o i f).ridges.map fun r => (r.neighbor, r.image)) =
        (c.ridges.map fun r => (r.neighbor, r.image)).map fun p => (f (p.2 + o), p.2 + o) := by
      simp [relabeled, List.map_map, Function.comp_def]
    rw [this]
    refine h.once.map_on fun p hp p' hp' e => ?_
    simp only [Prod.mk.injEq] at e
    have e2 := hinj _ _ e.2
    obtain ⟨r, hr, rfl⟩ := List.mem_map.mp hp
    obtain ⟨r', hr', rfl⟩ := List.mem_map.mp hp'
    have s1 := ((h.each _ _).mp ⟨r, hr, rfl, rfl⟩).1
    have s2 := ((h.each _ _).mp ⟨r', hr', rfl, rfl⟩).1
    simp only at e2
    rw [← e2] at s2
    exact Prod.ext (hsep _ _ _ s1 s2) e2
  · obtain ⟨t, rfl⟩ := back t
    change _ ↔ _ ∧ t + o ≠ c.pos + o ∧ Broad (shared k' points' (c.pos + o) (t + o))
    rw [hsh, broad_turned hid]
    constructor
    · rintro ⟨r, hr, h1, h2⟩
      obtain ⟨r', hr', rfl⟩ := List.mem_map.mp hr
      obtain rfl := hinj _ _ h2
      obtain ⟨h3, h4, h5⟩ := (h.each _ _).mp ⟨r', hr', rfl, rfl⟩
      refine ⟨?_, fun h0 => h4 (hinj _ _ h0), h5⟩
      rw [← h1]
      exact hf _ ((hs _).mpr ⟨_, h3⟩)
    · rintro ⟨h1, h2, h3⟩
      obtain ⟨j', hj'⟩ := (hs t).mp ⟨j, h1⟩
      obtain ⟨r, hr, -, rfl⟩ := (h.each j' t).mpr ⟨hj', fun h0 => h2 (by rw [h0]), h3⟩
      exact ⟨_, List.mem_map.mpr ⟨r, hr, rfl⟩, hsep' _ _ _ (hf _ ⟨j, h1⟩) h1, rfl⟩
  · intro r hr
    obtain ⟨r', hr', rfl⟩ := List.mem_map.mp hr
    change r'.area = area (shared k' points' (c.pos + o) (r'.image + o))
    rw [hsh, harea]
    exact h.area r' hr'

theorem facetArea_rigid : RigidMeasure facetArea := by
  classical
  intro R hR v S
  unfold facetArea
  by_cases h : Broad S
  · rw [if_pos h, if_pos ((broad_turned hR v S).mpr h)]
  · rw [if_neg h, if_neg (mt (broad_turned hR v S).mp h)]

end Diagram

/-- The crystal of 27 simple cubic cells and its Voronoi diagram. -/
theorem sc_diagram : ∃ box points cells k, points.length = 27 ∧
    (⟨Box.mk' 1 1 1 0 0 0 false, [⟨0, 0, 0⟩]⟩ : UnitCell ℝ).generateSystem ⟨3, 3, 3⟩ 1 none = some (box, points) ∧
    BelowHalf box (5 / 4) ∧ DiagramOK box points cells ∧ container box = some k ∧
    (∀ c ∈ cells, VoroOK k points facetArea c) ∧ ∀ c ∈ cells, ∀ r ∈ c.ridges, r.area = 1 := by
  classical
  have hg0 : GoodCell (Box.mk' (1 : ℝ) 1 1 0 0 0 false) := sc_star.cell
  obtain ⟨⟨box, points⟩, hg⟩ : ∃ r, (⟨Box.mk' 1 1 1 0 0 0 false, [⟨0, 0, 0⟩]⟩ : UnitCell ℝ).generateSystem
      ⟨3, 3, 3⟩ 1 none = some r := by
    rw [← Option.isSome_iff_exists, Option.isSome_iff_ne_none]
    intro h0
    have := (C59_raises_iff _ _ _ _ hg0).mp h0
    norm_num [Box.mk', Box.setL] at this
  have hlen : points.length = 27 := by
    have := C59_count _ _ _ hg0 _ _ hg
    simp at this
    omega
  obtain ⟨t, ht⟩ := C59_exact (Box.mk' (1 : ℝ) 1 1 0 0 0 false) ⟨3, 3, 3⟩ hg0
  obtain ⟨-, hdim, ⟨e1, e2, e3⟩, hL, -⟩ := ht _ _ _ _ hg
  obtain ⟨t, g⟩ := generated sc_star.cell sc_star.distinct hg
  have h2D : box.is2D = false := by rw [hdim]; simp [Box.mk', Box.setL]
  set k : Container := ⟨3, 0, 3, 0, 0, 3⟩ with hkdef
  have hk : container box = some k := by
    simp [container, Box.getLatticeVector, h2D, e1, e2, e3, hL, Box.mk', Box.setL, hkdef]
  have hsep := separate_crystal g hk
  have hsepU : Separate Diagram.unit lone := fun i j s h1 h2 =>
    ((site_iff i s).mp h1).1.trans ((site_iff j s).mp h2).1.symm
  have himg := images_int (inUnits_3D ⟨1, 1, 1⟩ ⟨1, 1, 1⟩ (by norm_num) (by norm_num) [⟨0, 0, 0⟩]) (fun _ => true)
    (by simp [lat3]) (by simpa using g)
  set f : Vec3 ℝ → ℕ := fun s => if h : ∃ j, Site k points j s then h.choose else 0 with hfdef
  have hf : ∀ s, (∃ j, Site k points j s) → Site k points (f s) s := by
    intro s h
    simp only [hfdef, dif_pos h]
    exact h.choose_spec
  set P : ℕ → Vec3 ℝ := fun i => points.getD i ⟨0, 0, 0⟩ with hP
  set o : ℕ → Vec3 ℝ := fun i => P i + containerVector k ⟨0, 0, ⌈-(P i).z / 3⌉⟩ - cube.pos with ho
  have hcp : ∀ i, cubeV.pos + o i = P i + containerVector k ⟨0, 0, ⌈-(P i).z / 3⌉⟩ := by
    intro i
    change cube.pos + o i = _
    ext <;> simp [ho]
  set cells := (List.range points.length).map fun i => relabeled cubeV (o i) i f with hcells
  have hvo : ∀ c ∈ cells, VoroOK k points facetArea c := by
    intro c hc
    obtain ⟨i, hi, rfl⟩ := List.mem_map.mp hc
    rw [List.mem_range] at hi
    have hpi : points[i]? = some (P i) := by simp [hP, hi]
    have hsi : Site k points i (cubeV.pos + o i) := by
      rw [hcp]
      exact ⟨_, _, hpi, rfl⟩
    refine voro_relabeled facetArea_add (fun s => ?_) hsepU hsep hf cubeV_ok hsi ?_
    · constructor
      · rintro ⟨j, hj⟩
        obtain ⟨v, h, hv, e, h0, -⟩ := split_vector hk (planar_crystal g) (m := ⟨0, 0, ⌈-(P i).z / 3⌉⟩) hpi hj
        obtain ⟨x, -, rfl⟩ := (himg i hi v).mp ⟨j, hv⟩
        rw [h0 h2D, ← hcp] at e
        refine ⟨0, (site_iff 0 s).mpr ⟨rfl, x, ?_⟩⟩
        have ex := congrArg Vec3.x e
        have ey := congrArg Vec3.y e
        have ez := congrArg Vec3.z e
        simp [units, cubeV] at ex ey ez
        ext <;> simp <;> linarith
      · rintro ⟨j, hj⟩
        obtain ⟨-, x, rfl⟩ := (site_iff j s).mp hj
        obtain ⟨j', hj'⟩ := (himg i hi _).mpr ⟨x, rfl, rfl⟩
        refine ⟨j', ?_⟩
        have := site_image g.valid hk hsi hj'
        convert this using 1
        ext <;> simp [units, cubeV] <;> ring
    · rw [hcp]
      have h1 := Int.le_ceil (-(P i).z / 3)
      have h2 := Int.ceil_lt_add_one (-(P i).z / 3)
      constructor <;> simp [containerVector, hkdef] <;> linarith
  have hri : ∀ c ∈ cells, ∀ r ∈ c.ridges, RidgeOK c r ∧ r.area = 1 := by
    intro c hc r hr
    obtain ⟨i, hi, rfl⟩ := List.mem_map.mp hc
    obtain ⟨r', hr', rfl⟩ := List.mem_map.mp hr
    have k := (cube_ok.each cube (by simp)).ridges r' hr'
    have k := ridge_moved (c := cubeV) ⟨k.verts, k.apart, k.unit, k.towards, k.bisects⟩ (o i)
    refine ⟨⟨k.verts, k.apart, k.unit, k.towards, k.bisects⟩, ?_⟩
    simp only [cubeV, cube, List.mem_cons, List.not_mem_nil, or_false] at hr'
    rcases hr' with rfl | rfl | rfl | rfl | rfl | rfl <;> rfl
  have hok : DiagramOK box points cells := by
    refine ⟨C128_images box points cells (planar_crystal g) facetArea k hk hvo fun c hc r hr => (hri c hc r hr).1,
      ?_, by omega⟩
    simp [hcells, List.map_map, Function.comp_def, relabeled]
  refine ⟨box, points, cells, k, hlen, hg, ⟨fun _ => ?_, fun _ => ?_, fun _ _ => ?_⟩, hok, hk, hvo,
    fun c hc r hr => (hri c hc r hr).2⟩ <;>
    norm_num [Box.getNearestPlaneDistance, e1, e2, e3, hL, Box.mk', Box.setL]

/-- The crystal of 27 simple cubic cells and its Voronoi neighbors. -/
theorem sc_three : ∃ u box points nl, UnitCell.sc = some u ∧ points.length = 27 ∧
    VoronoiNeighbors u 1 box points nl := by
  obtain ⟨box, points, cells, k, hlen, hg, hhalf, hok, hk, hvo, har⟩ := sc_diagram
  obtain ⟨sortV, sortB, hs⟩ := sorts_exist
  obtain ⟨s', e, -⟩ := C80_neighbor_list box points cells hok sortV sortB hs ⟨⟨0, 0, [], false, [], []⟩, [], []⟩
  exact ⟨_, box, points, s'.nlist, sc_cell, hlen, ⟨⟨⟨3, 3, 3⟩, 1, hg, 5 / 4, by norm_num, hhalf⟩,
    ⟨cells, facetArea, k, sortV, sortB, _, s', hok, facetArea_rigid, hk, hvo,
      fun c hc r hr => by rw [har c hc r hr]; norm_num, hs, e, rfl⟩⟩⟩

/-- The hypotheses of the theorems about sc are met by the crystal of 27 cells. -/
example : ∃ u, ∃ c : Steinhardt.Call, UnitCell.sc = some u ∧ c.points.length = 27 ∧
    VoronoiNeighbors u 1 c.box c.points c.nlist ∧ IsExecution c.points.length c.ev ∧
    IsExecution c.points.length c.evAve ∧ c.reduceOrder.Perm (List.range (2 * 6 + 1)) := by
  obtain ⟨u, box, points, nl, hu, hlen, hn⟩ := sc_three
  exact ⟨u, ⟨box, points, nl, (List.range points.length).map fun i => (0, i),
    (List.range points.length).map fun i => (0, i), List.range (2 * 6 + 1)⟩, hu, hlen, hn,
    by simp [IsExecution, List.map_map, Function.comp_def],
    by simp [IsExecution, List.map_map, Function.comp_def], List.Perm.refl _⟩

/-- The crystal of 9 square cells and its Voronoi neighbors. -/
theorem square_three : ∃ u box points nl, UnitCell.square = some u ∧ points.length = 9 ∧
    VoronoiNeighbors u 1 box points nl := by
  classical
  have hg0 : GoodCell (Box.mk' (1 : ℝ) 1 0 0 0 0 true) := square_star.cell
  obtain ⟨⟨box, points⟩, hg⟩ : ∃ r, (⟨Box.mk' 1 1 0 0 0 0 true, [⟨0, 0, 0⟩]⟩ : UnitCell ℝ).generateSystem
      ⟨3, 3, 1⟩ 1 none = some r := by
    rw [← Option.isSome_iff_exists, Option.isSome_iff_ne_none]
    intro h0
    have := (C59_raises_iff _ _ _ _ hg0).mp h0
    norm_num [Box.mk', Box.setL] at this
  have hlen : points.length = 9 := by
    have := C59_count _ _ _ hg0 _ _ hg
    simp at this
    omega
  obtain ⟨t, ht⟩ := C59_exact (Box.mk' (1 : ℝ) 1 0 0 0 0 true) ⟨3, 3, 1⟩ hg0
  obtain ⟨-, hdim, ⟨e1, e2, e3⟩, hL, -⟩ := ht _ _ _ _ hg
  obtain ⟨t, g⟩ := generated square_star.cell square_star.distinct hg
  have h2D : box.is2D = true := by rw [hdim]; simp [Box.mk', Box.setL]
  set k : Container := ⟨3, 0, 3, 0, 0, 1⟩ with hkdef
  have hk : container box = some k := by
    simp [container, Box.getLatticeVector, h2D, e1, hL, Box.mk', Box.setL, hkdef]
  have hsep := separate_crystal g hk
  have hsepU : Separate Diagram.unit lone := fun i j s h1 h2 =>
    ((site_iff i s).mp h1).1.trans ((site_iff j s).mp h2).1.symm
  have himg := images_int square_units (fun x => decide (x.z = 0)) (by simp [lat2]) g
  set f : Vec3 ℝ → ℕ := fun s => if h : ∃ j, Site k points j s then h.choose else 0 with hfdef
  have hf : ∀ s, (∃ j, Site k points j s) → Site k points (f s) s := by
    intro s h
    simp only [hfdef, dif_pos h]
    exact h.choose_spec
  set P : ℕ → Vec3 ℝ := fun i => points.getD i ⟨0, 0, 0⟩ with hP
  set o : ℕ → Vec3 ℝ := fun i => P i - cube.pos with ho
  have hcp : ∀ i, cubeV.pos + o i = P i := by
    intro i
    change cube.pos + o i = _
    ext <;> simp [ho]
  set cells := (List.range points.length).map fun i => relabeled cubeV (o i) i f with hcells
  have hvo : ∀ c ∈ cells, VoroOK k points facetArea c := by
    intro c hc
    obtain ⟨i, hi, rfl⟩ := List.mem_map.mp hc
    rw [List.mem_range] at hi
    have hpi : points[i]? = some (P i) := by simp [hP, hi]
    have hsi : Site k points i (cubeV.pos + o i) := by
      rw [hcp]
      exact ⟨_, ⟨0, 0, 0⟩, hpi, by ext <;> simp [containerVector]⟩
    have hzi : (P i).z = 0 := planar_crystal g _ (List.mem_of_getElem? hpi) h2D
    refine voro_relabeled facetArea_add (fun s => ?_) hsepU hsep hf cubeV_ok hsi ?_
    · constructor
      · rintro ⟨j, hj⟩
        obtain ⟨v, h, hv, e, -, -⟩ := split_vector hk (planar_crystal g) (m := ⟨0, 0, 0⟩) hpi hj
        obtain ⟨x, hx, rfl⟩ := (himg i hi v).mp ⟨j, hv⟩
        have hx : x.z = 0 := by simpa using hx
        refine ⟨0, (site_iff 0 s).mpr ⟨rfl, ⟨x.x, x.y, h⟩, ?_⟩⟩
        have ex := congrArg Vec3.x e
        have ey := congrArg Vec3.y e
        have ez := congrArg Vec3.z e
        simp [units, containerVector, ho, hx] at ex ey ez
        ext <;> simp <;> linarith
      · rintro ⟨j, hj⟩
        obtain ⟨-, x, rfl⟩ := (site_iff j s).mp hj
        obtain ⟨j', hj'⟩ := (himg i hi _).mpr ⟨⟨x.x, x.y, 0⟩, rfl, rfl⟩
        refine ⟨j', ?_⟩
        have := site_add (site_image g.valid hk hsi hj') ⟨0, 0, x.z⟩
        convert this using 1
        ext <;> simp [units, cubeV, containerVector, hkdef] <;> ring
    · rw [hcp, hzi]
      constructor <;> norm_num [hkdef]
  have hri : ∀ c ∈ cells, ∀ r ∈ c.ridges, RidgeOK c r ∧ r.area = 1 := by
    intro c hc r hr
    obtain ⟨i, hi, rfl⟩ := List.mem_map.mp hc
    obtain ⟨r', hr', rfl⟩ := List.mem_map.mp hr
    have k := (cube_ok.each cube (by simp)).ridges r' hr'
    have k := ridge_moved (c := cubeV) ⟨k.verts, k.apart, k.unit, k.towards, k.bisects⟩ (o i)
    refine ⟨⟨k.verts, k.apart, k.unit, k.towards, k.bisects⟩, ?_⟩
    simp only [cubeV, cube, List.mem_cons, List.not_mem_nil, or_false] at hr'
    rcases hr' with rfl | rfl | rfl | rfl | rfl | rfl <;> rfl
  have hok : DiagramOK box points cells := by
    refine ⟨C128_images box points cells (planar_crystal g) facetArea k hk hvo fun c hc r hr => (hri c hc r hr).1,
      ?_, by omega⟩
    simp [hcells, List.map_map, Function.comp_def, relabeled]
  obtain ⟨sortV, sortB, hs⟩ := sorts_exist
  obtain ⟨s', e, -⟩ := C80_neighbor_list box points cells hok sortV sortB hs ⟨⟨0, 0, [], false, [], []⟩, [], []⟩
  refine ⟨_, box, points, s'.nlist, square_cell, hlen, ⟨⟨⟨3, 3, 1⟩, 1, hg, 5 / 4, by norm_num, ?_⟩,
    ⟨cells, facetArea, k, sortV, sortB, _, s', hok, facetArea_rigid, hk, hvo,
      fun c hc r hr => by rw [(hri c hc r hr).2]; norm_num, hs, e, rfl⟩⟩⟩
  refine ⟨fun _ => ?_, fun _ => ?_, fun _ h => by rw [h2D] at h; cases h⟩ <;>
    norm_num [Box.getNearestPlaneDistance, e1, e2, e3, hL, Box.mk', Box.setL]

/-- The hypotheses of `C134_square_order` are met by the crystal of 9 cells. -/
example : ∃ u box points nl, ∃ order : List ℕ, UnitCell.square = some u ∧ points.length = 9 ∧
    VoronoiNeighbors u 1 box points nl ∧ order.Perm (List.range points.length) := by
  obtain ⟨u, box, points, nl, hu, hlen, hn⟩ := square_three
  exact ⟨u, box, points, nl, _, hu, hlen, hn, List.Perm.refl _⟩

end Freud
