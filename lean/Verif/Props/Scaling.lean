import Verif.Spec.Scaling
import Verif.Props.Renumber
import Verif.Props.RenumberSteinhardt
import Verif.Props.MSD
import Verif.Props.BoxOps
import Verif.Lemmas.PeriodicBuffer

/-!
# Property C89: the unit of length
-/

namespace Freud
open Spec

theorem norm_smul' {c : ℝ} (hc : 0 < c) (v : Vec3 ℝ) : Vec3.norm (Vec3.smul c v) = c * Vec3.norm v := by
  unfold Vec3.norm
  rw [show Vec3.dot (Vec3.smul c v) (Vec3.smul c v) = c ^ 2 * Vec3.dot v v by
    simp only [Vec3.dot, Vec3.smul]; ring, Real.sqrt_mul (sq_nonneg c), Real.sqrt_sq hc.le]

theorem smul_injective {c : ℝ} (hc : 0 < c) : Function.Injective (Vec3.smul c) := by
  rintro ⟨x, y, z⟩ ⟨x', y', z'⟩ h
  simp only [Vec3.smul, Vec3.mk.injEq] at h
  rw [mul_left_cancel₀ hc.ne' h.1, mul_left_cancel₀ hc.ne' h.2.1, mul_left_cancel₀ hc.ne' h.2.2]

theorem smul_smul' (c d : ℝ) (v : Vec3 ℝ) : Vec3.smul c (Vec3.smul d v) = Vec3.smul (c * d) v := by
  ext <;> simp <;> ring

theorem smul_one' (v : Vec3 ℝ) : Vec3.smul 1 v = v := by ext <;> simp

theorem smul_sub' (c : ℝ) (u v : Vec3 ℝ) : Vec3.smul c (u - v) = Vec3.smul c u - Vec3.smul c v := by
  ext <;> simp <;> ring

namespace Spec.ScaledBox
variable {c : ℝ} {b b' : Box ℝ}

theorem symm (hc : 0 < c) (hb : Valid b) (h : ScaledBox c b b') : ScaledBox c⁻¹ b' b := by
  refine ⟨?_, ⟨h.tilts.1.symm, h.tilts.2.1.symm, h.tilts.2.2.symm⟩,
    ⟨h.periodic.1.symm, h.periodic.2.1.symm, h.periodic.2.2.symm⟩, h.dims.symm, hb⟩
  rw [h.L]
  ext <;> simp [hc.ne']

theorem lattice (h : ScaledBox c b b') (n : Vec3 ℤ) :
    Spec.lattice b' n = Vec3.smul c (Spec.lattice b n) := by
  ext <;> simp [Spec.lattice, comb, a1, a2, a3, h.L, h.tilts.1, h.tilts.2.1, h.tilts.2.2] <;> ring

theorem allowed (h : ScaledBox c b b') (n : Vec3 ℤ) : AllowedShift b' n ↔ AllowedShift b n := by
  unfold AllowedShift
  rw [h.periodic.1, h.periodic.2.1, h.periodic.2.2, h.dims]

theorem isImage (hc : 0 < c) (h : ScaledBox c b b') (u v : Vec3 ℝ) :
    IsImage b' (Vec3.smul c u) (Vec3.smul c v) ↔ IsImage b u v := by
  unfold IsImage
  refine exists_congr fun n => and_congr (h.allowed n) ?_
  rw [h.lattice, ← (smul_injective hc).eq_iff (a := v)]
  refine Eq.congr_right ?_
  ext <;> simp <;> ring

theorem nearestImage (hc : 0 < c) (h : ScaledBox c b b') (u v : Vec3 ℝ) :
    NearestImage b' (Vec3.smul c u) (Vec3.smul c v) ↔ NearestImage b u v := by
  unfold NearestImage
  rw [h.isImage hc]
  refine and_congr_right fun _ => ⟨fun k w hw => ?_, fun k w hw => ?_⟩
  · have := k _ ((h.isImage hc _ _).mpr hw)
    rw [norm_smul' hc, norm_smul' hc] at this
    exact le_of_mul_le_mul_left this hc
  · have e : Vec3.smul c (Vec3.smul c⁻¹ w) = w := by
      rw [smul_smul', mul_inv_cancel₀ hc.ne', smul_one']
    rw [← e] at hw ⊢
    rw [norm_smul' hc, norm_smul' hc]
    exact mul_le_mul_of_nonneg_left (k _ ((h.isImage hc _ _).mp hw)) hc.le

theorem inCell (h : ScaledBox c b b') {v : Vec3 ℝ} (hv : InCell b v) : InCell b' (Vec3.smul c v) := by
  obtain ⟨f, ⟨rfl, h2⟩, h3⟩ := hv
  refine ⟨f, ⟨?_, by rw [h.dims]; exact h2⟩, h3⟩
  ext <;> simp [comb, a1, a2, a3, h.L, h.tilts.1, h.tilts.2.1, h.tilts.2.2] <;> ring

theorem belowHalf (hc : 0 < c) (h : ScaledBox c b b') (r : ℝ) : BelowHalf b' (c * r) ↔ BelowHalf b r := by
  have key : ∀ x y s : ℝ, 2 * (c * x) < c * y / s ↔ 2 * x < y / s := by
    intro x y s
    rw [mul_div_assoc, mul_left_comm]
    exact mul_lt_mul_iff_right₀ hc
  have key' : ∀ x y : ℝ, 2 * (c * x) < c * y ↔ 2 * x < y := by
    intro x y
    rw [mul_left_comm]
    exact mul_lt_mul_iff_right₀ hc
  unfold BelowHalf Box.getNearestPlaneDistance
  simp only [h.L, h.tilts.1, h.tilts.2.1, h.tilts.2.2, h.periodic.1, h.periodic.2.1, h.periodic.2.2,
    h.dims, key, key']

theorem volume (h : ScaledBox c b b') :
    b'.getVolume = (if b.is2D then c ^ 2 else c ^ 3) * b.getVolume := by
  unfold Box.getVolume
  rw [h.dims, h.L]
  split_ifs <;> simp <;> ring

theorem system (hc : 0 < c) (h : ScaledBox c b b') {pts qpts : List (Vec3 ℝ)}
    (hs : PeriodicSystem b pts qpts) :
    PeriodicSystem b' (scaledPoints c pts) (scaledPoints c qpts) := by
  refine ⟨⟨h.valid, ?_, ?_⟩, ?_, ?_⟩
  · obtain ⟨h1, h2, h3⟩ := hs.inBox.pos
    unfold PositiveLengths
    rw [h.L, h.dims]
    exact ⟨mul_pos hc h1, mul_pos hc h2, fun e => mul_pos hc (h3 e)⟩
  · intro p hp
    obtain ⟨p, hp', rfl⟩ := List.mem_map.mp hp
    exact h.inCell (hs.inBox.inside p hp')
  · unfold FullyPeriodic
    rw [h.periodic.1, h.periodic.2.1, h.periodic.2.2]
    exact hs.periodic
  · intro p hp
    obtain ⟨p, hp', rfl⟩ := List.mem_map.mp hp
    exact h.inCell (hs.query p hp')

/-- Wrapping commutes with scaling. -/
theorem wrap (hc : 0 < c) (hb : Valid b) (h : ScaledBox c b b') (v : Vec3 ℝ) :
    b'.wrap (Vec3.smul c v) = Vec3.smul c (b.wrap v) := by
  have hf : b'.makeFractional (Vec3.smul c v) = b.makeFractional v := by
    have k : ∀ x y : ℝ, c * x / (c * y) = x / y := fun x y => mul_div_mul_left _ _ hc.ne'
    unfold Box.makeFractional
    rw [h.valid.lo_eq, hb.lo_eq, h.L, h.tilts.1, h.tilts.2.1, h.tilts.2.2, h.dims]
    simp only [Vec3.sub_x, Vec3.sub_y, Vec3.sub_z, Vec3.smul_x, Vec3.smul_y, Vec3.smul_z]
    rw [← k (v.x - _ - _), ← k (v.y - _ - _), ← k (v.z - _)]
    split_ifs <;> ext <;> simp only <;> congr 1 <;> ring
  have ha : ∀ f, b'.makeAbsolute f = Vec3.smul c (b.makeAbsolute f) := by
    intro f
    unfold Box.makeAbsolute
    rw [h.valid.lo_eq, hb.lo_eq, h.L, h.tilts.1, h.tilts.2.1, h.tilts.2.2, h.dims]
    split_ifs <;> ext <;> simp [Vec3.cmul] <;> ring
  unfold Box.wrap
  rw [h.periodic.1, h.periodic.2.1, h.periodic.2.2, hf]
  split_ifs <;> simp only [ha]

end Spec.ScaledBox

theorem scaledPoints_get (c : ℝ) (pts : List (Vec3 ℝ)) (i : ℕ) :
    (scaledPoints c pts)[i]? = (pts[i]?).map (Vec3.smul c) := by
  unfold scaledPoints; rw [List.getElem?_map]; rfl

theorem scaledPoints_getD (c : ℝ) (pts : List (Vec3 ℝ)) (i : ℕ) :
    (scaledPoints c pts).getD i ⟨0, 0, 0⟩ = Vec3.smul c (pts.getD i ⟨0, 0, 0⟩) := by
  rw [List.getD_eq_getElem?_getD, List.getD_eq_getElem?_getD, scaledPoints_get]
  cases pts[i]? with
  | none => simp [Vec3.smul]
  | some p => rfl

theorem scaledBond_injective {c : ℝ} (hc : 0 < c) : Function.Injective (scaledBond c) := by
  rintro ⟨q, p, d, w, v⟩ ⟨q', p', d', w', v'⟩ h
  simp only [scaledBond, Bond.mk.injEq] at h
  obtain ⟨rfl, rfl, h3, rfl, h5⟩ := h
  rw [mul_left_cancel₀ hc.ne' h3, smul_injective hc h5]

theorem queryBond_scaled {c : ℝ} (hc : 0 < c) {b b' : Box ℝ} (h : ScaledBox c b b')
    (pts qpts : List (Vec3 ℝ)) (rMax rMin : ℝ) (excl : Bool) (bd : Bond ℝ) :
    IsQueryBond b' (scaledPoints c pts) (scaledPoints c qpts) (c * rMax) (c * rMin) excl
      (scaledBond c bd) ↔ IsQueryBond b pts qpts rMax rMin excl bd := by
  have hv : (scaledBond c bd).vec = Vec3.smul c bd.vec := rfl
  unfold IsQueryBond IsBallBond
  simp only [hv, norm_smul' hc, scaledPoints_get]
  simp only [scaledBond, mul_right_inj' hc.ne', mul_le_mul_iff_right₀ hc, mul_lt_mul_iff_right₀ hc]
  constructor
  · rintro ⟨q', h1, h2, h3, h4, h5, h6, h7, p', h8, h9⟩
    obtain ⟨q, hq, rfl⟩ := Option.map_eq_some_iff.mp h1
    obtain ⟨p, hp, rfl⟩ := Option.map_eq_some_iff.mp h8
    rw [← smul_sub', h.isImage hc] at h9
    exact ⟨q, hq, h2, h3, h4, h5, h6, h7, p, hp, h9⟩
  · rintro ⟨q, h1, h2, h3, h4, h5, h6, h7, p, h8, h9⟩
    refine ⟨_, by rw [h1]; rfl, h2, h3, h4, h5, h6, h7, _, by rw [h8]; rfl, ?_⟩
    rw [← smul_sub', h.isImage hc]
    exact h9

/-- **C89**: if box, positions and cutoffs are given in another unit of length, the same bonds are
found, with lengths and vectors in that unit, whichever way the neighbors are specified. -/
theorem C89_bonds (c : ℝ) (hc : 0 < c) (b b' : Box ℝ) (h : ScaledBox c b b') (pts qpts : List (Vec3 ℝ))
    (hs : PeriodicSystem b pts qpts) (rMax rMin : ℝ) (hmin : 0 ≤ rMin) (hhalf : BelowHalf b rMax)
    (excl : Bool) (src src' : Source) (hsrc : IsSource b pts qpts rMax rMin excl src)
    (hsrc' : IsSource b' (scaledPoints c pts) (scaledPoints c qpts) (c * rMax) (c * rMin) excl src') :
    (bondsFrom src').Perm ((bondsFrom src).map (scaledBond c)) := by
  obtain ⟨-, a, p, m, n⟩ := source_perm hs hmin hhalf hsrc
  obtain ⟨-, a', p', m', n'⟩ := source_perm (h.system hc hs) (mul_nonneg hc.le hmin)
    ((h.belowHalf hc rMax).mpr hhalf) hsrc'
  refine (p'.trans ?_).trans (p.map (scaledBond c)).symm
  refine (List.perm_ext_iff_of_nodup (n'.of_map _)
    ((n.of_map _).map (scaledBond_injective hc))).mpr fun bd => ?_
  rw [m', List.mem_map]
  constructor
  · intro hbd
    have e : scaledBond c ⟨bd.q, bd.p, c⁻¹ * bd.dist, bd.weight, Vec3.smul c⁻¹ bd.vec⟩ = bd := by
      cases bd; simp [scaledBond, hc.ne']
    exact ⟨_, (m _).mpr ((queryBond_scaled hc h _ _ _ _ _ _).mp (by rw [e]; exact hbd)), e⟩
  · rintro ⟨bd', hbd', rfl⟩
    exact (queryBond_scaled hc h _ _ _ _ _ _).mpr ((m _).mp hbd')

/-- **C89**: neighbor lists of the two systems. -/
theorem C89_neighbor_lists (c : ℝ) (hc : 0 < c) (b b' : Box ℝ) (h : ScaledBox c b b')
    (pts qpts : List (Vec3 ℝ)) (hs : PeriodicSystem b pts qpts) (rMax rMin : ℝ) (hmin : 0 ≤ rMin)
    (hhalf : BelowHalf b rMax) (excl : Bool) (nl nl' : NList ℝ)
    (hsrc : IsSource b pts qpts rMax rMin excl (.list nl))
    (hsrc' : IsSource b' (scaledPoints c pts) (scaledPoints c qpts) (c * rMax) (c * rMin) excl (.list nl')) :
    ScaledList c nl nl' := by
  have := C89_bonds c hc b b' h pts qpts hs rMax rMin hmin hhalf excl _ _ hsrc hsrc'
  rwa [bondsFrom_list, bondsFrom_list] at this

/-! ### Results -/

theorem pairsIn_scaled {c : ℝ} (hc : 0 < c) {b b' : Box ℝ} (h : ScaledBox c b b')
    (pts qpts : List (Vec3 ℝ)) (excl : Bool) (lo hi : ℝ) :
    pairsIn b' (scaledPoints c pts) (scaledPoints c qpts) excl (c * lo) (c * hi) =
      pairsIn b pts qpts excl lo hi := by
  ext ⟨i, j⟩
  simp only [pairsIn, Set.mem_setOf_eq, scaledPoints_get]
  refine and_congr_right fun _ => ⟨?_, ?_⟩
  · rintro ⟨q', p', w, h1, h2, h3, h4, h5⟩
    obtain ⟨q, hq, rfl⟩ := Option.map_eq_some_iff.mp h1
    obtain ⟨p, hp, rfl⟩ := Option.map_eq_some_iff.mp h2
    have e : Vec3.smul c (Vec3.smul c⁻¹ w) = w := by
      rw [smul_smul', mul_inv_cancel₀ hc.ne', smul_one']
    rw [← e] at h3 h4 h5
    rw [← smul_sub', h.nearestImage hc] at h3
    rw [norm_smul' hc] at h4 h5
    exact ⟨q, p, _, hq, hp, h3, le_of_mul_le_mul_left h4 hc, lt_of_mul_lt_mul_left h5 hc.le⟩
  · rintro ⟨q, p, w, h1, h2, h3, h4, h5⟩
    refine ⟨_, _, Vec3.smul c w, by rw [h1]; rfl, by rw [h2]; rfl, ?_, ?_, ?_⟩
    · rw [← smul_sub', h.nearestImage hc]; exact h3
    · rw [norm_smul' hc]; exact mul_le_mul_of_nonneg_left h4 hc.le
    · rw [norm_smul' hc]; exact mul_lt_mul_of_pos_left h5 hc

/-- One frame of an RDF in two units of length. -/
structure Spec.ScaledFrame (c : ℝ) (f f' : RDFFrame) : Prop where
  box : ScaledBox c f.box f'.box
  pts : f'.pts = scaledPoints c f.pts
  qpts : f'.qpts = scaledPoints c f.qpts
  excl : f'.excl = f.excl

/-- **C89**: the RDF, and the numbers of neighbors up to the edges of the bins, do not depend on the
unit of length, when the range of the RDF is given in that unit. -/
theorem C89_rdf (c : ℝ) (hc : 0 < c) (pi : ℝ) (bins : ℕ) (rMax rMin : ℝ) (a a' : RegularAxis ℝ)
    (ha : RDF.mkAxis bins rMax rMin = some a) (ha' : RDF.mkAxis bins (c * rMax) (c * rMin) = some a')
    (hb : bins ≤ OVERFLOW_BIN) (mode : NormalizationMode) (box0 box0' : Box ℝ) (fs fs' : List RDFFrame)
    (hfs : ∀ f ∈ fs, f.OK rMax rMin) (hfs' : ∀ f ∈ fs', f.OK (c * rMax) (c * rMin))
    (hsame : List.Forall₂ (ScaledFrame c) fs fs') (last : RDFFrame) (hlast : fs.getLast? = some last)
    (hok : FrameOK mode ⟨last.box, last.pts.length, last.qpts.length⟩) (order order' : List ℕ)
    (hord : order.Perm (List.range bins)) (hord' : order'.Perm (List.range bins)) :
    ∃ s s1 s' s1', (RDF.new a mode box0).run (RDF.fill pi a) (RDF.zero a)
        (fs.map fun f => RDF.frameFrom ⟨f.box, f.pts.length, f.qpts.length⟩ f.src f.ev) = some s ∧
      s.refresh (RDF.fill pi a) order = some s1 ∧
      (RDF.new a' mode box0').run (RDF.fill pi a') (RDF.zero a')
        (fs'.map fun f => RDF.frameFrom ⟨f.box, f.pts.length, f.qpts.length⟩ f.src f.ev) = some s' ∧
      s'.refresh (RDF.fill pi a') order' = some s1' ∧
      ∀ k < bins, s1'.out.1[k]? = s1.out.1[k]? ∧ s1'.out.2[k]? = s1.out.2[k]? := by
  have hsum : ∀ lo hi, (fs'.map fun f => (pairsIn f.box f.pts f.qpts f.excl (c * lo) (c * hi)).ncard) =
      fs.map fun f => (pairsIn f.box f.pts f.qpts f.excl lo hi).ncard := by
    intro lo hi
    clear hfs hfs' hlast
    induction hsame with
    | nil => rfl
    | cons h _ ih =>
      rw [List.map_cons, List.map_cons, ih, h.pts, h.qpts, h.excl, pairsIn_scaled hc h.box]
  obtain ⟨last', hlast', hl⟩ : ∃ last', fs'.getLast? = some last' ∧ ScaledFrame c last last' := by
    clear hfs hfs' hsum hok
    induction hsame with
    | nil => cases hlast
    | @cons f f' l l' h ht ih =>
      cases ht with
      | nil =>
        simp only [List.getLast?_singleton, Option.some.injEq] at hlast
        subst hlast
        exact ⟨f', rfl, h⟩
      | cons h2 ht2 =>
        rw [List.getLast?_cons_cons] at hlast
        rw [List.getLast?_cons_cons]
        exact ih hlast
  have e1 : last'.pts.length = last.pts.length := by rw [hl.pts]; simp [scaledPoints]
  have e2 : last'.qpts.length = last.qpts.length := by rw [hl.qpts]; simp [scaledPoints]
  have hvol := hl.box.volume
  have hcp : 0 < (if last.box.is2D = true then c ^ 2 else c ^ 3) := by split_ifs <;> positivity
  obtain ⟨s, s1, h1, h2, h3⟩ := C85_rdf pi bins rMax rMin a ha hb mode box0 fs hfs last hlast hok order hord
  obtain ⟨s', s1', h1', h2', h3'⟩ := C85_rdf pi bins (c * rMax) (c * rMin) a' ha' hb mode box0' fs' hfs'
    last' hlast' (by
      rw [e1, e2]
      refine ⟨hok.points, hok.query, hok.pair, ?_⟩
      simp only
      rw [hvol]
      exact mul_pos hcp hok.volume) order' hord'
  refine ⟨s, s1, s', s1', h1, h2, h1', h2', fun k hk => ?_⟩
  have hedge : ∀ k, edge (c * rMin) (c * rMax) bins k = c * edge rMin rMax bins k := by
    intro k; unfold edge; ring
  have g := h3 k hk
  have g' := h3' k hk
  simp only at g g'
  rw [g'.1, g'.2, g.1, g.2, hedge, hedge, e1, e2, ← hsame.length_eq]
  simp only [hsum]
  refine ⟨?_, trivial⟩
  congr 2
  have hshell : shellVolume pi last'.box.is2D (c * edge rMin rMax bins k) (c * edge rMin rMax bins (k + 1)) =
      (if last.box.is2D = true then c ^ 2 else c ^ 3) *
        shellVolume pi last.box.is2D (edge rMin rMax bins k) (edge rMin rMax bins (k + 1)) := by
    unfold shellVolume
    rw [hl.box.dims]
    split_ifs <;> ring
  have hdens : density mode ⟨last'.box, last.pts.length, last.qpts.length⟩ =
      density mode ⟨last.box, last.pts.length, last.qpts.length⟩ /
        (if last.box.is2D = true then c ^ 2 else c ^ 3) := by
    unfold density
    cases mode <;> simp only [hvol] <;> rw [div_div, mul_comm]
  rw [hshell, hdens]
  congr 1
  have := hcp.ne'
  generalize (if last.box.is2D = true then c ^ 2 else c ^ 3) = t at *
  field_simp

theorem filter_scaled {c : ℝ} {nl nl' : NList ℝ} (h : ScaledList c nl nl') (i : ℕ) :
    (nl'.bonds.filter (fun nb => nb.q = i)).Perm
      ((nl.bonds.filter (fun nb => nb.q = i)).map (scaledBond c)) := by
  refine (h.filter _).trans (List.Perm.of_eq ?_)
  rw [List.filter_map]
  rfl

/-- **C89**: with `r_max` and the diameter in the other unit, the numbers of neighbors of
`LocalDensity` are the same, and the densities are per area or volume in that unit. -/
theorem C89_local_density (c : ℝ) (hc : 0 < c) (pi : ℝ) (s s' : LocalDensity ℝ) (hD : 0 ≤ s.diameter)
    (hr : s'.rMax = c * s.rMax) (hd : s'.diameter = c * s.diameter) (b b' : Box ℝ)
    (hb : b'.is2D = b.is2D) (n : ℕ) (nl nl' : NList ℝ) (h : GoodList nl) (h' : GoodList nl')
    (hsame : ScaledList c nl nl') (hdist : ∀ nb ∈ nl.bonds, nb.dist < s.defaultRMax)
    (order order' : List ℕ) (hord : order.Perm (List.range n)) (hord' : order'.Perm (List.range n)) :
    ∃ r r', s.compute pi b n nl order = some r ∧ s'.compute pi b' n nl' order' = some r' ∧
      ∀ i < n, ∃ num dens, r.results.data[i]? = some (num, dens) ∧
        r'.results.data[i]? = some (num, dens / (if b.is2D then c ^ 2 else c ^ 3)) := by
  have hdist' : ∀ nb ∈ nl'.bonds, nb.dist < s'.defaultRMax := by
    intro nb hnb
    obtain ⟨nb, hnb', rfl⟩ := List.mem_map.mp (hsame.mem_iff.mp hnb)
    have := hdist nb hnb'
    unfold LocalDensity.defaultRMax at *
    rw [hr, hd]
    simp only [scaledBond]
    calc c * nb.dist < c * (s.rMax + 1 / 2 * s.diameter) := mul_lt_mul_of_pos_left this hc
      _ = _ := by ring
  obtain ⟨r, e, -, hv⟩ := C39_local_density pi s hD b n nl h hdist order hord
  obtain ⟨r', e', -, hv'⟩ := C39_local_density pi s' (by rw [hd]; positivity) b' n nl' h' hdist' order' hord'
  refine ⟨r, r', e, e', fun i hi => ⟨_, _, hv i hi, ?_⟩⟩
  rw [hv' i hi]
  have ho : ∀ d, overlap s'.rMax s'.diameter (c * d) = overlap s.rMax s.diameter d := by
    intro d
    unfold overlap
    rw [hr, hd, show c * d + c * s.diameter / 2 = c * (d + s.diameter / 2) by ring,
      show c * d - c * s.diameter / 2 = c * (d - s.diameter / 2) by ring,
      show c * s.rMax + c * s.diameter / 2 - c * d = c * (s.rMax + s.diameter / 2 - d) by ring,
      mul_div_mul_left _ _ hc.ne']
    simp only [mul_le_mul_iff_right₀ hc]
  have e2 : ((nl'.bonds.filter (fun nb => nb.q = i)).map
      (fun nb => overlap s'.rMax s'.diameter nb.dist)).sum = ((nl.bonds.filter (fun nb => nb.q = i)).map
      (fun nb => overlap s.rMax s.diameter nb.dist)).sum := by
    rw [((filter_scaled hsame i).map _).sum_eq, List.map_map]
    congr 1
    refine List.map_congr_left fun nb _ => ?_
    exact ho nb.dist
  have e3 : ballVolume pi b'.is2D s'.rMax =
      ballVolume pi b.is2D s.rMax * (if b.is2D then c ^ 2 else c ^ 3) := by
    unfold ballVolume
    rw [hb, hr]
    split_ifs <;> ring
  rw [e2, e3, div_div]

theorem direction_scaled {c : ℝ} (hc : 0 < c) (v : Vec3 ℝ) : direction (Vec3.smul c v) = direction v := by
  unfold direction
  simp only [Vec3.smul_x, Vec3.smul_y, mul_eq_zero, hc.ne', false_or]
  split_ifs with h0
  · rfl
  · rw [show (c * v.x) ^ 2 + (c * v.y) ^ 2 = c ^ 2 * (v.x ^ 2 + v.y ^ 2) by ring,
      Real.sqrt_mul (sq_nonneg c), Real.sqrt_sq hc.le]
    have : (⟨c * v.x, c * v.y⟩ : ℂ) = (c : ℂ) * ⟨v.x, v.y⟩ := by apply Complex.ext <;> simp
    rw [this, Complex.ofReal_mul]
    exact mul_div_mul_left _ _ (by exact_mod_cast hc.ne')

/-- **C89**: the k-atic order parameters do not depend on the unit of length. -/
theorem C89_hexatic (c : ℝ) (hc : 0 < c) (p : Hexatic.Params) (b b' : Box ℝ) (hb : Valid b)
    (h2 : b.is2D = true) (hbox : ScaledBox c b b') (points : List (Vec3 ℝ)) (nl nl' : NList ℝ)
    (h : ListFor nl points.length) (h' : ListFor nl' points.length) (hsame : ScaledList c nl nl')
    (order order' : List ℕ) (hord : order.Perm (List.range points.length))
    (hord' : order'.Perm (List.range points.length)) :
    ∃ r, Hexatic.compute p b points nl order = some r ∧
      Hexatic.compute p b' (scaledPoints c points) nl' order' = some r := by
  have hl : (scaledPoints c points).length = points.length := by simp [scaledPoints]
  refine ⟨_, C75_value p b h2 points nl h order hord, ?_⟩
  rw [C75_value p b' (by rw [hbox.dims]; exact h2) _ nl' (by rw [hl]; exact h') order' (by rw [hl]; exact hord'),
    hl]
  congr 1
  refine List.map_congr_left fun i _ => ?_
  have hperm : (weightedBonds b' (scaledPoints c points) p.weighted nl'.bonds i).Perm
      ((weightedBonds b points p.weighted nl.bonds i).map fun x => (x.1, Vec3.smul c x.2)) := by
    unfold weightedBonds
    refine ((filter_scaled hsame i).map _).trans (List.Perm.of_eq ?_)
    rw [List.map_map, List.map_map]
    refine List.map_congr_left fun nb _ => ?_
    simp only [Function.comp, scaledBond, scaledPoints_getD, ← smul_sub', hbox.wrap hc hb]
  rw [katic_perm hperm]
  unfold katic
  simp only [List.map_map, Function.comp_def, direction_scaled hc]

/-- **C89**: the clusters do not depend on the unit of length. -/
theorem C89_cluster (c : ℝ) (n : ℕ) (nl nl' : NList ℝ) (h : ListFor nl n) (hq : nl.numQueryPoints = n)
    (h' : ListFor nl' n) (hq' : nl'.numQueryPoints = n) (hsame : ScaledList c nl nl')
    (work work' : List (List (ℕ × ℕ)))
    (hw : work.flatten.Perm (nl.bonds.map fun nb => (nb.q, nb.p)))
    (hw' : work'.flatten.Perm (nl'.bonds.map fun nb => (nb.q, nb.p))) (s s' : DSet.DState)
    (hr : DSet.Reachable n work s) (hr' : DSet.Reachable n work' s')
    (hfin : ∀ t ∈ s.threads, t.finished) (hfin' : ∀ t ∈ s'.threads, t.finished) (key key' : ℕ → ℕ)
    (res res' : Cluster.Result) (hres : Cluster.Finish n s.mem key res)
    (hres' : Cluster.Finish n s'.mem key' res') :
    (∀ i < n, ∀ j < n, res'.clusterIdx.getD i 0 = res'.clusterIdx.getD j 0 ↔
      res.clusterIdx.getD i 0 = res.clusterIdx.getD j 0) ∧ res'.num = res.num := by
  have hperm : (nl'.bonds.map fun nb => (nb.q, nb.p)).Perm (nl.bonds.map fun nb => (nb.q, nb.p)) := by
    have := hsame.map fun nb => (nb.q, nb.p)
    rwa [List.map_map] at this
  have := C86_cluster n 1 (fun _ h => h) nl nl h hq h hq (by
      unfold SameBonds
      rw [show relabel (1 : Equiv.Perm ℕ) (1 : Equiv.Perm ℕ) = id from rfl, List.map_id])
    work work' hw (hw'.trans hperm) s s' hr hr' hfin hfin' key key' res res' hres hres'
  exact this

namespace Steinhardt

theorem unit_scaled {c : ℝ} (hc : 0 < c) (v : Vec3 ℝ) : unit (Vec3.smul c v) = unit v := by
  unfold unit
  have h0 : Vec3.smul c v = ⟨0, 0, 0⟩ ↔ v = ⟨0, 0, 0⟩ := by
    constructor
    · intro h
      apply smul_injective hc
      rw [h]; simp [Vec3.smul]
    · rintro rfl; simp [Vec3.smul]
  rw [if_congr h0 rfl rfl]
  split_ifs with h
  · rfl
  · have := norm_smul' hc v
    unfold Vec3.norm at this
    rw [this, smul_smul']
    congr 1
    rw [one_div, mul_inv, mul_comm c⁻¹, mul_assoc, inv_mul_cancel₀ hc.ne', mul_one, one_div]

/-- Two calls of `compute` on the same system in two units of length. -/
structure _root_.Freud.Spec.ScaledCall (c : ℝ) (k k' : Call) : Prop where
  valid : Valid k.box
  box : ScaledBox c k.box k'.box
  points : k'.points = scaledPoints c k.points
  bonds : ScaledList c k.nlist k'.nlist

theorem directions_scaled {c : ℝ} (hc : 0 < c) {k k' : Call} (h : ScaledCall c k k') (weighted : Bool)
    (i : ℕ) : (directions k'.box k'.points weighted k'.nlist.bonds i).Perm
      (directions k.box k.points weighted k.nlist.bonds i) := by
  unfold directions
  refine ((filter_scaled h.bonds i).map _).trans (List.Perm.of_eq ?_)
  rw [List.map_map]
  refine List.map_congr_left fun nb _ => ?_
  simp only [Function.comp, bondVector, h.points, scaledPoints_getD, ← smul_sub', h.box.wrap hc h.valid,
    unit_scaled hc]
  rfl

theorem dist_scaled {c : ℝ} (hc : 0 < c) {k k' : Call} (h : ScaledCall c k k') (p : Params) (av : Bool)
    (i : ℕ) : asM (dist p k' av i) = asM (dist p k av i) := by
  unfold dist distribution
  cases av with
  | false =>
    simp only [Bool.false_eq_true, if_false]
    exact normalized_perm (directions_scaled hc h p.weighted i)
  | true =>
    simp only [if_true]
    refine mix_perm ?_
    rw [List.map_map, List.map_map]
    have hp : ((k'.nlist.bonds.filter (fun nb => nb.q = i)).map (·.p) ++ [i]).Perm
        ((k.nlist.bonds.filter (fun nb => nb.q = i)).map (·.p) ++ [i]) := by
      refine List.Perm.append_right _ ?_
      have := (filter_scaled h.bonds i).map (·.p)
      rwa [List.map_map] at this
    refine (hp.map _).trans (List.Perm.of_eq ?_)
    exact List.map_congr_left fun j _ => normalized_perm (directions_scaled hc h p.weighted j)

end Steinhardt

/-- **C89**: the Steinhardt order parameters (`q_l` and `w_l`, averaged or not, weighted or not, after
any history of calls) do not depend on the unit of length. -/
theorem C89_steinhardt (s : ℝ) (hs : 0 < s) (sph : Steinhardt.Sph) (p : Steinhardt.Params)
    (Y : ℤ → Vec3 ℝ → ℂ) (hf : FsphOK sph p.l Y) (hl : p.wl = true → p.l ≤ 20)
    (history history' : List Steinhardt.Call) (hh : ∀ c ∈ history, LegalSteinhardt p.l c)
    (hh' : ∀ c ∈ history', LegalSteinhardt p.l c) (c c' : Steinhardt.Call)
    (hc : LegalSteinhardt p.l c) (hc' : LegalSteinhardt p.l c') (h : ScaledCall s c c') :
    ∃ r r', Steinhardt.resultAfter sph p history c = some r ∧
      Steinhardt.resultAfter sph p history' c' = some r' ∧
      (∀ i < c.points.length, r'.qli[i]? = r.qli[i]? ∧ (r'.getQl p)[i]? = (r.getQl p)[i]? ∧
        (r'.particleOrder p)[i]? = (r.particleOrder p)[i]?) ∧ r'.order = r.order := by
  have hlen : c'.points.length = c.points.length := by rw [h.points]; simp [scaledPoints]
  refine steinhardt_congr hf hl hh hh' hc hc' id hlen (fun i hi => by rw [← hlen]; exact hi)
    (fun av i _ => Steinhardt.dist_scaled hs h p av i) fun av => ?_
  refine Steinhardt.mix_perm (List.Perm.of_eq ?_)
  rw [hlen, List.map_map, List.map_map]
  exact List.map_congr_left fun i _ => Steinhardt.dist_scaled hs h p av i

/-! ### Mean squared displacement -/

namespace MSD

theorem sqDist_scaled (c : ℝ) (u v : Vec3 ℝ) :
    sqDist (Vec3.smul c u) (Vec3.smul c v) = c ^ 2 * sqDist u v := by
  unfold sqDist; simp only [Vec3.smul_x, Vec3.smul_y, Vec3.smul_z]; ring

theorem column_scaled (c : ℝ) (mode : Mode) (r : List (Vec3 ℝ)) :
    column mode (scaledPoints c r) = (column mode r).map (c ^ 2 * ·) := by
  have hl : (scaledPoints c r).length = r.length := by simp [scaledPoints]
  have hp : ∀ k, posAt (scaledPoints c r) k = Vec3.smul c (posAt r k) := fun k => scaledPoints_getD c r k
  cases mode with
  | window =>
    simp only [column]
    rw [C41_window, C41_window, hl, List.map_map]
    refine List.map_congr_left fun m _ => ?_
    simp only [Function.comp, windowMSD, hp, hl, sqDist_scaled]
    rw [List.sum_map_mul_left, mul_div_assoc]
  | direct =>
    simp only [column]
    rw [C41_direct, C41_direct, hl, List.map_map]
    refine List.map_congr_left fun m _ => ?_
    simp only [Function.comp, directMSD, hp, sqDist_scaled]

end MSD

/-- **C89**: mean squared displacements, per particle, are multiplied by the square of the factor, in
both modes, also when the positions are unwrapped with images. -/
theorem C89_msd (c : ℝ) (b b' : Box ℝ) (h : ScaledBox c b b') (mode : MSD.Mode) (a a' : MSD.Arg)
    (hp : a'.particles = a.particles.map (scaledPoints c)) (hi : a'.images = a.images) :
    (a'.unwrapped (some b')).map (MSD.column mode) =
      (a.unwrapped (some b)).map fun r => (MSD.column mode r).map (c ^ 2 * ·) := by
  have hu : ∀ v n, b'.unwrap (Vec3.smul c v) n = Vec3.smul c (b.unwrap v n) := by
    intro v n
    unfold Box.unwrap
    rw [h.dims, h.L, h.tilts.1, h.tilts.2.1, h.tilts.2.2]
    split_ifs <;> ext <;> simp <;> ring
  have he : a'.unwrapped (some b') = (a.unwrapped (some b)).map (scaledPoints c) := by
    unfold MSD.Arg.unwrapped
    rw [hi, hp]
    cases a.images with
    | none => rfl
    | some im =>
      simp only
      rw [List.zipWith_map_left, List.map_zipWith]
      congr 1
      funext r ir
      unfold scaledPoints
      rw [List.zipWith_map_left, List.map_zipWith]
      congr 1
      funext v n
      exact hu v n
  rw [he, List.map_map]
  exact List.map_congr_left fun r _ => MSD.column_scaled c mode r

/-! ### Scaling a box with `*` -/

/-- **C89**: multiplying a box that is periodic in all directions by a number gives the box in the
other unit. -/
theorem C89_times (c : ℝ) (b b' : Box ℝ) (hb : Valid b) (hper : FullyPeriodic b)
    (h : mulBox b c = some b') : 0 < c ∧ ScaledBox c b b' := by
  unfold mulBox at h
  rw [ite_eq_iff] at h
  obtain ⟨hc, h⟩ | ⟨-, h⟩ := h
  · refine ⟨hc, ?_⟩
    unfold pyBox at h
    cases h2 : b.is2D with
    | true =>
      rw [h2, if_pos rfl, ite_eq_iff] at h
      obtain ⟨-, h⟩ | ⟨hne, h⟩ := h
      · cases h
      · cases h
        push Not at hne
        refine ⟨?_, ⟨rfl, rfl, rfl⟩, ⟨hper.1.symm, hper.2.1.symm, hper.2.2.symm⟩, h2.symm,
          PeriodicBuffer.mk'_valid _ _ _ _ _ _ _ hne.1 hne.2 (by simp)⟩
        ext <;> simp [Box.mk', Box.setL, mul_comm, hb.Lz_2D h2]
    | false =>
      rw [h2, if_neg (by simp), ite_eq_iff] at h
      obtain ⟨-, h⟩ | ⟨hne, h⟩ := h
      · cases h
      · cases h
        push Not at hne
        refine ⟨?_, ⟨rfl, rfl, rfl⟩, ⟨hper.1.symm, hper.2.1.symm, hper.2.2.symm⟩, h2.symm,
          PeriodicBuffer.mk'_valid _ _ _ _ _ _ _ hne.1 hne.2.1 fun _ => hne.2.2⟩
        ext <;> simp [Box.mk', Box.setL, mul_comm]
  · cases h

/-- **C89** (limit): the product of a number and a box that is not periodic in some direction is
periodic in all directions, so it is not the box in the other unit. -/
theorem C89_times_counterexample : ∃ b b' : Box ℝ, Valid b ∧ mulBox b 2 = some b' ∧
    ¬ ScaledBox 2 b b' := by
  refine ⟨(Box.mk' 10 10 10 0 0 0 false).setPeriodic true true false, Box.mk' 20 20 20 0 0 0 false,
    ?_, ?_, fun h => ?_⟩
  · constructor <;> simp [Box.mk', Box.setL, Box.setPeriodic]
  · norm_num [mulBox, pyBox, Box.mk', Box.setL, Box.setPeriodic]
  · have := h.periodic.2.2
    simp [Box.mk', Box.setL, Box.setPeriodic] at this

/-! ### Concrete cases -/

theorem cube_scaled : ScaledBox 2 (Box.mk' 10 10 10 0 0 0 false) (Box.mk' 20 20 20 0 0 0 false) := by
  refine ⟨?_, ⟨rfl, rfl, rfl⟩, ⟨rfl, rfl, rfl⟩, rfl, ?_⟩
  · ext <;> simp [Box.mk', Box.setL] <;> norm_num
  · exact PeriodicBuffer.mk'_valid _ _ _ _ _ _ _ (by norm_num) (by norm_num) fun _ => by norm_num

-- the two sources of `C89_bonds`, for a pair of particles bonded through a face of the box
theorem facePair_scaled : ∃ src src', IsSource (Box.mk' 10 10 10 0 0 0 false) facePair facePair 2 0 true src ∧
    IsSource (Box.mk' 20 20 20 0 0 0 false) (scaledPoints 2 facePair) (scaledPoints 2 facePair)
      (2 * 2) (2 * 0) true src' := by
  obtain ⟨found, nl, h, -⟩ := facePair_sources
  obtain ⟨nodes, hn, -⟩ := C21_every_point_once
    ((scaledPoints 2 facePair).map (flatten (Box.mk' 20 20 20 0 0 0 false : Box ℝ)))
  have h1 : AABBQuery.new (Box.mk' 20 20 20 0 0 0 false) (scaledPoints 2 facePair) =
      some ⟨Box.mk' 20 20 20 0 0 0 false, scaledPoints 2 facePair, nodes⟩ := by
    unfold AABBQuery.new
    rw [if_neg (by simp [scaledPoints, facePair]), if_neg (by simp [Box.mk', Box.setL]), hn]
    rfl
  obtain ⟨found', hf'⟩ := (C85_accepted_iff (.aabb _) _ _ _ h1
    (cube_scaled.system (by norm_num) facePair_system) (by simp [scaledPoints, facePair]) (2 * 2) (2 * 0)
    true).mpr ⟨by norm_num, by norm_num,
      Or.inr ((cube_scaled.belowHalf (by norm_num) 2).mpr (cube_half (by norm_num)))⟩
  exact ⟨_, _, h, .aabb _, found', h1, hf', Or.inl rfl⟩

-- the frames of `C89_rdf`, for the ranges [0, 1) and [0, 2)
example : ∃ f f' : RDFFrame, f.OK 1 0 ∧ f'.OK (2 * 1) (2 * 0) ∧ ScaledFrame 2 f f' ∧
    FrameOK .exact ⟨f.box, f.pts.length, f.qpts.length⟩ := by
  obtain ⟨src, src', h, h'⟩ := facePair_scaled
  refine ⟨⟨_, facePair, facePair, true, 2, 0, src, List.range src.iterations |>.map fun i => (0, i)⟩,
    ⟨_, scaledPoints 2 facePair, scaledPoints 2 facePair, true, 2 * 2, 2 * 0, src',
      List.range src'.iterations |>.map fun i => (0, i)⟩,
    ⟨facePair_system, cube_half (by norm_num), le_rfl, le_rfl, by norm_num, h, ?_⟩,
    ⟨cube_scaled.system (by norm_num) facePair_system,
      (cube_scaled.belowHalf (by norm_num) 2).mpr (cube_half (by norm_num)), by norm_num, le_rfl,
      by norm_num, h', ?_⟩, ⟨cube_scaled, rfl, rfl, rfl⟩, ⟨by simp [facePair], by simp [facePair], by simp, ?_⟩⟩
  · simp [IsExecution, List.map_map, Function.comp_def]
  · simp [IsExecution, List.map_map, Function.comp_def]
  · simp [Box.getVolume, Box.mk', Box.setL]

-- lists as in `C89_local_density`, `C89_hexatic`, `C89_cluster` and `C89_steinhardt`
example : ScaledList 2 ⟨2, 2, [⟨0, 1, 1, 1, ⟨1, 0, 0⟩⟩], false, [], []⟩
    ⟨2, 2, [⟨0, 1, 2, 1, ⟨2, 0, 0⟩⟩], false, [], []⟩ := by
  simp [ScaledList, scaledBond]

-- the arguments of `C89_msd`
example : ∃ a a' : MSD.Arg, a'.particles = a.particles.map (scaledPoints 2) ∧ a'.images = a.images ∧
    a.particles = [[⟨1, 0, 0⟩, ⟨2, 0, 0⟩]] :=
  ⟨⟨2, [[⟨1, 0, 0⟩, ⟨2, 0, 0⟩]], some [[⟨0, 0, 0⟩, ⟨1, 0, 0⟩]]⟩,
    ⟨2, [[⟨1, 0, 0⟩, ⟨2, 0, 0⟩]].map (scaledPoints 2), some [[⟨0, 0, 0⟩, ⟨1, 0, 0⟩]]⟩, rfl, rfl, rfl⟩

end Freud
