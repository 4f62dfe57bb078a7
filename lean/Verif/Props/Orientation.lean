import Verif.Spec.Orientation
import Verif.Props.PairFrames
import Verif.Model.LocalBondProjection
import Verif.Model.LocalDescriptors
import Verif.Model.Cubatic

/-!
# Property C111: equivalent descriptions of the orientations give the same results
-/

set_option linter.unusedSectionVars false

namespace Freud
open Spec

/-! ### Quaternions -/

namespace Orientation

theorem SameRotation.refl (q : Quat ℝ) : SameRotation q q := Or.inl rfl

theorem SameAngle.refl (a : ℝ) : SameAngle a a := ⟨0, by simp⟩

theorem rotate_same {q q' : Quat ℝ} (h : SameRotation q q') (v : Vec3 ℝ) : Quat.rotate q' v = Quat.rotate q v := by
  rcases h with rfl | rfl
  · rfl
  · ext <;> simp [Quat.rotate, Vec3.dot, Vec3.cross] <;> ring

theorem conj_same {q q' : Quat ℝ} (h : SameRotation q q') : SameRotation (Quat.conj q) (Quat.conj q') := by
  rcases h with rfl | rfl
  · exact Or.inl rfl
  · right
    ext <;> simp [Quat.conj]

theorem mul_same {a a' b b' : Quat ℝ} (h : SameRotation a a') (h' : SameRotation b b') :
    SameRotation (Quat.mul a b) (Quat.mul a' b') := by
  rcases h with rfl | rfl <;> rcases h' with rfl | rfl
  · exact Or.inl rfl
  · right
    ext <;> simp [Quat.mul, Vec3.dot, Vec3.cross] <;> ring
  · right
    ext <;> simp [Quat.mul, Vec3.dot, Vec3.cross] <;> ring
  · left
    ext <;> simp [Quat.mul, Vec3.dot, Vec3.cross] <;> ring

theorem ofQuat_same {q q' : Quat ℝ} (h : SameRotation q q') : Mat3.ofQuat q' = Mat3.ofQuat q := by
  rcases h with rfl | rfl
  · rfl
  · ext <;> simp [Mat3.ofQuat]

theorem twoPi_pos : 0 < realTrig.twoPi := realTrig_pos

theorem modulus_same {a a' : ℝ} (h : SameAngle a a') (d : ℝ) :
    modulusPositive (a' - d) realTrig.twoPi = modulusPositive (a - d) realTrig.twoPi := by
  obtain ⟨k, rfl⟩ := h
  rw [modulusPositive_eq _ _ twoPi_pos, modulusPositive_eq _ _ twoPi_pos]
  congr 1
  have : (a + k * (2 * Real.pi) - d) / realTrig.twoPi = (a - d) / realTrig.twoPi + (k : ℤ) := by
    rw [div_add' _ _ _ twoPi_pos.ne']
    congr 1
    simp only [realTrig]
    ring
  rw [this, Int.fract_add_intCast]

theorem fromAngle_same {a a' : ℝ} (h : SameAngle a a') :
    Mat2.fromAngle realTrig (-a') = Mat2.fromAngle realTrig (-a) := by
  obtain ⟨k, rfl⟩ := h
  have e : -(a + k * (2 * Real.pi)) = -a - k * (2 * Real.pi) := by ring
  unfold Mat2.fromAngle
  simp only [realTrig, e, Real.cos_sub_int_mul_two_pi, Real.sin_sub_int_mul_two_pi]

/-! ### Frames -/

variable {D : Type*} {R : D → D → Prop}

theorem renumbered_refl (b : Box ℝ) (pts : List (Vec3 ℝ)) :
    Renumbered b ⟨0, 0, 0⟩ (Equiv.refl _) pts pts := by
  refine ⟨rfl, fun i p hp => ⟨p, hp, ⟨0, 0, 0⟩, ⟨by simp, by simp, by simp⟩, ?_⟩⟩
  ext <;> simp [lattice, comb]

/-- Between a frame and its redescription: the source and the schedule of the one, the data of the
other. -/
theorem between (hR : ∀ x, R x x) {f f' : DataFrame D} (h : Redescribed R f f') (h' : f'.OK) :
    ∃ g : DataFrame D, SameSystem f g ∧ g.OK ∧ f' = { g with data := f'.data, queryData := f'.queryData } ∧
      (∀ i, R (g.data i) (f'.data i)) ∧ ∀ i, R (g.queryData i) (f'.queryData i) := by
  refine ⟨{ f' with
      data := fun i => if i < f.pts.length then f.data i else f'.data i
      queryData := fun i => if i < f.qpts.length then f.queryData i else f'.queryData i },
    ⟨h.box, h.excl, h.cutoff, h.inner, ⟨0, 0, 0⟩, Equiv.refl _, Equiv.refl _, fun _ => rfl, ?_, ?_, ?_, ?_⟩,
    ⟨h'.points, h'.queries, h'.system, h'.half, h'.inner0, h'.source, h'.exec⟩, rfl, ?_, ?_⟩
  · dsimp only
    rw [h.pts]
    exact renumbered_refl _ _
  · dsimp only
    rw [h.qpts]
    exact renumbered_refl _ _
  · intro i hi
    simp [hi]
  · intro i hi
    simp [hi]
  · intro i
    dsimp only
    split_ifs with hi
    · exact h.data i hi
    · exact hR _
  · intro i
    dsimp only
    split_ifs with hi
    · exact h.queryData i hi
    · exact hR _

theorem between_all (hR : ∀ x, R x x) {fs fs' : List (DataFrame D)} (h : List.Forall₂ (Redescribed R) fs fs')
    (h' : ∀ f ∈ fs', f.OK) {β : Type*} (call : DataFrame D → β)
    (hcall : ∀ (g : DataFrame D) (d q : ℕ → D), (∀ i, R (g.data i) (d i)) → (∀ i, R (g.queryData i) (q i)) →
      call { g with data := d, queryData := q } = call g) :
    ∃ gs, List.Forall₂ SameSystem fs gs ∧ (∀ g ∈ gs, g.OK) ∧ fs'.map call = gs.map call := by
  induction h with
  | nil => exact ⟨[], .nil, by simp, rfl⟩
  | @cons f f' fs fs' h1 _ ih =>
    obtain ⟨gs, a, b, c⟩ := ih fun f hf => h' f (List.mem_cons_of_mem _ hf)
    obtain ⟨g, p, q, r, d1, d2⟩ := between hR h1 (h' f' List.mem_cons_self)
    refine ⟨g :: gs, .cons p a, ?_, ?_⟩
    · intro x hx
      rcases List.mem_cons.mp hx with rfl | hx
      · exact q
      · exact b x hx
    · rw [List.map_cons, List.map_cons, c]
      congr 1
      conv_lhs => rw [r]
      exact hcall g _ _ d1 d2

end Orientation

open Orientation

/-! ### Potentials of mean force in the plane -/

section
open PMFT

/-- **C111**: the result of `PMFTXY` does not change when full turns are added to the angles of the
query points. -/
theorem C111_pmft_xy (xMax yMax : ℝ) (hx : 0 < xMax) (hy : 0 < yMax) (nx ny : ℕ) (g : PMFT.Grid ℝ)
    (hg : mkXY xMax yMax nx ny = some g)
    (hn : nx * ny ≤ OVERFLOW_BIN) (box0 box0' : Box ℝ) (fs fs' : List (DataFrame ℝ)) (hne : fs ≠ [])
    (hfs : ∀ f ∈ fs, f.OK) (hfs' : ∀ f ∈ fs', f.OK) (h2 : ∀ f ∈ fs, f.box.is2D = true)
    (hsame : List.Forall₂ (Redescribed SameAngle) fs fs') (order order' : List ℕ)
    (hord : order.Perm (List.range (nx * ny))) (hord' : order'.Perm (List.range (nx * ny))) :
    ∃ s s1 s' s1', PMFT.run check2D () (fun _ => fill g.jf) (zero g) (PMFT.new g () box0)
        (fs.map fun f => .accumulate (xyFrom realTrig f.info f.queryData f.src f.ev)) = some s ∧
      s.refresh (fun _ => fill g.jf) order = some s1 ∧
      PMFT.run check2D () (fun _ => fill g.jf) (zero g) (PMFT.new g () box0')
        (fs'.map fun f => .accumulate (xyFrom realTrig f.info f.queryData f.src f.ev)) = some s' ∧
      s'.refresh (fun _ => fill g.jf) order' = some s1' ∧ s1'.out = s1.out := by
  obtain ⟨gs, h1, hok, e⟩ := between_all SameAngle.refl hsame hfs'
    (fun f => PMFT.Op.accumulate (xyFrom realTrig f.info f.queryData f.src f.ev)) (by
      intro g d q _ hq
      have : sampleXY realTrig q = sampleXY realTrig g.queryData := by
        funext bd
        simp only [sampleXY, fromAngle_same (hq bd.q)]
      simp only [xyFrom, DataFrame.info, this])
  rw [e]
  exact C94_pmft_xy realTrig xMax yMax hx hy nx ny g hg hn box0 box0' fs gs hne hfs hok h2 h1 order order' hord hord'

/-- **C111**: the same for `PMFTXYT` and the angles of the points and of the query points. -/
theorem C111_pmft_xyt (xMax yMax : ℝ) (hx : 0 < xMax) (hy : 0 < yMax) (nx ny nt : ℕ) (g : PMFT.Grid ℝ)
    (hg : mkXYT realTrig xMax yMax nx ny nt = some g)
    (hn : nx * (ny * nt) ≤ OVERFLOW_BIN) (box0 box0' : Box ℝ) (fs fs' : List (DataFrame ℝ)) (hne : fs ≠ [])
    (hfs : ∀ f ∈ fs, f.OK) (hfs' : ∀ f ∈ fs', f.OK) (h2 : ∀ f ∈ fs, f.box.is2D = true)
    (hsame : List.Forall₂ (Redescribed SameAngle) fs fs') (order order' : List ℕ)
    (hord : order.Perm (List.range (nx * (ny * nt)))) (hord' : order'.Perm (List.range (nx * (ny * nt)))) :
    ∃ s s1 s' s1', PMFT.run check2D () (fun _ => fill g.jf) (zero g) (PMFT.new g () box0)
        (fs.map fun f => .accumulate (xytFrom realTrig f.info f.data f.queryData f.src f.ev)) = some s ∧
      s.refresh (fun _ => fill g.jf) order = some s1 ∧
      PMFT.run check2D () (fun _ => fill g.jf) (zero g) (PMFT.new g () box0')
        (fs'.map fun f => .accumulate (xytFrom realTrig f.info f.data f.queryData f.src f.ev)) = some s' ∧
      s'.refresh (fun _ => fill g.jf) order' = some s1' ∧ s1'.out = s1.out := by
  obtain ⟨gs, h1, hok, e⟩ := between_all SameAngle.refl hsame hfs'
    (fun f => PMFT.Op.accumulate (xytFrom realTrig f.info f.data f.queryData f.src f.ev)) (by
      intro g d q hd hq
      have : sampleXYT realTrig d q = sampleXYT realTrig g.data g.queryData := by
        funext bd
        simp only [sampleXYT, fromAngle_same (hq bd.q), modulus_same (hd bd.p)]
      simp only [xytFrom, DataFrame.info, this])
  rw [e]
  exact C94_pmft_xyt realTrig realTrig_pos xMax yMax hx hy nx ny nt g hg hn box0 box0' fs gs hne hfs hok h2 h1
    order order' hord hord'

/-- **C111**: the same for `PMFTR12`. -/
theorem C111_pmft_r12 (rMax : ℝ) (hr : 0 < rMax) (nr nt1 nt2 : ℕ) (g : PMFT.Grid ℝ)
    (hg : mkR12 realTrig rMax nr nt1 nt2 = some g)
    (hn : nr * (nt1 * nt2) ≤ OVERFLOW_BIN) (box0 box0' : Box ℝ) (fs fs' : List (DataFrame ℝ)) (hne : fs ≠ [])
    (hfs : ∀ f ∈ fs, f.OK) (hfs' : ∀ f ∈ fs', f.OK) (h2 : ∀ f ∈ fs, f.box.is2D = true)
    (hsame : List.Forall₂ (Redescribed SameAngle) fs fs') (order order' : List ℕ)
    (hord : order.Perm (List.range (nr * (nt1 * nt2)))) (hord' : order'.Perm (List.range (nr * (nt1 * nt2)))) :
    ∃ s s1 s' s1', PMFT.run check2D () (fun _ => fill g.jf) (zero g) (PMFT.new g () box0)
        (fs.map fun f => .accumulate (r12From realTrig f.info f.data f.queryData f.src f.ev)) = some s ∧
      s.refresh (fun _ => fill g.jf) order = some s1 ∧
      PMFT.run check2D () (fun _ => fill g.jf) (zero g) (PMFT.new g () box0')
        (fs'.map fun f => .accumulate (r12From realTrig f.info f.data f.queryData f.src f.ev)) = some s' ∧
      s'.refresh (fun _ => fill g.jf) order' = some s1' ∧ s1'.out = s1.out := by
  obtain ⟨gs, h1, hok, e⟩ := between_all SameAngle.refl hsame hfs'
    (fun f => PMFT.Op.accumulate (r12From realTrig f.info f.data f.queryData f.src f.ev)) (by
      intro g d q hd hq
      have : sampleR12 realTrig d q = sampleR12 realTrig g.data g.queryData := by
        funext bd
        simp only [sampleR12, modulus_same (hd bd.p), modulus_same (hq bd.q)]
      simp only [r12From, DataFrame.info, this])
  rw [e]
  exact C94_pmft_r12 realTrig realTrig_pos rMax hr nr nt1 nt2 g hg hn box0 box0' fs gs hne hfs hok h2 h1
    order order' hord hord'

/-! ### Quaternions -/

theorem samplesXYZ_signs (qo : ℕ → Quat ℝ) {equiv equiv' : List (Quat ℝ)}
    (he : List.Forall₂ SameRotation equiv equiv') (bd : Bond ℝ) :
    samplesXYZ qo equiv' bd = samplesXYZ qo equiv bd := by
  simp only [samplesXYZ]
  induction he with
  | nil => rfl
  | cons h1 _ ih => rw [List.map_cons, List.map_cons, ih, rotate_same h1]

/-- The order and the signs of the equivalent orientations. -/
theorem pmftXYZ_equiv (g : PMFT.Grid ℝ) (hax : ∀ a ∈ g.axes, AxisOK a) (h3a : g.axes.length = 3)
    (hs : (g.axes.map (·.nbins)).prod ≤ OVERFLOW_BIN) (equiv equiv' l : List (Quat ℝ)) (hl : equiv.Perm l)
    (he : List.Forall₂ SameRotation l equiv') (hen : equiv.length < NO_NUMBER) (box0 box0' : Box ℝ)
    (fs : List (DataFrame (Quat ℝ))) (hne : fs ≠ []) (hfs : ∀ f ∈ fs, f.OK)
    (h3 : ∀ f ∈ fs, f.box.is2D = false) (order order' : List ℕ)
    (hord : order.Perm (List.range (g.axes.map (·.nbins)).prod))
    (hord' : order'.Perm (List.range (g.axes.map (·.nbins)).prod)) :
    ∃ s s1 s' s1', PMFT.run checkXYZ NO_NUMBER (fillXYZ g.jf) (zero g) (PMFT.new g NO_NUMBER box0)
        (fs.map fun f => .accumulate (f.xyz equiv)) = some s ∧ s.refresh (fillXYZ g.jf) order = some s1 ∧
      PMFT.run checkXYZ NO_NUMBER (fillXYZ g.jf) (zero g) (PMFT.new g NO_NUMBER box0')
        (fs.map fun f => .accumulate (f.xyz equiv')) = some s' ∧ s'.refresh (fillXYZ g.jf) order' = some s1' ∧
      s1'.out = s1.out := by
  obtain ⟨f, hf⟩ : ∃ f, fs.getLast? = some f := ⟨_, List.getLast?_eq_some_getLast hne⟩
  have elen : equiv'.length = equiv.length := by rw [← he.length_eq, hl.length_eq]
  have hlegal : ∀ (q : List (Quat ℝ)), q.length < NO_NUMBER →
      ∀ a ∈ fs.map (·.xyz q), PMFTLegal g.axes (.accumulate a) := by
    intro q hq a ha
    obtain ⟨f, hf, rfl⟩ := List.mem_map.mp ha
    exact xyz_legal (hfs f hf) hq h3a
  have hm : ∀ (q : List (Quat ℝ)), q.length = equiv.length → ∀ a ∈ fs.map (·.xyz q), a.numEquiv = equiv.length := by
    intro q hq a ha
    obtain ⟨f, -, rfl⟩ := List.mem_map.mp ha
    exact hq
  have h3' : ∀ (q : List (Quat ℝ)), ∀ a ∈ fs.map (·.xyz q), a.info.box.is2D = false := by
    intro q a ha
    obtain ⟨f, hf, rfl⟩ := List.mem_map.mp ha
    exact h3 f hf
  have := pmftXYZ_congr g g hax hax rfl hs box0 box0' equiv.length (fs.map (·.xyz equiv))
    (fs.map (·.xyz equiv')) (hm _ rfl) (hm _ elen) (hlegal _ hen) (hlegal _ (by omega)) (h3' _) (h3' _)
    (by simp) (fun idx _ => ?_) (f.xyz equiv) (f.xyz equiv')
    (by rw [List.getLast?_map, hf]; rfl) (by rw [List.getLast?_map, hf]; rfl) ⟨rfl, rfl, fun _ => rfl⟩ order order'
    hord hord'
  · rwa [List.map_map, List.map_map] at this
  · rw [List.flatMap_map, List.flatMap_map]
    refine countIn_perm (List.Perm.flatMap_left _ fun f _ => ?_)
    rw [xyz_samples, xyz_samples, ← List.flatMap_def, ← List.flatMap_def]
    refine List.Perm.flatMap_left _ fun bd _ => ?_
    rw [samplesXYZ_signs _ he]
    exact (hl.map _).symm

/-- **C111**: the result of `PMFTXYZ` does not change when quaternions are replaced by those of opposite
sign, those of the query points or those of `equiv_orientations`, or when `equiv_orientations` are given
in another order. -/
theorem C111_pmft_xyz (xMax yMax zMax : ℝ) (hx : 0 < xMax) (hy : 0 < yMax) (hz : 0 < zMax) (nx ny nz : ℕ)
    (g : PMFT.Grid ℝ) (hg : mkXYZ xMax yMax zMax nx ny nz = some g) (hn : nx * (ny * nz) ≤ OVERFLOW_BIN)
    (equiv equiv' l : List (Quat ℝ)) (hl : equiv.Perm l) (he : List.Forall₂ SameRotation l equiv')
    (hen : equiv.length < NO_NUMBER) (box0 box0' : Box ℝ)
    (fs fs' : List (DataFrame (Quat ℝ))) (hne : fs ≠ []) (hfs : ∀ f ∈ fs, f.OK) (hfs' : ∀ f ∈ fs', f.OK)
    (h3 : ∀ f ∈ fs, f.box.is2D = false) (hsame : List.Forall₂ (Redescribed SameRotation) fs fs')
    (order order' : List ℕ)
    (hord : order.Perm (List.range (nx * (ny * nz)))) (hord' : order'.Perm (List.range (nx * (ny * nz)))) :
    ∃ s s1 s' s1', PMFT.run checkXYZ NO_NUMBER (fillXYZ g.jf) (zero g) (PMFT.new g NO_NUMBER box0)
        (fs.map fun f => .accumulate (f.xyz equiv)) = some s ∧ s.refresh (fillXYZ g.jf) order = some s1 ∧
      PMFT.run checkXYZ NO_NUMBER (fillXYZ g.jf) (zero g) (PMFT.new g NO_NUMBER box0')
        (fs'.map fun f => .accumulate (f.xyz equiv')) = some s' ∧ s'.refresh (fillXYZ g.jf) order' = some s1' ∧
      s1'.out = s1.out := by
  obtain ⟨e, hax⟩ := xyz_axes hx hy hz hg hn
  have hp : (g.axes.map (·.nbins)).prod = nx * (ny * nz) := by rw [e]; simp
  obtain ⟨gs, h1, hok, ec⟩ := between_all SameRotation.refl hsame hfs'
    (fun f => PMFT.Op.accumulate (f.xyz equiv')) (by
      intro g d q hd hq
      have : samplesXYZ q equiv' = samplesXYZ g.queryData equiv' := by
        funext bd
        simp only [samplesXYZ, rotate_same (conj_same (hq bd.q))]
      simp only [DataFrame.xyz, xyzFrom, DataFrame.info, this])
  rw [ec]
  have hgs : gs ≠ [] := by
    intro h
    rw [h] at h1
    cases h1
    exact hne rfl
  obtain ⟨s, s1, t, t1, a1, a2, a3, a4, a5⟩ := C94_pmft_xyz xMax yMax zMax hx hy hz nx ny nz g hg hn equiv hen box0
    box0' fs gs hne hfs hok h3 h1 order order' hord hord'
  obtain ⟨u, u1, v, v1, b1, b2, b3, b4, b5⟩ := pmftXYZ_equiv g hax (by rw [e]; rfl) (by rw [hp]; exact hn) equiv
    equiv' l hl he hen box0' box0' gs hgs hok (fun f' hf' => by
      obtain ⟨f, hf, h⟩ := mem_of_forall₂ h1 hf'
      rw [h.box]; exact h3 f hf) order' order' (by rw [hp]; exact hord') (by rw [hp]; exact hord')
  rw [a3] at b1
  obtain rfl := Option.some.inj b1
  rw [a4] at b2
  obtain rfl := Option.some.inj b2
  exact ⟨s, s1, v, v1, a1, a2, b3, b4, b5.trans a5⟩

end

theorem BondOrder.run_congr (g : BondOrder.Grid) (mode : BondOrder.Mode) {os os' : List BondOrder.Op}
    (h : os'.map (BondOrder.toOp mode) = os.map (BondOrder.toOp mode))
    (s : HistCompute ℝ Unit (Box ℝ) (List ℝ)) : BondOrder.run g mode s os' = BondOrder.run g mode s os := by
  induction os generalizing os' s with
  | nil =>
    obtain rfl : os' = [] := by simpa using h
    rfl
  | cons o os ih =>
    match os', h with
    | o' :: os', h =>
      rw [List.map_cons, List.map_cons, List.cons.injEq] at h
      simp only [BondOrder.run, h.1]
      congr 1
      funext o1
      congr 1
      funext s1
      exact ih h.2 s1

theorem BondOrder.direction_same (mode : BondOrder.Mode) {d d' q q' : ℕ → Quat ℝ} (hd : ∀ i, SameRotation (d i) (d' i))
    (hq : ∀ i, SameRotation (q i) (q' i)) : BondOrder.sample mode d' q' = BondOrder.sample mode d q := by
  funext bd
  have : BondOrder.direction mode d' q' bd = BondOrder.direction mode d q bd := by
    cases mode <;> simp only [BondOrder.direction, rotate_same (conj_same (hd bd.p)), rotate_same (hq bd.q)]
  simp only [BondOrder.sample, this]

/-- **C111**: the bond order diagram, in every mode, does not change when quaternions are replaced by
those of opposite sign. -/
theorem C111_bond_order (nT nP : ℕ) (g : BondOrder.Grid) (hg : BondOrder.mk nT nP = some g)
    (hn : nT * nP ≤ OVERFLOW_BIN) (mode : BondOrder.Mode) (box0 box0' : Box ℝ) (fs fs' : List (DataFrame (Quat ℝ)))
    (hne : fs ≠ []) (hfs : ∀ f ∈ fs, f.OK) (hfs' : ∀ f ∈ fs', f.OK)
    (hdir : ∀ f ∈ fs, ∀ v ∈ callDirections mode f.boCall, v ≠ ⟨0, 0, 0⟩)
    (hsame : List.Forall₂ (Redescribed SameRotation) fs fs') (order order' : List ℕ)
    (hord : order.Perm (List.range (nT * nP))) (hord' : order'.Perm (List.range (nT * nP))) :
    ∃ s s1 s' s1' bo, BondOrder.run g mode (BondOrder.new g box0) (fs.map fun f => .accumulate f.boCall) = some s ∧
      BondOrder.bondOrder g s order = some (s1, bo) ∧
      BondOrder.run g mode (BondOrder.new g box0') (fs'.map fun f => .accumulate f.boCall) = some s' ∧
      BondOrder.bondOrder g s' order' = some (s1', bo) := by
  obtain ⟨gs, h1, hok, ec⟩ := between_all SameRotation.refl hsame hfs'
    (fun f => BondOrder.toOp mode (.accumulate f.boCall)) (by
      intro g d q hd hq
      simp only [BondOrder.toOp, DataFrame.boCall, BondOrder.callFrom]
      have hS := BondOrder.direction_same mode hd hq
      exact if_congr (by rw [hS]) (by rw [hS]) rfl)
  obtain ⟨s, s1, s', s1', bo, a1, a2, a3, a4⟩ := C94_bond_order nT nP g hg hn mode box0 box0' fs gs hne hfs hok hdir
    h1 order order' hord hord'
  refine ⟨s, s1, s', s1', bo, a1, a2, ?_, a4⟩
  rw [← a3]
  apply BondOrder.run_congr
  rw [List.map_map, List.map_map]
  exact ec

/-! ### Results of single particles and bonds -/

theorem getElem?_same {l l' : List (Quat ℝ)} (h : List.Forall₂ SameRotation l l') (i : ℕ) {β : Type*}
    (φ φ' : Quat ℝ → β) (hφ : ∀ q q', SameRotation q q' → φ' q' = φ q) : l'[i]?.map φ' = l[i]?.map φ := by
  induction h generalizing i with
  | nil => rfl
  | cons h1 _ ih =>
    cases i with
    | zero => simp [hφ _ _ h1]
    | succ i => simpa using ih i

theorem getElem?_same_bind {l l' : List (Quat ℝ)} (h : List.Forall₂ SameRotation l l') (i : ℕ) {β : Type*}
    (φ φ' : Quat ℝ → Option β) (hφ : ∀ q q', SameRotation q q' → φ' q' = φ q) : l'[i]?.bind φ' = l[i]?.bind φ := by
  induction h generalizing i with
  | nil => rfl
  | cons h1 _ ih =>
    cases i with
    | zero => simp [hφ _ _ h1]
    | succ i => simpa using ih i

theorem LBP.maxProj_same (p v : Vec3 ℝ) {e e' : List (Quat ℝ)} (h : List.Forall₂ SameRotation e e') :
    LBP.maxProj p v e' = LBP.maxProj p v e := by
  have key : ∀ (c c' : Quat ℝ) (_ : SameRotation c c') (e e' : List (Quat ℝ)) (_ : List.Forall₂ SameRotation e e')
      (m0 : ℝ), e'.foldl (fun m qe =>
        let t := Vec3.dot (Quat.rotate (Quat.mul (Quat.conj c') qe) p) v
        if t > m then t else m) m0 = e.foldl (fun m qe =>
        let t := Vec3.dot (Quat.rotate (Quat.mul (Quat.conj c) qe) p) v
        if t > m then t else m) m0 := by
    intro c c' hc e e' he
    induction he with
    | nil => intro m0; rfl
    | cons h1 _ ih =>
      intro m0
      rw [List.foldl_cons, List.foldl_cons, ih]
      simp only [rotate_same (mul_same (conj_same hc) h1)]
  cases h with
  | nil => rfl
  | cons h1 h2 =>
    simp only [LBP.maxProj, List.head?_cons, Option.map_some]
    exact congrArg some (key _ _ h1 _ _ (.cons h1 h2) _)

/-- **C111**: `LocalBondProjection` gives the same projections when quaternions are replaced by those of
opposite sign. -/
theorem C111_local_bond_projection (nQuery : ℕ) (os os' : List (Quat ℝ)) (projVecs : List (Vec3 ℝ))
    (equiv equiv' : List (Quat ℝ)) (ho : List.Forall₂ SameRotation os os')
    (he : List.Forall₂ SameRotation equiv equiv') (n : NList ℝ) (split : ℕ → List (ℕ × ℕ)) :
    LBP.compute nQuery os' projVecs equiv' n split = LBP.compute nQuery os projVecs equiv n split := by
  have : LBP.row os' projVecs equiv' = LBP.row os projVecs equiv := by
    funext i bd
    have e : ∀ q q', SameRotation q q' →
        (projVecs.mapM fun p => (LBP.maxProj p (LBP.localBond q' bd.vec) equiv').map fun m => (m, m / bd.dist)) =
        projVecs.mapM fun p => (LBP.maxProj p (LBP.localBond q bd.vec) equiv).map fun m => (m, m / bd.dist) := by
      intro q q' h
      simp only [LBP.maxProj_same _ _ he, LBP.localBond, rotate_same (conj_same h)]
    exact getElem?_same_bind ho bd.p _ _ e
  simp only [LBP.compute, this]

/-- **C111**: `LocalDescriptors` gives the same harmonics when quaternions are replaced by those of
opposite sign. -/
theorem C111_local_descriptors (sph : LocalDescriptors.Sph) (solve : Nematic.Solver) (lMax : ℕ) (negativeM : Bool)
    (mode : LocalDescriptors.Mode) (os os' : List (Quat ℝ)) (ho : List.Forall₂ SameRotation os os') (n : NList ℝ)
    (maxNum : ℕ) (order : List ℕ) :
    LocalDescriptors.compute sph solve lMax negativeM mode os' n maxNum order =
      LocalDescriptors.compute sph solve lMax negativeM mode os n maxNum order := by
  have : LocalDescriptors.frame solve mode os' n = LocalDescriptors.frame solve mode os n := by
    funext maxN i
    cases mode with
    | particleLocal => exact getElem?_same ho i _ _ fun q q' h => ofQuat_same (conj_same h)
    | _ => rfl
  simp only [LocalDescriptors.compute, this]

/-- **C111**: the cubatic order parameter is the same when quaternions of the particles are replaced by
those of opposite sign, as are the tensors and the order of each particle. -/
theorem C111_cubatic (p : Cubatic.Params) (rng : ℕ → ℕ → ℝ) (os os' : List (Quat ℝ))
    (ho : List.Forall₂ SameRotation os os') (sch : Cubatic.Sched) :
    Cubatic.compute p rng os' sch = Cubatic.compute p rng os sch := by
  have ev : ∀ q q', SameRotation q q' → Cubatic.vectorSum q' = Cubatic.vectorSum q := by
    intro q q' h
    simp only [Cubatic.vectorSum, rotate_same h]
  have el := ho.length_eq
  have e1 : ∀ i, (os'[i]?.map fun o => Cubatic.scale4 (Cubatic.vectorSum o) 2.0) =
      os[i]?.map fun o => Cubatic.scale4 (Cubatic.vectorSum o) 2.0 := fun i =>
    getElem?_same ho i _ _ fun q q' h => by rw [ev q q' h]
  have e2 : ∀ (g : List ℝ) i, (os'[i]?.map fun o => Cubatic.orderParameter (Cubatic.cubaticTensor o) g) =
      os[i]?.map fun o => Cubatic.orderParameter (Cubatic.cubaticTensor o) g := fun g i =>
    getElem?_same ho i _ _ fun q q' h => by simp only [Cubatic.cubaticTensor, ev q q' h]
  have eg : Cubatic.globalTensor os' sch = Cubatic.globalTensor os sch := by
    simp only [Cubatic.globalTensor, e1, ← el]
  simp only [Cubatic.compute, eg, e2, ← el]

/-! ### The view of a diffraction pattern -/

theorem Diffraction.frame_same (g n : ℕ) (a : Diffraction.Args) {q q' : Quat ℝ} (h : SameRotation q q') :
    Diffraction.frame g n { a with view := some q' } = Diffraction.frame g n { a with view := some q } := by
  have e1 : ∀ b, Diffraction.calcProj q' b = Diffraction.calcProj q b := by
    intro b
    have : Diffraction.rotateRows q' = Diffraction.rotateRows q := by
      funext m i j
      simp only [Diffraction.rotateRows, rotate_same h]
    unfold Diffraction.calcProj
    rw [this]
  have e2 : Diffraction.project q' = Diffraction.project q := by
    funext m p
    simp only [Diffraction.project, rotate_same h]
  simp only [Diffraction.frame, Diffraction.Args.q, Option.getD_some, e1, Diffraction.intensity, e2,
    Diffraction.Args.w]

/-- The objects differ at most in the sign of the quaternion of the view. -/
structure Diffraction.Alike (s s' : Diffraction.State) : Prop where
  view : SameRotation s.view s'.view
  rest : s' = { s with view := s'.view }

theorem Diffraction.Alike.step (g n : ℕ) {s s' : Diffraction.State} (h : Diffraction.Alike s s')
    {o o' : Diffraction.Op} (ho : SameView o o') :
    Diffraction.Alike (s.step g n o) (s'.step g n o') := by
  obtain ⟨hv, hr⟩ := h
  have hcomp : ∀ (a a' : Diffraction.Args) (r : Bool), Diffraction.frame g n a' = Diffraction.frame g n a →
      SameRotation a.q a'.q → a'.points = a.points → a'.box = a.box → a'.zoom = a.zoom →
      Diffraction.Alike (Diffraction.compute g n a r s).1 (Diffraction.compute g n a' r s').1 := by
    intro a a' r hf hq h1 h2 h3
    generalize s'.view = w at hr hv
    subst hr
    unfold Diffraction.compute
    rw [hf, h1, h2, h3]
    obtain ⟨called, _⟩ := s
    cases r <;> cases called <;> cases Diffraction.frame g n a <;> first | exact ⟨hv, rfl⟩ | exact ⟨hq, rfl⟩
  cases ho with
  | same =>
    cases o with
    | compute a r => exact hcomp a a r rfl (Orientation.SameRotation.refl _) rfl rfl rfl
    | readKValues =>
      rw [hr]
      simp only [Diffraction.State.step, Diffraction.State.readKValues]
      split_ifs <;> exact ⟨hv, rfl⟩
    | readKVectors =>
      rw [hr]
      simp only [Diffraction.State.step, Diffraction.State.readKVectors, rotate_same hv]
      split_ifs <;> exact ⟨hv, rfl⟩
  | view a r h => exact hcomp _ _ r (Diffraction.frame_same g n a h) h rfl rfl rfl

/-- **C111**: replacing the quaternion of the view by that of opposite sign, in any calls of any history of
a `DiffractionPattern` object, changes neither the pattern nor the k-values and k-vectors. -/
theorem C111_diffraction (g n : ℕ) (junk : ℕ → ℝ) (junk' : ℕ → ℕ → Vec3 ℝ) (os os' : List Diffraction.Op)
    (h : List.Forall₂ SameView os os') :
    let s := os.foldl (Diffraction.State.step g n) (Diffraction.new junk junk')
    let s' := os'.foldl (Diffraction.State.step g n) (Diffraction.new junk junk')
    s'.diffraction = s.diffraction ∧ s'.readKValues.2 = s.readKValues.2 ∧
      s'.readKVectors.2 = s.readKVectors.2 := by
  have key : ∀ (os os' : List Diffraction.Op) (_ : List.Forall₂ SameView os os') (s s' : Diffraction.State),
      Diffraction.Alike s s' → Diffraction.Alike (os.foldl (Diffraction.State.step g n) s)
        (os'.foldl (Diffraction.State.step g n) s') := by
    intro os os' h
    induction h with
    | nil => exact fun _ _ h => h
    | cons h1 _ ih => exact fun s s' h => ih _ _ (h.step g n h1)
  obtain ⟨hv, hr⟩ := key os os' h (Diffraction.new junk junk') _
    ⟨Orientation.SameRotation.refl _, rfl⟩
  intro s s'
  have hr' : s' = { s with view := s'.view } := hr
  have hv' : SameRotation s.view s'.view := hv
  generalize s'.view = w at hr' hv'
  rw [hr']
  refine ⟨rfl, ?_, ?_⟩
  · simp only [Diffraction.State.readKValues]
    split_ifs <;> rfl
  · simp only [Diffraction.State.readKVectors, rotate_same hv']
    split_ifs <;> rfl

/-! ### Concrete cases -/

/-- A frame and its redescription, for the pair bonded through a face of the box. -/
theorem exists_redescribed {D : Type*} {R : D → D → Prop} (x y x' y' : D) (hx : R x x') (hy : R y y') :
    ∃ f f' : DataFrame D, f.OK ∧ f'.OK ∧ Redescribed R f f' ∧
      f.box = Box.mk' 10 10 10 0 0 0 false ∧ f.pts = facePair ∧ f.data 0 = x ∧ f'.data 0 = x' := by
  have hR : ∀ i : ℕ, R (if i = 0 then x else y) (if i = 0 then x' else y') := by
    intro i
    split_ifs
    · exact hx
    · exact hy
  obtain ⟨src, ev, h⟩ := exists_frame facePair_system (by simp [facePair]) (by simp [facePair]) le_rfl
    (show (0 : ℝ) < 2 by norm_num) (cube_half (by norm_num)) true (fun i => if i = 0 then x else y)
    (fun i => if i = 0 then x else y)
  exact ⟨_, ⟨_, _, _, fun i => if i = 0 then x' else y', fun i => if i = 0 then x' else y', _, _, _, src, ev⟩,
    h, ⟨h.points, h.queries, h.system, h.half, h.inner0, h.source, h.exec⟩,
    ⟨rfl, rfl, rfl, rfl, rfl, rfl, fun i _ => hR i, fun i _ => hR i⟩, rfl, rfl, rfl, rfl⟩

/-- The same in a square. -/
theorem exists_redescribed_square {D : Type*} {R : D → D → Prop} (x y x' y' : D) (hx : R x x') (hy : R y y') :
    ∃ f f' : DataFrame D, f.OK ∧ f'.OK ∧ Redescribed R f f' ∧
      f.box = Box.mk' 10 10 0 0 0 0 true ∧ f.pts = facePair := by
  obtain ⟨f, -, h, -, -, e1, e2, -⟩ := exists_same_square x y
  have hR : ∀ i : ℕ, R (if i = 0 then x else y) (if i = 0 then x' else y') := by
    intro i
    split_ifs
    · exact hx
    · exact hy
  exact ⟨{ f with data := fun i => if i = 0 then x else y, queryData := fun i => if i = 0 then x else y },
    { f with data := fun i => if i = 0 then x' else y', queryData := fun i => if i = 0 then x' else y' },
    ⟨h.points, h.queries, h.system, h.half, h.inner0, h.source, h.exec⟩,
    ⟨h.points, h.queries, h.system, h.half, h.inner0, h.source, h.exec⟩,
    ⟨rfl, rfl, rfl, rfl, rfl, rfl, fun i _ => hR i, fun i _ => hR i⟩, e1, e2⟩

-- two angles of the same direction
theorem sameAngle_turn : SameAngle 1 (1 + 2 * Real.pi) := ⟨1, by simp⟩

-- a rotation about the x axis and its other quaternion
theorem sameRotation_x : SameRotation ⟨3 / 5, ⟨4 / 5, 0, 0⟩⟩ ⟨-3 / 5, ⟨-4 / 5, 0, 0⟩⟩ := by
  right
  ext <;> norm_num

-- `C111_pmft_xy`, `C111_pmft_xyt` and `C111_pmft_r12` apply to the pair in a square
example : ∃ f f' : DataFrame ℝ, Redescribed SameAngle f f' ∧ f.box.is2D = true ∧ f.OK ∧ f'.OK ∧
    (PMFT.mkXY (1 : ℝ) 1 2 2).isSome := by
  obtain ⟨f, f', h, h', hs, eb, -⟩ := exists_redescribed_square 1 1 (1 + 2 * Real.pi) 1 sameAngle_turn
    (Orientation.SameAngle.refl 1)
  exact ⟨f, f', hs, by rw [eb]; rfl, h, h', by norm_num [PMFT.mkXY]⟩

-- `C111_pmft_xyz` applied to the pair in a cube
example : ∃ f f' : DataFrame (Quat ℝ), Redescribed SameRotation f f' ∧ f.data 0 ≠ f'.data 0 ∧ ∀ box0 g,
    PMFT.mkXYZ 1 1 1 2 2 2 = some g →
    ∃ s s1 s' s1', PMFT.run PMFT.checkXYZ PMFT.NO_NUMBER (PMFT.fillXYZ g.jf) (PMFT.zero g)
        (PMFT.new g PMFT.NO_NUMBER box0) [.accumulate (f.xyz [Quat.one])] = some s ∧
      s.refresh (PMFT.fillXYZ g.jf) (List.range 8) = some s1 ∧
      PMFT.run PMFT.checkXYZ PMFT.NO_NUMBER (PMFT.fillXYZ g.jf) (PMFT.zero g)
        (PMFT.new g PMFT.NO_NUMBER box0) [.accumulate (f'.xyz [Quat.one])] = some s' ∧
      s'.refresh (PMFT.fillXYZ g.jf) (List.range 8) = some s1' ∧ s1'.out = s1.out := by
  obtain ⟨f, f', h, h', hs, eb, ep, e1, e2⟩ := exists_redescribed _ _ _ _ sameRotation_x sameRotation_x
  refine ⟨f, f', hs, by rw [e1, e2]; intro h; simp [Quat.ext_iff] at h; linarith [h.1], fun box0 g hg => ?_⟩
  exact C111_pmft_xyz 1 1 1 one_pos one_pos one_pos 2 2 2 g hg (by norm_num [OVERFLOW_BIN]) [Quat.one] [Quat.one]
    [Quat.one] (List.Perm.refl _) (.cons (Orientation.SameRotation.refl _) .nil) (by norm_num [PMFT.NO_NUMBER]) box0
    box0 [f] [f'] (by simp) (by simpa using h) (by simpa using h') (by intro f1 h1; rw [List.mem_singleton.mp h1, eb]; rfl)
    (.cons hs .nil) _ _ (List.Perm.refl _) (List.Perm.refl _)

-- the hypotheses of `C111_local_bond_projection`, `C111_local_descriptors` and `C111_cubatic` for two
-- particles, the first of them described by the other quaternion
example : List.Forall₂ SameRotation [⟨3 / 5, ⟨4 / 5, 0, 0⟩⟩, Quat.one] [⟨-3 / 5, ⟨-4 / 5, 0, 0⟩⟩, Quat.one] :=
  .cons sameRotation_x (.cons (Orientation.SameRotation.refl _) .nil)

-- the view of a diffraction pattern
example (a : Diffraction.Args) : List.Forall₂ SameView
    [.compute { a with view := some ⟨3 / 5, ⟨4 / 5, 0, 0⟩⟩ } true, .readKVectors]
    [.compute { a with view := some ⟨-3 / 5, ⟨-4 / 5, 0, 0⟩⟩ } true, .readKVectors] :=
  .cons (.view a true sameRotation_x) (.cons (.same _) .nil)

end Freud
