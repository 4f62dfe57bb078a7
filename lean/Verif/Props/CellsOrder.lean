import Verif.Props.Cells
import Verif.Props.RenumberSteinhardt

/-!
# Property C95: order parameters, clusters and densities in another unit cell, turned
-/

namespace Freud
open Spec

/-- Two periodic systems, the second the first in another cell, turned, with the lists of the neighbors
in the same range. -/
structure Spec.TurnedLists (Q : Vec3 ℝ → Vec3 ℝ) (σ : Equiv.Perm ℕ) (b b' : Box ℝ) (pts pts' : List (Vec3 ℝ))
    (nl nl' : NList ℝ) : Prop where
  system : PeriodicSystem b pts pts
  system' : PeriodicSystem b' pts' pts'
  small : pts.length ≤ 0xffffffff
  lattice : SameLattice Q b b'
  points : ∃ t, Turned b' Q t σ pts pts'
  lists : ∃ rMax rMin excl, 0 ≤ rMin ∧ BelowHalf b rMax ∧ BelowHalf b' rMax ∧
    IsSource b pts pts rMax rMin excl (.list nl) ∧ IsSource b' pts' pts' rMax rMin excl (.list nl')

/-- The list with its vectors turned. -/
def turnedList (Q : Vec3 ℝ → Vec3 ℝ) (nl : NList ℝ) : NList ℝ := { nl with bonds := nl.bonds.map (turnedBond Q) }

/-- The points of the second description in the order of the first. -/
noncomputable def sortedPoints (σ : Equiv.Perm ℕ) (pts' : List (Vec3 ℝ)) : List (Vec3 ℝ) :=
  (List.range pts'.length).map fun i => pts'.getD (σ.symm i) ⟨0, 0, 0⟩

theorem listFor_turned (Q : Vec3 ℝ → Vec3 ℝ) {nl : NList ℝ} {n : ℕ} (h : ListFor nl n) :
    ListFor (turnedList Q nl) n := by
  refine ⟨⟨?_, ?_, ?_, h.good.small⟩, ?_⟩
  · have : (turnedList Q nl).bonds.map (·.q) = nl.bonds.map (·.q) := by
      simp [turnedList, turnedBond, Function.comp_def]
    rw [this]; exact h.good.sorted
  · intro nb hnb
    obtain ⟨nb0, h0, rfl⟩ := List.mem_map.mp hnb
    exact h.good.qlt nb0 h0
  · intro nb hnb
    obtain ⟨nb0, h0, rfl⟩ := List.mem_map.mp hnb
    exact h.good.plt nb0 h0
  · intro nb hnb
    obtain ⟨nb0, h0, rfl⟩ := List.mem_map.mp hnb
    exact h.points nb0 h0

/-- The bond vector of a list is the separation by the nearest image convention. -/
theorem separation_source {b : Box ℝ} {pts : List (Vec3 ℝ)} (hs : PeriodicSystem b pts pts) {rMax rMin : ℝ}
    (hhalf : BelowHalf b rMax) {excl : Bool} {nb : Bond ℝ} (h : IsQueryBond b pts pts rMax rMin excl nb) :
    separation b pts nb = nb.vec ∧ nb.dist = Vec3.norm nb.vec := by
  obtain ⟨q, hq, -, h1, h2, h3, h4, h5, p, hp, h6⟩ := h
  have hv := hs.inBox.valid
  refine ⟨?_, h2⟩
  unfold separation
  simp only [List.getD_eq_getElem?_getD, hq, hp, Option.getD_some]
  exact (wrap_of_short hv hhalf (planar_sub (inCell_planar hv (hs.query p (List.mem_of_getElem? hp)))
    (inCell_planar hv (hs.query q (List.mem_of_getElem? hq)))) h6 h5).1

namespace Spec.TurnedLists
variable {Q : Vec3 ℝ → Vec3 ℝ} {σ : Equiv.Perm ℕ} {b b' : Box ℝ} {pts pts' : List (Vec3 ℝ)} {nl nl' : NList ℝ}

theorem size (h : TurnedLists Q σ b b' pts pts' nl nl') : pts'.length = pts.length := by
  obtain ⟨t, ht⟩ := h.points
  exact ht.length

theorem lt_iff (h : TurnedLists Q σ b b' pts pts' nl nl') (i : ℕ) : σ i < pts.length ↔ i < pts.length := by
  obtain ⟨t, ht⟩ := h.points
  rw [ht.lt_iff, ht.length]

theorem bonds (hQ : Rigid Q) (h : TurnedLists Q σ b b' pts pts' nl nl') : SameBonds σ (turnedList Q nl) nl' := by
  obtain ⟨t, ht⟩ := h.points
  obtain ⟨rMax, rMin, excl, h1, h2, h3, h4, h5⟩ := h.lists
  exact (C95_neighbor_lists Q hQ b b' h.lattice t σ pts pts' h.system h.system' ht rMax rMin h1 h2 h3 excl nl nl'
    h4 h5).symm

theorem list (h : TurnedLists Q σ b b' pts pts' nl nl') : ListFor nl pts.length ∧ nl.numQueryPoints = pts.length := by
  obtain ⟨rMax, rMin, excl, h1, h2, h3, h4, h5⟩ := h.lists
  obtain ⟨a1, a2, -⟩ := list_source h.system h.small h1 h2 h4
  exact ⟨a1, a2⟩

theorem list' (h : TurnedLists Q σ b b' pts pts' nl nl') :
    ListFor nl' pts.length ∧ nl'.numQueryPoints = pts.length := by
  obtain ⟨rMax, rMin, excl, h1, h2, h3, h4, h5⟩ := h.lists
  obtain ⟨a1, a2, -⟩ := list_source h.system' (by rw [h.size]; exact h.small) h1 h3 h5
  rw [h.size] at a1 a2
  exact ⟨a1, a2⟩

theorem sorted (h : TurnedLists Q σ b b' pts pts' nl nl') :
    Renumbered b' ⟨0, 0, 0⟩ σ (sortedPoints σ pts') pts' := by
  refine ⟨by simp [sortedPoints], fun i p' hp' => ⟨p', ?_, ⟨0, 0, 0⟩, ⟨fun _ => rfl, fun _ => rfl, fun _ => rfl⟩, ?_⟩⟩
  · have hi := (List.getElem?_eq_some_iff.mp hp').1
    have hσ : σ i < pts'.length := by rw [h.size, h.lt_iff, ← h.size]; exact hi
    simp [sortedPoints, List.getElem?_map, List.getElem?_range hσ, hp']
  · ext <;> simp [Spec.lattice, comb]

theorem sorted_mem (h : TurnedLists Q σ b b' pts pts' nl nl') : ∀ v ∈ sortedPoints σ pts', v ∈ pts' := by
  intro v hv
  obtain ⟨i, hi, rfl⟩ := List.mem_map.mp hv
  have hi := List.mem_range.mp hi
  have : σ.symm i < pts'.length := by
    have := h.lt_iff (σ.symm i)
    rw [σ.apply_symm_apply, ← h.size] at this
    exact this.mp hi
  rw [List.getD_eq_getElem?_getD, List.getElem?_eq_getElem this]
  exact List.getElem_mem _

theorem sorted_planar (h : TurnedLists Q σ b b' pts pts' nl nl') : ∀ v ∈ sortedPoints σ pts', Planar b' v :=
  fun v hv => inCell_planar h.system'.inBox.valid (h.system'.query v (h.sorted_mem v hv))

/-- The separations of the two descriptions. -/
theorem related (hQ : Rigid Q) (h : TurnedLists Q σ b b' pts pts' nl nl') (rel : Vec3 ℝ → Vec3 ℝ → Prop)
    (hrel : ∀ nb ∈ nl.bonds, rel nb.vec (Q nb.vec)) :
    BondwiseRelated rel b b' pts (sortedPoints σ pts') nl (turnedList Q nl) ∧
      (∀ nb ∈ nl.bonds, separation b pts nb = nb.vec ∧ nb.dist = Vec3.norm nb.vec ∧
        separation b' (sortedPoints σ pts') (turnedBond Q nb) = Q nb.vec) := by
  have hb := h.bonds hQ
  obtain ⟨rMax, rMin, excl, h1, h2, h3, h4, h5⟩ := h.lists
  obtain ⟨-, -, a1⟩ := list_source h.system h.small h1 h2 h4
  obtain ⟨-, -, a2⟩ := list_source h.system' (by rw [h.size]; exact h.small) h1 h3 h5
  have key : ∀ nb ∈ nl.bonds, separation b pts nb = nb.vec ∧ nb.dist = Vec3.norm nb.vec ∧
        separation b' (sortedPoints σ pts') (turnedBond Q nb) = Q nb.vec := by
    intro nb hnb
    obtain ⟨e1, e2⟩ := separation_source h.system h2 (a1 nb hnb)
    refine ⟨e1, e2, ?_⟩
    have hm : turnedBond Q nb ∈ (turnedList Q nl).bonds := List.mem_map_of_mem hnb
    obtain ⟨nb', hnb', e⟩ := List.mem_map.mp (hb.mem_iff.mp hm)
    have e3 := (separation_source h.system' h3 (a2 nb' hnb')).1
    have ev : nb'.vec = Q nb.vec := by simpa [relabel, turnedBond] using congrArg Bond.vec e
    have eq : σ nb'.q = nb.q := by simpa [relabel, turnedBond] using congrArg Bond.q e
    have ep : σ nb'.p = nb.p := by simpa [relabel, turnedBond] using congrArg Bond.p e
    rw [← ev, ← e3]
    obtain ⟨q, hq, -, -, -, -, -, -, p, hp, -⟩ := a2 nb' hnb'
    have hlq : σ nb'.q < pts'.length := by
      rw [h.size, h.lt_iff, ← h.size]; exact (List.getElem?_eq_some_iff.mp hq).1
    have hlp : σ nb'.p < pts'.length := by
      rw [h.size, h.lt_iff, ← h.size]; exact (List.getElem?_eq_some_iff.mp hp).1
    unfold separation
    simp only [turnedBond, sortedPoints, List.getD_eq_getElem?_getD, ← eq, ← ep, List.getElem?_map,
      List.getElem?_range hlq, List.getElem?_range hlp, Option.map_some, Option.getD_some, σ.symm_apply_apply]
  refine ⟨⟨?_, h.lattice.dims, ?_⟩, key⟩
  · simp [sortedPoints, h.size]
  · unfold turnedList
    rw [List.forall₂_map_right_iff]
    refine List.forall₂_same.mpr fun nb hnb => ⟨rfl, rfl, rfl, ?_⟩
    obtain ⟨e1, -, e2⟩ := key nb hnb
    rw [e1, e2]
    exact hrel nb hnb

end Spec.TurnedLists

/-- **C95**: numbers of neighbors and densities of `LocalDensity`. -/
theorem C95_local_density (Q : Vec3 ℝ → Vec3 ℝ) (hQ : Rigid Q) (σ : Equiv.Perm ℕ) (b b' : Box ℝ)
    (pts pts' : List (Vec3 ℝ)) (nl nl' : NList ℝ) (h : TurnedLists Q σ b b' pts pts' nl nl') (pi : ℝ)
    (s : LocalDensity ℝ) (hD : 0 ≤ s.diameter) (hdist : ∀ nb ∈ nl.bonds, nb.dist < s.defaultRMax)
    (order order' : List ℕ) (hord : order.Perm (List.range pts.length))
    (hord' : order'.Perm (List.range pts.length)) :
    ∃ r r', s.compute pi b pts.length nl order = some r ∧ s.compute pi b' pts'.length nl' order' = some r' ∧
      ∀ i < pts.length, r'.results.data[i]? = r.results.data[σ i]? := by
  have hb := h.bonds hQ
  have hdist' : ∀ nb ∈ nl'.bonds, nb.dist < s.defaultRMax := by
    intro nb hnb
    obtain ⟨nb0, h0, e⟩ := List.mem_map.mp (hb.mem_iff.mpr (List.mem_map_of_mem (f := relabel σ σ) hnb))
    have : nb0.dist = nb.dist := by simpa [relabel, turnedBond] using congrArg Bond.dist e
    rw [← this]; exact hdist nb0 h0
  rw [h.size]
  obtain ⟨r, e, -, hv⟩ := C39_local_density pi s hD b _ nl h.list.1.good hdist order hord
  obtain ⟨r', e', -, hv'⟩ := C39_local_density pi s hD b' _ nl' h.list'.1.good hdist' order' hord'
  refine ⟨r, r', e, e', fun i hi => ?_⟩
  rw [hv' i hi, hv (σ i) ((h.lt_iff i).mpr hi), h.lattice.dims]
  have hp := (filter_relabel hb i).map (fun nb => overlap s.rMax s.diameter nb.dist)
  rw [List.map_map] at hp
  have e2 : ((nl.bonds.filter (fun nb => nb.q = σ i)).map
      (fun nb => overlap s.rMax s.diameter nb.dist)).sum = ((nl'.bonds.filter (fun nb => nb.q = i)).map
      (fun nb => overlap s.rMax s.diameter nb.dist)).sum := by
    refine Eq.trans ?_ hp.sum_eq
    unfold turnedList
    simp only
    rw [List.filter_map, List.map_map]
    rfl
  rw [e2]

/-- **C95**: two particles are in one cluster in one description iff they are in the other. -/
theorem C95_cluster (Q : Vec3 ℝ → Vec3 ℝ) (hQ : Rigid Q) (σ : Equiv.Perm ℕ) (b b' : Box ℝ)
    (pts pts' : List (Vec3 ℝ)) (nl nl' : NList ℝ) (h : TurnedLists Q σ b b' pts pts' nl nl')
    (work work' : List (List (ℕ × ℕ))) (hw : work.flatten.Perm (nl.bonds.map fun nb => (nb.q, nb.p)))
    (hw' : work'.flatten.Perm (nl'.bonds.map fun nb => (nb.q, nb.p))) (s s' : DSet.DState)
    (hr : DSet.Reachable pts.length work s) (hr' : DSet.Reachable pts'.length work' s')
    (hfin : ∀ t ∈ s.threads, t.finished) (hfin' : ∀ t ∈ s'.threads, t.finished) (key key' : ℕ → ℕ)
    (res res' : Cluster.Result) (hres : Cluster.Finish pts.length s.mem key res)
    (hres' : Cluster.Finish pts'.length s'.mem key' res') :
    (∀ i < pts.length, ∀ j < pts.length, res'.clusterIdx.getD i 0 = res'.clusterIdx.getD j 0 ↔
      res.clusterIdx.getD (σ i) 0 = res.clusterIdx.getD (σ j) 0) ∧ res'.num = res.num := by
  rw [h.size] at hr' hres'
  refine C86_cluster pts.length σ (fun i hi => (h.lt_iff i).mpr hi) (turnedList Q nl) nl'
    (listFor_turned Q h.list.1) h.list.2 h.list'.1 h.list'.2 (h.bonds hQ) work work' (hw.trans (List.Perm.of_eq ?_))
    hw' s s' hr hr' hfin hfin' key key' res res' hres hres'
  simp [turnedList, turnedBond, Function.comp_def]

/-- **C95**: the k-atic order parameters move with the particles; a rotation by the angle `a` multiplies
them by `exp (i k a)`. The bonds must have a length. -/
theorem C95_hexatic (a : ℝ) (σ : Equiv.Perm ℕ) (b b' : Box ℝ) (h2 : b.is2D = true) (pts pts' : List (Vec3 ℝ))
    (nl nl' : NList ℝ) (h : TurnedLists (planeTurn a) σ b b' pts pts' nl nl')
    (hlong : ∀ nb ∈ nl.bonds, ¬ (nb.vec.x = 0 ∧ nb.vec.y = 0)) (p : Hexatic.Params) (order order' : List ℕ)
    (hord : order.Perm (List.range pts.length)) (hord' : order'.Perm (List.range pts'.length)) :
    ∃ r r', Hexatic.compute p b pts nl order = some r ∧ Hexatic.compute p b' pts' nl' order' = some r' ∧
      r'.length = r.length ∧ ∀ i < pts.length,
        r'[i]? = (r[σ i]?).map (Option.map fun z => Complex.exp (a * Complex.I) ^ p.k * z) := by
  have hQ := rigid_planeTurn a
  obtain ⟨hrel, -⟩ := h.related hQ (fun v v' => turned a v v' ∧ ¬ (v.x = 0 ∧ v.y = 0))
    (fun nb hnb => ⟨⟨rfl, rfl⟩, hlong nb hnb⟩)
  have hlen : (sortedPoints σ pts').length = pts.length := by simp [sortedPoints, h.size]
  have hlf : ListFor (turnedList (planeTurn a) nl) (sortedPoints σ pts').length := by
    rw [hlen]; exact listFor_turned _ h.list.1
  have hlf' : ListFor nl' pts'.length := by rw [h.size]; exact h.list'.1
  have k1 := C75_rotation p a b b' pts (sortedPoints σ pts') nl (turnedList (planeTurn a) nl) h.list.1 hlf hrel
    order order hord (by rw [hlen]; exact hord)
  obtain ⟨r0, r', e0, e', hl', hv⟩ := C86_hexatic p b' h.system'.inBox.valid (h.lattice.dims.trans h2) _ σ _ pts'
    h.sorted_planar h.sorted _ nl' hlf hlf' (h.bonds hQ) order order' (by rw [hlen]; exact hord) hord'
  rw [e0] at k1
  cases er : Hexatic.compute p b pts nl order with
  | none => rw [er] at k1; cases k1
  | some r =>
    rw [er, Option.map_some, Option.some.injEq] at k1
    refine ⟨r, r', rfl, e', ?_, fun i hi => ?_⟩
    · have hr : r.length = pts.length := by
        have := C75_value p b h2 pts nl h.list.1 order hord
        rw [er, Option.some.injEq] at this
        rw [this]; simp
      rw [hl', hlen, hr]
    · rw [hv i (by rw [hlen]; exact hi), k1, List.getElem?_map]

/-- **C95**: the Steinhardt order parameters `q_l`, averaged or not, weighted or not, move with the
particles, and the order parameter of the system does not change. -/
theorem C95_steinhardt (Q : Vec3 ℝ → Vec3 ℝ) (hQ : Rigid Q) (σ : Equiv.Perm ℕ) (b b' : Box ℝ)
    (pts pts' : List (Vec3 ℝ)) (nl nl' : NList ℝ) (h : TurnedLists Q σ b b' pts pts' nl nl')
    (hlong : ∀ nb ∈ nl.bonds, nb.vec ≠ ⟨0, 0, 0⟩) (sph : Steinhardt.Sph) (p : Steinhardt.Params)
    (Y : ℤ → Vec3 ℝ → ℂ) (hY : Harmonics p.l Y) (hf : FsphOK sph p.l Y) (hw : p.wl = false)
    (history' : List Steinhardt.Call) (hh' : ∀ c ∈ history', LegalSteinhardt p.l c)
    (ev evAve ev' evAve' : List (ℕ × ℕ)) (ro ro' : List ℕ) (hev : IsExecution pts.length ev)
    (hevA : IsExecution pts.length evAve) (hev' : IsExecution pts'.length ev')
    (hevA' : IsExecution pts'.length evAve') (hro : ro.Perm (List.range (2 * p.l + 1)))
    (hro' : ro'.Perm (List.range (2 * p.l + 1))) :
    ∃ r r', Steinhardt.resultAfter sph p [] ⟨b, pts, nl, ev, evAve, ro⟩ = some r ∧
      Steinhardt.resultAfter sph p history' ⟨b', pts', nl', ev', evAve', ro'⟩ = some r' ∧
      (∀ i < pts.length, r'.qli[i]? = r.qli[σ i]? ∧ (r'.particleOrder p)[i]? = (r.particleOrder p)[σ i]?) ∧
      r'.order = r.order := by
  obtain ⟨hrel, hkey⟩ := h.related hQ (fun v v' => v' = Q v ∧ v ≠ ⟨0, 0, 0⟩) (fun nb hnb => ⟨rfl, hlong nb hnb⟩)
  have hkey' := (h.related hQ (fun _ _ => True) (fun _ _ => trivial)).2
  have hlen : (sortedPoints σ pts').length = pts.length := by simp [sortedPoints, h.size]
  have hlf : ListFor (turnedList Q nl) (sortedPoints σ pts').length := by
    rw [hlen]; exact listFor_turned _ h.list.1
  have hlf' : ListFor nl' pts'.length := by rw [h.size]; exact h.list'.1
  have hl : p.wl = true → p.l ≤ 20 := fun e => by rw [hw] at e; cases e
  have hc : LegalSteinhardt p.l ⟨b, pts, nl, ev, evAve, ro⟩ := by
    refine ⟨h.list.1, fun nb hnb _ => ?_, hev, hevA, hro⟩
    obtain ⟨e1, e2, -⟩ := hkey nb hnb
    exact e2.trans (by unfold Vec3.norm; rw [← e1]; rfl)
  have hc0 : LegalSteinhardt p.l ⟨b', sortedPoints σ pts', turnedList Q nl, ev, evAve, ro⟩ := by
    refine ⟨hlf, fun nb hnb _ => ?_, by simp only [hlen]; exact hev, by simp only [hlen]; exact hevA, hro⟩
    obtain ⟨nb0, h0, rfl⟩ := List.mem_map.mp hnb
    obtain ⟨-, e2, e3⟩ := hkey nb0 h0
    refine e2.trans ?_
    rw [← hQ.norm, ← e3]; rfl
  have hc' : LegalSteinhardt p.l ⟨b', pts', nl', ev', evAve', ro'⟩ := by
    refine ⟨hlf', fun nb hnb _ => ?_, hev', hevA', hro'⟩
    obtain ⟨rMax, rMin, excl, h1, h2, h3, h4, h5⟩ := h.lists
    obtain ⟨-, -, a2⟩ := list_source h.system' (by rw [h.size]; exact h.small) h1 h3 h5
    obtain ⟨e1, e2⟩ := separation_source h.system' h3 (a2 nb hnb)
    exact e2.trans (by unfold Vec3.norm; rw [← e1]; rfl)
  obtain ⟨r, r0, e, e0, q1, q2, q3⟩ := C76_rotation sph p Y hY hf hl _ _ hc hc0 Q hQ hrel
  obtain ⟨r0', r', e0', e', hv, ho⟩ := C86_steinhardt sph p Y hf hl [] history' (by simp) hh' _ _ hc0 hc'
    ⟨0, 0, 0⟩ σ ⟨h.system'.inBox.valid, rfl, h.sorted_planar, h.sorted, h.bonds hQ⟩
  rw [e0, Option.some.injEq] at e0'
  subst e0'
  refine ⟨r, r', e, e', fun i hi => ?_, ho.trans (q3 hw)⟩
  obtain ⟨v1, v2, v3⟩ := hv i (by simp only [hlen]; exact hi)
  refine ⟨by rw [v1, q1], ?_⟩
  rw [v3]
  unfold Steinhardt.Result.particleOrder
  rw [hw, if_neg (by simp), if_neg (by simp), q2]

/-! ### Limits -/

/-- The square or the cube of side 10, as a cell with the tilt factor `xy`. -/
noncomputable def tilted (xy : ℝ) (d : Bool) : Box ℝ := Box.mk' 10 10 (if d then 0 else 10) xy 0 0 d

theorem tilted_valid (xy : ℝ) (d : Bool) : Valid (tilted xy d) := by
  cases d <;> constructor <;> simp [tilted, Box.mk', Box.setL]

theorem tilted_pos (xy : ℝ) (d : Bool) : PositiveLengths (tilted xy d) := by
  cases d <;> refine ⟨?_, ?_, ?_⟩ <;> simp [tilted, Box.mk', Box.setL]

theorem tilted_lattice (xy : ℝ) (d : Bool) (n : Vec3 ℤ) :
    lattice (tilted xy d) n = ⟨n.x * 10 + n.y * (xy * 10), n.y * 10, n.z * (if d then 0 else 10)⟩ := by
  cases d <;> ext <;> simp [lattice, comb, a1, a2, a3, tilted, Box.mk', Box.setL]

theorem tilted_allowed (xy : ℝ) (d : Bool) (n : Vec3 ℤ) :
    AllowedShift (tilted xy d) n ↔ (d = true → n.z = 0) := by
  cases d <;> simp [AllowedShift, tilted, Box.mk', Box.setL]

/-- A point is in the cell if its second coordinate and its first one less the shift of its row are. -/
theorem tilted_inCell (xy : ℝ) (d : Bool) {x y : ℝ} (hx : |x - xy * y| ≤ 5) (hy : |y| ≤ 5) :
    InCell (tilted xy d) ⟨x, y, 0⟩ := by
  rw [abs_le] at hx hy
  refine ⟨⟨(x - xy * y) / 10 + 1 / 2, y / 10 + 1 / 2, if d then 0 else 1 / 2⟩, ⟨?_, fun h => ?_⟩, ⟨?_, ?_⟩,
    ⟨?_, ?_⟩, ?_⟩
  · cases d <;> ext <;> simp [comb, a1, a2, a3, tilted, Box.mk', Box.setL] <;> ring
  · cases d
    · simp [tilted, Box.mk', Box.setL] at h
    · rfl
  · simp only; linarith [hx.1]
  · simp only; linarith [hx.2]
  · simp only; linarith [hy.1]
  · simp only; linarith [hy.2]
  · cases d <;> norm_num

/-- The cells with the tilt factors 0 and 1, the first turned by a right angle. -/
theorem tilted_same (d : Bool) : SameLattice (planeTurn (Real.pi / 2)) (tilted 0 d) (tilted 1 d) := by
  have hl : ∀ n : Vec3 ℤ, lattice (tilted 1 d) ⟨-n.y - n.x, n.x, n.z⟩ =
      planeTurn (Real.pi / 2) (lattice (tilted 0 d) n) := by
    intro n
    rw [tilted_lattice, tilted_lattice]
    ext <;> simp [planeTurn]
    ring
  refine ⟨by simp [tilted, Box.mk', Box.setL], fun n hn => ⟨_, ?_, hl n⟩, fun n' hn' =>
    ⟨⟨n'.y, -n'.x - n'.y, n'.z⟩, ?_, ?_⟩⟩
  · rw [tilted_allowed] at hn ⊢; exact hn
  · rw [tilted_allowed] at hn' ⊢; exact hn'
  · rw [← hl]; congr 1; ext <;> simp

/-- The cells with the tilt factors 0 and 1. -/
theorem tilted_same_id (d : Bool) : SameLattice id (tilted 0 d) (tilted 1 d) := by
  refine ⟨by simp [tilted, Box.mk', Box.setL], fun n hn => ⟨⟨n.x - n.y, n.y, n.z⟩, ?_, ?_⟩,
    fun n hn => ⟨⟨n.x + n.y, n.y, n.z⟩, ?_, ?_⟩⟩
  · rw [tilted_allowed] at hn ⊢; exact hn
  · rw [tilted_lattice, tilted_lattice]; ext <;> simp; ring
  · rw [tilted_allowed] at hn ⊢; exact hn
  · rw [tilted_lattice, tilted_lattice]; ext <;> simp; ring

theorem tilted_half (d : Bool) {r : ℝ} (hr : r < 5) : BelowHalf (tilted 0 d) r := by
  refine ⟨fun _ => ?_, fun _ => ?_, fun _ h => ?_⟩ <;> cases d <;>
    simp_all [tilted, Box.mk', Box.setL, Box.getNearestPlaneDistance] <;> linarith

theorem tilted_half' (d : Bool) {r : ℝ} (hr : r ≤ 3) : BelowHalf (tilted 1 d) r := by
  have h2 : Real.sqrt (1 + 1) < 3 / 2 := (Real.sqrt_lt' (by norm_num)).mpr (by norm_num)
  have h0 : 0 < Real.sqrt (1 + 1) := Real.sqrt_pos.mpr (by norm_num)
  have h3 : 2 * r < 10 / Real.sqrt (1 + 1) := by
    rw [lt_div_iff₀ h0]
    have := mul_le_mul_of_nonneg_right hr h0.le
    generalize Real.sqrt (1 + 1) = s at *
    linarith
  refine ⟨fun _ => ?_, fun _ => ?_, fun _ h => ?_⟩ <;> cases d <;>
    simp_all [tilted, Box.mk', Box.setL, Box.getNearestPlaneDistance] <;> linarith

/-- **C95** (limit): whether a query is accepted does depend on the cell: in the cube, a query with a
cutoff of 4 is answered by every engine; in the cell of the same lattice with the tilt factor 1 it is
refused by all but `LinkCell`, for any points. -/
theorem C95_accepted_counterexample : SameLattice id (tilted 0 false) (tilted 1 false) ∧
    (∀ (s : System) (pts : List (Vec3 ℝ)), MadeFrom s (tilted 0 false) pts → pts ≠ [] →
      PeriodicSystem (tilted 0 false) pts pts → ∃ found, s.Finds pts 4 0 true found) ∧
    (∀ (s : System) (pts : List (Vec3 ℝ)), MadeFrom s (tilted 1 false) pts → pts ≠ [] →
      PeriodicSystem (tilted 1 false) pts pts → (∀ lc, s ≠ .linkCell lc) →
      ¬ ∃ found, s.Finds pts 4 0 true found) := by
  refine ⟨tilted_same_id false, fun s pts hm hne hs => ?_, fun s pts hm hne hs hlc => ?_⟩
  · exact (C85_accepted_iff s _ pts pts hm hs hne 4 0 true).mpr
      ⟨by norm_num, by norm_num, Or.inr (tilted_half false (by norm_num))⟩
  · rw [C85_accepted_iff s _ pts pts hm hs hne 4 0 true]
    rintro ⟨-, -, ⟨lc, rfl⟩ | h⟩
    · exact hlc lc rfl
    · have h1 := h.1 rfl
      have h2 : (5 : ℝ) / 4 < Real.sqrt (1 + 1) := Real.lt_sqrt_of_sq_lt (by norm_num)
      have h0 : 0 < Real.sqrt (1 + 1) := Real.sqrt_pos.mpr (by norm_num)
      have h3 : (10 : ℝ) / Real.sqrt (1 + 1) < 8 := by
        rw [div_lt_iff₀ h0]
        clear h1
        generalize Real.sqrt (1 + 1) = s at *
        linarith
      simp [tilted, Box.mk', Box.setL, Box.getNearestPlaneDistance] at h1
      linarith

/-! ### A case that meets the hypotheses: the pair of C85 in the tilted cell, turned by a right angle and
exchanged -/

theorem facePair_tilted (d : Bool) : PeriodicSystem (tilted 0 d) facePair facePair := by
  have h : ∀ p ∈ facePair, InCell (tilted 0 d) p := by
    intro p hp
    simp only [facePair, List.mem_cons, List.not_mem_nil, or_false] at hp
    rcases hp with rfl | rfl <;> apply tilted_inCell <;> norm_num [abs_le]
  exact ⟨⟨tilted_valid _ _, tilted_pos _ _, h⟩, ⟨rfl, rfl, rfl⟩, h⟩

/-- The pair in the other cell. -/
noncomputable def turnedPair : List (Vec3 ℝ) := [⟨0, 49 / 10, 0⟩, ⟨0, -49 / 10, 0⟩]

theorem turnedPair_system (d : Bool) : PeriodicSystem (tilted 1 d) turnedPair turnedPair := by
  have h : ∀ p ∈ turnedPair, InCell (tilted 1 d) p := by
    intro p hp
    simp only [turnedPair, List.mem_cons, List.not_mem_nil, or_false] at hp
    rcases hp with rfl | rfl <;> apply tilted_inCell <;> norm_num [abs_le]
  exact ⟨⟨tilted_valid _ _, tilted_pos _ _, h⟩, ⟨rfl, rfl, rfl⟩, h⟩

theorem turnedPair_turned (d : Bool) : Turned (tilted 1 d) (planeTurn (Real.pi / 2)) ⟨0, 0, 0⟩ (Equiv.swap 0 1)
    facePair turnedPair := by
  have him : ∀ v, IsImage (tilted 1 d) v v := fun v =>
    ⟨⟨0, 0, 0⟩, (tilted_allowed _ _ _).mpr fun _ => rfl, by rw [tilted_lattice]; ext <;> simp⟩
  refine ⟨rfl, fun i p' hp' => ?_⟩
  match i, hp' with
  | 0, hp' =>
    simp only [turnedPair, List.getElem?_cons_zero, Option.some.injEq] at hp'
    subst hp'
    refine ⟨⟨49 / 10, 0, 0⟩, by simp [facePair], ?_⟩
    have : planeTurn (Real.pi / 2) ⟨49 / 10, 0, 0⟩ + ⟨0, 0, 0⟩ = ⟨0, 49 / 10, 0⟩ := by
      ext <;> simp [planeTurn]
    rw [this]; exact him _
  | 1, hp' =>
    simp only [turnedPair, List.getElem?_cons_succ, List.getElem?_cons_zero, Option.some.injEq] at hp'
    subst hp'
    refine ⟨⟨-49 / 10, 0, 0⟩, by simp [facePair], ?_⟩
    have : planeTurn (Real.pi / 2) ⟨-49 / 10, 0, 0⟩ + ⟨0, 0, 0⟩ = ⟨0, -49 / 10, 0⟩ := by
      ext <;> simp [planeTurn]
    rw [this]; exact him _
  | i + 2, hp' => simp [turnedPair] at hp'

/-- The frames of the theorems of C95, two-dimensional or not. -/
theorem exists_turned {D : Type*} (act : D → D) (x y : D) (d : Bool) : ∃ f f' : DataFrame D, f.OK ∧ f'.OK ∧
    TurnedSystem act (planeTurn (Real.pi / 2)) f f' ∧ f.box = tilted 0 d ∧ f'.box = tilted 1 d ∧
    f.pts = facePair ∧ f'.pts = turnedPair ∧ f.data 0 = x ∧ f'.data 0 = act y := by
  obtain ⟨src, ev, h⟩ := exists_frame (facePair_tilted d) (by simp [facePair]) (by simp [facePair]) le_rfl
    (show (0 : ℝ) < 2 by norm_num) (tilted_half d (by norm_num)) true (fun i => if i = 0 then x else y)
    (fun i => if i = 0 then x else y)
  obtain ⟨src', ev', h'⟩ := exists_frame (turnedPair_system d) (by simp [turnedPair]) (by simp [turnedPair]) le_rfl
    (show (0 : ℝ) < 2 by norm_num) (tilted_half' d (by norm_num)) true (fun i => if i = 0 then act y else act x)
    (fun i => if i = 0 then act y else act x)
  have hd : ∀ i < facePair.length, (if i = 0 then act y else act x) =
      act (if Equiv.swap 0 1 i = 0 then x else y) := by
    intro i hi
    have : i = 0 ∨ i = 1 := by simp [facePair] at hi; omega
    rcases this with rfl | rfl <;> simp
  exact ⟨_, _, h, h', ⟨tilted_same d, rfl, rfl, rfl, _, _, _, fun _ => rfl, turnedPair_turned d,
    turnedPair_turned d, hd, hd⟩, rfl, rfl, rfl, rfl, rfl, rfl⟩

-- `C95_correlation` applied to the pair with the values 3 and 5
example : ∃ f f' : DataFrame ℝ, f.pts = facePair ∧ f'.pts = turnedPair ∧
    ∃ s s1 s' s1', (CorrelationFunction.new ⟨4, 0, 2⟩ : CorrelationFunction ℝ ℝ).run [f.cf] = some s ∧
      s.getCorrelation (List.range 4) = some s1 ∧
      (CorrelationFunction.new ⟨4, 0, 2⟩ : CorrelationFunction ℝ ℝ).run [f'.cf] = some s' ∧
      s'.getCorrelation (List.range 4) = some s1' ∧ s1'.output = s1.output := by
  obtain ⟨f, f', h, h', hs, -, -, e1, e2, -⟩ := exists_turned id (3 : ℝ) 5 false
  exact ⟨f, f', e1, e2, C95_correlation 4 2 ⟨4, 0, 2⟩ (by simp [CorrelationFunction.mkAxis]) (by decide) [f] [f']
    (by simpa using h) (by simpa using h') (by simpa using ⟨_, rigid_planeTurn _, hs⟩) _ _ (List.Perm.refl _)
    (List.Perm.refl _)⟩

-- the frames of `C95_pmft_xy`, `C95_pmft_xyt` and `C95_pmft_r12`
example : ∃ f f' : DataFrame ℝ, TurnedPlane f f' ∧ f.OK ∧ f'.OK ∧ f.box.is2D = true := by
  obtain ⟨f, f', h, h', hs, e, -⟩ := exists_turned (· + Real.pi / 2) (3 : ℝ) 5 true
  exact ⟨f, f', ⟨_, hs⟩, h, h', by rw [e]; rfl⟩

/-- The quaternion of the rotation by a right angle about the third axis. -/
noncomputable def quarter : Quat ℝ := ⟨Real.sqrt 2 / 2, 0, 0, Real.sqrt 2 / 2⟩

theorem quarter_norm : Quat.norm2 quarter = 1 := by
  have := Real.mul_self_sqrt (show (0 : ℝ) ≤ 2 by norm_num)
  simp only [quarter, Quat.norm2, Vec3.dot]
  linarith

theorem quarter_rotate : Quat.rotate quarter = planeTurn (Real.pi / 2) := by
  have := Real.mul_self_sqrt (show (0 : ℝ) ≤ 2 by norm_num)
  funext v
  ext
  · simp [quarter, planeTurn, Quat.rotate, Vec3.dot, Vec3.cross]; linear_combination (v.y / 2) * this
  · simp [quarter, planeTurn, Quat.rotate, Vec3.dot, Vec3.cross]; linear_combination (v.x / 2) * this
  · simp [quarter, planeTurn, Quat.rotate, Vec3.dot, Vec3.cross]; linear_combination (v.z / 2) * this

-- the frames of `C95_bond_order` and `C95_pmft_xyz`
example : ∃ f f' : DataFrame (Quat ℝ), TurnedSpace f f' ∧ f.OK ∧ f'.OK ∧ f.box.is2D = false ∧
    f.data 0 = ⟨1, 0, 0, 0⟩ ∧ f'.data 0 = Quat.mul quarter ⟨0, 1, 0, 0⟩ := by
  obtain ⟨f, f', h, h', hs, e, -, -, -, d1, d2⟩ := exists_turned (Quat.mul quarter) (⟨1, 0, 0, 0⟩ : Quat ℝ)
    ⟨0, 1, 0, 0⟩ false
  exact ⟨f, f', ⟨quarter, quarter_norm, by rw [quarter_rotate]; exact hs⟩, h, h', by rw [e]; rfl, d1, d2⟩

-- the frames of `C95_rdf`
example : ∃ f f' : RDFFrame, TurnedFrame f f' ∧ f.OK 1 0 ∧ f'.OK 1 0 ∧ f.box = tilted 0 false ∧
    f'.box = tilted 1 false := by
  obtain ⟨src, ev, h⟩ := exists_frame (facePair_tilted false) (by simp [facePair]) (by simp [facePair]) le_rfl
    (show (0 : ℝ) < 2 by norm_num) (tilted_half false (by norm_num)) true (fun _ => ()) (fun _ => ())
  obtain ⟨src', ev', h'⟩ := exists_frame (turnedPair_system false) (by simp [turnedPair]) (by simp [turnedPair])
    le_rfl (show (0 : ℝ) < 2 by norm_num) (tilted_half' false (by norm_num)) true (fun _ => ()) (fun _ => ())
  exact ⟨⟨_, _, _, true, 2, 0, src, ev⟩, ⟨_, _, _, true, 2, 0, src', ev'⟩,
    ⟨rfl, _, _, _, _, rigid_planeTurn _, tilted_same false, fun _ => rfl, turnedPair_turned false,
      turnedPair_turned false⟩,
    ⟨h.system, h.half, le_rfl, le_rfl, by norm_num, h.source, h.exec⟩,
    ⟨h'.system, h'.half, le_rfl, le_rfl, by norm_num, h'.source, h'.exec⟩, rfl, rfl⟩

/-- The lists of the theorems about order parameters, clusters and densities. -/
theorem exists_turned_lists (d : Bool) : ∃ nl nl', TurnedLists (planeTurn (Real.pi / 2)) (Equiv.swap 0 1)
    (tilted 0 d) (tilted 1 d) facePair turnedPair nl nl' ∧ (∀ nb ∈ nl.bonds, ¬ (nb.vec.x = 0 ∧ nb.vec.y = 0)) ∧
    nl.bonds ≠ [] := by
  have mk : ∀ {b : Box ℝ} {pts : List (Vec3 ℝ)}, PeriodicSystem b pts pts → pts ≠ [] → BelowHalf b 2 →
      ∃ nl, IsSource b pts pts 2 0 true (.list nl) := by
    intro b pts hs hne hh
    obtain ⟨src, ev, h⟩ := exists_frame hs hne hne le_rfl (show (0 : ℝ) < 2 by norm_num) hh true (fun _ => ())
      (fun _ => ())
    obtain ⟨s, found, hm, hf, -⟩ := h.source
    obtain ⟨nl, hnl⟩ := C20_result_exists found pts.length pts.length false
      ((List.range pts.length).map fun i => (0, i))
    exact ⟨nl, s, found, hm, hf, Or.inr ⟨false, _, nl, by simp [IsExecution, Function.comp_def], hnl, rfl⟩⟩
  obtain ⟨nl, h⟩ := mk (facePair_tilted d) (by simp [facePair]) (tilted_half d (by norm_num))
  obtain ⟨nl', h'⟩ := mk (turnedPair_system d) (by simp [turnedPair]) (tilted_half' d (by norm_num))
  have hmem := list_source (facePair_tilted d) (by simp [facePair]) le_rfl (tilted_half d (by norm_num)) h
  refine ⟨nl, nl', ⟨facePair_tilted d, turnedPair_system d, by simp [facePair], tilted_same d,
    ⟨_, turnedPair_turned d⟩, 2, 0, true, le_rfl, tilted_half d (by norm_num), tilted_half' d (by norm_num), h, h'⟩,
    ?_, ?_⟩
  · rintro nb hnb ⟨hx, -⟩
    obtain ⟨q, hq, -, -, -, hne, -, -, p, hp, n, -, hv⟩ := hmem.2.2 nb hnb
    rw [tilted_lattice] at hv
    have hx' := congrArg Vec3.x hv
    rw [hx] at hx'
    have hq2 : nb.q = 0 ∨ nb.q = 1 := by
      have := (List.getElem?_eq_some_iff.mp hq).1; simp [facePair] at this; omega
    have hp2 : nb.p = 0 ∨ nb.p = 1 := by
      have := (List.getElem?_eq_some_iff.mp hp).1; simp [facePair] at this; omega
    have hne' := hne rfl
    rcases hq2 with e | e <;> rcases hp2 with e' | e' <;> rw [e] at hq hne' <;> rw [e'] at hp hne'
    · exact hne' rfl
    · simp [facePair] at hp hq
      rw [← hp, ← hq] at hx'
      have : (n.x * 100 : ℤ) = -98 := by
        have : (n.x * 100 : ℝ) = -98 := by simp at hx'; linarith
        exact_mod_cast this
      omega
    · simp [facePair] at hp hq
      rw [← hp, ← hq] at hx'
      have : (n.x * 100 : ℤ) = 98 := by
        have : (n.x * 100 : ℝ) = 98 := by simp at hx'; linarith
        exact_mod_cast this
      omega
    · exact hne' rfl
  · obtain ⟨-, all, hperm, hall, -⟩ := source_perm (facePair_tilted d) le_rfl (tilted_half d (by norm_num)) h
    intro e
    have hb : (⟨1, 0, Vec3.norm ⟨1 / 5, 0, 0⟩, 1, ⟨1 / 5, 0, 0⟩⟩ : Bond ℝ) ∈ all := (hall _).mpr
      ⟨⟨49 / 10, 0, 0⟩, rfl, rfl, rfl, rfl, by simp, norm_nonneg' _,
        (by rw [norm_lt_iff _ _ (by norm_num)]; norm_num [Vec3.dot]), ⟨-49 / 10, 0, 0⟩, rfl, ⟨1, 0, 0⟩,
        (tilted_allowed _ _ _).mpr fun _ => rfl, (by rw [tilted_lattice]; ext <;> simp; norm_num)⟩
    have hf := bondsFrom_list nl
    unfold bondsFrom at hf
    rw [hf, e] at hperm
    exact absurd (hperm.symm.subset hb) (by simp)

-- `C95_hexatic` applied to the pair: the bonds have a length
example : ∃ nl nl' r r', Hexatic.compute ⟨6, false⟩ (tilted 0 true) facePair nl (List.range 2) = some r ∧
    Hexatic.compute ⟨6, false⟩ (tilted 1 true) turnedPair nl' (List.range 2) = some r' ∧
    r'[0]? = (r[1]?).map (Option.map fun z => Complex.exp ((Real.pi / 2 : ℝ) * Complex.I) ^ 6 * z) := by
  obtain ⟨nl, nl', h, hlong, -⟩ := exists_turned_lists true
  obtain ⟨r, r', e, e', -, hv⟩ := C95_hexatic (Real.pi / 2) _ _ _ rfl _ _ nl nl' h hlong ⟨6, false⟩ (List.range 2)
    (List.range 2) (List.Perm.refl _) (List.Perm.refl _)
  exact ⟨nl, nl', r, r', e, e', by simpa using hv 0 (by simp [facePair])⟩

end Freud
