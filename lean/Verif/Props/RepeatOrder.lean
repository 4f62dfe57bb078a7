import Verif.Props.Repeat
import Verif.Props.CellsOrder

/-!
# Property C109: order parameters and densities in larger cells
-/

namespace Freud
open Spec

/-- Two descriptions of a periodic system, the second by a cell that holds `m` cells of the first, with the
lists of the neighbors in the same range. Particle `i` of the second repeats particle `φ i` of the first. -/
structure Spec.RepeatedLists (m : ℕ) (φ : ℕ → ℕ) (b b' : Box ℝ) (pts pts' : List (Vec3 ℝ))
    (nl nl' : NList ℝ) : Prop where
  system : PeriodicSystem b pts pts
  system' : PeriodicSystem b' pts' pts'
  small : pts.length ≤ 0xffffffff
  small' : pts'.length ≤ 0xffffffff
  lattice : CoarserLattice b b'
  points : ∃ t, Repeated b b' t φ pts pts'
  pos : 1 ≤ m
  times : pts'.length = m * pts.length
  lists : ∃ rMax rMin excl, 0 ≤ rMin ∧ BelowHalf b rMax ∧ BelowHalf b' rMax ∧
    IsSource b pts pts rMax rMin excl (.list nl) ∧ IsSource b' pts' pts' rMax rMin excl (.list nl')

namespace Spec.RepeatedLists
variable {m : ℕ} {φ : ℕ → ℕ} {b b' : Box ℝ} {pts pts' : List (Vec3 ℝ)} {nl nl' : NList ℝ}

theorem lt (h : RepeatedLists m φ b b' pts pts' nl nl') {i : ℕ} (hi : i < pts'.length) : φ i < pts.length := by
  obtain ⟨t, ht⟩ := h.points
  exact ht.lt hi

theorem neighbors (h : RepeatedLists m φ b b' pts pts' nl nl') {i : ℕ} (hi : i < pts'.length) :
    ((nl'.bonds.filter fun bd => bd.q = i).map (relabel φ φ)).Perm (nl.bonds.filter fun bd => bd.q = φ i) := by
  obtain ⟨t, ht⟩ := h.points
  obtain ⟨rMax, rMin, excl, h1, h2, h3, h4, h5⟩ := h.lists
  have := C109_neighbors b b' h.lattice t φ φ pts pts' pts pts' h.system h.system' ht ht rMax rMin h1 h2 h3 excl
    (fun _ => ⟨rfl, rfl, rfl⟩) _ _ h4 h5 i hi
  rwa [bondsFrom_list, bondsFrom_list] at this

theorem list (h : RepeatedLists m φ b b' pts pts' nl nl') : ListFor nl pts.length := by
  obtain ⟨rMax, rMin, excl, h1, h2, h3, h4, h5⟩ := h.lists
  exact (list_source h.system h.small h1 h2 h4).1

theorem list' (h : RepeatedLists m φ b b' pts pts' nl nl') : ListFor nl' pts'.length := by
  obtain ⟨rMax, rMin, excl, h1, h2, h3, h4, h5⟩ := h.lists
  exact (list_source h.system' h.small' h1 h3 h5).1

theorem lt' (h : RepeatedLists m φ b b' pts pts' nl nl') {nb : Bond ℝ} (hnb : nb ∈ nl'.bonds) :
    nb.q < pts'.length := by
  obtain ⟨rMax, rMin, excl, h1, h2, h3, h4, h5⟩ := h.lists
  obtain ⟨q, hq, -⟩ := (list_source h.system' h.small' h1 h3 h5).2.2 nb hnb
  exact (List.getElem?_eq_some_iff.mp hq).1

theorem vectors (h : RepeatedLists m φ b b' pts pts' nl nl') :
    ∀ nb ∈ nl.bonds, separation b pts nb = nb.vec ∧ nb.dist = Vec3.norm nb.vec := by
  intro nb hnb
  obtain ⟨rMax, rMin, excl, h1, h2, h3, h4, h5⟩ := h.lists
  exact separation_source h.system h2 ((list_source h.system h.small h1 h2 h4).2.2 nb hnb)

theorem vectors' (h : RepeatedLists m φ b b' pts pts' nl nl') :
    ∀ nb ∈ nl'.bonds, separation b' pts' nb = nb.vec ∧ nb.dist = Vec3.norm nb.vec := by
  intro nb hnb
  obtain ⟨rMax, rMin, excl, h1, h2, h3, h4, h5⟩ := h.lists
  exact separation_source h.system' h3 ((list_source h.system' h.small' h1 h3 h5).2.2 nb hnb)

/-- What is computed from the weights, distances and separations of the bonds of a particle. -/
theorem sameBonds {β : Type*} (h : RepeatedLists m φ b b' pts pts' nl nl') (F : ℝ → ℝ → Vec3 ℝ → β) {i : ℕ}
    (hi : i < pts'.length) :
    ((nl'.bonds.filter fun nb => nb.q = i).map fun nb => F nb.weight nb.dist (separation b' pts' nb)).Perm
      ((nl.bonds.filter fun nb => nb.q = φ i).map fun nb => F nb.weight nb.dist (separation b pts nb)) := by
  refine List.Perm.trans (List.Perm.of_eq ?_) (((h.neighbors hi).map fun nb => F nb.weight nb.dist nb.vec).trans
    (List.Perm.of_eq ?_))
  · rw [List.map_map]
    refine List.map_congr_left fun nb hnb => ?_
    simp only [Function.comp_apply, relabel, (h.vectors' nb (List.mem_filter.mp hnb).1).1]
  · refine List.map_congr_left fun nb hnb => ?_
    rw [(h.vectors nb (List.mem_filter.mp hnb).1).1]

end Spec.RepeatedLists

/-- **C109**: numbers of neighbors and densities of `LocalDensity`. -/
theorem C109_local_density (m : ℕ) (φ : ℕ → ℕ) (b b' : Box ℝ) (pts pts' : List (Vec3 ℝ)) (nl nl' : NList ℝ)
    (h : RepeatedLists m φ b b' pts pts' nl nl') (pi : ℝ) (s : LocalDensity ℝ) (hD : 0 ≤ s.diameter)
    (hdist : ∀ nb ∈ nl.bonds, nb.dist < s.defaultRMax) (order order' : List ℕ)
    (hord : order.Perm (List.range pts.length)) (hord' : order'.Perm (List.range pts'.length)) :
    ∃ r r', s.compute pi b pts.length nl order = some r ∧ s.compute pi b' pts'.length nl' order' = some r' ∧
      ∀ i < pts'.length, r'.results.data[i]? = r.results.data[φ i]? := by
  have hdist' : ∀ nb ∈ nl'.bonds, nb.dist < s.defaultRMax := by
    intro nb hnb
    have := (h.neighbors (h.lt' hnb)).mem_iff (a := relabel φ φ nb) |>.mp
      (List.mem_map_of_mem (List.mem_filter.mpr ⟨hnb, by simp⟩))
    exact hdist (relabel φ φ nb) (List.mem_filter.mp this).1
  obtain ⟨r, e, -, hv⟩ := C39_local_density pi s hD b _ nl h.list.good hdist order hord
  obtain ⟨r', e', -, hv'⟩ := C39_local_density pi s hD b' _ nl' h.list'.good hdist' order' hord'
  refine ⟨r, r', e, e', fun i hi => ?_⟩
  rw [hv' i hi, hv (φ i) (h.lt hi), h.lattice.dims,
    (h.sameBonds (fun _ d _ => overlap s.rMax s.diameter d) hi).sum_eq]

theorem weightedBonds_separation (b : Box ℝ) (pts : List (Vec3 ℝ)) (weighted : Bool) (bonds : List (Bond ℝ))
    (i : ℕ) : weightedBonds b pts weighted bonds i =
      (bonds.filter (fun nb => nb.q = i)).map fun nb => (if weighted then nb.weight else 1, separation b pts nb) := by
  unfold weightedBonds separation
  refine List.map_congr_left fun nb hnb => ?_
  rw [of_decide_eq_true (List.mem_filter.mp hnb).2]

/-- **C109**: the k-atic order parameters. -/
theorem C109_hexatic (m : ℕ) (φ : ℕ → ℕ) (b b' : Box ℝ) (h2 : b.is2D = true) (pts pts' : List (Vec3 ℝ))
    (nl nl' : NList ℝ) (h : RepeatedLists m φ b b' pts pts' nl nl') (p : Hexatic.Params) (order order' : List ℕ)
    (hord : order.Perm (List.range pts.length)) (hord' : order'.Perm (List.range pts'.length)) :
    ∃ r r', Hexatic.compute p b pts nl order = some r ∧ Hexatic.compute p b' pts' nl' order' = some r' ∧
      r'.length = pts'.length ∧ ∀ i < pts'.length, r'[i]? = r[φ i]? := by
  refine ⟨_, _, C75_value p b h2 pts nl h.list order hord,
    C75_value p b' (h.lattice.dims.trans h2) pts' nl' h.list' order' hord', by simp, fun i hi => ?_⟩
  rw [List.getElem?_map, List.getElem?_map, List.getElem?_range hi, List.getElem?_range (h.lt hi),
    Option.map_some, Option.map_some]
  congr 1
  apply katic_perm
  rw [weightedBonds_separation, weightedBonds_separation]
  exact h.sameBonds (fun w _ v => (if p.weighted then w else 1, v)) hi

namespace Steinhardt

theorem coefficient_flatten (Y : ℤ → Vec3 ℝ → ℂ) (m : ℕ) (L : List (ℝ × Vec3 ℝ)) (k : ℤ) :
    coefficient Y (List.replicate m L).flatten k = m * coefficient Y L k := by
  unfold coefficient
  rw [List.map_flatten, List.map_replicate, List.sum_flatten, List.map_replicate, List.sum_replicate, nsmul_eq_mul]

/-- The mean of `m` copies of some distributions. -/
theorem holds_replicate {Y : ℤ → Vec3 ℝ → ℂ} {l m : ℕ} (hm : 1 ≤ m) {row : Row}
    {Ls : List (Option (List (ℝ × Vec3 ℝ)))} (h : Holds Y l row (mix (List.replicate m Ls).flatten)) :
    Holds Y l row (mix Ls) := by
  have hm0 : (m : ℂ) ≠ 0 := by exact_mod_cast Nat.one_le_iff_ne_zero.mp hm
  have hmem : ∀ L, L ∈ (List.replicate m Ls).flatten ↔ L ∈ Ls := by
    intro L
    rw [List.mem_flatten]
    constructor
    · rintro ⟨K, hK, hL⟩
      rw [(List.mem_replicate.mp hK).2] at hL; exact hL
    · intro hL
      exact ⟨Ls, List.mem_replicate.mpr ⟨by omega, rfl⟩, hL⟩
  unfold mix at h ⊢
  by_cases hn : none ∈ Ls
  · rw [if_pos hn]
    rwa [if_pos ((hmem _).mpr hn)] at h
  · rw [if_neg hn]
    rw [if_neg fun h => hn ((hmem _).mp h)] at h
    have hlen : (List.replicate m Ls).flatten.length = m * Ls.length := by
      rw [List.length_flatten, List.map_replicate, List.sum_replicate, smul_eq_mul]
    have hfl : ∀ c : ℝ, ((List.replicate m Ls).flatten.flatMap fun L => (L.getD []).map fun d => (d.1 / c, d.2)) =
        (List.replicate m (Ls.flatMap fun L => (L.getD []).map fun d => (d.1 / c, d.2))).flatten := by
      intro c
      rw [List.flatMap_def, List.map_flatten, List.map_replicate, List.flatten_flatten, List.map_replicate,
        List.flatMap_def]
    rw [hfl, hlen] at h
    match row, h with
    | some r, ⟨h1, h2⟩ =>
      refine ⟨?_, fun k hk hk' => ?_⟩
      · intro d hd
        obtain ⟨L, hL, hd⟩ := List.mem_flatMap.mp hd
        obtain ⟨d0, h0, rfl⟩ := List.mem_map.mp hd
        exact h1 (d0.1 / ((m * Ls.length : ℕ) : ℝ), d0.2) (List.mem_flatten.mpr ⟨_,
          List.mem_replicate.mpr ⟨by omega, rfl⟩, List.mem_flatMap.mpr ⟨L, hL, List.mem_map.mpr ⟨d0, h0, rfl⟩⟩⟩)
      · rw [h2 k hk hk', coefficient_flatten]
        have hc : ∀ c : ℝ, coefficient Y (Ls.flatMap fun L => (L.getD []).map fun d => (d.1 / c, d.2)) k =
            coefficient Y (Ls.flatMap fun L => L.getD []) k / c := by
          intro c
          unfold coefficient
          rw [← List.map_flatMap, List.map_map, div_eq_mul_inv, ← List.sum_map_mul_right]
          refine congrArg List.sum (List.map_congr_left fun d _ => ?_)
          simp only [Function.comp_apply]
          push_cast
          rw [div_eq_mul_inv]
          ring
        rw [hc, hc]
        push_cast
        rw [← mul_div_assoc, mul_div_mul_left _ _ hm0]

end Steinhardt

/-- **C109**: the Steinhardt order parameters `q_l` and `w_l`, averaged or not, weighted or not, after any
history of calls: each particle has those of the particle it repeats, and those of the system do not
change. -/
theorem C109_steinhardt (m : ℕ) (φ : ℕ → ℕ) (b b' : Box ℝ) (pts pts' : List (Vec3 ℝ))
    (nl nl' : NList ℝ) (h : RepeatedLists m φ b b' pts pts' nl nl') (sph : Steinhardt.Sph) (p : Steinhardt.Params)
    (Y : ℤ → Vec3 ℝ → ℂ) (hf : FsphOK sph p.l Y) (hl : p.wl = true → p.l ≤ 20)
    (history history' : List Steinhardt.Call) (hh : ∀ c ∈ history, LegalSteinhardt p.l c)
    (hh' : ∀ c ∈ history', LegalSteinhardt p.l c)
    (ev evAve ev' evAve' : List (ℕ × ℕ)) (ro ro' : List ℕ) (hev : IsExecution pts.length ev)
    (hevA : IsExecution pts.length evAve) (hev' : IsExecution pts'.length ev')
    (hevA' : IsExecution pts'.length evAve') (hro : ro.Perm (List.range (2 * p.l + 1)))
    (hro' : ro'.Perm (List.range (2 * p.l + 1))) :
    ∃ r r', Steinhardt.resultAfter sph p history ⟨b, pts, nl, ev, evAve, ro⟩ = some r ∧
      Steinhardt.resultAfter sph p history' ⟨b', pts', nl', ev', evAve', ro'⟩ = some r' ∧
      (∀ i < pts'.length, r'.qli[i]? = r.qli[φ i]? ∧ (r'.getQl p)[i]? = (r.getQl p)[φ i]? ∧
        (r'.particleOrder p)[i]? = (r.particleOrder p)[φ i]?) ∧ r'.order = r.order := by
  set c : Steinhardt.Call := ⟨b, pts, nl, ev, evAve, ro⟩ with hcdef
  set c' : Steinhardt.Call := ⟨b', pts', nl', ev', evAve', ro'⟩ with hcdef'
  have hc : LegalSteinhardt p.l c := by
    refine ⟨h.list, fun nb hnb _ => ?_, hev, hevA, hro⟩
    obtain ⟨e1, e2⟩ := h.vectors nb hnb
    exact e2.trans (by unfold Vec3.norm; rw [← e1]; rfl)
  have hc' : LegalSteinhardt p.l c' := by
    refine ⟨h.list', fun nb hnb _ => ?_, hev', hevA', hro'⟩
    obtain ⟨e1, e2⟩ := h.vectors' nb hnb
    exact e2.trans (by unfold Vec3.norm; rw [← e1]; rfl)
  have hdir : ∀ i < pts'.length, (directions b' pts' p.weighted nl'.bonds i).Perm
      (directions b pts p.weighted nl.bonds (φ i)) := fun i hi =>
    h.sameBonds (fun w _ v => (if p.weighted then w else 1, unit v)) hi
  have hdist : ∀ av, ∀ i < c'.points.length,
      Steinhardt.asM (Steinhardt.dist p c' av i) = Steinhardt.asM (Steinhardt.dist p c av (φ i)) := by
    intro av i hi
    unfold Steinhardt.dist distribution
    cases av with
    | false =>
      simp only [Bool.false_eq_true, if_false]
      exact Steinhardt.normalized_perm (hdir i hi)
    | true =>
      simp only [if_true]
      refine Steinhardt.mix_perm ?_
      rw [List.map_map, List.map_map]
      have hp : (((nl'.bonds.filter (fun nb => nb.q = i)).map (·.p) ++ [i]).map φ).Perm
          ((nl.bonds.filter (fun nb => nb.q = φ i)).map (·.p) ++ [φ i]) := by
        rw [List.map_append, List.map_map]
        refine List.Perm.append_right _ ?_
        have := (h.neighbors hi).map (·.p)
        rwa [List.map_map] at this
      refine List.Perm.trans (List.Perm.of_eq ?_) (hp.map _)
      rw [List.map_map]
      refine List.map_congr_left fun j hj => ?_
      have hj' : j < pts'.length := by
        rw [List.mem_append, List.mem_singleton] at hj
        rcases hj with hj | rfl
        · obtain ⟨nb, hnb, rfl⟩ := List.mem_map.mp hj
          obtain ⟨h3, h4⟩ := List.mem_filter.mp hnb
          exact h.list'.points nb h3 (by have := of_decide_eq_true h4; rw [this]; exact hi)
        · exact hi
      exact Steinhardt.normalized_perm (hdir j hj')
  refine steinhardt_maps hf hl hh hh' hc hc' φ (fun i hi => h.lt hi) hdist fun av row hrow => ?_
  refine Steinhardt.holds_replicate h.pos (Steinhardt.holds_asM (Steinhardt.mix_perm ?_) hrow)
  have hp : ((List.range pts'.length).map φ).Perm (List.replicate m (List.range pts.length)).flatten := by
    obtain ⟨t, ht⟩ := h.points
    refine List.perm_iff_count.mpr fun j => ?_
    rw [List.count_flatten, List.map_replicate, List.sum_replicate, smul_eq_mul]
    by_cases hj : j < pts.length
    · rw [List.count_eq_one_of_mem List.nodup_range (List.mem_range.mpr hj), mul_one, ← ht.copies_card h.times hj,
        Repeated.copies, List.count_eq_countP, List.countP_map, List.countP_eq_length_filter,
        ← List.toFinset_card_of_nodup (List.nodup_range.filter _)]
      congr 1
      ext i
      simp
    · rw [List.count_eq_zero.mpr fun hm => hj (List.mem_range.mp hm), mul_zero, List.count_eq_zero]
      intro hm
      obtain ⟨i, hi, rfl⟩ := List.mem_map.mp hm
      exact hj (h.lt (List.mem_range.mp hi))
  have := hp.map fun j => Steinhardt.asM (Steinhardt.dist p c av j)
  rw [List.map_flatten, List.map_replicate, List.map_map] at this
  rw [List.map_flatten, List.map_replicate, List.map_map, List.map_map]
  refine List.Perm.trans (List.Perm.of_eq ?_) this
  exact List.map_congr_left fun i hi => hdist av i (List.mem_range.mp hi)

end Freud
