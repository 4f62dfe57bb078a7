import Verif.Props.Local
import Verif.Props.Nearest
import Verif.Props.SolidLiquidRun
import Verif.Props.LocalDensity
import Verif.Props.Voxel
import Verif.Props.MatchEnv

/-!
# Property C114: larger radii, more neighbors and lower thresholds
-/

namespace Freud
open Spec

set_option linter.unusedSectionVars false

/-! ## Nearest neighbors -/

theorem kNearest_le {b : Box ℝ} {pts : List (Vec3 ℝ)} {q : Vec3 ℝ} {qi k k' : ℕ} {rMax rMax' : WithTop ℝ} {rMin : ℝ}
    {excl : Bool} {out out' : List (Bond ℝ)} (h : KNearest b pts q qi k rMax rMin excl out)
    (h' : KNearest b pts q qi k' rMax' rMin excl out') (m : ℕ) (hm : m < out.length) (hm' : m < out'.length) :
    out'[m].dist ≤ out[m].dist := by
  by_contra hlt
  push Not at hlt
  have hsort := List.pairwise_iff_getElem.mp (List.pairwise_map.mp h.sorted)
  have hsort' := List.pairwise_iff_getElem.mp (List.pairwise_map.mp h'.sorted)
  -- the first m + 1 points of `out` are among the first m of `out'`
  have hin : ∀ bd ∈ out.take (m + 1), bd.p ∈ (out'.take m).map (·.p) := by
    intro bd hbd
    obtain ⟨i, hi, rfl⟩ := List.getElem_of_mem hbd
    rw [List.length_take] at hi
    rw [List.getElem_take]
    have hle : out[i].dist ≤ out[m].dist := by
      rcases Nat.lt_or_ge i m with him | him
      · exact hsort i m (by omega) hm him
      · have : i = m := by omega
        subst this; exact le_rfl
    obtain ⟨-, -, -, -, hc, p, hp, hn⟩ := h.bonds _ (List.getElem_mem (by omega : i < out.length))
    have hmem : out[i].p ∈ out'.map (·.p) := by
      by_contra hnot
      exact absurd (h'.nearest _ _ hc hnot _ (List.getElem_mem hm')) (not_le.mpr (hle.trans_lt hlt))
    obtain ⟨bd', hbd', e⟩ := List.mem_map.mp hmem
    obtain ⟨j, hj, rfl⟩ := List.getElem_of_mem hbd'
    have hd : out'[j].dist = out[i].dist := by
      obtain ⟨-, -, e1, -, -, p', hp', hn'⟩ := h'.bonds _ (List.getElem_mem hj)
      have e2 := (h.bonds _ (List.getElem_mem (by omega : i < out.length))).2.2.1
      rw [e] at hp'
      rw [hp] at hp'
      obtain rfl := Option.some.inj hp'
      rw [e1, e2]
      exact nearestImage_norm hn' hn
    have hjm : j < m := by
      by_contra hge
      have : out'[m].dist ≤ out'[j].dist := by
        rcases Nat.lt_or_ge m j with h1 | h1
        · exact hsort' m j hm' hj h1
        · have : j = m := by omega
          subst this; exact le_rfl
      linarith
    rw [← e]
    exact List.mem_map.mpr ⟨out'[j], List.mem_take_iff_getElem.mpr ⟨j, by omega, rfl⟩, rfl⟩
  have hsub : ((out.take (m + 1)).map (·.p)) ⊆ (out'.take m).map (·.p) := by
    intro x hx
    obtain ⟨bd, hbd, rfl⟩ := List.mem_map.mp hx
    exact hin bd hbd
  have hnd : ((out.take (m + 1)).map (·.p)).Nodup := ((List.take_sublist _ _).map _).nodup h.nodup
  have := (hnd.subperm hsub).length_le
  simp only [List.length_map, List.length_take] at this
  omega

/-- **C114** (nearest neighbors): two queries for the nearest neighbors of the same point agree as far as both go,
whatever number of neighbors, largest distance, first radius and scale they were given: their `m`-th neighbors are
equally far away, and they are the same particle at the same place unless another particle is equally far away. In
particular the `k` nearest neighbors are the first `k` of the `k + 1` nearest. -/
theorem C114_nearest (b : Box ℝ) (hb : Valid b) (pts : List (Vec3 ℝ)) (aq : AABBQuery)
    (haq : AABBQuery.new b pts = some aq) (hpts : ∀ p ∈ pts, InCell b p) (q : Vec3 ℝ)
    (hq : InCell b q) (hnear : NearestReachable b pts q) (qi : ℕ) (rMin : ℝ) (excl : Bool)
    (k k' : ℕ) (rMax rMax' : WithTop ℝ) (rGuess rGuess' scale scale' : ℝ) (hguess : rGuess ≤ minPlane b / 2)
    (hguess' : rGuess' ≤ minPlane b / 2) (out out' : List (Bond ℝ))
    (h : aq.Nearest q qi k rMax rMin rGuess scale excl out)
    (h' : aq.Nearest q qi k' rMax' rMin rGuess' scale' excl out') (m : ℕ) (hm : m < out.length) (hm' : m < out'.length) :
    out'[m].dist = out[m].dist ∧
      ((∀ j d, Candidate b pts q qi rMin excl j d → d = out[m].dist → j = out[m].p) →
        out'[m].q = out[m].q ∧ out'[m].p = out[m].p) := by
  obtain ⟨hk, -⟩ := C23_nearest_partial b hb pts aq haq hpts q hq hnear qi k rMax rMin rGuess scale hguess excl out h
  obtain ⟨hk', -⟩ := C23_nearest_partial b hb pts aq haq hpts q hq hnear qi k' rMax' rMin rGuess' scale' hguess' excl out' h'
  have hd := le_antisymm (kNearest_le hk hk' m hm hm') (kNearest_le hk' hk m hm' hm)
  refine ⟨hd, fun huniq => ?_⟩
  obtain ⟨e1, -, -, -, hc, -⟩ := hk.bonds _ (List.getElem_mem hm)
  obtain ⟨e1', -, -, -, hc', -⟩ := hk'.bonds _ (List.getElem_mem hm')
  exact ⟨e1'.trans e1.symm, huniq _ _ hc' hd⟩

/-! ## Voxels -/

section
variable {K : Type*} [Field K] [LinearOrder K] [IsStrictOrderedRing K] [FloorRing K]

theorem mem_axisLoop' {periodic : Bool} {w : ℕ} {bin cut i : ℤ} :
    i ∈ Voxel.axisLoop periodic w bin cut ↔ (bin - cut ≤ i ∧ i ≤ bin + cut) ∧ (periodic = true ∨ (0 ≤ i ∧ i < w)) := by
  unfold Voxel.axisLoop
  rw [List.mem_filter, List.mem_map]
  constructor
  · rintro ⟨⟨t, ht, rfl⟩, h⟩
    rw [List.mem_range] at ht
    refine ⟨by omega, ?_⟩
    cases periodic
    · right; simp at h; omega
    · left; rfl
  · rintro ⟨h1, h2⟩
    refine ⟨⟨(i - (bin - cut)).toNat, List.mem_range.mpr (by omega), by omega⟩, ?_⟩
    rcases h2 with rfl | h2
    · rfl
    · cases periodic
      · simp; omega
      · rfl

theorem axisLoop_mono {periodic : Bool} {w : ℕ} {bin cut cut' i : ℤ} (h : cut ≤ cut')
    (hi : i ∈ Voxel.axisLoop periodic w bin cut) : i ∈ Voxel.axisLoop periodic w bin cut' := by
  rw [mem_axisLoop'] at hi ⊢
  exact ⟨by omega, hi.2⟩

theorem trunc_le_of_le {a b : K} (h0 : 0 ≤ a) (h : a ≤ b) : trunc a ≤ trunc b := by
  rw [trunc_of_nonneg h0, trunc_of_nonneg (h0.trans h)]
  exact Int.floor_mono h

theorem hits_mono {b : Box K} {w : Vec3 ℕ} {r r' : K} (hg : GridOK b w r) (h0 : 0 ≤ r) (h : r ≤ r') (p : Vec3 K)
    (c : List ℕ × K) (hc : c ∈ Voxel.hits b w r p) : c ∈ Voxel.hits b w r' p := by
  have key : ∀ L : K, ∀ n : ℕ, 0 < L → trunc (r / (L / (n : K))) ≤ trunc (r' / (L / (n : K))) := by
    intro L n hL
    have : 0 ≤ L / (n : K) := div_nonneg hL.le (Nat.cast_nonneg n)
    exact trunc_le_of_le (div_nonneg h0 this) (div_le_div_of_nonneg_right h this)
  have hx : (Voxel.binCut b w r).x ≤ (Voxel.binCut b w r').x := key _ _ hg.posx
  have hy : (Voxel.binCut b w r).y ≤ (Voxel.binCut b w r').y := key _ _ hg.posy
  have hz : (Voxel.binCut b w r).z ≤ (Voxel.binCut b w r').z := by
    cases h2 : b.is2D with
    | true => simp [Voxel.binCut, h2]
    | false =>
      simp only [Voxel.binCut, Voxel.gridSize, h2, Bool.false_eq_true, if_false]
      exact key _ _ (hg.posz h2)
  unfold Voxel.hits at hc ⊢
  simp only [List.mem_flatMap, List.mem_filterMap] at hc ⊢
  obtain ⟨k, hk, j, hj, i, hi, e⟩ := hc
  refine ⟨k, axisLoop_mono hz hk, j, axisLoop_mono hy hj, i, axisLoop_mono hx hi, ?_⟩
  split_ifs at e with hlt
  rw [if_pos (hlt.trans_le (mul_self_le_mul_self h0 h))]
  exact e

/-- **C114** (voxels): with a larger radius, every voxel that was marked is marked. -/
theorem C114_voxels (s t : SphereVoxelization K) (b : Box K) (points : List (Vec3 K)) (order order' : List ℕ)
    (hw : t.width = s.width) (h0 : 0 < s.rMax) (hr : s.rMax ≤ t.rMax) (hs : SameDim s.box b) (ht : SameDim t.box b)
    (hg : GridOK b (Voxel.effWidth b s.width) s.rMax) (hg' : GridOK b (Voxel.effWidth b s.width) t.rMax)
    (hp : ∀ p ∈ points, InGridBox b p) (hord : order.Perm (List.range points.length))
    (hord' : order'.Perm (List.range points.length)) :
    ∃ s' t', s.compute b points order = some s' ∧ t.compute b points order' = some t' ∧
      ∀ n, IsVoxel (Voxel.effWidth b s.width) n → ∃ v v', s'.voxels.at? [n.x, n.y, n.z] = some v ∧
        t'.voxels.at? [n.x, n.y, n.z] = some v' ∧ v ≤ v' := by
  obtain ⟨s', e, hw1, -, -, -, -, h⟩ := compute_hits s b points order hs hg hp hord
  obtain ⟨t', e', hw1', -, -, -, -, h'⟩ := compute_hits t b points order' ht (by rw [hw]; exact hg') hp hord'
  rw [hw] at hw1'
  refine ⟨s', t', e, e', fun n hn => ?_⟩
  obtain ⟨v, hv, h01, hiff⟩ := h n (by rw [hw1]; exact hn)
  obtain ⟨v', hv', h01', hiff'⟩ := h' n (by rw [hw1']; exact hn)
  refine ⟨v, v', hv, hv', ?_⟩
  rcases h01 with rfl | rfl
  · exact Nat.zero_le _
  · obtain ⟨p, hpm, hmem⟩ := hiff.mp rfl
    rw [hiff'.mpr ⟨p, hpm, ?_⟩]
    obtain ⟨c, hc, ec⟩ := List.mem_map.mp hmem
    rw [hw1]  at hc
    rw [hw1']
    exact List.mem_map.mpr ⟨c, hits_mono hg h0.le hr p c hc, ec⟩

/-! ## Local density -/

theorem overlap_mono {r r' D d : K} (hD : 0 ≤ D) (h : r ≤ r') : overlap r D d ≤ overlap r' D d := by
  have h01 := (C39_overlap r' D hD).1 d
  have h01' := (C39_overlap r D hD).1 d
  by_cases h1 : d + D / 2 ≤ r'
  · rw [(C39_overlap r' D hD).2.1 d h1]; exact h01'.2
  · by_cases h2 : r ≤ d - D / 2
    · have : overlap r D d = 0 := by
        unfold overlap
        rw [if_neg (by push Not at h1 ⊢; linarith), if_pos h2]
      rw [this]; exact h01.1
    · unfold overlap
      rw [if_neg (by push Not at h1 ⊢; linarith), if_neg h2, if_neg h1, if_neg (by push Not at h2 ⊢; linarith)]
      exact div_le_div_of_nonneg_right (by linarith) hD

/-- **C114** (local density): with a larger `r_max`, and neighbors that include the former ones, no query point has
fewer neighbors. -/
theorem C114_local_density (pi : K) (s t : LocalDensity K) (hD : 0 ≤ s.diameter) (hDt : t.diameter = s.diameter)
    (hr : s.rMax ≤ t.rMax) (b : Box K) (nQuery : ℕ) (nl nl' : NList K) (h : GoodList nl) (h' : GoodList nl')
    (hdist : ∀ nb ∈ nl.bonds, nb.dist < s.defaultRMax) (hdist' : ∀ nb ∈ nl'.bonds, nb.dist < t.defaultRMax)
    (hnd : nl.bonds.Nodup) (hsub : ∀ nb ∈ nl.bonds, nb ∈ nl'.bonds) (order order' : List ℕ)
    (hord : order.Perm (List.range nQuery)) (hord' : order'.Perm (List.range nQuery)) :
    ∃ s' t', s.compute pi b nQuery nl order = some s' ∧ t.compute pi b nQuery nl' order' = some t' ∧
      ∀ i < nQuery, ∃ v v', s'.results.data[i]? = some v ∧ t'.results.data[i]? = some v' ∧ v.1 ≤ v'.1 := by
  obtain ⟨s', e, -, hv⟩ := C39_local_density pi s hD b nQuery nl h hdist order hord
  obtain ⟨t', e', -, hv'⟩ := C39_local_density pi t (hDt ▸ hD) b nQuery nl' h' hdist' order' hord'
  refine ⟨s', t', e, e', fun i hi => ⟨_, _, hv i hi, hv' i hi, ?_⟩⟩
  simp only
  rw [hDt]
  calc ((nl.bonds.filter (fun nb => nb.q = i)).map (fun nb => overlap s.rMax s.diameter nb.dist)).sum
      ≤ ((nl.bonds.filter (fun nb => nb.q = i)).map (fun nb => overlap t.rMax s.diameter nb.dist)).sum :=
        List.sum_le_sum fun nb _ => overlap_mono hD hr
    _ ≤ _ := by
      have hs : (nl.bonds.filter (fun nb => nb.q = i)).Subperm (nl'.bonds.filter (fun nb => nb.q = i)) := by
        refine (hnd.filter _).subperm fun nb hnb => ?_
        rw [List.mem_filter] at hnb ⊢
        exact ⟨hsub nb hnb.1, hnb.2⟩
      obtain ⟨l, hl, hl'⟩ := hs
      rw [← (hl.map _).sum_eq]
      refine (hl'.map _).sum_le_sum ?_
      intro x hx
      obtain ⟨nb, -, rfl⟩ := List.mem_map.mp hx
      exact ((C39_overlap t.rMax s.diameter hD).1 _).1

end

/-! ## Solid-like particles -/

section
open scoped Classical

theorem above_mono {t t' : ℝ} (h : t ≤ t') {v : Option ℝ} (hv : Above t' v) : Above t v := by
  obtain ⟨x, e, hx⟩ := hv
  exact ⟨x, e, h.trans_lt hx⟩

theorem solidBondCount_mono {t t' : ℝ} (h : t ≤ t') (value : ℕ → ℕ → Option ℝ) (bonds : List (Bond ℝ)) (i : ℕ) :
    solidBondCount t' value bonds i ≤ solidBondCount t value bonds i := by
  unfold solidBondCount
  refine (List.monotone_filter_right bonds fun b hb => ?_).length_le
  have := of_decide_eq_true hb
  exact decide_eq_true ⟨this.1, above_mono h this.2⟩

theorem solidPair_mono {t t' : ℝ} {k k' : ℕ} (h : t ≤ t') (hk : k ≤ k') {value : ℕ → ℕ → Option ℝ}
    {bonds : List (Bond ℝ)} {b : Bond ℝ} (hb : SolidPair t' k' value bonds b) : SolidPair t k value bonds b :=
  ⟨above_mono h hb.1, hk.trans (hb.2.1.trans (solidBondCount_mono h value bonds _)),
    hk.trans (hb.2.2.trans (solidBondCount_mono h value bonds _))⟩

/-- **C114** (solid-like particles): with larger thresholds for the bonds and for the particles, no particle has more
connections, the bonds between solid-like particles are some of the former ones, and two particles of one cluster
were in one cluster before: clusters are divided but never joined. The values of the bonds are the same. -/
theorem C114_solid_liquid (sph : Steinhardt.Sph) (a a' : SolidLiquid.Args) (hl : a'.l = a.l)
    (hn : a'.normalizeQ = a.normalizeQ) (hthr : 0 ≤ a.qThreshold) (hq : a.qThreshold ≤ a'.qThreshold)
    (hk : a.solidThreshold ≤ a'.solidThreshold) (hf : FsphOK sph a.l (sphericalHarmonic a.l))
    (history history' : List Steinhardt.Call) (hh : ∀ c ∈ history, LegalSteinhardt a.l c)
    (hh' : ∀ c ∈ history', LegalSteinhardt a.l c) (c : Steinhardt.Call) (order order' : List ℕ)
    (hc : LegalSolid a.l c order) (hc' : LegalSolid a.l c order') :
    ∃ r r', SolidLiquid.run sph a history c order = some r ∧ SolidLiquid.run sph a' history' c order' = some r' ∧
      r'.qlij = r.qlij ∧
      (∀ i < c.points.length, r'.connections.getD i 0 ≤ r.connections.getD i 0) ∧
      r'.clusterBonds.bonds.Sublist r.clusterBonds.bonds ∧
      ∀ work work' : List (List (ℕ × ℕ)),
        work.flatten.Perm (r.clusterBonds.bonds.map (fun b => (b.p, b.q))) →
        work'.flatten.Perm (r'.clusterBonds.bonds.map (fun b => (b.p, b.q))) →
      ∀ s s' : DSet.DState, DSet.Reachable c.points.length work s → DSet.Reachable c.points.length work' s' →
        (∀ t ∈ s.threads, t.finished) → (∀ t ∈ s'.threads, t.finished) →
      ∀ res res', Cluster.Finish c.points.length s.mem id res → Cluster.Finish c.points.length s'.mem id res' →
      ∀ x < c.points.length, ∀ y < c.points.length,
        res'.clusterIdx.getD x 0 = res'.clusterIdx.getD y 0 → res.clusterIdx.getD x 0 = res.clusterIdx.getD y 0 := by
  obtain ⟨l', q', k', n'⟩ := a'
  obtain ⟨l, q, k, n⟩ := a
  simp only at hl hn hthr hq hk hf hh hh' hc hc'
  subst hl hn
  obtain ⟨r, e, h1, h2, h3, -⟩ := C104_value sph ⟨l', q, k, n'⟩ hthr hf history hh c order hc
  obtain ⟨r', e', h1', h2', h3', -⟩ := C104_value sph ⟨l', q', k', n'⟩ (hthr.trans hq) hf history' hh' c order' hc'
  obtain ⟨r0, e0, hcl⟩ := C104_clusters sph ⟨l', q, k, n'⟩ hthr hf history hh c order hc
  obtain ⟨r0', e0', hcl'⟩ := C104_clusters sph ⟨l', q', k', n'⟩ (hthr.trans hq) hf history' hh' c order' hc'
  rw [e] at e0
  rw [e'] at e0'
  obtain rfl := Option.some.inj e0
  obtain rfl := Option.some.inj e0'
  refine ⟨r, r', e, e', by rw [h1, h1'], fun i hi => ?_, ?_, ?_⟩
  · rw [h2, h2', List.getD_eq_getElem?_getD, List.getD_eq_getElem?_getD, List.getElem?_map, List.getElem?_map,
      List.getElem?_range hi]
    exact solidBondCount_mono hq _ _ i
  · rw [h3, h3']
    refine List.monotone_filter_right _ fun b hb => ?_
    exact decide_eq_true (solidPair_mono hq hk (of_decide_eq_true hb))
  · intro work work' hw hw' s s' hs hs' hfin hfin' res res' hres hres' x hx y hy hxy
    obtain ⟨hm, -⟩ := hcl work hw s hs hfin res hres
    obtain ⟨hm', -⟩ := hcl' work' hw' s' hs' hfin' res' hres'
    rw [hm x hx y hy]
    refine Relation.EqvGen.mono ?_ _ _ ((hm' x hx y hy).mp hxy)
    rintro i j ⟨nb, hnb, h1, h2, h3⟩
    exact ⟨nb, hnb, h1, h2, solidPair_mono hq hk h3⟩

end

/-! ## Environments -/

section
variable {K : Type*} [Field K] [LinearOrder K] [IsStrictOrderedRing K]

/-- **C114** (environments): two environments that match within a threshold match within a larger one, with the same
partners, as long as no vector has two possible partners within the larger threshold. Without this the larger
threshold can lose a match (`C114_threshold_counterexample`); with registration nothing is claimed. -/
theorem C114_environments_partial (wrap : Vec3 K → Vec3 K) (ref pts : List (Vec3 K)) (thr thr' : K) (h0 : 0 ≤ thr)
    (h : thr ≤ thr') (hl : ref.length = pts.length) (hu : Unambiguous thr' (ref.map wrap) (pts.map wrap))
    (f : ℕ → Option ℕ) (hm : Matching thr (ref.map wrap) (pts.map wrap) f) :
    MatchEnv.isSimilarPoints wrap ref pts thr none = some (pts.map wrap, f) ∧
    MatchEnv.isSimilarPoints wrap ref pts thr' none = some (pts.map wrap, f) := by
  have hsq : thr * thr ≤ thr' * thr' := mul_self_le_mul_self h0 h
  have hu' : Unambiguous thr (ref.map wrap) (pts.map wrap) := by
    refine ⟨fun x hx => le_trans (List.countP_mono_left fun y _ hy => ?_) (hu.1 x hx),
      fun y hy => le_trans (List.countP_mono_left fun x _ hx => ?_) (hu.2 y hy)⟩
    · exact decide_eq_true ((of_decide_eq_true hy).trans_le hsq)
    · exact decide_eq_true ((of_decide_eq_true hx).trans_le hsq)
  refine ⟨C48_found_partial wrap ref pts thr f hl hu' hm, C48_found_partial wrap ref pts thr' f hl hu ?_⟩
  exact ⟨hm.total, hm.range, hm.inj, hm.onto, fun i j h => (hm.close i j h).trans_le hsq⟩

end

/-- **C114** is false for environments: (0, 0, 0) and (1, 0, 0) match (55/100, 0, 0) and (-4/10, 0, 0) within 1/2 and, as
the first vector now takes the partner that the second one needs, not within 6/10. -/
theorem C114_threshold_counterexample : ∃ ref pts : List (Vec3 ℚ), ∃ thr thr' : ℚ, 0 < thr ∧ thr < thr' ∧
    (MatchEnv.isSimilarPoints (fun v => v) ref pts thr none).map (fun r => (r.2 0, r.2 1)) = some (some 1, some 0) ∧
    (MatchEnv.isSimilarPoints (fun v => v) ref pts thr' none).map (fun r => (r.2 0, r.2 1)) = some (none, none) :=
  ⟨[⟨0, 0, 0⟩, ⟨1, 0, 0⟩], [⟨55 / 100, 0, 0⟩, ⟨-4 / 10, 0, 0⟩], 1 / 2, 6 / 10, by norm_num, by norm_num, by decide +kernel,
    by decide +kernel⟩

/-! ## Cases -/

-- a case of `C114_voxels`
example : ∃ s s' t t' : SphereVoxelization ℚ, SphereVoxelization.new ⟨10, 10, 1⟩ 1 = some s ∧
    SphereVoxelization.new ⟨10, 10, 1⟩ 3 = some t ∧
    s.compute vxBox [⟨0, 0, 0⟩, ⟨4, -4, 0⟩] [1, 0] = some s' ∧ t.compute vxBox [⟨0, 0, 0⟩, ⟨4, -4, 0⟩] [0, 1] = some t' ∧
    ∀ n, IsVoxel ⟨10, 10, 1⟩ n → ∃ v v', s'.voxels.at? [n.x, n.y, n.z] = some v ∧
      t'.voxels.at? [n.x, n.y, n.z] = some v' ∧ v ≤ v' := by
  obtain ⟨s', t', e, e', h⟩ := C114_voxels ⟨⟨10, 10, 1⟩, 1, none, ⟨[], []⟩⟩ ⟨⟨10, 10, 1⟩, 3, none, ⟨[], []⟩⟩ vxBox
    [⟨0, 0, 0⟩, ⟨4, -4, 0⟩] [1, 0] [0, 1] rfl one_pos (by norm_num) (by simp [SameDim]) (by simp [SameDim])
    (vxGrid 1 one_pos (by norm_num)) (vxGrid 3 (by norm_num) (by norm_num)) (by
      intro p hp
      simp only [List.mem_cons, List.not_mem_nil, or_false] at hp
      rcases hp with rfl | rfl <;> constructor <;> norm_num [vxBox, Box.mk', Box.setL]) (by decide) (by decide)
  exact ⟨_, s', _, t', by simp [SphereVoxelization.new], by norm_num [SphereVoxelization.new], e, e', h⟩

-- a case of `C114_local_density`: the second particle is half inside the smaller sphere
example : ∃ s' t', (⟨1, 1, ⟨[], []⟩⟩ : LocalDensity ℚ).compute 3 (Box.mk' 20 20 0 0 0 0 true) 1
      ⟨1, 3, [⟨0, 1, 1, 1, ⟨1, 0, 0⟩⟩], false, [], []⟩ [0] = some s' ∧
    (⟨2, 1, ⟨[], []⟩⟩ : LocalDensity ℚ).compute 3 (Box.mk' 20 20 0 0 0 0 true) 1
      ⟨1, 3, [⟨0, 1, 1, 1, ⟨1, 0, 0⟩⟩, ⟨0, 2, 2, 1, ⟨0, 2, 0⟩⟩], false, [], []⟩ [0] = some t' ∧
      ∀ i < 1, ∃ v v', s'.results.data[i]? = some v ∧ t'.results.data[i]? = some v' ∧ v.1 ≤ v'.1 :=
  C114_local_density 3 ⟨1, 1, ⟨[], []⟩⟩ ⟨2, 1, ⟨[], []⟩⟩ zero_le_one rfl one_le_two _ 1 _ _
    ⟨by decide, by decide, by decide, by decide⟩ ⟨by decide, by decide, by decide, by decide⟩
    (by simp [LocalDensity.defaultRMax]) (by simp [LocalDensity.defaultRMax]; norm_num) (by simp) (by simp) [0] [0]
    (by decide) (by decide)

-- a case of `C114_solid_liquid`
example : ∃ r r', SolidLiquid.run Steinhardt.fsph ⟨6, 1 / 2, 1, true⟩ []
      { Steinhardt.pair with reduceOrder := List.range 13 } [1, 0] = some r ∧
    SolidLiquid.run Steinhardt.fsph ⟨6, 7 / 10, 3, true⟩ []
      { Steinhardt.pair with reduceOrder := List.range 13 } [1, 0] = some r' ∧ r'.qlij = r.qlij ∧
    r'.clusterBonds.bonds.Sublist r.clusterBonds.bonds := by
  obtain ⟨r, r', e, e', h1, -, h2, -⟩ := C114_solid_liquid Steinhardt.fsph ⟨6, 1 / 2, 1, true⟩ ⟨6, 7 / 10, 3, true⟩ rfl rfl
    (by norm_num) (by norm_num) (by norm_num) (C101_fsph 6) [] [] (by simp) (by simp) _ [1, 0] [1, 0]
    (SolidLiquid.pair_legal 6) (SolidLiquid.pair_legal 6)
  exact ⟨r, r', e, e', h1, h2⟩

-- a case of `C114_environments_partial`
example : ∃ f, MatchEnv.isSimilarPoints (fun v => v) [⟨0, 0, 0⟩, ⟨1, 0, 0⟩] [⟨11 / 10, 0, 0⟩, ⟨0, 0, 0⟩] (2 / 10 : ℚ) none =
      some ([⟨11 / 10, 0, 0⟩, ⟨0, 0, 0⟩], f) ∧
    MatchEnv.isSimilarPoints (fun v => v) [⟨0, 0, 0⟩, ⟨1, 0, 0⟩] [⟨11 / 10, 0, 0⟩, ⟨0, 0, 0⟩] (8 / 10 : ℚ) none =
      some ([⟨11 / 10, 0, 0⟩, ⟨0, 0, 0⟩], f) := by
  have hm : Matching (2 / 10 : ℚ) [⟨0, 0, 0⟩, ⟨1, 0, 0⟩] [⟨11 / 10, 0, 0⟩, ⟨0, 0, 0⟩]
      (fun i => if i = 0 then some 1 else if i = 1 then some 0 else none) := by
    refine ⟨?_, ?_, ?_, ?_, ?_⟩
    · intro i
      rcases i with _ | _ | i <;> simp
    · intro i j h
      rcases i with _ | _ | i <;> simp at h <;> subst h <;> simp
    · intro i i' j h h'
      rcases i with _ | _ | i <;> rcases i' with _ | _ | i' <;> simp at h h' <;> omega
    · intro j hj
      have : j < 2 := hj
      interval_cases j
      · exact ⟨1, rfl⟩
      · exact ⟨0, rfl⟩
    · intro i j h
      rcases i with _ | _ | i <;> simp at h <;> subst h <;> norm_num [sqDistance]
  have hu : Unambiguous (8 / 10 : ℚ) [⟨0, 0, 0⟩, ⟨1, 0, 0⟩] [⟨11 / 10, 0, 0⟩, ⟨0, 0, 0⟩] := by
    unfold Unambiguous; decide +kernel
  have := C114_environments_partial (fun v => v) [⟨0, 0, 0⟩, ⟨1, 0, 0⟩] [⟨11 / 10, 0, 0⟩, ⟨0, 0, 0⟩] (2 / 10 : ℚ)
    (8 / 10) (by norm_num) (by norm_num) rfl (by simpa using hu) _ (by simpa using hm)
  exact ⟨_, by simpa using this⟩

-- a case of `C114_nearest`: one and two neighbors, with different first radii and scales
example : ∃ aq out out', AABBQuery.new (Box.mk' 10 10 10 0 0 0 false) [⟨0, 0, 0⟩, ⟨1, 0, 0⟩] = some aq ∧
    aq.Nearest ⟨0, 0, 0⟩ 0 1 ⊤ 0 2 (11 / 10) true out ∧ aq.Nearest ⟨0, 0, 0⟩ 0 2 ⊤ 0 3 (12 / 10) true out' ∧
    0 < out.length ∧ 0 < out'.length := by
  obtain ⟨aq, haq⟩ := cube_new [⟨0, 0, 0⟩, ⟨1, 0, 0⟩] (by simp)
  have hpts : ∀ p ∈ ([⟨0, 0, 0⟩, ⟨1, 0, 0⟩] : List (Vec3 ℝ)), InCell (Box.mk' 10 10 10 0 0 0 false : Box ℝ) p := by
    intro p hp
    simp only [List.mem_cons, List.not_mem_nil, or_false] at hp
    rcases hp with rfl | rfl <;> exact cube_inCell (by norm_num [abs_le]) (by simp) (by simp)
  have hq := hpts ⟨0, 0, 0⟩ (by simp)
  have hnear := C23_orthorhombic_reachable (Box.mk' 10 10 10 0 0 0 false : Box ℝ) rfl rfl rfl _ hpts _ hq
  have hc := cube_candidate ⟨1, 0, 0⟩ (by norm_num) (by simp) (by simp)
  have hn : Vec3.norm (⟨1, 0, 0⟩ : Vec3 ℝ) = 1 := by simp [Vec3.norm, Vec3.dot]
  rw [hn] at hc
  have key : ∀ (k : ℕ) (g scale : ℝ), 0 < k → 1 < g → g ≤ 5 → 1 < scale →
      ∃ out, aq.Nearest ⟨0, 0, 0⟩ 0 k ⊤ 0 g scale true out ∧ 0 < out.length := by
    intro k g scale hk hg hg5 hsc
    have hg' : g ≤ minPlane (Box.mk' 10 10 10 0 0 0 false : Box ℝ) / 2 := by rw [cube_planes.1]; linarith
    obtain ⟨out, h⟩ := C23_returns _ cube_valid _ aq haq hpts _ hq hnear 0 k ⊤ 0 g scale hg' true
      (by linarith) hsc (by simp) (by simp) (cube_half (by norm_num))
    refine ⟨out, h, ?_⟩
    by_contra h0
    have h0 : out.length = 0 := by omega
    obtain ⟨-, h2⟩ := C23_nearest_partial _ cube_valid _ aq haq hpts _ hq hnear 0 k ⊤ 0 g scale hg' true out h
    obtain ⟨rl, h3, -, h4⟩ := h2 (by omega)
    have := h4 1 1 hc (by linarith) (WithTop.coe_lt_top _)
    rw [List.length_eq_zero_iff.mp h0] at this
    simp at this
  obtain ⟨out, h1, h2⟩ := key 1 2 (11 / 10) (by norm_num) (by norm_num) (by norm_num) (by norm_num)
  obtain ⟨out', h1', h2'⟩ := key 2 3 (12 / 10) (by norm_num) (by norm_num) (by norm_num) (by norm_num)
  exact ⟨aq, out, out', haq, h1, h1', h2, h2'⟩

end Freud
