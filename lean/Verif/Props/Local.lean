import Verif.Spec.Local
import Verif.Props.RepeatOrder

/-!
# Property C110: what lies out of range does not matter
-/

namespace Freud
open Spec

variable {D : Type*}

theorem bondsFrom_nodup {b : Box ℝ} {pts qpts : List (Vec3 ℝ)} (hs : PeriodicSystem b pts qpts) {rMax rMin : ℝ}
    (hmin : 0 ≤ rMin) (hhalf : BelowHalf b rMax) {excl : Bool} {src : Source}
    (h : IsSource b pts qpts rMax rMin excl src) :
    (∀ bd, bd ∈ bondsFrom src ↔ IsQueryBond b pts qpts rMax rMin excl bd) ∧ (bondsFrom src).Nodup := by
  obtain ⟨-, a, p, m, n⟩ := source_perm hs hmin hhalf h
  exact ⟨fun bd => p.mem_iff.trans (m bd), p.nodup_iff.mpr n.of_map⟩

/-- **C110**: the neighbors with a distance in `[lo, hi)` are the same for every range that includes this
interval, by any engine and in any form. -/
theorem C110_range (b : Box ℝ) (pts qpts : List (Vec3 ℝ)) (hs : PeriodicSystem b pts qpts)
    (rMax rMin rMax' rMin' lo hi : ℝ) (hmin : 0 ≤ rMin) (hmin' : 0 ≤ rMin') (hhalf : BelowHalf b rMax)
    (hhalf' : BelowHalf b rMax') (hlo : rMin ≤ lo) (hlo' : rMin' ≤ lo) (hhi : hi ≤ rMax) (hhi' : hi ≤ rMax')
    (excl : Bool) (src src' : Source) (h : IsSource b pts qpts rMax rMin excl src)
    (h' : IsSource b pts qpts rMax' rMin' excl src') :
    ((bondsFrom src').filter fun bd => lo ≤ bd.dist ∧ bd.dist < hi).Perm
      ((bondsFrom src).filter fun bd => lo ≤ bd.dist ∧ bd.dist < hi) := by
  obtain ⟨m, n⟩ := bondsFrom_nodup hs hmin hhalf h
  obtain ⟨m', n'⟩ := bondsFrom_nodup hs hmin' hhalf' h'
  rw [List.perm_ext_iff_of_nodup (n'.filter _) (n.filter _)]
  intro bd
  simp only [List.mem_filter, m, m', decide_eq_true_eq]
  constructor
  · rintro ⟨⟨q, hq, a1, a2, a3, a4, a5, a6, a7⟩, h1, h2⟩
    rw [a3] at h1 h2
    exact ⟨⟨q, hq, a1, a2, a3, a4, hlo.trans h1, h2.trans_le hhi, a7⟩, by rw [a3]; exact ⟨h1, h2⟩⟩
  · rintro ⟨⟨q, hq, a1, a2, a3, a4, a5, a6, a7⟩, h1, h2⟩
    rw [a3] at h1 h2
    exact ⟨⟨q, hq, a1, a2, a3, a4, hlo'.trans h1, h2.trans_le hhi', a7⟩, by rw [a3]; exact ⟨h1, h2⟩⟩

/-- **C110**: a neighbor list made with a larger range and then cut with `filter_r` holds the bonds of the list
made with the smaller range. -/
theorem C110_filter_r (b : Box ℝ) (pts qpts : List (Vec3 ℝ)) (hs : PeriodicSystem b pts qpts)
    (rMax rMin rMax' rMin' : ℝ) (hmin : 0 ≤ rMin) (hmin' : 0 ≤ rMin') (hlt : rMin < rMax)
    (hhalf' : BelowHalf b rMax') (hlo : rMin' ≤ rMin) (hhi : rMax ≤ rMax')
    (excl : Bool) (nl nl' : NList ℝ) (h : IsSource b pts qpts rMax rMin excl (.list nl))
    (h' : IsSource b pts qpts rMax' rMin' excl (.list nl')) :
    ∃ cut removed, nl'.filterR rMax rMin = some (cut, removed) ∧ cut.bonds.Perm nl.bonds := by
  have hhalf : BelowHalf b rMax :=
    ⟨fun h => by linarith [hhalf'.1 h], fun h => by linarith [hhalf'.2.1 h], fun h h2 => by linarith [hhalf'.2.2 h h2]⟩
  obtain ⟨cut, removed, e1, e2, -⟩ := C16_filter_r nl' rMax rMin (by linarith) hmin hlt
  refine ⟨cut, removed, e1, ?_⟩
  have := C110_range b pts qpts hs rMax rMin rMax' rMin' rMin rMax hmin hmin' hhalf hhalf' le_rfl hlo le_rfl hhi excl
    _ _ h h'
  rw [bondsFrom_list, bondsFrom_list] at this
  rw [e2]
  refine this.trans (List.Perm.of_eq (List.filter_eq_self.mpr fun bd hbd => ?_))
  have hb := ((bondsFrom_nodup hs hmin hhalf h).1 bd).mp (by rw [bondsFrom_list]; exact hbd)
  obtain ⟨q, hq, a1, a2, a3, a4, a5, a6, a7⟩ := hb
  rw [a3]
  exact decide_eq_true ⟨a5, a6⟩

/-- What is computed from the bonds of a frame with a distance in the interval. -/
theorem window_perm {β : Type*} (S : D → D → ℝ → Vec3 ℝ → β) {lo hi : ℝ} {f f' : DataFrame D} (h : f.OK) (h' : f'.OK)
    (hs : SameParticles f f') (hc : f.Covers lo hi) (hc' : f'.Covers lo hi) :
    (((bondsFrom f'.src).filter fun bd => lo ≤ bd.dist ∧ bd.dist < hi).map fun bd =>
        S (f'.data bd.p) (f'.queryData bd.q) bd.dist bd.vec).Perm
      (((bondsFrom f.src).filter fun bd => lo ≤ bd.dist ∧ bd.dist < hi).map fun bd =>
        S (f.data bd.p) (f.queryData bd.q) bd.dist bd.vec) := by
  rw [hs.data, hs.queryData]
  have a1 := h'.half
  have a2 := h'.source
  rw [hs.box] at a1
  rw [hs.box, hs.pts, hs.qpts, hs.excl] at a2
  exact (C110_range f.box f.pts f.qpts h.system f.cutoff f.inner f'.cutoff f'.inner lo hi h.inner0 h'.inner0 h.half a1
    hc.1 hc'.1 hc.2 hc'.2 f.excl f.src f'.src h.source a2).map _

theorem covers_sub {f : DataFrame D} {lo hi lo' hi' : ℝ} (h : f.Covers lo hi) (h1 : lo ≤ lo') (h2 : hi' ≤ hi) :
    f.Covers lo' hi' := ⟨h.1.trans h1, h2.trans h.2⟩

theorem bondsIn_framed (lo hi : ℝ) (fs : List (DataFrame D)) :
    bondsIn lo hi ((framedBonds fs).map fun x => [x.2.dist]) =
      (fs.map fun f => ((bondsFrom f.src).filter fun bd => lo ≤ bd.dist ∧ bd.dist < hi).length).sum := by
  unfold bondsIn framedBonds
  induction fs with
  | nil => simp
  | cons f fs ih =>
    rw [List.flatMap_cons, List.map_append, List.filter_append, List.length_append, ih, List.map_cons, List.sum_cons]
    congr 1
    rw [List.map_map, List.filter_map, List.length_map]
    congr 1
    refine List.filter_congr fun bd _ => ?_
    simp

theorem bondsIn_window {lo hi : ℝ} {fs fs' : List (DataFrame D)} (hfs : ∀ f ∈ fs, f.OK) (hfs' : ∀ f ∈ fs', f.OK)
    (h : List.Forall₂ (fun f f' => SameParticles f f' ∧ f.Covers lo hi ∧ f'.Covers lo hi) fs fs') :
    bondsIn lo hi ((framedBonds fs').map fun x => [x.2.dist]) =
      bondsIn lo hi ((framedBonds fs).map fun x => [x.2.dist]) := by
  rw [bondsIn_framed, bondsIn_framed]
  induction h with
  | nil => rfl
  | @cons f f' l l' h1 h2 ih =>
    rw [List.map_cons, List.sum_cons, List.map_cons, List.sum_cons, ih (fun a ha => hfs a (by simp [ha]))
      (fun a ha => hfs' a (by simp [ha]))]
    congr 1
    have := (window_perm (fun _ _ _ _ => ()) (hfs f (by simp)) (hfs' f' (by simp)) h1.1 h1.2.1 h1.2.2).length_eq
    rwa [List.length_map, List.length_map] at this

/-- The edges of two grids with bins of the same width. -/
theorem edge_same {lo hi hi' : ℝ} {n n' : ℕ} (hw : (hi' - lo) / n' = (hi - lo) / n) (i : ℕ) :
    edge lo hi' n' i = edge lo hi n i := by unfold edge; rw [hw]

theorem edge_within {lo hi : ℝ} {n i : ℕ} (h : lo ≤ hi) (hi' : i ≤ n) (hn : 0 < n) :
    lo ≤ edge lo hi n i ∧ edge lo hi n i ≤ hi := by
  have hn' : (0 : ℝ) < n := by exact_mod_cast hn
  have h1 : (0 : ℝ) ≤ (hi - lo) / n := div_nonneg (by linarith) hn'.le
  have h2 : (i : ℝ) ≤ n := by exact_mod_cast hi'
  unfold edge
  refine ⟨by have := mul_nonneg (Nat.cast_nonneg i : (0 : ℝ) ≤ i) h1; linarith, ?_⟩
  have := mul_le_mul_of_nonneg_right h2 h1
  rw [mul_div_cancel₀ _ hn'.ne'] at this
  linarith

/-- **C110**: an RDF with more bins of the same width, computed with a larger range of neighbors, has the values
of the shorter one in its first bins; so has the cumulative number of neighbors. -/
theorem C110_rdf (bins bins' : ℕ) (rMax rMax' rMin : ℝ) (a a' : RegularAxis ℝ)
    (ha : RDF.mkAxis bins rMax rMin = some a) (ha' : RDF.mkAxis bins' rMax' rMin = some a')
    (hb : bins ≤ bins') (hb' : bins' ≤ OVERFLOW_BIN) (hw : (rMax' - rMin) / bins' = (rMax - rMin) / bins)
    (mode : NormalizationMode) (box0 box0' : Box ℝ) (fs fs' : List (DataFrame D)) (hfs : ∀ f ∈ fs, f.OK)
    (hfs' : ∀ f ∈ fs', f.OK)
    (hsame : List.Forall₂ (fun f f' => SameParticles f f' ∧ f.Covers rMin rMax ∧ f'.Covers rMin rMax) fs fs')
    (f : DataFrame D) (hf : fs.getLast? = some f) (hpair : mode = .finiteSize → 2 ≤ f.qpts.length)
    (order order' : List ℕ) (hord : order.Perm (List.range bins)) (hord' : order'.Perm (List.range bins')) :
    ∃ s s1 s' s1', (RDF.new a mode box0).run (RDF.fill Real.pi a) (RDF.zero a)
        (fs.map fun f => RDF.frameFrom f.info f.src f.ev) = some s ∧
      s.refresh (RDF.fill Real.pi a) order = some s1 ∧
      (RDF.new a' mode box0').run (RDF.fill Real.pi a') (RDF.zero a')
        (fs'.map fun f => RDF.frameFrom f.info f.src f.ev) = some s' ∧
      s'.refresh (RDF.fill Real.pi a') order' = some s1' ∧ s1.out.1.length = bins ∧ s1.out.2.length = bins ∧
      ∀ i < bins, s1'.out.1[i]? = s1.out.1[i]? ∧ s1'.out.2[i]? = s1.out.2[i]? := by
  obtain ⟨f', hf', hff, -⟩ := getLast_of_forall₂ hsame hf
  have hok : ∀ f : DataFrame D, f.OK → (mode = .finiteSize → 2 ≤ f.qpts.length) → FrameOK mode f.info :=
    fun f h h2 => ⟨List.length_pos_of_ne_nil h.points, List.length_pos_of_ne_nil h.queries, h2,
      volume_pos h.system.inBox.pos⟩
  have hinfo : f'.info = f.info := by simp [DataFrame.info, hff.box, hff.pts, hff.qpts]
  obtain ⟨s, s1, e1, e2, l1, l2, v⟩ := rdf_both Real.pi bins rMax rMin a ha (hb.trans hb') mode box0 fs (·.ev)
    (fun f hf => (hfs f hf).exec) f hf (hok f (hfs f (List.mem_of_getLast? hf)) hpair) order hord
  obtain ⟨s', s1', e1', e2', l1', l2', v'⟩ := rdf_both Real.pi bins' rMax' rMin a' ha' hb' mode box0' fs' (·.ev)
    (fun f hf => (hfs' f hf).exec) f' hf'
    (hok f' (hfs' f' (List.mem_of_getLast? hf')) (by rw [hff.qpts]; exact hpair)) order' hord'
  refine ⟨s, s1, s', s1', e1, e2, e1', e2', l1, l2, fun i hi => ?_⟩
  have hlt : rMin ≤ rMax := by
    unfold RDF.mkAxis at ha
    split_ifs at ha with c1 c2 c3 c4
    exact (not_le.mp c4).le
  have hn : 0 < bins := by omega
  have w : ∀ lo hi, rMin ≤ lo → hi ≤ rMax → bondsIn lo hi ((framedBonds fs').map fun x => [x.2.dist]) =
      bondsIn lo hi ((framedBonds fs).map fun x => [x.2.dist]) := fun lo hi h1 h2 =>
    bondsIn_window hfs hfs' (hsame.imp fun f f' h => ⟨h.1, covers_sub h.2.1 h1 h2, covers_sub h.2.2 h1 h2⟩)
  rw [(v' i (by omega)).1, (v' i (by omega)).2, (v i hi).1, (v i hi).2]
  simp only [edge_same hw, hinfo, hsame.length_eq]
  rw [w _ _ (edge_within hlt (by omega) hn).1 (edge_within hlt (by omega) hn).2,
    w _ _ le_rfl (edge_within hlt (by omega) hn).2]
  exact ⟨rfl, rfl⟩

section Values
variable {V : Type*} [Field V] [StarRing V] [CharZero V] [DecidableEq V]

theorem meanIn_filter (lo hi : ℝ) {l l' : List (ℝ × V)}
    (h : (l'.filter fun b => lo ≤ b.1 ∧ b.1 < hi).Perm (l.filter fun b => lo ≤ b.1 ∧ b.1 < hi)) :
    meanIn lo hi l' = meanIn lo hi l := by
  classical
  have e : ∀ l : List (ℝ × V), meanIn lo hi (l.filter fun b => lo ≤ b.1 ∧ b.1 < hi) = meanIn lo hi l := by
    intro l
    unfold meanIn
    simp only [List.filter_filter, Bool.and_self]
  rw [← e l', ← e l]
  exact meanIn_perm h

/-- **C110**: a correlation function with more bins of the same width has the values of the shorter one in its
first bins. -/
theorem C110_correlation (bins bins' : ℕ) (rMax rMax' : ℝ) (a a' : RegularAxis ℝ)
    (ha : CorrelationFunction.mkAxis bins rMax = some a) (ha' : CorrelationFunction.mkAxis bins' rMax' = some a')
    (hb : bins ≤ bins') (hb' : bins' ≤ OVERFLOW_BIN) (hw : rMax' / bins' = rMax / bins)
    (fs fs' : List (DataFrame V)) (hfs : ∀ f ∈ fs, f.OK) (hfs' : ∀ f ∈ fs', f.OK)
    (hsame : List.Forall₂ (fun f f' => SameParticles f f' ∧ f.Covers 0 rMax ∧ f'.Covers 0 rMax) fs fs')
    (order order' : List ℕ) (hord : order.Perm (List.range bins)) (hord' : order'.Perm (List.range bins')) :
    ∃ s s1 s' s1', (CorrelationFunction.new a : CorrelationFunction ℝ V).run (fs.map (·.cf)) = some s ∧
      s.getCorrelation order = some s1 ∧
      (CorrelationFunction.new a' : CorrelationFunction ℝ V).run (fs'.map (·.cf)) = some s' ∧
      s'.getCorrelation order' = some s1' ∧ s1.output = s1'.output.take bins := by
  obtain ⟨s, s1, e1, e2, e3⟩ := C36_correlation bins rMax a ha (hb.trans hb') (fs.map (·.cf))
    (by simp only [List.mem_map]; rintro _ ⟨f, hf, rfl⟩; exact cf_legal (hfs f hf) bins) order hord
  obtain ⟨s', s1', e1', e2', e3'⟩ := C36_correlation bins' rMax' a' ha' hb' (fs'.map (·.cf))
    (by simp only [List.mem_map]; rintro _ ⟨f, hf, rfl⟩; exact cf_legal (hfs' f hf) bins') order' hord'
  refine ⟨s, s1, s', s1', e1, e2, e1', e2', ?_⟩
  rw [e3, e3', ← List.map_take, List.take_range, min_eq_left hb]
  have hw' : (rMax' - 0) / bins' = (rMax - 0) / bins := by simpa using hw
  refine List.map_congr_left fun i hi => ?_
  have hi := List.mem_range.mp hi
  rw [edge_same hw', edge_same hw']
  have hlt : 0 ≤ rMax := by
    unfold CorrelationFunction.mkAxis at ha
    split_ifs at ha with c1 c2
    exact (not_le.mp c2).le
  have w1 := (edge_within (i := i) hlt (by omega) (by omega : 0 < bins)).1
  have w2 := (edge_within (i := i + 1) hlt (by omega) (by omega : 0 < bins)).2
  refine (meanIn_filter _ _ ?_).symm
  rw [cfProducts_frames fs [] hfs, cfProducts_frames fs' [] hfs', List.nil_append, List.nil_append,
    List.filter_flatMap, List.filter_flatMap]
  have := flatMap_times (hsame.imp fun f f' h => (⟨h.1, covers_sub h.2.1 w1 w2, covers_sub h.2.2 w1 w2⟩ :
    SameParticles f f' ∧ f.Covers _ _ ∧ f'.Covers _ _)) (fun f => ((bondsFrom f.src).map fun bd =>
      (bd.dist, star (f.data bd.p) * f.queryData bd.q)).filter fun b =>
        edge 0 rMax bins i ≤ b.1 ∧ b.1 < edge 0 rMax bins (i + 1)) (fun f => ((bondsFrom f.src).map fun bd =>
      (bd.dist, star (f.data bd.p) * f.queryData bd.q)).filter fun b =>
        edge 0 rMax bins i ≤ b.1 ∧ b.1 < edge 0 rMax bins (i + 1)) 1 fun f hf f' hf' h => by
      rw [List.filter_map, List.filter_map]
      simpa [Function.comp_def] using window_perm (fun v w d _ => (d, star v * w)) (hfs f hf) (hfs' f' hf') h.1 h.2.1 h.2.2
  simpa using this

end Values

/-- **C110**: with a larger range, clusters are joined but never divided, and there are not more of them. -/
theorem C110_cluster (n : ℕ) (nl nl' : NList ℝ) (h : ListFor nl n) (hq : nl.numQueryPoints = n) (h' : ListFor nl' n)
    (hq' : nl'.numQueryPoints = n) (hsub : ∀ nb ∈ nl.bonds, nb ∈ nl'.bonds) (work work' : List (List (ℕ × ℕ)))
    (hw : work.flatten.Perm (nl.bonds.map fun nb => (nb.q, nb.p)))
    (hw' : work'.flatten.Perm (nl'.bonds.map fun nb => (nb.q, nb.p))) (s s' : DSet.DState)
    (hr : DSet.Reachable n work s) (hr' : DSet.Reachable n work' s')
    (hfin : ∀ t ∈ s.threads, t.finished) (hfin' : ∀ t ∈ s'.threads, t.finished) (key key' : ℕ → ℕ)
    (res res' : Cluster.Result) (hres : Cluster.Finish n s.mem key res)
    (hres' : Cluster.Finish n s'.mem key' res') :
    (∀ i < n, ∀ j < n, res.clusterIdx.getD i 0 = res.clusterIdx.getD j 0 →
      res'.clusterIdx.getD i 0 = res'.clusterIdx.getD j 0) ∧ res'.num ≤ res.num := by
  have hb : ∀ (nl : NList ℝ) (work : List (List (ℕ × ℕ))), ListFor nl n → nl.numQueryPoints = n →
      work.flatten.Perm (nl.bonds.map fun nb => (nb.q, nb.p)) → ∀ e ∈ work.flatten, e.1 < n ∧ e.2 < n := by
    intro nl work h hq hw e he
    obtain ⟨nb, hnb, rfl⟩ := List.mem_map.mp (hw.mem_iff.mp he)
    have : nb.q < n := hq ▸ h.good.qlt nb hnb
    exact ⟨this, h.points nb hnb this⟩
  obtain ⟨-, -, hc, hcan, -⟩ := C33_cluster_labels n work (hb _ _ h hq hw) s hr hfin key res hres
  obtain ⟨-, -, hc', hcan', -⟩ := C33_cluster_labels n work' (hb _ _ h' hq' hw') s' hr' hfin' key' res' hres'
  have hpart : ∀ i < n, ∀ j < n, res.clusterIdx.getD i 0 = res.clusterIdx.getD j 0 →
      res'.clusterIdx.getD i 0 = res'.clusterIdx.getD j 0 := by
    intro i hi j hj e
    rw [hc' i hi j hj]
    refine connected_map (f := id) (fun e he => ?_) ((hc i hi j hj).mp e)
    obtain ⟨nb, hnb, rfl⟩ := List.mem_map.mp (hw.mem_iff.mp he)
    exact hw'.mem_iff.mpr (List.mem_map.mpr ⟨nb, hsub nb hnb, rfl⟩)
  refine ⟨hpart, ?_⟩
  have hon : ∀ c, ∃ i, c < res'.num → i < n ∧ res'.clusterIdx.getD i 0 = c := fun c => by
    by_cases hc : c < res'.num
    · obtain ⟨i, h1, h2⟩ := hcan'.onto c hc
      exact ⟨i, fun _ => ⟨h1, h2⟩⟩
    · exact ⟨0, fun h => absurd h hc⟩
  choose g hg using hon
  have := Finset.card_le_card_of_injOn (s := Finset.range res'.num) (t := Finset.range res.num)
    (fun c => res.clusterIdx.getD (g c) 0) (fun c hc => Finset.mem_coe.mpr (Finset.mem_range.mpr
      (hcan.range _ (hg c (Finset.mem_range.mp (Finset.mem_coe.mp hc))).1))) (fun c hc d hd e => by
      obtain ⟨c1, c2⟩ := hg c (Finset.mem_range.mp (Finset.mem_coe.mp hc))
      obtain ⟨d1, d2⟩ := hg d (Finset.mem_range.mp (Finset.mem_coe.mp hd))
      rw [← c2, ← d2]
      exact hpart _ c1 _ d1 e)
  simpa using this

/-- **C110**: the list for the larger range has the bonds of the other, so `C110_cluster` applies. -/
theorem C110_more_bonds (b : Box ℝ) (pts qpts : List (Vec3 ℝ)) (hs : PeriodicSystem b pts qpts)
    (rMax rMin rMax' rMin' : ℝ) (hmin : 0 ≤ rMin) (hmin' : 0 ≤ rMin') (hhalf' : BelowHalf b rMax') (hlo : rMin' ≤ rMin)
    (hhi : rMax ≤ rMax') (excl : Bool) (src src' : Source) (h : IsSource b pts qpts rMax rMin excl src)
    (h' : IsSource b pts qpts rMax' rMin' excl src') : ∀ bd ∈ bondsFrom src, bd ∈ bondsFrom src' := by
  have hhalf : BelowHalf b rMax :=
    ⟨fun h => by linarith [hhalf'.1 h], fun h => by linarith [hhalf'.2.1 h], fun h h2 => by linarith [hhalf'.2.2 h h2]⟩
  intro bd hbd
  obtain ⟨q, hq, a1, a2, a3, a4, a5, a6, a7⟩ := ((bondsFrom_nodup hs hmin hhalf h).1 bd).mp hbd
  exact ((bondsFrom_nodup hs hmin' hhalf' h').1 bd).mpr ⟨q, hq, a1, a2, a3, a4, hlo.trans a5, a6.trans_le hhi, a7⟩

/-! ## Particles out of range -/

theorem Spec.SameNear.symm {b : Box ℝ} {q : Vec3 ℝ} {r : ℝ} {pts pts' : List (Vec3 ℝ)} (h : SameNear b q r pts pts') :
    SameNear b q r pts' pts := fun j => (h j).imp Eq.symm And.symm

/-- **C110**: the neighbors of a query point do not depend on particles that are not in its range. -/
theorem C110_neighbors (b : Box ℝ) (pts pts' qpts qpts' : List (Vec3 ℝ)) (hs : PeriodicSystem b pts qpts)
    (hs' : PeriodicSystem b pts' qpts') (rMax rMin : ℝ) (hmin : 0 ≤ rMin) (hhalf : BelowHalf b rMax) (excl : Bool)
    (src src' : Source) (h : IsSource b pts qpts rMax rMin excl src) (h' : IsSource b pts' qpts' rMax rMin excl src')
    (i : ℕ) (q : Vec3 ℝ) (hq : qpts[i]? = some q) (hq' : qpts'[i]? = some q) (hn : SameNear b q rMax pts pts') :
    ((bondsFrom src').filter fun bd => bd.q = i).Perm ((bondsFrom src).filter fun bd => bd.q = i) := by
  obtain ⟨m, n⟩ := bondsFrom_nodup hs hmin hhalf h
  obtain ⟨m', n'⟩ := bondsFrom_nodup hs' hmin hhalf h'
  rw [List.perm_ext_iff_of_nodup (n'.filter _) (n.filter _)]
  have key : ∀ (pts pts' qpts qpts' : List (Vec3 ℝ)) (bd : Bond ℝ), qpts[i]? = some q → qpts'[i]? = some q →
      SameNear b q rMax pts pts' → bd.q = i → IsQueryBond b pts qpts rMax rMin excl bd →
      IsQueryBond b pts' qpts' rMax rMin excl bd := by
    rintro pts pts' qpts qpts' bd e e' hn rfl ⟨q0, h0, a1, a2, a3, a4, a5, a6, p, hp, him⟩
    obtain rfl : q0 = q := Option.some.inj (h0.symm.trans e)
    refine ⟨q0, e', a1, a2, a3, a4, a5, a6, p, ?_, him⟩
    rcases hn bd.p with h | ⟨h, -⟩
    · rw [h, hp]
    · exact absurd a6 (not_lt.mpr (h p _ hp him))
  intro bd
  simp only [List.mem_filter, m, m', decide_eq_true_eq]
  exact ⟨fun ⟨h1, h2⟩ => ⟨key _ _ _ _ bd hq' hq hn.symm h2 h1, h2⟩, fun ⟨h1, h2⟩ => ⟨key _ _ _ _ bd hq hq' hn h2 h1, h2⟩⟩

theorem Spec.SameNear.less {b : Box ℝ} {q : Vec3 ℝ} {r r' : ℝ} {pts pts' : List (Vec3 ℝ)} (h : SameNear b q r pts pts')
    (hr : r' ≤ r) : SameNear b q r' pts pts' :=
  fun j => (h j).imp_right fun ⟨h1, h2⟩ => ⟨fun p w hp hw => hr.trans (h1 p w hp hw), fun p w hp hw => hr.trans (h2 p w hp hw)⟩

theorem norm_add_le' (u v : Vec3 ℝ) : Vec3.norm (u + v) ≤ Vec3.norm u + Vec3.norm v := by
  have hu := Real.mul_self_sqrt (dot_nonneg u)
  have hv := Real.mul_self_sqrt (dot_nonneg v)
  have hc : Vec3.dot u v ≤ Real.sqrt (Vec3.dot u u) * Real.sqrt (Vec3.dot v v) := by
    rw [← Real.sqrt_mul (dot_nonneg u)]
    refine Real.le_sqrt_of_sq_le ?_
    simp only [Vec3.dot]
    nlinarith [sq_nonneg (u.x * v.y - u.y * v.x), sq_nonneg (u.x * v.z - u.z * v.x), sq_nonneg (u.y * v.z - u.z * v.y)]
  refine Real.sqrt_le_iff.mpr ⟨add_nonneg (norm_nonneg' u) (norm_nonneg' v), ?_⟩
  have e : Vec3.dot (u + v) (u + v) = Vec3.dot u u + 2 * Vec3.dot u v + Vec3.dot v v := by
    simp only [Vec3.dot, Vec3.add_x, Vec3.add_y, Vec3.add_z]; ring
  rw [e]
  unfold Vec3.norm
  nlinarith

/-- Around a particle not further than `s`. -/
theorem Spec.SameNear.around {b : Box ℝ} {q q' v : Vec3 ℝ} {r s : ℝ} {pts pts' : List (Vec3 ℝ)}
    (h : SameNear b q (r + s) pts pts') (hv : IsImage b (q' - q) v) (hs : Vec3.norm v ≤ s) :
    SameNear b q' r pts pts' := by
  have key : ∀ (pts : List (Vec3 ℝ)) (j : ℕ), Away b q (r + s) pts j → Away b q' r pts j := by
    intro pts j ha p w hp hw
    obtain ⟨n, hn, rfl⟩ := hv
    obtain ⟨k, hk, rfl⟩ := hw
    have := ha p (p - q' + lattice b k + (q' - q + lattice b n)) hp
      ⟨k + n, allowed_add hk hn, by ext <;> simp [lattice, comb] <;> ring⟩
    have := this.trans (norm_add_le' _ _)
    linarith
  exact fun j => (h j).imp_right fun ⟨h1, h2⟩ => ⟨key _ _ h1, key _ _ h2⟩

namespace Spec.NearLists
variable {reach cutoff : ℝ} {i : ℕ} {q : Vec3 ℝ} {b : Box ℝ} {pts pts' : List (Vec3 ℝ)} {nl nl' : NList ℝ}

theorem lt (h : NearLists reach cutoff i q b pts pts' nl nl') : i < pts.length := (List.getElem?_eq_some_iff.mp h.here).1

theorem lt' (h : NearLists reach cutoff i q b pts pts' nl nl') : i < pts'.length := (List.getElem?_eq_some_iff.mp h.here').1

theorem list (h : NearLists reach cutoff i q b pts pts' nl nl') : ListFor nl pts.length := by
  obtain ⟨rMin, excl, h1, h4, h5⟩ := h.lists
  exact (list_source h.system h.small h1 h.half h4).1

theorem list' (h : NearLists reach cutoff i q b pts pts' nl nl') : ListFor nl' pts'.length := by
  obtain ⟨rMin, excl, h1, h4, h5⟩ := h.lists
  exact (list_source h.system' h.small' h1 h.half h5).1

theorem neighbors (h : NearLists reach cutoff i q b pts pts' nl nl') (hr : cutoff ≤ reach) :
    (nl'.bonds.filter fun bd => bd.q = i).Perm (nl.bonds.filter fun bd => bd.q = i) := by
  obtain ⟨rMin, excl, h1, h4, h5⟩ := h.lists
  have := C110_neighbors b pts pts' pts pts' h.system h.system' cutoff rMin h1 h.half excl _ _ h4 h5 i q h.here h.here'
    (h.near.less hr)
  rwa [bondsFrom_list, bondsFrom_list] at this

theorem vectors (h : NearLists reach cutoff i q b pts pts' nl nl') :
    ∀ nb ∈ nl.bonds, separation b pts nb = nb.vec ∧ nb.dist = Vec3.norm nb.vec := by
  intro nb hnb
  obtain ⟨rMin, excl, h1, h4, h5⟩ := h.lists
  exact separation_source h.system h.half ((list_source h.system h.small h1 h.half h4).2.2 nb hnb)

theorem vectors' (h : NearLists reach cutoff i q b pts pts' nl nl') :
    ∀ nb ∈ nl'.bonds, separation b pts' nb = nb.vec ∧ nb.dist = Vec3.norm nb.vec := by
  intro nb hnb
  obtain ⟨rMin, excl, h1, h4, h5⟩ := h.lists
  exact separation_source h.system' h.half ((list_source h.system' h.small' h1 h.half h5).2.2 nb hnb)

/-- What is computed from the weights, distances and separations of the bonds of the particle. -/
theorem sameBonds {β : Type*} (h : NearLists reach cutoff i q b pts pts' nl nl') (hr : cutoff ≤ reach)
    (F : ℝ → ℝ → Vec3 ℝ → β) :
    ((nl'.bonds.filter fun nb => nb.q = i).map fun nb => F nb.weight nb.dist (separation b pts' nb)).Perm
      ((nl.bonds.filter fun nb => nb.q = i).map fun nb => F nb.weight nb.dist (separation b pts nb)) := by
  refine List.Perm.trans (List.Perm.of_eq ?_) (((h.neighbors hr).map fun nb => F nb.weight nb.dist nb.vec).trans
    (List.Perm.of_eq ?_))
  · refine List.map_congr_left fun nb hnb => ?_
    rw [(h.vectors' nb (List.mem_filter.mp hnb).1).1]
  · refine List.map_congr_left fun nb hnb => ?_
    rw [(h.vectors nb (List.mem_filter.mp hnb).1).1]

/-- The same for a neighbor of the particle. -/
theorem around (h : NearLists (reach + cutoff) cutoff i q b pts pts' nl nl') (hr : cutoff ≤ reach)
    {nb : Bond ℝ} (hnb : nb ∈ nl.bonds) (hi : nb.q = i) : ∃ p, NearLists reach cutoff nb.p p b pts pts' nl nl' := by
  obtain ⟨rMin, excl, h1, h4, h5⟩ := h.lists
  obtain ⟨q0, hq0, a1, a2, a3, a4, a5, a6, p, hp, him⟩ := (list_source h.system h.small h1 h.half h4).2.2 nb hnb
  rw [hi, h.here, Option.some.injEq] at hq0
  subst hq0
  have hp' : pts'[nb.p]? = some p := by
    rcases h.near nb.p with e | ⟨e, -⟩
    · rw [e, hp]
    · have := e p _ hp him
      have h0 : 0 ≤ Vec3.norm nb.vec := norm_nonneg' _
      linarith
  exact ⟨p, h.system, h.system', h.small, h.small', hp, hp', h.near.around him a6.le, h.half, h.lists⟩

end Spec.NearLists

/-- **C110**: number of neighbors and density of a particle in `LocalDensity`. -/
theorem C110_local_density (cutoff : ℝ) (i : ℕ) (q : Vec3 ℝ) (b : Box ℝ) (pts pts' : List (Vec3 ℝ)) (nl nl' : NList ℝ)
    (h : NearLists cutoff cutoff i q b pts pts' nl nl') (pi : ℝ) (s : LocalDensity ℝ) (hD : 0 ≤ s.diameter)
    (hdist : ∀ nb ∈ nl.bonds, nb.dist < s.defaultRMax) (hdist' : ∀ nb ∈ nl'.bonds, nb.dist < s.defaultRMax)
    (order order' : List ℕ)
    (hord : order.Perm (List.range pts.length)) (hord' : order'.Perm (List.range pts'.length)) :
    ∃ r r', s.compute pi b pts.length nl order = some r ∧ s.compute pi b pts'.length nl' order' = some r' ∧
      ∃ v, r.results.data[i]? = some v ∧ r'.results.data[i]? = some v := by
  obtain ⟨r, e, -, hv⟩ := C39_local_density pi s hD b _ nl h.list.good hdist order hord
  obtain ⟨r', e', -, hv'⟩ := C39_local_density pi s hD b _ nl' h.list'.good hdist' order' hord'
  refine ⟨r, r', e, e', _, hv i h.lt, ?_⟩
  rw [hv' i h.lt', (h.sameBonds le_rfl (fun _ d _ => overlap s.rMax s.diameter d)).sum_eq]

/-- **C110**: the k-atic order parameter of a particle. -/
theorem C110_hexatic (cutoff : ℝ) (i : ℕ) (q : Vec3 ℝ) (b : Box ℝ) (h2 : b.is2D = true) (pts pts' : List (Vec3 ℝ))
    (nl nl' : NList ℝ) (h : NearLists cutoff cutoff i q b pts pts' nl nl') (p : Hexatic.Params) (order order' : List ℕ)
    (hord : order.Perm (List.range pts.length)) (hord' : order'.Perm (List.range pts'.length)) :
    ∃ r r', Hexatic.compute p b pts nl order = some r ∧ Hexatic.compute p b pts' nl' order' = some r' ∧
      ∃ v, r[i]? = some v ∧ r'[i]? = some v := by
  refine ⟨_, _, C75_value p b h2 pts nl h.list order hord, C75_value p b h2 pts' nl' h.list' order' hord', ?_⟩
  rw [List.getElem?_map, List.getElem?_map, List.getElem?_range h.lt, List.getElem?_range h.lt',
    Option.map_some, Option.map_some]
  refine ⟨_, rfl, congrArg some (katic_perm ?_)⟩
  rw [weightedBonds_separation, weightedBonds_separation]
  exact h.sameBonds le_rfl (fun w _ v => (if p.weighted then w else 1, v))

/-- **C110**: the Steinhardt order parameters of a particle, `q_l` and `w_l`, weighted or not, after any
histories of calls. If the distributions are averaged over the neighbors, the systems have to be the same up to
twice the range. -/
theorem C110_steinhardt (cutoff : ℝ) (i : ℕ) (q : Vec3 ℝ) (b : Box ℝ) (pts pts' : List (Vec3 ℝ))
    (nl nl' : NList ℝ) (sph : Steinhardt.Sph) (p : Steinhardt.Params)
    (h : NearLists (if p.average then cutoff + cutoff else cutoff) cutoff i q b pts pts' nl nl') (h0 : 0 ≤ cutoff)
    (Y : ℤ → Vec3 ℝ → ℂ) (hf : FsphOK sph p.l Y) (hl : p.wl = true → p.l ≤ 20)
    (history history' : List Steinhardt.Call) (hh : ∀ c ∈ history, LegalSteinhardt p.l c)
    (hh' : ∀ c ∈ history', LegalSteinhardt p.l c)
    (ev evAve ev' evAve' : List (ℕ × ℕ)) (ro ro' : List ℕ) (hev : IsExecution pts.length ev)
    (hevA : IsExecution pts.length evAve) (hev' : IsExecution pts'.length ev')
    (hevA' : IsExecution pts'.length evAve') (hro : ro.Perm (List.range (2 * p.l + 1)))
    (hro' : ro'.Perm (List.range (2 * p.l + 1))) :
    ∃ r r', Steinhardt.resultAfter sph p history ⟨b, pts, nl, ev, evAve, ro⟩ = some r ∧
      Steinhardt.resultAfter sph p history' ⟨b, pts', nl', ev', evAve', ro'⟩ = some r' ∧
      r'.qli[i]? = r.qli[i]? ∧ (r'.getQl p)[i]? = (r.getQl p)[i]? ∧
        (r'.particleOrder p)[i]? = (r.particleOrder p)[i]? := by
  set c : Steinhardt.Call := ⟨b, pts, nl, ev, evAve, ro⟩ with hcdef
  set c' : Steinhardt.Call := ⟨b, pts', nl', ev', evAve', ro'⟩ with hcdef'
  have hc : LegalSteinhardt p.l c := by
    refine ⟨h.list, fun nb hnb _ => ?_, hev, hevA, hro⟩
    obtain ⟨e1, e2⟩ := h.vectors nb hnb
    exact e2.trans (by unfold Vec3.norm; rw [← e1]; rfl)
  have hc' : LegalSteinhardt p.l c' := by
    refine ⟨h.list', fun nb hnb _ => ?_, hev', hevA', hro'⟩
    obtain ⟨e1, e2⟩ := h.vectors' nb hnb
    exact e2.trans (by unfold Vec3.norm; rw [← e1]; rfl)
  have hdir : ∀ {reach : ℝ} {j : ℕ} {q : Vec3 ℝ}, cutoff ≤ reach → NearLists reach cutoff j q b pts pts' nl nl' →
      (directions b pts' p.weighted nl'.bonds j).Perm (directions b pts p.weighted nl.bonds j) := fun hr hj =>
    hj.sameBonds hr (fun w _ v => (if p.weighted then w else 1, unit v))
  have hreach : cutoff ≤ if p.average then cutoff + cutoff else cutoff := by
    split_ifs <;> linarith
  obtain ⟨r, r', e, e', hv, -⟩ := steinhardt_local hf hl hh hh' hc hc'
  have d1 : Steinhardt.asM (Steinhardt.dist p c' false i) = Steinhardt.asM (Steinhardt.dist p c false i) := by
    unfold Steinhardt.dist distribution
    simp only [Bool.false_eq_true, if_false]
    exact Steinhardt.normalized_perm (hdir hreach h)
  refine ⟨r, r', e, e', hv i h.lt' i h.lt d1 ?_⟩
  cases hav : p.average with
  | false => exact d1
  | true =>
    rw [hav] at h
    simp only [if_true] at h
    unfold Steinhardt.dist distribution
    simp only [if_true]
    refine Steinhardt.mix_perm ?_
    rw [List.map_map, List.map_map]
    have hp : ((nl'.bonds.filter (fun nb => nb.q = i)).map (·.p) ++ [i]).Perm
        ((nl.bonds.filter (fun nb => nb.q = i)).map (·.p) ++ [i]) :=
      List.Perm.append_right _ ((h.neighbors (by linarith)).map _)
    refine (hp.map _).trans (List.Perm.of_eq (List.map_congr_left fun j hj => ?_))
    rw [List.mem_append, List.mem_singleton] at hj
    rcases hj with hj | rfl
    · obtain ⟨nb, hnb, rfl⟩ := List.mem_map.mp hj
      obtain ⟨h3, h4⟩ := List.mem_filter.mp hnb
      obtain ⟨v, hn⟩ := h.around le_rfl h3 (of_decide_eq_true h4)
      exact Steinhardt.normalized_perm (hdir le_rfl hn)
    · exact Steinhardt.normalized_perm (hdir (by linarith) h)

/-! ## A concrete case: a particle in the middle, far from a pair -/

theorem exists_list {b : Box ℝ} {pts : List (Vec3 ℝ)} (hs : PeriodicSystem b pts pts) (hne : pts ≠ []) {r : ℝ}
    (hr : 0 < r) (hh : BelowHalf b r) : ∃ nl, IsSource b pts pts r 0 true (.list nl) := by
  obtain ⟨src, ev, h⟩ := exists_frame hs hne hne le_rfl hr hh true (fun _ => ()) (fun _ => ())
  obtain ⟨s, found, hm, hf, -⟩ := h.source
  obtain ⟨nl, hnl⟩ := C20_result_exists found pts.length pts.length false ((List.range pts.length).map fun i => (0, i))
  exact ⟨nl, s, found, hm, hf, Or.inr ⟨false, _, nl, by simp [IsExecution, Function.comp_def], hnl, rfl⟩⟩

/-- The pair of C95, and a particle in the middle of the box. -/
noncomputable def crowded : List (Vec3 ℝ) := facePair ++ [⟨0, 0, 0⟩]

theorem crowded_system (d : Bool) : PeriodicSystem (tilted 0 d) crowded crowded := by
  have h : ∀ p ∈ crowded, InCell (tilted 0 d) p := by
    intro p hp
    simp only [crowded, facePair, List.cons_append, List.nil_append, List.mem_cons, List.not_mem_nil, or_false] at hp
    rcases hp with rfl | rfl | rfl <;> apply tilted_inCell <;> norm_num [abs_le]
  exact ⟨⟨tilted_valid _ _, tilted_pos _ _, h⟩, ⟨rfl, rfl, rfl⟩, h⟩

theorem crowded_near (d : Bool) : SameNear (tilted 0 d) ⟨49 / 10, 0, 0⟩ 4 facePair crowded := by
  intro j
  match j with
  | 0 => exact Or.inl rfl
  | 1 => exact Or.inl rfl
  | j + 2 =>
    refine Or.inr ⟨fun p w hp => by simp [facePair] at hp, fun p w hp hw => ?_⟩
    have hp0 : p = ⟨0, 0, 0⟩ := by
      match j with
      | 0 => simp [crowded, facePair] at hp; exact hp.symm
      | j + 1 => simp [crowded, facePair] at hp
    obtain ⟨n, -, rfl⟩ := hw
    rw [hp0, tilted_lattice, le_norm_iff _ _ (by norm_num)]
    simp only [Vec3.dot, Vec3.add_x, Vec3.add_y, Vec3.add_z, Vec3.sub_x, Vec3.sub_y, Vec3.sub_z]
    have hx : n.x ≤ 0 ∨ 1 ≤ n.x := by omega
    have hx' : (n.x : ℝ) ≤ 0 ∨ 1 ≤ (n.x : ℝ) := by exact_mod_cast hx
    have hyz : ∀ a b : ℝ, 0 ≤ a * a + b * b := fun a b => add_nonneg (mul_self_nonneg a) (mul_self_nonneg b)
    have := hyz (0 - 0 + n.y * 10) (0 - 0 + n.z * if d = true then 0 else 10)
    rcases hx' with h | h <;> nlinarith

-- the hypotheses of `C110_neighbors`, `C110_local_density`, `C110_hexatic` and `C110_steinhardt` (averaged, too)
example (d : Bool) : ∃ nl nl', NearLists (2 + 2) 2 1 ⟨49 / 10, 0, 0⟩ (tilted 0 d) facePair crowded nl nl' := by
  obtain ⟨nl, h⟩ := exists_list (facePair_tilted d) (by simp [facePair]) (show (0 : ℝ) < 2 by norm_num)
    (tilted_half d (by norm_num))
  obtain ⟨nl', h'⟩ := exists_list (crowded_system d) (by simp [crowded]) (show (0 : ℝ) < 2 by norm_num)
    (tilted_half d (by norm_num))
  refine ⟨nl, nl', facePair_tilted d, crowded_system d, by simp [facePair], by simp [crowded, facePair], by simp [facePair], by simp [crowded, facePair], ?_,
    tilted_half d (by norm_num), 0, true, le_rfl, h, h'⟩
  have := crowded_near d
  norm_num
  exact this

-- the frames of `C110_rdf` and `C110_correlation`: three bins up to 3, the first two of which are those up to 2
example : ∃ f f' : DataFrame ℝ, f.OK ∧ f'.OK ∧ SameParticles f f' ∧ f.Covers 0 2 ∧ f'.Covers 0 2 ∧ f.cutoff = 2 ∧
    f'.cutoff = 3 ∧ 2 ≤ f.qpts.length ∧ (3 : ℝ) / (3 : ℕ) = 2 / (2 : ℕ) := by
  obtain ⟨src, ev, h⟩ := exists_frame (crowded_system false) (by simp [crowded]) (by simp [crowded]) le_rfl
    (show (0 : ℝ) < 2 by norm_num) (tilted_half false (by norm_num)) true (fun i => (i : ℝ)) (fun i => (i : ℝ))
  obtain ⟨src', ev', h'⟩ := exists_frame (crowded_system false) (by simp [crowded]) (by simp [crowded]) le_rfl
    (show (0 : ℝ) < 3 by norm_num) (tilted_half false (by norm_num)) true (fun i => (i : ℝ)) (fun i => (i : ℝ))
  exact ⟨_, _, h, h', ⟨rfl, rfl, rfl, rfl, rfl, rfl⟩, ⟨le_rfl, le_rfl⟩, ⟨le_rfl, by norm_num⟩, rfl, rfl,
    by simp [crowded, facePair], by norm_num⟩

-- the lists of `C110_filter_r` and `C110_cluster`
example : ∃ nl nl' : NList ℝ, ListFor nl 3 ∧ ListFor nl' 3 ∧ nl.numQueryPoints = 3 ∧ nl'.numQueryPoints = 3 ∧
    ∀ nb ∈ nl.bonds, nb ∈ nl'.bonds := by
  obtain ⟨nl, h⟩ := exists_list (crowded_system false) (by simp [crowded]) (show (0 : ℝ) < 2 by norm_num)
    (tilted_half false (by norm_num))
  obtain ⟨nl', h'⟩ := exists_list (crowded_system false) (by simp [crowded]) (show (0 : ℝ) < 4 by norm_num)
    (tilted_half false (by norm_num))
  obtain ⟨a1, a2, -⟩ := list_source (crowded_system false) (by simp [crowded, facePair]) le_rfl
    (tilted_half false (by norm_num)) h
  obtain ⟨b1, b2, -⟩ := list_source (crowded_system false) (by simp [crowded, facePair]) le_rfl
    (tilted_half false (by norm_num)) h'
  refine ⟨nl, nl', a1, b1, a2, b2, fun nb hnb => ?_⟩
  have := C110_more_bonds (tilted 0 false) crowded crowded (crowded_system false) 2 0 4 0 le_rfl le_rfl
    (tilted_half false (by norm_num)) le_rfl (by norm_num) true _ _ h h' nb (by rw [bondsFrom_list]; exact hnb)
  rwa [bondsFrom_list] at this

end Freud
