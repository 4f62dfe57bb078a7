import Verif.Lemmas.Repeat
import Verif.Props.Marginals
import Mathlib.Data.List.Count

/-!
# Property C109: repeating a periodic system does not change its intensive results

A periodic system may be described by a larger cell that holds `m` of its cells. Every particle of the
larger cell has the neighbors of the particle it repeats, at the same separations. So the functions that
average over pairs do not change.
-/

namespace Freud
open Spec

/-- **C109**: in the larger cell each query point has the bonds of the one it repeats, with the same
distances, weights and vectors, whichever way the neighbors are specified for either cell. -/
theorem C109_neighbors (b b' : Box ℝ) (hl : CoarserLattice b b') (t : Vec3 ℝ) (φ ψ : ℕ → ℕ)
    (pts pts' qpts qpts' : List (Vec3 ℝ)) (hs : PeriodicSystem b pts qpts) (hs' : PeriodicSystem b' pts' qpts')
    (hp : Repeated b b' t ψ pts pts') (hq : Repeated b b' t φ qpts qpts') (rMax rMin : ℝ) (hmin : 0 ≤ rMin)
    (hhalf : BelowHalf b rMax) (hhalf' : BelowHalf b' rMax) (excl : Bool)
    (hex : excl = true → qpts = pts ∧ qpts' = pts' ∧ φ = ψ) (src src' : Source)
    (h : IsSource b pts qpts rMax rMin excl src) (h' : IsSource b' pts' qpts' rMax rMin excl src') (i : ℕ)
    (hi : i < qpts'.length) :
    (((bondsFrom src').filter fun bd => bd.q = i).map (relabel φ ψ)).Perm
      ((bondsFrom src).filter fun bd => bd.q = φ i) := by
  obtain ⟨-, a, p, m, n⟩ := source_perm hs hmin hhalf h
  obtain ⟨-, a', p', m', n'⟩ := source_perm hs' hmin hhalf' h'
  refine (((p'.filter _).map _).trans ?_).trans (p.filter _).symm
  refine (List.perm_ext_iff_of_nodup (((n'.of_map _).filter _).map_on fun x hx y hy e => ?_)
    ((n.of_map _).filter _)).mpr fun bd => ?_
  · obtain ⟨hx, hxq⟩ := List.mem_filter.mp hx
    obtain ⟨hy, hyq⟩ := List.mem_filter.mp hy
    refine queryBond_once hp ((m' _).mp hx) ((m' _).mp hy) ?_ e
    rw [of_decide_eq_true hxq, of_decide_eq_true hyq]
  · simp only [List.mem_map, List.mem_filter, decide_eq_true_eq]
    constructor
    · rintro ⟨bd', ⟨h1, rfl⟩, rfl⟩
      exact ⟨(m _).mpr (queryBond_down hl hs hhalf hp hq hex ((m' _).mp h1)), rfl⟩
    · rintro ⟨h1, h2⟩
      obtain ⟨bd', h3, h4, h5⟩ := queryBond_up hp hq hex ((m _).mp h1) hi h2.symm
      exact ⟨bd', ⟨(m' _).mpr h3, h4⟩, h5⟩

/-- **C109**: if the larger cell has `m` times as many query points, its bonds are `m` copies of the bonds
of the smaller cell. -/
theorem C109_bonds (b b' : Box ℝ) (hl : CoarserLattice b b') (t : Vec3 ℝ) (φ ψ : ℕ → ℕ)
    (pts pts' qpts qpts' : List (Vec3 ℝ)) (hs : PeriodicSystem b pts qpts) (hs' : PeriodicSystem b' pts' qpts')
    (hp : Repeated b b' t ψ pts pts') (hq : Repeated b b' t φ qpts qpts') (rMax rMin : ℝ) (hmin : 0 ≤ rMin)
    (hhalf : BelowHalf b rMax) (hhalf' : BelowHalf b' rMax) (excl : Bool)
    (hex : excl = true → qpts = pts ∧ qpts' = pts' ∧ φ = ψ) (src src' : Source)
    (h : IsSource b pts qpts rMax rMin excl src) (h' : IsSource b' pts' qpts' rMax rMin excl src') (m : ℕ)
    (hm : qpts'.length = m * qpts.length) :
    ((bondsFrom src').map (relabel φ ψ)).Perm (List.replicate m (bondsFrom src)).flatten := by
  classical
  have hN := C109_neighbors b b' hl t φ ψ pts pts' qpts qpts' hs hs' hp hq rMax rMin hmin hhalf hhalf' excl hex
    src src' h h'
  obtain ⟨-, a, p, ma, n⟩ := source_perm hs hmin hhalf h
  obtain ⟨-, a', p', ma', n'⟩ := source_perm hs' hmin hhalf' h'
  have hin : ∀ bd ∈ bondsFrom src', bd.q < qpts'.length := by
    intro bd hbd
    obtain ⟨q, hq, -⟩ := (ma' _).mp (p'.mem_iff.mp hbd)
    exact (List.getElem?_eq_some_iff.mp hq).1
  refine List.perm_iff_count.mpr fun bd => ?_
  have hsplit : List.count bd ((bondsFrom src').map (relabel φ ψ)) = ∑ i ∈ Finset.range qpts'.length,
      List.count bd (((bondsFrom src').filter fun bd => bd.q = i).map (relabel φ ψ)) := by
    simp only [List.count_eq_countP, List.countP_map, List.countP_filter]
    clear hN p' h' ma' n'
    revert hin
    induction bondsFrom src' with
    | nil => simp
    | cons x l ih =>
      intro hin
      have ih := ih fun bd hbd => hin bd (List.mem_cons_of_mem _ hbd)
      have hx := hin x List.mem_cons_self
      simp only [List.countP_cons, ih, Finset.sum_add_distrib]
      congr 1
      by_cases e : (relabel φ ψ x == bd) = true
      · simp [e, hx]
      · simp [e]
  rw [hsplit, Finset.sum_congr rfl fun i hi => (hN i (Finset.mem_range.mp hi)).count_eq bd]
  have hc : ∀ i, List.count bd ((bondsFrom src).filter fun bd => bd.q = φ i) =
      if φ i = bd.q then List.count bd (bondsFrom src) else 0 := by
    intro i
    split_ifs with e
    · exact List.count_filter (by simp [e])
    · refine List.count_eq_zero.mpr fun hmem => e ?_
      exact (of_decide_eq_true (List.mem_filter.mp hmem).2).symm
  rw [Finset.sum_congr rfl fun i _ => hc i, ← Finset.sum_filter, Finset.sum_const, smul_eq_mul,
    List.count_flatten, List.map_replicate, List.sum_replicate, smul_eq_mul]
  by_cases e : bd ∈ bondsFrom src
  · obtain ⟨q, hq0, -⟩ := (ma _).mp (p.mem_iff.mp e)
    have := hq.copies_card hm (List.getElem?_eq_some_iff.mp hq0).1
    unfold Repeated.copies at this
    rw [this]
  · rw [List.count_eq_zero.mpr e, mul_zero, mul_zero]

/-! ### Frames -/

section Frames
variable {D : Type*}

/-- The larger cells of a trajectory: each frame is described by a cell that holds `m` of its cells. -/
def Spec.RepeatedFrame (m : ℕ) (f f' : DataFrame D) : Prop := RepeatedSystem f f' ∧ HoldsCells m f f'

theorem samples_repeated {β : Type*} (S : D → D → ℝ → Vec3 ℝ → β) {m : ℕ} {f f' : DataFrame D} (h : f.OK)
    (h' : f'.OK) (hs : RepeatedFrame m f f') :
    ((bondsFrom f'.src).map fun bd => S (f'.data bd.p) (f'.queryData bd.q) bd.dist bd.vec).Perm
      (List.replicate m ((bondsFrom f.src).map fun bd =>
        S (f.data bd.p) (f.queryData bd.q) bd.dist bd.vec)).flatten := by
  obtain ⟨hs, hm⟩ := hs
  obtain ⟨t, φ, ψ, hex, hp, hq, hd, hqd⟩ := hs.moved
  have hb := C109_bonds f.box f'.box hs.lattice t φ ψ f.pts f'.pts f.qpts f'.qpts h.system h'.system hp hq
    f.cutoff f.inner h.inner0 h.half (by rw [← hs.cutoff]; exact h'.half) f.excl hex f.src f'.src h.source (by
      have := h'.source
      rwa [hs.excl, hs.cutoff, hs.inner] at this) m hm.queries
  have := hb.map fun bd => S (f.data bd.p) (f.queryData bd.q) bd.dist bd.vec
  rw [List.map_flatten, List.map_replicate] at this
  refine (List.Perm.of_eq ?_).trans this
  rw [List.map_map]
  refine List.map_congr_left fun bd hbd => ?_
  obtain ⟨e1, e2⟩ := h'.ends hbd
  simp only [Function.comp_apply, relabel]
  rw [hd _ e2, hqd _ e1]

theorem flatten_replicate_append {β : Type*} (m : ℕ) (l l' : List β) :
    (List.replicate m (l ++ l')).flatten.Perm ((List.replicate m l).flatten ++ (List.replicate m l').flatten) := by
  induction m with
  | zero => simp
  | succ m ih =>
    simp only [List.replicate_succ, List.flatten_cons, List.append_assoc]
    refine List.Perm.append_left l ?_
    refine (List.Perm.append_left l' ih).trans ?_
    rw [← List.append_assoc, ← List.append_assoc]
    exact List.Perm.append_right _ List.perm_append_comm

theorem flatMap_times {α β γ : Type*} {R : α → β → Prop} {l : List α} {l' : List β}
    (h : List.Forall₂ R l l') (g : α → List γ) (g' : β → List γ) (m : ℕ)
    (hR : ∀ a ∈ l, ∀ b ∈ l', R a b → (g' b).Perm (List.replicate m (g a)).flatten) :
    (l'.flatMap g').Perm (List.replicate m (l.flatMap g)).flatten := by
  induction h with
  | nil => simp
  | cons hab _ ih =>
    rw [List.flatMap_cons, List.flatMap_cons]
    exact ((hR _ List.mem_cons_self _ List.mem_cons_self hab).append
      (ih fun a ha b hb => hR a (List.mem_cons_of_mem _ ha) b (List.mem_cons_of_mem _ hb))).trans
      (flatten_replicate_append m _ _).symm

theorem countIn_times (axes : List (RegularAxis ℝ)) (idx : List ℕ) (m : ℕ) {l l' : List (List ℝ)}
    (h : l'.Perm (List.replicate m l).flatten) : countIn axes idx l' = m * countIn axes idx l := by
  rw [countIn_perm h]
  unfold countIn
  rw [List.filter_flatten, List.map_replicate, List.length_flatten, List.map_replicate, List.sum_replicate,
    smul_eq_mul]

theorem bondsIn_times (lo hi : ℝ) (m : ℕ) {l l' : List (List ℝ)}
    (h : l'.Perm (List.replicate m l).flatten) : bondsIn lo hi l' = m * bondsIn lo hi l := by
  unfold bondsIn
  rw [(h.filter _).length_eq, List.filter_flatten, List.map_replicate, List.length_flatten, List.map_replicate,
    List.sum_replicate, smul_eq_mul]

/-- **C109**: the RDF of frames in larger cells. With the default normalisation it does not change, nor do
the mean numbers of neighbors `n_r` in either normalisation. With the normalisation `finite_size` the RDF is
multiplied by `m (N - 1) / (m N - 1)`, where `N` is the number of query points of the smaller cell. -/
theorem C109_rdf (m : ℕ) (bins : ℕ) (rMax rMin : ℝ) (a : RegularAxis ℝ)
    (ha : RDF.mkAxis bins rMax rMin = some a) (hb : bins ≤ OVERFLOW_BIN) (mode : NormalizationMode)
    (box0 box0' : Box ℝ) (fs fs' : List (DataFrame D)) (hfs : ∀ f ∈ fs, f.OK) (hfs' : ∀ f ∈ fs', f.OK)
    (hrep : List.Forall₂ (RepeatedFrame m) fs fs') (f : DataFrame D) (hf : fs.getLast? = some f)
    (hpair : mode = .finiteSize → 2 ≤ f.qpts.length) (order order' : List ℕ)
    (hord : order.Perm (List.range bins)) (hord' : order'.Perm (List.range bins)) :
    ∃ s s1 s' s1', (RDF.new a mode box0).run (RDF.fill Real.pi a) (RDF.zero a)
        (fs.map fun f => RDF.frameFrom f.info f.src f.ev) = some s ∧
      s.refresh (RDF.fill Real.pi a) order = some s1 ∧
      (RDF.new a mode box0').run (RDF.fill Real.pi a) (RDF.zero a)
        (fs'.map fun f => RDF.frameFrom f.info f.src f.ev) = some s' ∧
      s'.refresh (RDF.fill Real.pi a) order' = some s1' ∧ s1'.out.2 = s1.out.2 ∧
      s1'.out.1 = match mode with
        | .exact => s1.out.1
        | .finiteSize => s1.out.1.map fun g =>
          g * ((m : ℝ) * ((f.qpts.length : ℝ) - 1) / ((m : ℝ) * (f.qpts.length : ℝ) - 1)) := by
  obtain ⟨f', hf', hff⟩ := getLast_of_forall₂ hrep hf
  have hm0 := hff.2.pos
  have hok : ∀ f : DataFrame D, f.OK → (mode = .finiteSize → 2 ≤ f.qpts.length) → FrameOK mode f.info :=
    fun f h h2 => ⟨List.length_pos_of_ne_nil h.points, List.length_pos_of_ne_nil h.queries, h2,
      volume_pos h.system.inBox.pos⟩
  have hpair' : mode = .finiteSize → 2 ≤ f'.qpts.length := fun e => by
    rw [hff.2.queries]
    exact le_trans (hpair e) (Nat.le_mul_of_pos_left _ hm0)
  obtain ⟨s, s1, e1, e2, e3, e5, e4⟩ := rdf_both Real.pi bins rMax rMin a ha hb mode box0 fs (·.ev)
    (fun f hf => (hfs f hf).exec) f hf (hok f (hfs f (List.mem_of_getLast? hf)) hpair) order hord
  obtain ⟨s', s1', e1', e2', e3', e5', e4'⟩ := rdf_both Real.pi bins rMax rMin a ha hb mode box0' fs' (·.ev)
    (fun f hf => (hfs' f hf).exec) f' hf' (hok f' (hfs' f' (List.mem_of_getLast? hf')) hpair') order' hord'
  have hp : ((framedBonds fs').map fun x => [x.2.dist]).Perm
      (List.replicate m ((framedBonds fs).map fun x => [x.2.dist])).flatten := by
    unfold framedBonds
    rw [List.map_flatMap, List.map_flatMap]
    refine flatMap_times hrep _ _ m fun f hf f' hf' h => ?_
    rw [List.map_map, List.map_map]
    exact samples_repeated (fun _ _ d _ => [d]) (hfs f hf) (hfs' f' hf') h
  have hm : (m : ℝ) ≠ 0 := by exact_mod_cast Nat.one_le_iff_ne_zero.mp hm0
  have hV := volume_pos (hfs f (List.mem_of_getLast? hf)).system.inBox.pos
  have hl : fs'.length = fs.length := hrep.length_eq.symm
  refine ⟨s, s1, s', s1', e1, e2, e1', e2', List.ext_getElem? fun i => ?_, List.ext_getElem? fun i => ?_⟩
  · by_cases hi : i < bins
    · rw [(e4 i hi).2, (e4' i hi).2, bondsIn_times _ _ m hp, hl]
      simp only [DataFrame.info, hff.2.queries]
      push_cast
      rw [mul_assoc (m : ℝ), mul_div_mul_left _ _ hm]
    · rw [List.getElem?_eq_none (by omega), List.getElem?_eq_none (by omega)]
  · by_cases hi : i < bins
    · rw [(e4' i hi).1, bondsIn_times _ _ m hp, hl]
      cases mode with
      | exact =>
        simp only
        rw [(e4 i hi).1]
        simp only [DataFrame.info, density, hff.2.points, hff.2.queries, hff.2.volume, hff.1.lattice.dims]
        push_cast
        rw [mul_div_mul_left _ _ hm, mul_assoc (m : ℝ), mul_assoc (m : ℝ), mul_assoc (m : ℝ),
          mul_div_mul_left _ _ hm]
      | finiteSize =>
        simp only
        have h2 : (2 : ℝ) ≤ f.qpts.length := by exact_mod_cast hpair rfl
        have h1 : (1 : ℝ) ≤ m := by exact_mod_cast hm0
        have h3 : (f.qpts.length : ℝ) - 1 ≠ 0 := by linarith
        have h4 : (m : ℝ) * f.qpts.length - 1 ≠ 0 := by nlinarith
        rw [List.getElem?_map, (e4 i hi).1, Option.map_some]
        simp only [DataFrame.info, density, hff.2.points, hff.2.queries, hff.2.volume, hff.1.lattice.dims]
        push_cast
        congr 1
        generalize shellVolume Real.pi f.box.is2D (edge rMin rMax bins i) (edge rMin rMax bins (i + 1)) = S
        generalize (bondsIn (edge rMin rMax bins i) (edge rMin rMax bins (i + 1))
          ((framedBonds fs).map fun x => [x.2.dist]) : ℝ) = n
        generalize (f.pts.length : ℝ) = P
        generalize (fs.length : ℝ) = F
        generalize (f.qpts.length : ℝ) = N at *
        generalize (m : ℝ) = M at *
        have hV := hV.ne'
        generalize f.box.getVolume = V at *
        simp only [div_eq_mul_inv, mul_inv, inv_inv]
        field_simp
    · rw [List.getElem?_eq_none (by omega)]
      cases mode with
      | exact => simp only; rw [List.getElem?_eq_none (by omega)]
      | finiteSize => simp only; rw [List.getElem?_eq_none (by rw [List.length_map]; omega)]

section Values
variable {V : Type*} [Field V] [StarRing V] [CharZero V] [DecidableEq V]

theorem meanIn_times (lo hi : ℝ) {m : ℕ} (hm : 1 ≤ m) {l l' : List (ℝ × V)}
    (h : l'.Perm (List.replicate m l).flatten) : meanIn lo hi l' = meanIn lo hi l := by
  classical
  rw [meanIn_perm h]
  unfold meanIn
  simp only [List.filter_flatten, List.map_replicate]
  set k := l.filter fun b => decide (lo ≤ b.1 ∧ b.1 < hi)
  have hmV : (m : V) ≠ 0 := by exact_mod_cast Nat.one_le_iff_ne_zero.mp hm
  by_cases e : k = []
  · rw [if_pos e, if_pos (by simp [e])]
  · rw [if_neg e, if_neg (by
      intro h0
      rw [List.flatten_eq_nil_iff] at h0
      exact e (h0 k (List.mem_replicate.mpr ⟨by omega, rfl⟩)))]
    rw [List.map_flatten, List.map_replicate, List.sum_flatten, List.map_replicate, List.sum_replicate,
      List.length_flatten, List.map_replicate, List.sum_replicate, smul_eq_mul, nsmul_eq_mul]
    push_cast
    rw [mul_div_mul_left _ _ hmV]

/-- **C109**: the correlation function of frames in larger cells, whose particles have the values of the
particles they repeat. -/
theorem C109_correlation (m : ℕ) (hm : 1 ≤ m) (bins : ℕ) (rMax : ℝ) (a : RegularAxis ℝ)
    (ha : CorrelationFunction.mkAxis bins rMax = some a) (hb : bins ≤ OVERFLOW_BIN)
    (fs fs' : List (DataFrame V)) (hfs : ∀ f ∈ fs, f.OK) (hfs' : ∀ f ∈ fs', f.OK)
    (hrep : List.Forall₂ (RepeatedFrame m) fs fs') (order order' : List ℕ)
    (hord : order.Perm (List.range bins)) (hord' : order'.Perm (List.range bins)) :
    ∃ s s1 s' s1', (CorrelationFunction.new a : CorrelationFunction ℝ V).run (fs.map (·.cf)) = some s ∧
      s.getCorrelation order = some s1 ∧
      (CorrelationFunction.new a : CorrelationFunction ℝ V).run (fs'.map (·.cf)) = some s' ∧
      s'.getCorrelation order' = some s1' ∧ s1'.output = s1.output := by
  obtain ⟨s, s1, e1, e2, e3⟩ := C36_correlation bins rMax a ha hb (fs.map (·.cf))
    (by simp only [List.mem_map]; rintro _ ⟨f, hf, rfl⟩; exact cf_legal (hfs f hf) bins) order hord
  obtain ⟨s', s1', e1', e2', e3'⟩ := C36_correlation bins rMax a ha hb (fs'.map (·.cf))
    (by simp only [List.mem_map]; rintro _ ⟨f, hf, rfl⟩; exact cf_legal (hfs' f hf) bins) order' hord'
  refine ⟨s, s1, s', s1', e1, e2, e1', e2', ?_⟩
  rw [e3, e3']
  refine List.map_congr_left fun i _ => meanIn_times _ _ hm ?_
  rw [cfProducts_frames fs [] hfs, cfProducts_frames fs' [] hfs', List.nil_append, List.nil_append]
  exact flatMap_times hrep _ _ m fun f hf f' hf' h =>
    samples_repeated (fun v w d _ => (d, star v * w)) (hfs f hf) (hfs' f' hf') h

end Values

open PMFT

theorem pmft_repeated (m : ℕ) (hm : 1 ≤ m) (S : D → D → ℝ → Vec3 ℝ → List ℝ) (g : PMFT.Grid ℝ)
    (hax : ∀ a ∈ g.axes, AxisOK a)
    (hS : ∀ d q r v, (S d q r v).length = g.axes.length)
    (hs : (g.axes.map (·.nbins)).prod ≤ OVERFLOW_BIN) (box0 box0' : Box ℝ) (fs fs' : List (DataFrame D))
    (hne : fs ≠ []) (hfs : ∀ f ∈ fs, f.OK) (hfs' : ∀ f ∈ fs', f.OK) (h2 : ∀ f ∈ fs, f.box.is2D = true)
    (hrep : List.Forall₂ (RepeatedFrame m) fs fs') (order order' : List ℕ)
    (hord : order.Perm (List.range (g.axes.map (·.nbins)).prod))
    (hord' : order'.Perm (List.range (g.axes.map (·.nbins)).prod)) :
    ∃ s s1 s' s1', PMFT.run check2D () (fun _ => fill g.jf) (zero g) (PMFT.new g () box0)
        (fs.map fun f => .accumulate (callOf S f)) = some s ∧ s.refresh (fun _ => fill g.jf) order = some s1 ∧
      PMFT.run check2D () (fun _ => fill g.jf) (zero g) (PMFT.new g () box0')
        (fs'.map fun f => .accumulate (callOf S f)) = some s' ∧
      s'.refresh (fun _ => fill g.jf) order' = some s1' ∧ s1'.out = s1.out := by
  obtain ⟨f, hf⟩ : ∃ f, fs.getLast? = some f := ⟨_, List.getLast?_eq_some_getLast hne⟩
  obtain ⟨f', hf', hff⟩ := getLast_of_forall₂ hrep hf
  have hlegal : ∀ fs : List (DataFrame D), (∀ f ∈ fs, f.OK) →
      ∀ a ∈ fs.map (callOf S), PMFTLegal g.axes (.accumulate a) := by
    intro fs h a ha
    obtain ⟨f, hf, rfl⟩ := List.mem_map.mp ha
    refine ⟨(h f hf).exec, fun i _ s hs => ?_, by simp [callOf, attemptFrom, NO_NUMBER]⟩
    obtain ⟨bd, -, rfl⟩ := List.mem_map.mp hs
    exact hS _ _ _ _
  have h2' : ∀ f' ∈ fs', f'.box.is2D = true := by
    intro f' hf'
    obtain ⟨f, hf, h, -⟩ := mem_of_forall₂ hrep hf'
    rw [h.lattice.dims]; exact h2 f hf
  have := pmft2D_times g g hax hax rfl hs box0 box0' (fs.map (callOf S)) (fs'.map (callOf S)) (hlegal fs hfs)
    (hlegal fs' hfs') (by simpa [callOf, attemptFrom, DataFrame.info] using h2)
    (by simpa [callOf, attemptFrom, DataFrame.info] using h2')
    (by simpa using hrep.length_eq.symm) m hm (fun idx _ => ?_) (callOf S f) (callOf S f')
    (by rw [List.getLast?_map, hf]; rfl) (by rw [List.getLast?_map, hf']; rfl) ?_ order order' hord hord'
  · rwa [List.map_map, List.map_map] at this
  · rw [List.flatMap_map, List.flatMap_map]
    refine countIn_times _ _ m (flatMap_times hrep _ _ m fun f hf f' hf' h => ?_)
    rw [callOf_samples, callOf_samples]
    exact samples_repeated S (hfs f hf) (hfs' f' hf') h
  · refine ⟨hff.2.queries, hff.2.points, fun k => ?_⟩
    simp only [callOf, attemptFrom, DataFrame.info, hff.2.volume]
    ring

/-- **C109**: the positional correlation of a `PMFTXY`, for frames in larger cells, whose particles have the
orientations of the particles they repeat. -/
theorem C109_pmft_xy (m : ℕ) (hm : 1 ≤ m) (T : Trig ℝ) (xMax yMax : ℝ) (hx : 0 < xMax) (hy : 0 < yMax)
    (nx ny : ℕ) (g : PMFT.Grid ℝ) (hg : mkXY xMax yMax nx ny = some g)
    (hn : nx * ny ≤ OVERFLOW_BIN) (box0 box0' : Box ℝ) (fs fs' : List (DataFrame ℝ)) (hne : fs ≠ [])
    (hfs : ∀ f ∈ fs, f.OK) (hfs' : ∀ f ∈ fs', f.OK) (h2 : ∀ f ∈ fs, f.box.is2D = true)
    (hrep : List.Forall₂ (RepeatedFrame m) fs fs') (order order' : List ℕ)
    (hord : order.Perm (List.range (nx * ny))) (hord' : order'.Perm (List.range (nx * ny))) :
    ∃ s s1 s' s1', PMFT.run check2D () (fun _ => fill g.jf) (zero g) (PMFT.new g () box0)
        (fs.map fun f => .accumulate (xyFrom T f.info f.queryData f.src f.ev)) = some s ∧
      s.refresh (fun _ => fill g.jf) order = some s1 ∧
      PMFT.run check2D () (fun _ => fill g.jf) (zero g) (PMFT.new g () box0')
        (fs'.map fun f => .accumulate (xyFrom T f.info f.queryData f.src f.ev)) = some s' ∧
      s'.refresh (fun _ => fill g.jf) order' = some s1' ∧ s1'.out = s1.out := by
  obtain ⟨e, hax⟩ := xy_axes hx hy hg hn
  have hp : (g.axes.map (·.nbins)).prod = nx * ny := by rw [e]; simp
  exact pmft_repeated m hm (fun _ q r v => sampleXY T (fun _ => q) ⟨0, 0, r, 1, v⟩) g hax
    (fun d q r v => by rw [e]; rfl) (by rw [hp]; exact hn) box0 box0' fs fs' hne hfs hfs' h2 hrep order order'
    (by rw [hp]; exact hord) (by rw [hp]; exact hord')

/-- **C109**: the same for `PMFTXYT`. -/
theorem C109_pmft_xyt (m : ℕ) (hm : 1 ≤ m) (T : Trig ℝ) (hT : 0 < T.twoPi) (xMax yMax : ℝ) (hx : 0 < xMax)
    (hy : 0 < yMax) (nx ny nt : ℕ) (g : PMFT.Grid ℝ) (hg : mkXYT T xMax yMax nx ny nt = some g)
    (hn : nx * (ny * nt) ≤ OVERFLOW_BIN) (box0 box0' : Box ℝ) (fs fs' : List (DataFrame ℝ)) (hne : fs ≠ [])
    (hfs : ∀ f ∈ fs, f.OK) (hfs' : ∀ f ∈ fs', f.OK) (h2 : ∀ f ∈ fs, f.box.is2D = true)
    (hrep : List.Forall₂ (RepeatedFrame m) fs fs') (order order' : List ℕ)
    (hord : order.Perm (List.range (nx * (ny * nt)))) (hord' : order'.Perm (List.range (nx * (ny * nt)))) :
    ∃ s s1 s' s1', PMFT.run check2D () (fun _ => fill g.jf) (zero g) (PMFT.new g () box0)
        (fs.map fun f => .accumulate (xytFrom T f.info f.data f.queryData f.src f.ev)) = some s ∧
      s.refresh (fun _ => fill g.jf) order = some s1 ∧
      PMFT.run check2D () (fun _ => fill g.jf) (zero g) (PMFT.new g () box0')
        (fs'.map fun f => .accumulate (xytFrom T f.info f.data f.queryData f.src f.ev)) = some s' ∧
      s'.refresh (fun _ => fill g.jf) order' = some s1' ∧ s1'.out = s1.out := by
  obtain ⟨e, hax⟩ := xyt_axes hT hx hy hg hn
  have hp : (g.axes.map (·.nbins)).prod = nx * (ny * nt) := by rw [e]; simp
  exact pmft_repeated m hm (fun d q r v => sampleXYT T (fun _ => d) (fun _ => q) ⟨0, 0, r, 1, v⟩) g hax
    (fun d q r v => by rw [e]; rfl) (by rw [hp]; exact hn) box0 box0' fs fs' hne hfs hfs' h2 hrep order order'
    (by rw [hp]; exact hord) (by rw [hp]; exact hord')

/-- **C109**: the same for `PMFTR12`. -/
theorem C109_pmft_r12 (m : ℕ) (hm : 1 ≤ m) (T : Trig ℝ) (hT : 0 < T.twoPi) (rMax : ℝ) (hr : 0 < rMax)
    (nr nt1 nt2 : ℕ) (g : PMFT.Grid ℝ) (hg : mkR12 T rMax nr nt1 nt2 = some g)
    (hn : nr * (nt1 * nt2) ≤ OVERFLOW_BIN) (box0 box0' : Box ℝ) (fs fs' : List (DataFrame ℝ)) (hne : fs ≠ [])
    (hfs : ∀ f ∈ fs, f.OK) (hfs' : ∀ f ∈ fs', f.OK) (h2 : ∀ f ∈ fs, f.box.is2D = true)
    (hrep : List.Forall₂ (RepeatedFrame m) fs fs') (order order' : List ℕ)
    (hord : order.Perm (List.range (nr * (nt1 * nt2)))) (hord' : order'.Perm (List.range (nr * (nt1 * nt2)))) :
    ∃ s s1 s' s1', PMFT.run check2D () (fun _ => fill g.jf) (zero g) (PMFT.new g () box0)
        (fs.map fun f => .accumulate (r12From T f.info f.data f.queryData f.src f.ev)) = some s ∧
      s.refresh (fun _ => fill g.jf) order = some s1 ∧
      PMFT.run check2D () (fun _ => fill g.jf) (zero g) (PMFT.new g () box0')
        (fs'.map fun f => .accumulate (r12From T f.info f.data f.queryData f.src f.ev)) = some s' ∧
      s'.refresh (fun _ => fill g.jf) order' = some s1' ∧ s1'.out = s1.out := by
  obtain ⟨e, hax⟩ := r12_axes hT hr hg hn
  have hp : (g.axes.map (·.nbins)).prod = nr * (nt1 * nt2) := by rw [e]; simp
  exact pmft_repeated m hm (fun d q r v => sampleR12 T (fun _ => d) (fun _ => q) ⟨0, 0, r, 1, v⟩) g hax
    (fun d q r v => by rw [e]; rfl) (by rw [hp]; exact hn) box0 box0' fs fs' hne hfs hfs' h2 hrep order order'
    (by rw [hp]; exact hord) (by rw [hp]; exact hord')

/-- **C109**: the same for `PMFTXYZ`, with any equivalent orientations. -/
theorem C109_pmft_xyz (m : ℕ) (hm : 1 ≤ m) (xMax yMax zMax : ℝ) (hx : 0 < xMax) (hy : 0 < yMax) (hz : 0 < zMax)
    (nx ny nz : ℕ) (g : PMFT.Grid ℝ) (hg : mkXYZ xMax yMax zMax nx ny nz = some g)
    (hn : nx * (ny * nz) ≤ OVERFLOW_BIN)
    (equiv : List (Quat ℝ)) (hen : equiv.length < NO_NUMBER) (box0 box0' : Box ℝ)
    (fs fs' : List (DataFrame (Quat ℝ))) (hne : fs ≠ []) (hfs : ∀ f ∈ fs, f.OK) (hfs' : ∀ f ∈ fs', f.OK)
    (h3 : ∀ f ∈ fs, f.box.is2D = false) (hrep : List.Forall₂ (RepeatedFrame m) fs fs') (order order' : List ℕ)
    (hord : order.Perm (List.range (nx * (ny * nz)))) (hord' : order'.Perm (List.range (nx * (ny * nz)))) :
    ∃ s s1 s' s1', PMFT.run checkXYZ NO_NUMBER (fillXYZ g.jf) (zero g) (PMFT.new g NO_NUMBER box0)
        (fs.map fun f => .accumulate (f.xyz equiv)) = some s ∧ s.refresh (fillXYZ g.jf) order = some s1 ∧
      PMFT.run checkXYZ NO_NUMBER (fillXYZ g.jf) (zero g) (PMFT.new g NO_NUMBER box0')
        (fs'.map fun f => .accumulate (f.xyz equiv)) = some s' ∧ s'.refresh (fillXYZ g.jf) order' = some s1' ∧
      s1'.out = s1.out := by
  obtain ⟨e, hax⟩ := xyz_axes hx hy hz hg hn
  have hp : (g.axes.map (·.nbins)).prod = nx * (ny * nz) := by rw [e]; simp
  obtain ⟨f, hf⟩ : ∃ f, fs.getLast? = some f := ⟨_, List.getLast?_eq_some_getLast hne⟩
  obtain ⟨f', hf', hff⟩ := getLast_of_forall₂ hrep hf
  have hlegal : ∀ fs : List (DataFrame (Quat ℝ)), (∀ f ∈ fs, f.OK) →
      ∀ a ∈ fs.map (·.xyz equiv), PMFTLegal g.axes (.accumulate a) := by
    intro fs h a ha
    obtain ⟨f, hf, rfl⟩ := List.mem_map.mp ha
    exact xyz_legal (h f hf) hen (by rw [e]; rfl)
  have h3' : ∀ f' ∈ fs', f'.box.is2D = false := by
    intro f' hf'
    obtain ⟨f, hf, h, -⟩ := mem_of_forall₂ hrep hf'
    rw [h.lattice.dims]; exact h3 f hf
  have hme : ∀ fs : List (DataFrame (Quat ℝ)), ∀ a ∈ fs.map (·.xyz equiv), a.numEquiv = equiv.length := by
    intro fs a ha
    obtain ⟨f, -, rfl⟩ := List.mem_map.mp ha
    rfl
  have := pmftXYZ_times g g hax hax rfl (by rw [hp]; exact hn) box0 box0' equiv.length (fs.map (·.xyz equiv))
    (fs'.map (·.xyz equiv)) (hme fs) (hme fs') (hlegal fs hfs) (hlegal fs' hfs')
    (by simpa [DataFrame.xyz, xyzFrom, DataFrame.info] using h3)
    (by simpa [DataFrame.xyz, xyzFrom, DataFrame.info] using h3')
    (by simpa using hrep.length_eq.symm) m hm (fun idx _ => ?_) (f.xyz equiv) (f'.xyz equiv)
    (by rw [List.getLast?_map, hf]; rfl) (by rw [List.getLast?_map, hf']; rfl) ?_ order order'
    (by rw [hp]; exact hord) (by rw [hp]; exact hord')
  · rwa [List.map_map, List.map_map] at this
  · rw [List.flatMap_map, List.flatMap_map]
    refine countIn_times _ _ m (flatMap_times hrep _ _ m fun f hf f' hf' h => ?_)
    rw [xyz_samples, xyz_samples]
    have := (samples_repeated (fun _ q r v => samplesXYZ (fun _ => q) equiv ⟨0, 0, r, 1, v⟩) (hfs f hf)
      (hfs' f' hf') h).flatten
    rwa [List.flatten_flatten, List.map_replicate] at this
  · refine ⟨hff.2.queries, hff.2.points, fun k => ?_⟩
    simp only [DataFrame.xyz, xyzFrom, DataFrame.info, hff.2.volume]
    ring

end Frames
end Freud
