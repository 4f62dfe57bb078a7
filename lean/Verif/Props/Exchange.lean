import Verif.Spec.Exchange
import Verif.Props.PairFrames

/-!
# Property C99: exchanging the points and the query points
-/

set_option linter.unusedSectionVars false

namespace Freud
open Spec
variable {D : Type*}

theorem norm_neg' (v : Vec3 ℝ) : Vec3.norm (-v) = Vec3.norm v := by
  simp [Vec3.norm, Vec3.dot]

theorem neg_neg_vec (v : Vec3 ℝ) : -(-v) = v := by
  ext <;> simp

theorem isImage_neg_diff {b : Box ℝ} {p q w : Vec3 ℝ} (h : IsImage b (p - q) w) : IsImage b (q - p) (-w) := by
  obtain ⟨n, hn, rfl⟩ := h
  refine ⟨-n, allowed_neg hn, ?_⟩
  rw [lattice_neg]
  ext <;> simp <;> ring

theorem queryBond_reversed {b : Box ℝ} {pts qpts : List (Vec3 ℝ)} {rMax rMin : ℝ} {excl : Bool}
    {bd : Bond ℝ} (h : IsQueryBond b pts qpts rMax rMin excl bd) :
    IsQueryBond b qpts pts rMax rMin excl (reversed bd) := by
  obtain ⟨q, hq, -, h1, h2, h3, h4, h5, p, hp, h6⟩ := h
  exact ⟨p, hp, rfl, h1, by simpa [reversed, norm_neg'] using h2, fun e => (h3 e).symm,
    by simpa [reversed, norm_neg'] using h4, by simpa [reversed, norm_neg'] using h5, q, hq, isImage_neg_diff h6⟩

theorem reversed_reversed (bd : Bond ℝ) : reversed (reversed bd) = bd := by
  cases bd; simp [reversed, neg_neg_vec]

theorem reversed_injective : Function.Injective reversed :=
  Function.LeftInverse.injective reversed_reversed

/-- **C99**: when the points and the query points change places, the bonds are the same, each seen from
its other end: the two indices change places, the length and the weight stay, and the vector is the
opposite one; whichever way the neighbors are specified. -/
theorem C99_bonds (b : Box ℝ) (pts qpts : List (Vec3 ℝ)) (hs : PeriodicSystem b pts qpts)
    (hs' : PeriodicSystem b qpts pts) (rMax rMin : ℝ) (hmin : 0 ≤ rMin) (hhalf : BelowHalf b rMax)
    (excl : Bool) (src src' : Source) (h : IsSource b pts qpts rMax rMin excl src)
    (h' : IsSource b qpts pts rMax rMin excl src') :
    (bondsFrom src').Perm ((bondsFrom src).map reversed) := by
  obtain ⟨-, a, p, m, n⟩ := source_perm hs hmin hhalf h
  obtain ⟨-, a', p', m', n'⟩ := source_perm hs' hmin hhalf h'
  refine (p'.trans ?_).trans (p.map reversed).symm
  refine (List.perm_ext_iff_of_nodup (n'.of_map _) ((n.of_map _).map reversed_injective)).mpr fun bd => ?_
  rw [m', List.mem_map]
  constructor
  · intro hbd
    exact ⟨reversed bd, (m _).mpr (queryBond_reversed hbd), reversed_reversed bd⟩
  · rintro ⟨bd', hbd', rfl⟩
    exact queryBond_reversed ((m _).mp hbd')

/-- **C99**: the neighbors within a distance are mutual: if the points are their own query points, every
bond is there in both directions, with opposite vectors and the same length. -/
theorem C99_mutual (b : Box ℝ) (pts : List (Vec3 ℝ)) (hs : PeriodicSystem b pts pts) (rMax rMin : ℝ)
    (hmin : 0 ≤ rMin) (hhalf : BelowHalf b rMax) (excl : Bool) (src : Source)
    (h : IsSource b pts pts rMax rMin excl src) (bd : Bond ℝ) :
    bd ∈ bondsFrom src ↔ reversed bd ∈ bondsFrom src := by
  have hp := C99_bonds b pts pts hs hs rMax rMin hmin hhalf excl src src h h
  constructor
  · intro hb
    rw [hp.mem_iff]
    exact List.mem_map_of_mem hb
  · intro hb
    have := List.mem_map_of_mem (f := reversed) hb
    rwa [reversed_reversed, ← hp.mem_iff] at this

/-- **C99**: for a system with itself and the neighbors within a distance, the directions that a bond order
diagram in the mode `lbod` counts are those of the neighbors in the frame of the particle, all reversed, and
those of `oocd` are the directors of the neighbors in the frame of the particle. -/
theorem C99_bond_order_directions (b : Box ℝ) (pts : List (Vec3 ℝ)) (hs : PeriodicSystem b pts pts)
    (rMax rMin : ℝ) (hmin : 0 ≤ rMin) (hhalf : BelowHalf b rMax) (excl : Bool) (src : Source)
    (h : IsSource b pts pts rMax rMin excl src) (ori : ℕ → Quat ℝ) :
    ((bondsFrom src).map (BondOrder.direction .lbod ori ori)).Perm
      ((bondsFrom src).map fun bd => -Quat.rotate (Quat.conj (ori bd.q)) bd.vec) ∧
    ((bondsFrom src).map (BondOrder.direction .oocd ori ori)).Perm
      ((bondsFrom src).map fun bd => Quat.rotate (Quat.conj (ori bd.q)) (Quat.rotate (ori bd.p) ⟨0, 0, 1⟩)) :=
  C79_symmetric_list ori _ (C99_bonds b pts pts hs hs rMax rMin hmin hhalf excl src src h h).symm

theorem samples_exchanged {β : Type*} (S : D → D → ℝ → Vec3 ℝ → β) {f f' : DataFrame D} (h : f.OK)
    (h' : f'.OK) (hs : Exchanged f f') :
    ((bondsFrom f'.src).map fun bd => S (f'.data bd.p) (f'.queryData bd.q) bd.dist bd.vec).Perm
      ((bondsFrom f.src).map fun bd => S (f.queryData bd.q) (f.data bd.p) bd.dist (-bd.vec)) := by
  have s' := h'.system
  have i' := h'.source
  rw [hs.box, hs.pts, hs.qpts] at s'
  rw [hs.box, hs.pts, hs.qpts, hs.excl, hs.cutoff, hs.inner] at i'
  have hb := C99_bonds f.box f.pts f.qpts h.system s' f.cutoff f.inner h.inner0 h.half f.excl f.src f'.src
    h.source i'
  refine (hb.map _).trans (List.Perm.of_eq ?_)
  rw [List.map_map]
  refine List.map_congr_left fun bd hbd => ?_
  obtain ⟨e1, e2⟩ := h.ends hbd
  simp only [Function.comp_apply, reversed]
  rw [hs.data _ e1, hs.queryData _ e2]

/-! ### The radial distribution function -/

theorem nearestImage_neg {b : Box ℝ} {p q w : Vec3 ℝ} (h : NearestImage b (p - q) w) :
    NearestImage b (q - p) (-w) := by
  refine ⟨isImage_neg_diff h.1, fun w' hw' => ?_⟩
  have := h.2 _ (isImage_neg_diff hw')
  rwa [norm_neg'] at this ⊢

theorem pairsIn_exchanged (b : Box ℝ) (pts qpts : List (Vec3 ℝ)) (excl : Bool) (lo hi : ℝ) :
    pairsIn b qpts pts excl lo hi = Prod.swap '' pairsIn b pts qpts excl lo hi := by
  have key : ∀ pts qpts : List (Vec3 ℝ), ∀ ij ∈ pairsIn b pts qpts excl lo hi,
      ij.swap ∈ pairsIn b qpts pts excl lo hi := by
    rintro pts qpts ⟨i, j⟩ ⟨h1, q, p, w, h2, h3, h4, h5, h6⟩
    exact ⟨fun e => (h1 e).symm, p, q, -w, h3, h2, nearestImage_neg h4, by rwa [norm_neg'], by rwa [norm_neg']⟩
  ext ij
  constructor
  · intro h
    exact ⟨ij.swap, key _ _ _ h, Prod.swap_swap ij⟩
  · rintro ⟨ij, h, rfl⟩
    exact key _ _ _ h

theorem pairsIn_card_exchanged (b : Box ℝ) (pts qpts : List (Vec3 ℝ)) (excl : Bool) (lo hi : ℝ) :
    (pairsIn b qpts pts excl lo hi).ncard = (pairsIn b pts qpts excl lo hi).ncard := by
  rw [pairsIn_exchanged, Set.ncard_image_of_injective _ Prod.swap_injective]

/-- **C99**: the RDF of A around B and the RDF of B around A. Normalised by the mean density (`"exact"`, the
default), they are the same; normalised for a finite system they differ by a factor, since one of the query
points is taken off the density. `n_r` of one is `n_r` of the other times the ratio of the numbers of
points. -/
theorem C99_rdf (pi : ℝ) (bins : ℕ) (rMax rMin : ℝ) (a : RegularAxis ℝ)
    (ha : RDF.mkAxis bins rMax rMin = some a) (hb : bins ≤ OVERFLOW_BIN) (mode : NormalizationMode)
    (box0 box0' : Box ℝ) (fs fs' : List RDFFrame) (hfs : ∀ f ∈ fs, f.OK rMax rMin)
    (hfs' : ∀ f ∈ fs', f.OK rMax rMin) (hsame : List.Forall₂ ExchangedFrame fs fs') (last : RDFFrame)
    (hlast : fs.getLast? = some last)
    (hok : FrameOK mode ⟨last.box, last.pts.length, last.qpts.length⟩)
    (hok' : FrameOK mode ⟨last.box, last.qpts.length, last.pts.length⟩) (order order' : List ℕ)
    (hord : order.Perm (List.range bins)) (hord' : order'.Perm (List.range bins)) :
    ∃ s s1 s' s1', (RDF.new a mode box0).run (RDF.fill pi a) (RDF.zero a)
        (fs.map fun f => RDF.frameFrom ⟨f.box, f.pts.length, f.qpts.length⟩ f.src f.ev) = some s ∧
      s.refresh (RDF.fill pi a) order = some s1 ∧
      (RDF.new a mode box0').run (RDF.fill pi a) (RDF.zero a)
        (fs'.map fun f => RDF.frameFrom ⟨f.box, f.pts.length, f.qpts.length⟩ f.src f.ev) = some s' ∧
      s'.refresh (RDF.fill pi a) order' = some s1' ∧
      ∀ k < bins, ∃ g g' c c', s1.out.1[k]? = some g ∧ s1'.out.1[k]? = some g' ∧
        s1.out.2[k]? = some c ∧ s1'.out.2[k]? = some c' ∧
        (mode = .exact → g' = g) ∧
        (mode = .finiteSize → g' * (last.qpts.length * (last.pts.length - 1)) =
          g * (last.pts.length * (last.qpts.length - 1))) ∧
        c' * last.pts.length = c * last.qpts.length := by
  have hsum : ∀ lo hi, (fs'.map fun f => (pairsIn f.box f.pts f.qpts f.excl lo hi).ncard) =
      fs.map fun f => (pairsIn f.box f.pts f.qpts f.excl lo hi).ncard := by
    intro lo hi
    clear hfs hfs' hlast
    induction hsame with
    | nil => rfl
    | cons h _ ih =>
      rw [List.map_cons, List.map_cons, ih, h.box, h.pts, h.qpts, h.excl, pairsIn_card_exchanged]
  obtain ⟨last', hlast', hl⟩ := getLast_of_forall₂ hsame hlast
  obtain ⟨s, s1, h1, h2, h3⟩ := C85_rdf pi bins rMax rMin a ha hb mode box0 fs hfs last hlast hok order hord
  obtain ⟨s', s1', h1', h2', h3'⟩ := C85_rdf pi bins rMax rMin a ha hb mode box0' fs' hfs' last' hlast'
    (by rw [hl.box, hl.pts, hl.qpts]; exact hok') order' hord'
  refine ⟨s, s1, s', s1', h1, h2, h1', h2', fun k hk => ?_⟩
  refine ⟨_, _, _, _, (h3 k hk).1, (h3' k hk).1, (h3 k hk).2, (h3' k hk).2, ?_, ?_, ?_⟩
  · rintro rfl
    simp only [hsum, hl.box, hl.pts, hl.qpts, hsame.length_eq, density]
    ring_nf
  · rintro rfl
    have p1 : (1 : ℝ) < last.qpts.length := by exact_mod_cast hok.pair rfl
    have p2 : (1 : ℝ) < last.pts.length := by exact_mod_cast hok'.pair rfl
    have q1 : (last.qpts.length : ℝ) - 1 ≠ 0 := by linarith
    have q2 : (last.pts.length : ℝ) - 1 ≠ 0 := by linarith
    have q3 : (last.qpts.length : ℝ) ≠ 0 := by linarith
    have q4 : (last.pts.length : ℝ) ≠ 0 := by linarith
    simp only [hsum, hl.box, hl.pts, hl.qpts, hsame.length_eq, density]
    generalize (shellVolume pi last.box.is2D (edge rMin rMax bins k) (edge rMin rMax bins (k + 1))) = V
    generalize ((fs'.length : ℕ) : ℝ) = n
    generalize (List.sum _ : ℝ) = c
    have q5 := hok.volume.ne'
    simp only at q5
    generalize last.box.getVolume = W at *
    simp only [div_eq_mul_inv, mul_inv, inv_inv]
    field_simp
  · have q3 : (last.qpts.length : ℝ) ≠ 0 := by
      have := hok.query; simp only at this
      exact_mod_cast (by omega : last.qpts.length ≠ 0)
    have q4 : (last.pts.length : ℝ) ≠ 0 := by
      have := hok.points; simp only at this
      exact_mod_cast (by omega : last.pts.length ≠ 0)
    simp only [hsum, hl.qpts, hsame.length_eq]
    generalize ((fs'.length : ℕ) : ℝ) = n
    generalize (List.sum _ : ℝ) = c
    simp only [div_eq_mul_inv, mul_inv]
    field_simp

/-! ### Correlation functions -/

section Correlation
variable {V : Type*} [Field V] [StarRing V] [CharZero V] [DecidableEq V]

theorem meanIn_star {lo hi : ℝ} (l : List (ℝ × V)) :
    meanIn lo hi (l.map fun x => (x.1, star x.2)) = star (meanIn lo hi l) := by
  classical
  have e : (l.map fun x => (x.1, star x.2)).filter (fun b => decide (lo ≤ b.1 ∧ b.1 < hi)) =
      (l.filter fun b => decide (lo ≤ b.1 ∧ b.1 < hi)).map fun x => (x.1, star x.2) := by
    rw [List.filter_map]
    rfl
  have e2 : ∀ l : List (ℝ × V), ((l.map fun x => (x.1, star x.2)).map (·.2)).sum = star ((l.map (·.2)).sum) := by
    intro l
    induction l with
    | nil => simp
    | cons x l ih =>
      rw [List.map_cons, List.map_cons, List.sum_cons, ih, List.map_cons, List.sum_cons, star_add]
  unfold meanIn
  simp only
  rw [e, e2]
  generalize (l.filter fun b => decide (lo ≤ b.1 ∧ b.1 < hi)) = m
  by_cases hm : m = []
  · simp [hm]
  · rw [if_neg (by simpa using hm), if_neg hm, star_div₀, star_natCast, List.length_map]

/-- **C99**: the correlation of A with B is the complex conjugate of the correlation of B with A, bin by
bin; for real values they are the same. -/
theorem C99_correlation (bins : ℕ) (rMax : ℝ) (a : RegularAxis ℝ)
    (ha : CorrelationFunction.mkAxis bins rMax = some a) (hb : bins ≤ OVERFLOW_BIN)
    (fs fs' : List (DataFrame V)) (hfs : ∀ f ∈ fs, f.OK) (hfs' : ∀ f ∈ fs', f.OK)
    (hsame : List.Forall₂ Exchanged fs fs') (order order' : List ℕ)
    (hord : order.Perm (List.range bins)) (hord' : order'.Perm (List.range bins)) :
    ∃ s s1 s' s1', (CorrelationFunction.new a : CorrelationFunction ℝ V).run (fs.map (·.cf)) = some s ∧
      s.getCorrelation order = some s1 ∧
      (CorrelationFunction.new a : CorrelationFunction ℝ V).run (fs'.map (·.cf)) = some s' ∧
      s'.getCorrelation order' = some s1' ∧ s1'.output = s1.output.map star := by
  obtain ⟨s, s1, e1, e2, e3⟩ := C36_correlation bins rMax a ha hb (fs.map (·.cf))
    (by simp only [List.mem_map]; rintro _ ⟨f, hf, rfl⟩; exact cf_legal (hfs f hf) bins) order hord
  obtain ⟨s', s1', e1', e2', e3'⟩ := C36_correlation bins rMax a ha hb (fs'.map (·.cf))
    (by simp only [List.mem_map]; rintro _ ⟨f, hf, rfl⟩; exact cf_legal (hfs' f hf) bins) order' hord'
  refine ⟨s, s1, s', s1', e1, e2, e1', e2', ?_⟩
  rw [e3, e3', List.map_map]
  refine List.map_congr_left fun i _ => ?_
  simp only [Function.comp_apply]
  rw [← meanIn_star]
  refine meanIn_perm ?_
  rw [cfProducts_frames fs [] hfs, cfProducts_frames fs' [] hfs', List.nil_append, List.nil_append,
    List.map_flatMap]
  refine flatMap_perm_of_forall₂ hsame _ _ fun f hf f' hf' h => ?_
  refine (samples_exchanged (fun v w d _ => (d, star v * w)) (hfs f hf) (hfs' f' hf') h).trans
    (List.Perm.of_eq ?_)
  rw [List.map_map]
  refine List.map_congr_left fun bd _ => ?_
  simp [mul_comm]

end Correlation

/-! ### Potentials of mean force -/

section PMFT
open PMFT

theorem sampleR12_exchanged (T : Trig ℝ) (d q r : ℝ) (v : Vec3 ℝ) (x y z : ℝ)
    (h : sampleR12 T (fun _ => d) (fun _ => q) ⟨0, 0, r, 1, v⟩ = [x, y, z]) :
    sampleR12 T (fun _ => q) (fun _ => d) ⟨0, 0, r, 1, -v⟩ = [x, z, y] := by
  simp only [sampleR12, List.cons.injEq, and_true] at h ⊢
  obtain ⟨h1, h2, h3⟩ := h
  simp only [Vec3.neg_x, Vec3.neg_y, neg_neg]
  exact ⟨h1, h3, h2⟩

theorem inBins_r12 (T : Trig ℝ) (d q r : ℝ) (v : Vec3 ℝ) (rMax : ℝ) (nr nt1 nt2 i j k : ℕ) :
    InBins [⟨nr, 0, rMax⟩, ⟨nt2, 0, T.twoPi⟩, ⟨nt1, 0, T.twoPi⟩] [i, k, j]
        (sampleR12 T (fun _ => q) (fun _ => d) ⟨0, 0, r, 1, -v⟩) ↔
      InBins [⟨nr, 0, rMax⟩, ⟨nt1, 0, T.twoPi⟩, ⟨nt2, 0, T.twoPi⟩] [i, j, k]
        (sampleR12 T (fun _ => d) (fun _ => q) ⟨0, 0, r, 1, v⟩) := by
  rw [sampleR12_exchanged T d q r v _ _ _ rfl]
  simp only [InBins, sampleR12]
  tauto

/-- **C99**: a `PMFTR12` of A around B, with its two angles exchanged, is the `PMFTR12` of B around A. -/
theorem C99_pmft_r12 (T : Trig ℝ) (hT : 0 < T.twoPi) (rMax : ℝ) (hr : 0 < rMax) (nr nt1 nt2 : ℕ)
    (g g' : PMFT.Grid ℝ) (hg : mkR12 T rMax nr nt1 nt2 = some g) (hg' : mkR12 T rMax nr nt2 nt1 = some g')
    (hn : nr * (nt1 * nt2) ≤ OVERFLOW_BIN) (box0 box0' : Box ℝ) (fs fs' : List (DataFrame ℝ)) (hne : fs ≠ [])
    (hfs : ∀ f ∈ fs, f.OK) (hfs' : ∀ f ∈ fs', f.OK) (h2 : ∀ f ∈ fs, f.box.is2D = true)
    (hsame : List.Forall₂ Exchanged fs fs') (order order' : List ℕ)
    (hord : order.Perm (List.range (nr * (nt1 * nt2)))) (hord' : order'.Perm (List.range (nr * (nt1 * nt2)))) :
    ∃ s s1 s' s1', PMFT.run check2D () (fun _ => fill g.jf) (zero g) (PMFT.new g () box0)
        (fs.map fun f => .accumulate (r12From T f.info f.data f.queryData f.src f.ev)) = some s ∧
      s.refresh (fun _ => fill g.jf) order = some s1 ∧
      PMFT.run check2D () (fun _ => fill g'.jf) (zero g') (PMFT.new g' () box0')
        (fs'.map fun f => .accumulate (r12From T f.info f.data f.queryData f.src f.ev)) = some s' ∧
      s'.refresh (fun _ => fill g'.jf) order' = some s1' ∧
      ∀ i < nr, ∀ j < nt1, ∀ k < nt2,
        ∃ v, s1.out[i * (nt1 * nt2) + (j * nt2 + k)]? = some v ∧
          s1'.out[i * (nt2 * nt1) + (k * nt1 + j)]? = some v := by
  obtain ⟨e, hax⟩ := r12_axes hT hr hg hn
  obtain ⟨e', hax'⟩ := r12_axes hT hr hg' (by rwa [mul_comm nt2])
  have hp : (g.axes.map (·.nbins)).prod = nr * (nt1 * nt2) := by rw [e]; simp
  have hp' : (g'.axes.map (·.nbins)).prod = nr * (nt1 * nt2) := by rw [e']; simp [mul_comm]
  set S := fun d q r v => sampleR12 T (fun _ => d) (fun _ => q) ⟨0, 0, r, 1, v⟩ with hS
  have hcall : ∀ f : DataFrame ℝ, r12From T f.info f.data f.queryData f.src f.ev = callOf S f := fun f => rfl
  simp only [hcall]
  obtain ⟨f, hf⟩ : ∃ f, fs.getLast? = some f := ⟨_, List.getLast?_eq_some_getLast hne⟩
  obtain ⟨f', hf', hff⟩ := getLast_of_forall₂ hsame hf
  have h2' : ∀ f' ∈ fs', f'.box.is2D = true := by
    intro f' hf'
    obtain ⟨f, hf, h⟩ := mem_of_forall₂ hsame hf'
    rw [h.box]; exact h2 f hf
  have hlegal : ∀ (g : PMFT.Grid ℝ), g.axes.length = 3 → ∀ (fs : List (DataFrame ℝ)), (∀ f ∈ fs, f.OK) →
      ∀ o ∈ (fs.map fun f => PMFT.Op.accumulate (callOf S f)), PMFTLegal g.axes o := by
    intro g hg fs h o ho
    obtain ⟨f, hf, rfl⟩ := List.mem_map.mp ho
    refine ⟨(h f hf).exec, fun i _ s hs => ?_, by simp [callOf, attemptFrom, NO_NUMBER]⟩
    obtain ⟨bd, -, rfl⟩ := List.mem_map.mp hs
    rw [hg]; rfl
  have hfr : ∀ (fs : List (DataFrame ℝ)) acc, (∀ f ∈ fs, f.box.is2D = true) →
      frames2D (fs.map fun f => PMFT.Op.accumulate (callOf S f)) acc =
        acc ++ fs.map fun f => frameOf (callOf S f) := by
    intro fs
    induction fs with
    | nil => simp [frames2D]
    | cons f fs ih =>
      intro acc h
      rw [List.map_cons, frames2D, if_pos (by exact h f List.mem_cons_self),
        ih _ fun a ha => h a (List.mem_cons_of_mem _ ha)]
      simp
  obtain ⟨s, s1, r1, r2, -, r4⟩ := pmft2D_read g hax (by rw [hp]; exact hn) box0 _
    (hlegal g (by rw [e]; rfl) fs hfs) order (by rw [hp]; exact hord)
    (frameOf (callOf S f)) (by rw [hfr _ _ h2, List.nil_append, List.getLast?_map, hf]; rfl)
  obtain ⟨s', s1', r1', r2', -, r4'⟩ := pmft2D_read g' hax' (by rw [hp']; exact hn) box0' _
    (hlegal g' (by rw [e']; rfl) fs' hfs') order' (by rw [hp']; exact hord')
    (frameOf (callOf S f')) (by rw [hfr _ _ h2', List.nil_append, List.getLast?_map, hf']; rfl)
  refine ⟨s, s1, s', s1', r1, r2, r1', r2', fun i hi j hj k hk => ?_⟩
  have v := r4 [i, j, k] (by rw [e]; simp [ValidIndex, hi, hj, hk])
  have v' := r4' [i, k, j] (by rw [e']; simp [ValidIndex, hi, hj, hk])
  have m : rowMajor [i, j, k] (g.axes.map (·.nbins)) = i * (nt1 * nt2) + (j * nt2 + k) := by
    rw [e]; simp [rowMajor]
  have m' : rowMajor [i, k, j] (g'.axes.map (·.nbins)) = i * (nt2 * nt1) + (k * nt1 + j) := by
    rw [e']; simp [rowMajor]
  rw [m] at v
  rw [m'] at v'
  refine ⟨_, v, v'.trans ?_⟩
  have hcount : countIn g'.axes [i, k, j] (fs'.flatMap fun f => (frameOf (callOf S f)).2) =
      countIn g.axes [i, j, k] (fs.flatMap fun f => (frameOf (callOf S f)).2) := by
    have hpm : ∀ f ∈ fs, ∀ f' ∈ fs', Exchanged f f' → ((frameOf (callOf S f')).2).Perm
        ((bondsFrom f.src).map fun bd => S (f.queryData bd.q) (f.data bd.p) bd.dist (-bd.vec)) := by
      intro f hf f' hf' h
      rw [callOf_samples]
      exact samples_exchanged S (hfs f hf) (hfs' f' hf') h
    rw [countIn_perm (flatMap_perm_of_forall₂ hsame _ _ hpm)]
    have e0 : (fun f : DataFrame ℝ => (frameOf (callOf S f)).2) = fun f => (bondsFrom f.src).map fun bd =>
        S (f.data bd.p) (f.queryData bd.q) bd.dist bd.vec := funext fun f => callOf_samples S f
    rw [e0, e, e']
    classical
    unfold countIn
    simp only [List.filter_flatMap, List.length_flatMap, List.filter_map, List.length_map, Function.comp_def,
      hS, inBins_r12]
  rw [hfr _ _ h2, hfr _ _ h2', List.nil_append, List.nil_append, List.flatMap_map, List.flatMap_map, hcount,
    List.length_map, List.length_map, hsame.length_eq]
  have i1 : (frameOf (callOf S f')).1.nQuery = (frameOf (callOf S f)).1.nPoints := by
    simp [frameOf, callOf, attemptFrom, DataFrame.info, hff.qpts]
  have i2 : (frameOf (callOf S f')).1.nPoints = (frameOf (callOf S f)).1.nQuery := by
    simp [frameOf, callOf, attemptFrom, DataFrame.info, hff.pts]
  have i3 : (frameOf (callOf S f')).1.box = (frameOf (callOf S f)).1.box := by
    simp [frameOf, callOf, attemptFrom, DataFrame.info, hff.box]
  have i4 : g'.jf (i * (nt2 * nt1) + (k * nt1 + j)) = g.jf (i * (nt1 * nt2) + (j * nt2 + k)) := by
    have d1 : (i * (nt1 * nt2) + (j * nt2 + k)) / (nt1 * nt2) = i := by
      rw [mul_comm i, Nat.mul_add_div (Nat.mul_pos (by omega) (by omega)),
        Nat.div_eq_of_lt (by nlinarith), add_zero]
    have d2 : (i * (nt2 * nt1) + (k * nt1 + j)) / (nt2 * nt1) = i := by
      rw [mul_comm i, Nat.mul_add_div (Nat.mul_pos (by omega) (by omega)),
        Nat.div_eq_of_lt (by nlinarith), add_zero]
    unfold mkR12 at hg hg'
    rw [if_neg (by omega), if_neg (by omega), if_neg (by omega), if_neg (by linarith), Option.some.injEq] at hg hg'
    subst hg hg'
    simp only [d1, d2]
    congr 2
    ring
  rw [i1, i2, i3, i4]
  congr 2
  simp only [div_eq_mul_inv, mul_inv]
  ring

/-! ### A case that meets the hypotheses: two points and one query point, in a square -/

theorem exists_exchanged {D : Type*} (x y z : D) : ∃ f f' : DataFrame D, f.OK ∧ f'.OK ∧ Exchanged f f' ∧
    f.box = Box.mk' 10 10 0 0 0 0 true ∧ f.pts.length = 2 ∧ f.qpts.length = 1 ∧ f.data 0 = x ∧ f.data 1 = y ∧
    f.queryData 0 = z ∧ f.cutoff = 2 ∧ f.inner = 0 := by
  obtain ⟨f0, -, h, -, -, eb, ep, -⟩ := exists_same_square x y
  have hsys := h.system
  have hhalf : BelowHalf (Box.mk' 10 10 0 0 0 0 true : Box ℝ) 2 := by
    refine ⟨fun _ => ?_, fun _ => ?_, fun _ h => by cases h⟩ <;>
      simp [Box.mk', Box.setL, Box.getNearestPlaneDistance] <;> norm_num
  rw [eb, ep] at hsys
  have hone : ∀ p ∈ [(⟨49 / 10, 0, 0⟩ : Vec3 ℝ)], InCell (Box.mk' 10 10 0 0 0 0 true) p := fun p hp =>
    hsys.inBox.inside p (by simp only [List.mem_singleton] at hp; subst hp; simp [facePair])
  obtain ⟨src, ev, h1⟩ := exists_frame (D := D) (b := Box.mk' 10 10 0 0 0 0 true) (pts := facePair)
    (qpts := [⟨49 / 10, 0, 0⟩]) ⟨hsys.inBox, hsys.periodic, hone⟩ (by simp [facePair]) (by simp) le_rfl
    (show (0 : ℝ) < 2 by norm_num) hhalf false (fun i => if i = 0 then x else y) (fun _ => z)
  obtain ⟨src', ev', h2⟩ := exists_frame (D := D) (b := Box.mk' 10 10 0 0 0 0 true) (qpts := facePair)
    (pts := [⟨49 / 10, 0, 0⟩]) ⟨⟨hsys.inBox.valid, hsys.inBox.pos, hone⟩, hsys.periodic, hsys.inBox.inside⟩
    (by simp) (by simp [facePair]) le_rfl
    (show (0 : ℝ) < 2 by norm_num) hhalf false (fun _ => z) (fun i => if i = 0 then x else y)
  exact ⟨_, _, h1, h2, ⟨rfl, rfl, rfl, fun _ _ => rfl, fun _ _ => rfl, rfl, rfl, rfl⟩, rfl, rfl, rfl, rfl, rfl, rfl, rfl, rfl⟩

-- `C99_correlation`: complex values
example : ∃ f f' : DataFrame ℂ, Exchanged f f' ∧ f.pts.length = 2 ∧ f.data 1 = Complex.I ∧
    ∃ s s1 s' s1', (CorrelationFunction.new ⟨4, 0, 2⟩ : CorrelationFunction ℝ ℂ).run [f.cf] = some s ∧
      s.getCorrelation (List.range 4) = some s1 ∧
      (CorrelationFunction.new ⟨4, 0, 2⟩ : CorrelationFunction ℝ ℂ).run [f'.cf] = some s' ∧
      s'.getCorrelation (List.range 4) = some s1' ∧ s1'.output = s1.output.map star := by
  obtain ⟨f, f', h, h', hs, -, e1, -, -, e2, -⟩ := exists_exchanged (3 : ℂ) Complex.I 5
  exact ⟨f, f', hs, e1, e2, C99_correlation 4 2 ⟨4, 0, 2⟩ (by simp [CorrelationFunction.mkAxis]) (by decide) [f] [f']
    (by simpa using h) (by simpa using h') (by simpa using hs) _ _ (List.Perm.refl _) (List.Perm.refl _)⟩

-- `C99_pmft_r12`
example : ∃ f f' : DataFrame ℝ, Exchanged f f' ∧ f.pts.length = 2 ∧ f.OK ∧ f'.OK ∧ f.box.is2D = true ∧
    (mkR12 realTrig (1 : ℝ) 2 3 4).isSome ∧ (mkR12 realTrig (1 : ℝ) 2 4 3).isSome := by
  obtain ⟨f, f', h, h', hs, eb, e1, -⟩ := exists_exchanged (3 : ℝ) 5 7
  exact ⟨f, f', hs, e1, h, h', by rw [eb]; rfl, by norm_num [mkR12], by norm_num [mkR12]⟩

-- `C99_rdf`: two points and one query point
example : ∃ f f' : RDFFrame, f.OK 2 0 ∧ f'.OK 2 0 ∧ ExchangedFrame f f' ∧
    FrameOK .exact (⟨f.box, f.pts.length, f.qpts.length⟩ : FrameInfo ℝ) ∧
    FrameOK .exact (⟨f.box, f.qpts.length, f.pts.length⟩ : FrameInfo ℝ) := by
  obtain ⟨f, f', h, h', hs, eb, e1, e2, -, -, -, e3, e4⟩ := exists_exchanged (3 : ℝ) 5 7
  refine ⟨⟨f.box, f.pts, f.qpts, f.excl, f.cutoff, f.inner, f.src, f.ev⟩,
    ⟨f'.box, f'.pts, f'.qpts, f'.excl, f'.cutoff, f'.inner, f'.src, f'.ev⟩,
    ⟨h.system, h.half, h.inner0, e4.le, e3.ge, h.source, h.exec⟩,
    ⟨h'.system, h'.half, h'.inner0, (hs.inner.trans e4).le, (hs.cutoff.trans e3).ge, h'.source, h'.exec⟩,
    ⟨hs.box, hs.pts, hs.qpts, hs.excl⟩, ?_, ?_⟩
  · exact ⟨by simp [e1], by simp [e2], by simp, by simp [eb, Box.getVolume, Box.mk', Box.setL]⟩
  · exact ⟨by simp [e2], by simp [e1], by simp, by simp [eb, Box.getVolume, Box.mk', Box.setL]⟩

end PMFT
end Freud
