import Verif.Lemmas.Marginals

/-!
# Property C108: analyses of the same bonds agree

`PMFTR12` averaged over its angles is the `RDF`, `PMFTXYT` averaged over its angle is `PMFTXY`, and a
`CorrelationFunction` of constant values is that constant exactly where the `RDF` is not zero.
-/

set_option linter.unusedSectionVars false

namespace Freud
open Spec PMFT
variable {D : Type*}

/-- All bonds of the frames, each with its frame. -/
def framedBonds (fs : List (DataFrame D)) : List (DataFrame D × Bond ℝ) :=
  fs.flatMap fun f => (bondsFrom f.src).map fun bd => (f, bd)

theorem frames2D_from (A : DataFrame D → Attempt ℝ) (fs : List (DataFrame D))
    (hi : ∀ f, (A f).info = f.info) (h2 : ∀ f ∈ fs, f.box.is2D = true) (acc) :
    frames2D (fs.map fun f => PMFT.Op.accumulate (A f)) acc = acc ++ fs.map fun f => frameOf (A f) := by
  induction fs generalizing acc with
  | nil => simp [frames2D]
  | cons f fs ih =>
    rw [List.map_cons, frames2D, if_pos (by rw [hi]; exact h2 f List.mem_cons_self),
      ih fun a ha => h2 a (List.mem_cons_of_mem _ ha)]
    simp

theorem attempt_samples (S : DataFrame D → Bond ℝ → List ℝ) (sched : DataFrame D → List (ℕ × ℕ))
    (fs : List (DataFrame D)) :
    (fs.map fun f => frameOf (attemptFrom (S f) f.info f.src (sched f))).flatMap (·.2) =
      (framedBonds fs).map fun x => S x.1 x.2 := by
  unfold framedBonds
  rw [List.flatMap_map, List.map_flatMap]
  refine List.flatMap_congr fun f _ => ?_
  rw [List.map_map]
  exact flatMap_bonds _ _

theorem attempt_legal (axes : List (RegularAxis ℝ)) (S : DataFrame D → Bond ℝ → List ℝ)
    (hS : ∀ f b, (S f b).length = axes.length) (sched : DataFrame D → List (ℕ × ℕ)) (fs : List (DataFrame D))
    (he : ∀ f ∈ fs, IsExecution f.src.iterations (sched f)) :
    ∀ o ∈ fs.map fun f => PMFT.Op.accumulate (attemptFrom (S f) f.info f.src (sched f)), PMFTLegal axes o := by
  intro o ho
  obtain ⟨f, hf, rfl⟩ := List.mem_map.mp ho
  refine ⟨he f hf, fun i _ s hs => ?_, by simp [attemptFrom, NO_NUMBER]⟩
  obtain ⟨bd, -, rfl⟩ := List.mem_map.mp hs
  exact hS _ _

theorem rdf_frames_from (sched : DataFrame D → List (ℕ × ℕ)) (fs : List (DataFrame D)) (acc) :
    frames (fs.map fun f => RDF.frameFrom f.info f.src (sched f)) acc =
      acc ++ fs.map fun f => (f.info, (bondsFrom f.src).map fun bd => [bd.dist]) := by
  induction fs generalizing acc with
  | nil => simp [frames]
  | cons f fs ih =>
    rw [List.map_cons, RDF.frameFrom, RDF.frame, frames, ih, List.map_cons, List.append_assoc]
    simp only [List.map_map, List.cons_append, List.nil_append]
    congr 3
    exact flatMap_bonds f.src fun bd => [bd.dist]

theorem rdf_info_from (sched : DataFrame D → List (ℕ × ℕ)) (fs : List (DataFrame D)) (i0 : FrameInfo ℝ) :
    lastInfo (fs.map fun f => RDF.frameFrom f.info f.src (sched f)) i0 =
      (fs.getLast?.map (·.info)).getD i0 := by
  induction fs generalizing i0 with
  | nil => rfl
  | cons f fs ih =>
    rw [List.map_cons, RDF.frameFrom, RDF.frame, lastInfo, ih]
    cases fs with
    | nil => simp
    | cons g l => simp [List.getLast?_cons]

theorem rdf_cfg_from (sched : DataFrame D → List (ℕ × ℕ)) (fs : List (DataFrame D)) (mode : NormalizationMode) :
    cfgUsed (fs.map fun f => RDF.frameFrom f.info f.src (sched f)) mode none = mode := by
  induction fs with
  | nil => rfl
  | cons f fs ih =>
    rw [List.map_cons, RDF.frameFrom, RDF.frame, cfgUsed, ih]

/-- The RDF of frames, with their bonds. -/
theorem rdf_both (pi : ℝ) (bins : ℕ) (rMax rMin : ℝ) (a : RegularAxis ℝ)
    (ha : RDF.mkAxis bins rMax rMin = some a) (hb : bins ≤ OVERFLOW_BIN) (mode : NormalizationMode)
    (box0 : Box ℝ) (fs : List (DataFrame D)) (sched : DataFrame D → List (ℕ × ℕ))
    (he : ∀ f ∈ fs, IsExecution f.src.iterations (sched f)) (f : DataFrame D)
    (hf : fs.getLast? = some f) (hok : FrameOK mode f.info) (order : List ℕ)
    (hord : order.Perm (List.range bins)) :
    ∃ s s', (RDF.new a mode box0).run (RDF.fill pi a) (RDF.zero a)
        (fs.map fun f => RDF.frameFrom f.info f.src (sched f)) = some s ∧
      s.refresh (RDF.fill pi a) order = some s' ∧ s'.out.1.length = bins ∧ s'.out.2.length = bins ∧
      ∀ i < bins, s'.out.1[i]? = some (
        (bondsIn (edge rMin rMax bins i) (edge rMin rMax bins (i + 1))
          ((framedBonds fs).map fun x => [x.2.dist]) : ℝ) /
        (f.info.nPoints * density mode f.info * shellVolume pi f.info.box.is2D (edge rMin rMax bins i)
          (edge rMin rMax bins (i + 1)) * (fs.length : ℝ))) ∧
        s'.out.2[i]? = some ((bondsIn rMin (edge rMin rMax bins (i + 1))
          ((framedBonds fs).map fun x => [x.2.dist]) : ℝ) / (f.info.nQuery * (fs.length : ℝ))) := by
  have hfr := rdf_frames_from sched fs []
  have hin := rdf_info_from sched fs ⟨box0, 0, 0⟩
  rw [hf] at hin
  simp only [Option.map_some, Option.getD_some] at hin
  have hcf := rdf_cfg_from sched fs mode
  have hne : fs ≠ [] := by rintro rfl; simp at hf
  obtain ⟨s, s', e1, e2, h1, h2, h3⟩ := C35_rdf pi bins rMax rMin a ha hb mode box0
    (fs.map fun f => RDF.frameFrom f.info f.src (sched f)) (by
      intro o ho
      obtain ⟨f, hf, rfl⟩ := List.mem_map.mp ho
      refine ⟨he f hf, fun i _ x hx => ?_⟩
      obtain ⟨d, -, rfl⟩ := List.mem_map.mp hx
      rfl) order hord
    (by rw [hfr, List.nil_append, List.length_map]; exact List.length_pos_of_ne_nil hne) (by rw [hin, hcf]; exact hok)
  refine ⟨s, s', e1, e2, h1, h2, fun i hi => ?_⟩
  have hs : ((frames (fs.map fun f => RDF.frameFrom f.info f.src (sched f)) []).flatMap (·.2)) =
      (framedBonds fs).map fun x => [x.2.dist] := by
    rw [hfr, List.nil_append, List.flatMap_map]
    unfold framedBonds
    rw [List.map_flatMap]
    refine List.flatMap_congr fun f _ => ?_
    rw [List.map_map]; rfl
  rw [(h3 i hi).1, (h3 i hi).2, hs, hin, hcf, hfr]
  simp

theorem rdf_from (pi : ℝ) (bins : ℕ) (rMax rMin : ℝ) (a : RegularAxis ℝ)
    (ha : RDF.mkAxis bins rMax rMin = some a) (hb : bins ≤ OVERFLOW_BIN) (mode : NormalizationMode)
    (box0 : Box ℝ) (fs : List (DataFrame D)) (sched : DataFrame D → List (ℕ × ℕ))
    (he : ∀ f ∈ fs, IsExecution f.src.iterations (sched f)) (f : DataFrame D)
    (hf : fs.getLast? = some f) (hok : FrameOK mode f.info) (order : List ℕ)
    (hord : order.Perm (List.range bins)) :
    ∃ s s', (RDF.new a mode box0).run (RDF.fill pi a) (RDF.zero a)
        (fs.map fun f => RDF.frameFrom f.info f.src (sched f)) = some s ∧
      s.refresh (RDF.fill pi a) order = some s' ∧ s'.out.1.length = bins ∧
      ∀ i < bins, s'.out.1[i]? = some (
        (bondsIn (edge rMin rMax bins i) (edge rMin rMax bins (i + 1))
          ((framedBonds fs).map fun x => [x.2.dist]) : ℝ) /
        (f.info.nPoints * density mode f.info * shellVolume pi f.info.box.is2D (edge rMin rMax bins i)
          (edge rMin rMax bins (i + 1)) * (fs.length : ℝ))) := by
  obtain ⟨s, s', e1, e2, h1, -, h3⟩ := rdf_both pi bins rMax rMin a ha hb mode box0 fs sched he f hf hok order hord
  exact ⟨s, s', e1, e2, h1, fun i hi => (h3 i hi).1⟩

theorem sum_fin (n : ℕ) (v : ℕ → ℝ) (c : ℝ) :
    (∑ k ∈ Finset.range n, v k / c) = (∑ k ∈ Finset.range n, v k) / c := by
  rw [Finset.sum_div]

theorem countIn_one_bonds (n : ℕ) (lo hi : ℝ) (i : ℕ) (l : List (List ℝ)) :
    countIn [⟨n, lo, hi⟩] [i] l = bondsIn (edge lo hi n i) (edge lo hi n (i + 1)) l :=
  countIn_one _ _ _

theorem realTrig_twoPi : realTrig.twoPi = 2 * Real.pi := rfl

/-- **C108**: for two-dimensional frames, averaging the correlation function of a `PMFTR12` over all its
angle bins gives the `RDF` (with the default `exact` normalisation and `r_min = 0`) with the same radial
bins, of the same frames, whatever the orientations, the numbers of angle bins and the thread
schedules of the two objects. -/
theorem C108_r12_rdf (rMax : ℝ) (hr : 0 < rMax) (nr nt1 nt2 : ℕ) (g : PMFT.Grid ℝ)
    (hg : mkR12 realTrig rMax nr nt1 nt2 = some g) (hn : nr * (nt1 * nt2) ≤ OVERFLOW_BIN)
    (a : RegularAxis ℝ) (ha : RDF.mkAxis nr rMax 0 = some a) (box0 box0' : Box ℝ)
    (fs : List (DataFrame ℝ)) (sched : DataFrame ℝ → List (ℕ × ℕ)) (hfs : Accepted2D fs sched)
    (order order' : List ℕ) (hord : order.Perm (List.range (nr * (nt1 * nt2))))
    (hord' : order'.Perm (List.range nr)) :
    ∃ p p1 s s1, PMFT.run check2D () (fun _ => fill g.jf) (zero g) (PMFT.new g () box0)
        (fs.map fun f => .accumulate (r12From realTrig f.info f.data f.queryData f.src f.ev)) = some p ∧
      p.refresh (fun _ => fill g.jf) order = some p1 ∧
      (RDF.new a .exact box0').run (RDF.fill Real.pi a) (RDF.zero a)
        (fs.map fun f => RDF.frameFrom f.info f.src (sched f)) = some s ∧
      s.refresh (RDF.fill Real.pi a) order' = some s1 ∧
      ∃ pcf : ℕ → ℕ → ℕ → ℝ,
        (∀ i < nr, ∀ j < nt1, ∀ k < nt2, CellIs p1.out (i * (nt1 * nt2) + (j * nt2 + k)) (pcf i j k)) ∧
        ∀ i < nr, CellIs s1.out.1 i (binMean nt1 fun j => binMean nt2 fun k => pcf i j k) := by
  obtain ⟨f, hf, hok⟩ := hfs.last
  obtain ⟨eax, hax⟩ := r12_axes realTrig_pos hr hg hn
  obtain ⟨h1, h2, h3, -⟩ := (C40_constructor_r12 realTrig rMax nr nt1 nt2).mp (by rw [hg]; rfl)
  set S : DataFrame ℝ → Bond ℝ → List ℝ := fun f => sampleR12 realTrig f.data f.queryData with hS
  have hfr := frames2D_from (fun f : DataFrame ℝ => attemptFrom (S f) f.info f.src f.ev) fs (fun _ => rfl)
    hfs.flat []
  rw [List.nil_append] at hfr
  obtain ⟨p, p1, e1, e2, -, e4⟩ := C40_r12 realTrig realTrig_pos rMax hr nr nt1 nt2 g hg hn box0
    (fs.map fun f : DataFrame ℝ => .accumulate (r12From realTrig f.info f.data f.queryData f.src f.ev))
    (attempt_legal g.axes S (by intro f b; rw [eax]; rfl) _ fs hfs.first) order hord
    (frameOf (attemptFrom (S f) f.info f.src f.ev))
    (by
      show (frames2D (fs.map fun f => PMFT.Op.accumulate (attemptFrom (S f) f.info f.src f.ev)) []).getLast? = _
      rw [hfr, List.getLast?_map, hf]; rfl) hok
  have hnr : nr ≤ OVERFLOW_BIN := le_trans (Nat.le_mul_of_pos_right nr (Nat.mul_pos h2 h3)) hn
  obtain ⟨s, s1, e1', e2', -, e4'⟩ := rdf_from Real.pi nr rMax 0 a ha hnr .exact box0' fs sched hfs.second f hf
    ⟨hok.points, hok.query, by simp, hok.volume⟩ order' hord'
  refine ⟨p, p1, s, s1, e1, e2, e1', e2', _, e4, fun i hi => ?_⟩
  unfold CellIs binMean
  rw [e4' i hi, Option.some.injEq]
  have hfl : f.info.box.is2D = true := hfs.flat f (List.mem_of_getLast? hf)
  have hfr' : frames2D (fs.map fun f => PMFT.Op.accumulate
      (r12From realTrig f.info f.data f.queryData f.src f.ev)) [] = _ := hfr
  rw [hfr', attempt_samples S _ fs, List.length_map]
  have hsum : (∑ j ∈ Finset.range nt1, ∑ k ∈ Finset.range nt2,
      countIn [⟨nr, 0, rMax⟩, ⟨nt1, 0, realTrig.twoPi⟩, ⟨nt2, 0, realTrig.twoPi⟩] [i, j, k]
        ((framedBonds fs).map fun x => S x.1 x.2)) =
      bondsIn (edge 0 rMax nr i) (edge 0 rMax nr (i + 1)) ((framedBonds fs).map fun x => [x.2.dist]) := by
    rw [← countIn_one_bonds]
    have a1 : AxisOK (⟨nt1, 0, realTrig.twoPi⟩ : RegularAxis ℝ) := hax _ (by rw [eax]; simp)
    have a2 : AxisOK (⟨nt2, 0, realTrig.twoPi⟩ : RegularAxis ℝ) := hax _ (by rw [eax]; simp)
    rw [← sum_countIn a1 [⟨nr, 0, rMax⟩] [i] (fun x : DataFrame ℝ × Bond ℝ => [x.2.dist])
      (fun x => modulusPositive (x.1.data x.2.p - realTrig.atan2 x.2.vec.y x.2.vec.x) realTrig.twoPi) rfl
      (fun _ => rfl) (fun _ => modulus_range _)]
    refine Finset.sum_congr rfl fun j _ => ?_
    exact sum_countIn a2 [⟨nr, 0, rMax⟩, ⟨nt1, 0, realTrig.twoPi⟩] [i, j]
      (fun x : DataFrame ℝ × Bond ℝ => [x.2.dist,
        modulusPositive (x.1.data x.2.p - realTrig.atan2 x.2.vec.y x.2.vec.x) realTrig.twoPi])
      (fun x => modulusPositive (x.1.queryData x.2.q - realTrig.atan2 (-x.2.vec.y) (-x.2.vec.x))
        realTrig.twoPi) rfl (fun _ => rfl) (fun _ => modulus_range _) _
  rw [← hsum]
  simp only [binLength_eq, sum_fin, shellVolume, hfl, if_true, density, frameOf, attemptFrom, idealCount,
    sectorArea, realTrig_twoPi]
  push_cast
  have hV := hok.volume
  have hq : (0 : ℝ) < f.info.nQuery := by exact_mod_cast hok.query
  have hp : (0 : ℝ) < f.info.nPoints := by exact_mod_cast hok.points
  have hl : (0 : ℝ) < fs.length := by
    have : fs ≠ [] := by rintro rfl; simp at hf
    exact_mod_cast List.length_pos_of_ne_nil this
  have ht1 : (0 : ℝ) < nt1 := by exact_mod_cast h2
  have ht2 : (0 : ℝ) < nt2 := by exact_mod_cast h3
  have hpi := Real.pi_pos
  have hed : edge 0 rMax nr (i + 1) ^ 2 - edge 0 rMax nr i ^ 2 ≠ 0 := by
    have := (C10_edges (⟨nr, 0, rMax⟩ : RegularAxis ℝ) ⟨h1, hnr, hr⟩).2.2.2.2 i (i + 1) (by omega)
    have h0 : 0 ≤ edge 0 rMax nr i := by unfold edge; positivity
    simp only at this
    nlinarith
  field_simp
  ring

/-- **C108**: averaging the correlation function of a `PMFTXYT` over its angle bins gives that of the
`PMFTXY` with the same bins in the plane, of the same frames, whatever the orientations of the points,
the number of angle bins and the thread schedules of the two objects. -/
theorem C108_xyt_xy (xMax yMax : ℝ) (hx : 0 < xMax) (hy : 0 < yMax) (nx ny nt : ℕ) (g g' : PMFT.Grid ℝ)
    (hg : mkXYT realTrig xMax yMax nx ny nt = some g) (hg' : mkXY xMax yMax nx ny = some g')
    (hn : nx * (ny * nt) ≤ OVERFLOW_BIN) (box0 box0' : Box ℝ) (fs : List (DataFrame ℝ))
    (sched : DataFrame ℝ → List (ℕ × ℕ)) (hfs : Accepted2D fs sched) (order order' : List ℕ)
    (hord : order.Perm (List.range (nx * (ny * nt)))) (hord' : order'.Perm (List.range (nx * ny))) :
    ∃ p p1 s s1, PMFT.run check2D () (fun _ => fill g.jf) (zero g) (PMFT.new g () box0)
        (fs.map fun f => .accumulate (xytFrom realTrig f.info f.data f.queryData f.src f.ev)) = some p ∧
      p.refresh (fun _ => fill g.jf) order = some p1 ∧
      PMFT.run check2D () (fun _ => fill g'.jf) (zero g') (PMFT.new g' () box0')
        (fs.map fun f => .accumulate (xyFrom realTrig f.info f.queryData f.src (sched f))) = some s ∧
      s.refresh (fun _ => fill g'.jf) order' = some s1 ∧
      ∃ pcf : ℕ → ℕ → ℕ → ℝ,
        (∀ i < nx, ∀ j < ny, ∀ k < nt, CellIs p1.out (i * (ny * nt) + (j * nt + k)) (pcf i j k)) ∧
        ∀ i < nx, ∀ j < ny, CellIs s1.out (i * ny + j) (binMean nt fun k => pcf i j k) := by
  obtain ⟨f, hf, hok⟩ := hfs.last
  obtain ⟨eax, hax⟩ := xyt_axes realTrig_pos hx hy hg hn
  obtain ⟨h1, h2, h3, -, -⟩ := (C40_constructor_xyt realTrig xMax yMax nx ny nt).mp (by rw [hg]; rfl)
  have hnxy : nx * ny ≤ OVERFLOW_BIN :=
    le_trans (Nat.mul_le_mul_left nx (Nat.le_mul_of_pos_right ny h3)) hn
  obtain ⟨eax', -⟩ := xy_axes hx hy hg' hnxy
  set S : DataFrame ℝ → Bond ℝ → List ℝ := fun f => sampleXYT realTrig f.data f.queryData with hS
  set S' : DataFrame ℝ → Bond ℝ → List ℝ := fun f => sampleXY realTrig f.queryData with hS'
  have hfr := frames2D_from (fun f : DataFrame ℝ => attemptFrom (S f) f.info f.src f.ev) fs (fun _ => rfl)
    hfs.flat []
  have hfr' := frames2D_from (fun f : DataFrame ℝ => attemptFrom (S' f) f.info f.src (sched f)) fs
    (fun _ => rfl) hfs.flat []
  rw [List.nil_append] at hfr hfr'
  obtain ⟨p, p1, e1, e2, -, e4⟩ := C40_xyt realTrig realTrig_pos xMax yMax hx hy nx ny nt g hg hn box0
    (fs.map fun f : DataFrame ℝ => .accumulate (xytFrom realTrig f.info f.data f.queryData f.src f.ev))
    (attempt_legal g.axes S (by intro f b; rw [eax]; rfl) _ fs hfs.first) order hord
    (frameOf (attemptFrom (S f) f.info f.src f.ev))
    (by
      show (frames2D (fs.map fun f => PMFT.Op.accumulate (attemptFrom (S f) f.info f.src f.ev)) []).getLast? = _
      rw [hfr, List.getLast?_map, hf]; rfl) hok
  obtain ⟨s, s1, e1', e2', -, e4'⟩ := C40_xy xMax yMax hx hy nx ny g' hg' hnxy box0'
    (fs.map fun f : DataFrame ℝ => .accumulate (xyFrom realTrig f.info f.queryData f.src (sched f)))
    (attempt_legal g'.axes S' (by intro f b; rw [eax']; rfl) _ fs hfs.second) order' hord'
    (frameOf (attemptFrom (S' f) f.info f.src (sched f)))
    (by
      show (frames2D (fs.map fun f => PMFT.Op.accumulate
        (attemptFrom (S' f) f.info f.src (sched f))) []).getLast? = _
      rw [hfr', List.getLast?_map, hf]; rfl) hok
  refine ⟨p, p1, s, s1, e1, e2, e1', e2', _, e4, fun i hi j hj => ?_⟩
  unfold CellIs binMean
  rw [e4' i hi j hj, Option.some.injEq]
  have q : frames2D (fs.map fun f => PMFT.Op.accumulate
      (xytFrom realTrig f.info f.data f.queryData f.src f.ev)) [] = _ := hfr
  have q' : frames2D (fs.map fun f => PMFT.Op.accumulate
      (xyFrom realTrig f.info f.queryData f.src (sched f))) [] = _ := hfr'
  rw [q, q', attempt_samples S _ fs, attempt_samples S' _ fs, List.length_map, List.length_map]
  have a1 : AxisOK (⟨nt, 0, realTrig.twoPi⟩ : RegularAxis ℝ) := hax _ (by rw [eax]; simp)
  have hsum : (∑ k ∈ Finset.range nt,
      countIn [⟨nx, -xMax, xMax⟩, ⟨ny, -yMax, yMax⟩, ⟨nt, 0, realTrig.twoPi⟩] [i, j, k]
        ((framedBonds fs).map fun x => S x.1 x.2)) =
      countIn [⟨nx, -xMax, xMax⟩, ⟨ny, -yMax, yMax⟩] [i, j] ((framedBonds fs).map fun x => S' x.1 x.2) :=
    sum_countIn a1 [⟨nx, -xMax, xMax⟩, ⟨ny, -yMax, yMax⟩] [i, j] (fun x : DataFrame ℝ × Bond ℝ => S' x.1 x.2)
      (fun x => modulusPositive (x.1.data x.2.p - realTrig.atan2 (-x.2.vec.y) (-x.2.vec.x)) realTrig.twoPi)
      rfl (fun _ => rfl) (fun _ => modulus_range _) _
  rw [← hsum]
  simp only [binLength_eq, sum_fin, frameOf, attemptFrom, idealCount]
  push_cast
  have hV := hok.volume
  have hq : (0 : ℝ) < f.info.nQuery := by exact_mod_cast hok.query
  have hp : (0 : ℝ) < f.info.nPoints := by exact_mod_cast hok.points
  have hl : (0 : ℝ) < fs.length := by
    have : fs ≠ [] := by rintro rfl; simp at hf
    exact_mod_cast List.length_pos_of_ne_nil this
  have hnx : (0 : ℝ) < nx := by exact_mod_cast h1
  have hny : (0 : ℝ) < ny := by exact_mod_cast h2
  have ht : (0 : ℝ) < nt := by exact_mod_cast h3
  have hT := realTrig_pos
  rw [show xMax - -xMax = 2 * xMax by ring, show yMax - -yMax = 2 * yMax by ring, sub_zero]
  field_simp

section Constant
variable {V : Type*} [Field V] [StarRing V] [CharZero V] [DecidableEq V]

theorem cfProducts_from (fs : List (DataFrame V)) (acc : List (ℝ × V))
    (h : ∀ f ∈ fs, ∀ bd ∈ bondsFrom f.src, bd.q < f.qpts.length ∧ bd.p < f.pts.length) :
    cfProducts (fs.map (·.cf)) acc = acc ++ (framedBonds fs).map fun x =>
      (x.2.dist, star (x.1.data x.2.p) * x.1.queryData x.2.q) := by
  induction fs generalizing acc with
  | nil => simp [cfProducts, framedBonds]
  | cons f fs ih =>
    simp only [List.map_cons, DataFrame.cf, CorrelationFunction.frameFrom, cfProducts]
    have := ih (acc ++ (bondsFrom f.src).map fun bd => (bd.dist, star (f.data bd.p) * f.queryData bd.q))
      (fun f hf => h f (List.mem_cons_of_mem _ hf))
    rw [show framedBonds (f :: fs) = ((bondsFrom f.src).map fun bd => (f, bd)) ++ framedBonds fs from rfl,
      List.map_append, List.map_map, ← List.append_assoc,
      show ((fun x : DataFrame V × Bond ℝ => (x.2.dist, star (x.1.data x.2.p) * x.1.queryData x.2.q)) ∘
        fun bd => (f, bd)) = fun bd => (bd.dist, star (f.data bd.p) * f.queryData bd.q) from rfl, ← this]
    congr 2
    simp only [List.map_map]
    rw [flatMap_bonds]
    refine List.map_congr_left fun bd hbd => ?_
    obtain ⟨e1, e2⟩ := h f List.mem_cons_self bd hbd
    simp [List.getD_eq_getElem?_getD, List.getElem?_range e1, List.getElem?_range e2]

theorem meanIn_const (lo hi : ℝ) (c : V) (ds : List ℝ) :
    meanIn lo hi (ds.map fun d => (d, c)) = if bondsIn lo hi (ds.map fun d => [d]) = 0 then 0 else c := by
  classical
  unfold meanIn bondsIn
  simp only [List.filter_map, List.length_map, Function.comp_def, List.map_map, List.map_eq_nil_iff]
  have e : (fun x : ℝ => decide (∃ d, [x] = [d] ∧ lo ≤ d ∧ d < hi)) = fun x => decide (lo ≤ x ∧ x < hi) := by
    funext x
    rw [decide_eq_decide]
    simp
  rw [e]
  set l := ds.filter fun x => decide (lo ≤ x ∧ x < hi)
  by_cases hl : l = []
  · simp [hl]
  · have h0 : l.length ≠ 0 := fun h => hl (List.length_eq_zero_iff.mp h)
    rw [if_neg hl, if_neg h0]
    have : (l.length : V) ≠ 0 := by exact_mod_cast h0
    simp only [List.map_const', List.sum_replicate, nsmul_eq_mul]
    field_simp

/-- **C108**: the correlation function of a constant value `v` of the points and `w` of the query points
is `conj(v) * w` in exactly the bins where the `RDF` with the same bins, of the same frames, is not zero,
and zero in the others. -/
theorem C108_constant (bins : ℕ) (rMax : ℝ) (a : RegularAxis ℝ)
    (ha : CorrelationFunction.mkAxis bins rMax = some a) (hb : bins ≤ OVERFLOW_BIN)
    (fs : List (DataFrame V)) (sched : DataFrame V → List (ℕ × ℕ)) (hfs : AcceptedValues fs sched)
    (v w : V) (hv : ∀ f ∈ fs, ∀ i, f.data i = v) (hw : ∀ f ∈ fs, ∀ i, f.queryData i = w)
    (box0 : Box ℝ) (order order' : List ℕ) (hord : order.Perm (List.range bins))
    (hord' : order'.Perm (List.range bins)) :
    RDF.mkAxis bins rMax 0 = some a ∧
    ∃ c c1 s s1, (CorrelationFunction.new a : CorrelationFunction ℝ V).run (fs.map (·.cf)) = some c ∧
      c.getCorrelation order = some c1 ∧
      (RDF.new a .exact box0).run (RDF.fill Real.pi a) (RDF.zero a)
        (fs.map fun f => RDF.frameFrom f.info f.src (sched f)) = some s ∧
      s.refresh (RDF.fill Real.pi a) order' = some s1 ∧
      ∀ i < bins, ∃ g, CellIs s1.out.1 i g ∧ c1.output[i]? = some (if g = 0 then 0 else star v * w) := by
  obtain ⟨h1, h2, h3⟩ := (C36_constructor bins rMax a).mp ha
  have ha' : RDF.mkAxis bins rMax 0 = some a := (C35_constructor bins rMax 0 a).mpr ⟨h1, le_rfl, h2, h3⟩
  obtain ⟨f, hf, hok⟩ := hfs.last
  obtain ⟨c, c1, e1, e2, e3⟩ := C36_correlation bins rMax a ha hb (fs.map (·.cf)) (by
    intro o ho
    obtain ⟨f, hf, rfl⟩ := List.mem_map.mp ho
    refine ⟨hfs.first f hf, fun i hi b hb => ?_⟩
    obtain ⟨bd, hbd, rfl⟩ := List.mem_map.mp hb
    have : bd ∈ bondsFrom f.src := List.mem_flatMap.mpr ⟨i, List.mem_range.mpr hi, hbd⟩
    simpa using (hfs.ends f hf bd this).symm) order hord
  obtain ⟨s, s1, e1', e2', -, e4'⟩ := rdf_from Real.pi bins rMax 0 a ha' hb .exact box0 fs sched hfs.second f hf
    ⟨hok.points, hok.query, by simp, hok.volume⟩ order' hord'
  refine ⟨ha', c, c1, s, s1, e1, e2, e1', e2', fun i hi => ⟨_, e4' i hi, ?_⟩⟩
  rw [e3, List.getElem?_map, List.getElem?_range hi, Option.map_some, cfProducts_from fs [] hfs.ends,
    List.nil_append]
  have hc : ((framedBonds fs).map fun x => (x.2.dist, star (x.1.data x.2.p) * x.1.queryData x.2.q)) =
      ((framedBonds fs).map fun x => x.2.dist).map fun d => (d, star v * w) := by
    rw [List.map_map]
    refine List.map_congr_left fun x hx => ?_
    obtain ⟨f, hf, hx⟩ := List.mem_flatMap.mp hx
    obtain ⟨bd, -, rfl⟩ := List.mem_map.mp hx
    simp [hv f hf, hw f hf]
  rw [hc, meanIn_const, List.map_map, Function.comp_def, Option.some.injEq]
  refine if_congr ?_ rfl rfl
  have hV := hok.volume
  have hq : (0 : ℝ) < f.info.nQuery := by exact_mod_cast hok.query
  have hp : (0 : ℝ) < f.info.nPoints := by exact_mod_cast hok.points
  have hl : (0 : ℝ) < fs.length := by
    have : fs ≠ [] := by rintro rfl; simp at hf
    exact_mod_cast List.length_pos_of_ne_nil this
  have hlt := (C10_edges (⟨bins, 0, rMax⟩ : RegularAxis ℝ) ⟨h1, hb, h2⟩).2.2.2.2 i (i + 1) (by omega)
  simp only at hlt
  have h0 : 0 ≤ edge 0 rMax bins i := by unfold edge; positivity
  have hS : 0 < shellVolume Real.pi f.info.box.is2D (edge 0 rMax bins i) (edge 0 rMax bins (i + 1)) := by
    have := Real.pi_pos
    have q2 : edge 0 rMax bins i ^ 2 < edge 0 rMax bins (i + 1) ^ 2 := pow_lt_pow_left₀ hlt h0 (by decide)
    have q3 : edge 0 rMax bins i ^ 3 < edge 0 rMax bins (i + 1) ^ 3 := pow_lt_pow_left₀ hlt h0 (by decide)
    unfold shellVolume
    split
    · exact mul_pos this (by linarith)
    · exact mul_pos (by positivity) (by linarith)
  have hD : (0 : ℝ) < f.info.nPoints * density .exact f.info *
      shellVolume Real.pi f.info.box.is2D (edge 0 rMax bins i) (edge 0 rMax bins (i + 1)) * (fs.length : ℝ) :=
    mul_pos (mul_pos (mul_pos hp (div_pos hq hV)) hS) hl
  rw [div_eq_zero_iff, or_iff_left hD.ne', Nat.cast_eq_zero]

end Constant

/-- A flat frame with two particles at distance 1, given by a neighbor query. -/
noncomputable def flatFrame {D : Type*} (d q : ℕ → D) (ev : List (ℕ × ℕ)) : DataFrame D where
  box := Box.mk' 4 4 0 0 0 0 true
  pts := [⟨0, 0, 0⟩, ⟨1, 0, 0⟩]
  qpts := [⟨0, 0, 0⟩, ⟨1, 0, 0⟩]
  data := d
  queryData := q
  excl := true
  cutoff := 3 / 2
  inner := 0
  src := .query (fun i => if i = 0 then [⟨0, 1, 1, 1, ⟨1, 0, 0⟩⟩] else [⟨1, 0, 1, 1, ⟨-1, 0, 0⟩⟩]) 2
  ev := ev

theorem flatFrame_bonds {D : Type*} (d q : ℕ → D) (ev : List (ℕ × ℕ)) :
    bondsFrom (flatFrame d q ev).src = [⟨0, 1, 1, 1, ⟨1, 0, 0⟩⟩, ⟨1, 0, 1, 1, ⟨-1, 0, 0⟩⟩] := by
  simp [bondsFrom, flatFrame, Source.iterations, Source.bonds, List.range_succ, QIter.forLoop, QIter.next]

theorem flatFrame_info {D : Type*} (d q : ℕ → D) (ev : List (ℕ × ℕ)) : PairFrameOK (flatFrame d q ev).info :=
  ⟨by simp [flatFrame, DataFrame.info], by simp [flatFrame, DataFrame.info],
    by simp [flatFrame, DataFrame.info, Box.getVolume, Box.mk', Box.setL]⟩

/-- Two frames meet the hypotheses of the theorems on two-dimensional classes, with two different
schedules, and so do the constructors. -/
example : Accepted2D [flatFrame (fun i => (i : ℝ)) (fun _ => 1) [(0, 0), (1, 1)],
      flatFrame (fun _ => 2) (fun i => (i : ℝ)) [(0, 1), (0, 0)]] (fun _ => [(1, 1), (0, 0)]) ∧
    (mkR12 realTrig (2 : ℝ) 4 3 5).isSome ∧ RDF.mkAxis 4 (2 : ℝ) 0 = some ⟨4, 0, 2⟩ ∧
    (mkXYT realTrig (2 : ℝ) 3 4 3 5).isSome ∧ (mkXY (2 : ℝ) 3 4 3).isSome := by
  refine ⟨⟨?_, ?_, ?_, ⟨_, rfl, flatFrame_info _ _ _⟩⟩,
    (C40_constructor_r12 realTrig 2 4 3 5).mpr (by norm_num),
    (C35_constructor 4 2 0 _).mpr (by norm_num), (C40_constructor_xyt realTrig 2 3 4 3 5).mpr (by norm_num),
    (C40_constructor_xy (2 : ℝ) 3 4 3).mpr (by norm_num)⟩
  · intro f hf
    simp only [List.mem_cons, List.not_mem_nil, or_false] at hf
    rcases hf with rfl | rfl <;> rfl
  · intro f hf
    simp only [List.mem_cons, List.not_mem_nil, or_false] at hf
    rcases hf with rfl | rfl <;> (show IsExecution 2 _; unfold IsExecution; decide)
  · intro f hf
    simp only [List.mem_cons, List.not_mem_nil, or_false] at hf
    rcases hf with rfl | rfl <;> (show IsExecution 2 _; unfold IsExecution; decide)

/-- A frame with complex constant values meets the hypotheses of `C108_constant`, and its value is not
zero. -/
example : AcceptedValues [flatFrame (fun _ => Complex.I) (fun _ => (2 : ℂ)) [(0, 0), (1, 1)]]
      (fun _ => [(1, 1), (0, 0)]) ∧
    CorrelationFunction.mkAxis 4 (2 : ℝ) = some ⟨4, 0, 2⟩ ∧ star Complex.I * (2 : ℂ) ≠ 0 := by
  refine ⟨⟨?_, ?_, ?_, ⟨_, rfl, flatFrame_info _ _ _⟩⟩, (C36_constructor 4 2 _).mpr (by norm_num), by simp⟩
  · intro f hf bd hbd
    simp only [List.mem_cons, List.not_mem_nil, or_false] at hf
    subst hf
    rw [flatFrame_bonds] at hbd
    simp only [List.mem_cons, List.not_mem_nil, or_false] at hbd
    rcases hbd with rfl | rfl <;> simp [flatFrame]
  · intro f hf
    simp only [List.mem_cons, List.not_mem_nil, or_false] at hf
    subst hf; show IsExecution 2 _; unfold IsExecution; decide
  · intro f hf
    simp only [List.mem_cons, List.not_mem_nil, or_false] at hf
    subst hf; show IsExecution 2 _; unfold IsExecution; decide

end Freud
