import Verif.Model.StructureFactor
import Verif.Props.CorrelationFunction
import Verif.Props.Debye
import Mathlib.Analysis.SpecialFunctions.Trigonometric.Basic

/-!
# Property C55: the direct structure factor
-/

namespace Freud
open Spec

/-- The structure factor of one call at one wave vector, as documented: the sum over pairs of
`cos(k · r_ij)` (the real part of `exp(i k · r_ij)`), divided by the number of particles. -/
noncomputable def Spec.directS (f : SFArgs) (k : Vec3 ℝ) : ℝ :=
  (f.points.map (fun p => ((sfQuery f).map (fun q =>
    Real.cos (Vec3.dot k (q - p)))).sum)).sum / (sfTotal f : ℝ)

/-- Equality of boxes: lengths, tilt factors and periodicity. -/
def Spec.SameBox (a b : Box ℝ) : Prop :=
  a.L = b.L ∧ a.xy = b.xy ∧ a.xz = b.xz ∧ a.yz = b.yz ∧ a.px = b.px ∧ a.py = b.py ∧ a.pz = b.pz

open Classical in
/-- The wave vectors used by a call: those of the previous call if the box is the same and there was
no reset in between, newly sampled ones otherwise. -/
noncomputable def Spec.waveVectors (last : Option (Box ℝ × List (Vec3 ℝ))) (b : Box ℝ)
    (sampled : List (Vec3 ℝ)) : List (Vec3 ℝ) :=
  match last with
  | some (b', ks) => if SameBox b b' then ks else sampled
  | none => sampled

/-- The calls that count -- those since the last reset that did not raise -- each with the wave
vectors it used. -/
noncomputable def Spec.directFrames : List Direct.Op → Option (Box ℝ × List (Vec3 ℝ)) →
    List (SFArgs × List (Vec3 ℝ)) → List (SFArgs × List (Vec3 ℝ))
  | [], _, acc => acc
  | .compute r f sampled _ :: os, last, acc =>
    if f.queryPoints.isSome = f.nTotal.isSome then
      Spec.directFrames os
        (some (f.box, waveVectors (if r then none else last) f.box sampled))
        ((if r then [] else acc) ++ [(f, waveVectors (if r then none else last) f.box sampled)])
    else Spec.directFrames os last acc
  | .failed r :: os, last, acc =>
    Spec.directFrames os (if r then none else last) (if r then [] else acc)
  | .read _ :: os, last, acc => Spec.directFrames os last acc

/-- The wave vectors' magnitudes with the values there, over the given calls. -/
noncomputable def Spec.directSamples (fs : List (SFArgs × List (Vec3 ℝ))) : List (ℝ × ℝ) :=
  fs.flatMap (fun f => f.2.map (fun k => (Vec3.norm k, directS f.1 k)))

/-- Whether some call of `compute` returned. -/
def Spec.directCalled (os : List Direct.Op) : Bool :=
  os.any (fun o => match o with
    | .compute _ f _ _ => decide (f.queryPoints.isSome = f.nTotal.isSome)
    | _ => false)

/-- What a user can do in a state where `last` are the cached wave vectors: a system has points,
`N_total` is not zero, loops are executed by some schedule, reductions process every bin once. -/
noncomputable def Spec.DirectLegal (bins : ℕ) : List Direct.Op →
    Option (Box ℝ × List (Vec3 ℝ)) → Prop
  | [], _ => True
  | .compute r f sampled ev :: os, last =>
    if f.queryPoints.isSome = f.nTotal.isSome then
      f.points ≠ [] ∧ f.nTotal ≠ some 0 ∧
      IsExecution (waveVectors (if r then none else last) f.box sampled).length ev ∧
      Spec.DirectLegal bins os (some (f.box, waveVectors (if r then none else last) f.box sampled))
    else Spec.DirectLegal bins os last
  | .failed r :: os, last => Spec.DirectLegal bins os (if r then none else last)
  | .read order :: os, last => order.Perm (List.range bins) ∧ Spec.DirectLegal bins os last

namespace Direct

/-! ### The value at one wave vector -/

theorem foldl_exp (ps : List (Vec3 ℝ)) (k : Vec3 ℝ) (z : ℂ) :
    ps.foldl (fun F r => F + Complex.exp ⟨0, Vec3.dot k r⟩) z =
      z + ⟨(ps.map (fun r => Real.cos (Vec3.dot k r))).sum,
        (ps.map (fun r => Real.sin (Vec3.dot k r))).sum⟩ := by
  induction ps generalizing z with
  | nil => apply Complex.ext <;> simp
  | cons p ps ih =>
    rw [List.foldl_cons, ih]
    apply Complex.ext <;> simp [Complex.exp_re, Complex.exp_im, add_assoc]

theorem sum_mul_sum (ps qs : List (Vec3 ℝ)) (g h : Vec3 ℝ → ℝ) :
    (ps.map g).sum * (qs.map h).sum = (ps.map (fun p => (qs.map (fun q => g p * h q)).sum)).sum := by
  induction ps with
  | nil => simp
  | cons p ps ih =>
    rw [List.map_cons, List.sum_cons, add_mul, ih, List.map_cons, List.sum_cons]
    congr 1
    rw [List.sum_map_mul_left]

theorem value_eq (f : SFArgs) (k : Vec3 ℝ) (n : ℕ) (hn : n = sfTotal f) :
    value f.points (sfQuery f) n k = directS f k := by
  unfold value amplitude directS
  rw [foldl_exp, foldl_exp, zero_add, zero_add, ← hn]
  simp only [star_mul', Complex.star_def, Complex.conj_ofReal]
  have hsq : (1 / Real.sqrt (n : ℝ)) * (1 / Real.sqrt (n : ℝ)) = 1 / (n : ℝ) := by
    rw [div_mul_div_comm, one_mul, Real.mul_self_sqrt (Nat.cast_nonneg n)]
  set A := (f.points.map (fun r => Real.cos (Vec3.dot k r))).sum with hA
  set B := (f.points.map (fun r => Real.sin (Vec3.dot k r))).sum with hB
  set C := ((sfQuery f).map (fun r => Real.cos (Vec3.dot k r))).sum with hC
  set D := ((sfQuery f).map (fun r => Real.sin (Vec3.dot k r))).sum with hD
  have h1 : (f.points.map (fun p => ((sfQuery f).map (fun q =>
      Real.cos (Vec3.dot k (q - p)))).sum)).sum = A * C + B * D := by
    rw [hA, hB, hC, hD, sum_mul_sum, sum_mul_sum, ← List.sum_map_add]
    congr 1
    refine List.map_congr_left fun p _ => ?_
    rw [← List.sum_map_add]
    congr 1
    refine List.map_congr_left fun q _ => ?_
    have : Vec3.dot k (q - p) = Vec3.dot k q - Vec3.dot k p := by
      show k.x * (q.x - p.x) + k.y * (q.y - p.y) + k.z * (q.z - p.z) = _
      unfold Vec3.dot
      ring
    rw [this, Real.cos_sub]
    ring
  rw [h1]
  generalize hs : 1 / Real.sqrt (n : ℝ) = s at hsq
  have : (star (⟨A, B⟩ : ℂ) * ((s : ℝ) : ℂ) * ((⟨C, D⟩ : ℂ) * ((s : ℝ) : ℂ))).re =
      (A * C + B * D) * (s * s) := by
    simp [Complex.mul_re, Complex.mul_im]
    ring
  rw [div_eq_mul_one_div, ← hsq, ← this]
  rfl

theorem directS_self (f : SFArgs) (hq : f.queryPoints = none) (k : Vec3 ℝ) :
    directS f k = ((f.points.map (fun r => Real.cos (Vec3.dot k r))).sum ^ 2 +
      (f.points.map (fun r => Real.sin (Vec3.dot k r))).sum ^ 2) / (sfTotal f : ℝ) := by
  rw [← value_eq f k _ rfl]
  unfold value amplitude
  have hqs : sfQuery f = f.points := by simp [sfQuery, hq]
  rw [hqs, foldl_exp, zero_add]
  set A := (f.points.map (fun r => Real.cos (Vec3.dot k r))).sum
  set B := (f.points.map (fun r => Real.sin (Vec3.dot k r))).sum
  have hsq : (1 / Real.sqrt (sfTotal f : ℝ)) * (1 / Real.sqrt (sfTotal f : ℝ)) =
      1 / (sfTotal f : ℝ) := by
    rw [div_mul_div_comm, one_mul, Real.mul_self_sqrt (Nat.cast_nonneg _)]
  generalize hs : 1 / Real.sqrt (sfTotal f : ℝ) = s at hsq
  have : (star ((⟨A, B⟩ : ℂ) * ((s : ℝ) : ℂ)) * ((⟨A, B⟩ : ℂ) * ((s : ℝ) : ℂ))).re =
      (A ^ 2 + B ^ 2) * (s * s) := by
    simp [Complex.mul_re, Complex.mul_im]
    ring
  rw [div_eq_mul_one_div, ← hsq, ← this]

/-! ### Histories -/

/-- The part of the invariant that does not speak of the cached wave vectors. -/
structure Inv0 (a : RegularAxis ℝ) (s : Direct) (fs : List (SFArgs × List (Vec3 ℝ)))
    (called : Bool) : Prop where
  axes : s.sf.axes = [a]
  kaxes : s.kHist.axes = [a]
  shape : s.sf.counts.shape = [a.nbins]
  wf : WellFormed s.sf.counts
  loc : HistLocals [a] s.locals ((directSamples fs).map (fun b => ([b.1], b.2)))
  kloc : HistLocals [a] s.kLocals ((directSamples fs).map (fun b => ([b.1], 1)))
  cal : s.called = called
  mvk : (fs = [] → s.minValidK = ⊤) ∧
    (∀ f ∈ fs, s.minValidK ≤ ((2 * Real.pi / minBoxLength f.1.box : ℝ) : WithTop ℝ)) ∧
    (fs ≠ [] → ∃ f ∈ fs, s.minValidK = ((2 * Real.pi / minBoxLength f.1.box : ℝ) : WithTop ℝ))
  red : s.needReduce = false → s.sf.counts.data = (List.range a.nbins).map (fun i =>
    meanIn (edge a.min a.max a.nbins i) (edge a.min a.max a.nbins (i + 1)) (directSamples fs))

/-- The part of the invariant about the cached wave vectors. -/
def Cached (s : Direct) (last : Option (Box ℝ × List (Vec3 ℝ))) : Prop :=
  match last with
  | none => s.prevBox = none
  | some l => (∃ b', s.prevBox = some b' ∧ SameBox l.1 b') ∧ s.kPoints = l.2

theorem locals_new {T : Type*} [AddCommMonoid T] (a : RegularAxis ℝ) :
    HistLocals [a] (⟨Histogram.mk' [a], []⟩ : TLS (Histogram ℝ T)) [] :=
  ⟨rfl, by simp, by intro idx _; simp [weightIn]⟩

theorem locals_reset {T : Type*} [AddCommMonoid T] (a : RegularAxis ℝ) (t : TLS (Histogram ℝ T))
    (l) (h : HistLocals [a] t l) : HistLocals [a] (t.resetWith Histogram.reset) [] := by
  refine ⟨h.ex, ?_, ?_⟩
  · intro p hp
    obtain ⟨p0, hp0, rfl⟩ := List.mem_map.mp hp
    obtain ⟨hok, hax0⟩ := h.ok p0 hp0
    refine ⟨⟨hok.axes, hok.shape, ?_, hok.small⟩, hax0⟩
    have := hok.wf
    unfold WellFormed at this ⊢
    simpa [Histogram.reset, MArray.reset, MArray.size] using this
  · intro idx _
    simp only [TLS.resetWith, List.map_map]
    rw [List.sum_eq_zero]
    · simp [weightIn]
    · intro x hx
      obtain ⟨q, -, rfl⟩ := List.mem_map.mp hx
      simp only [Function.comp_apply, Histogram.reset, MArray.reset]
      rw [List.getD_eq_getElem?_getD, List.getElem?_replicate]; split <;> rfl

theorem inv_new (a : RegularAxis ℝ) : Inv0 a (new a) [] false := by
  refine ⟨rfl, rfl, rfl, ?_, locals_new a, locals_new a, rfl,
    ⟨fun _ => rfl, by simp, by simp⟩, by simp [new]⟩
  simp [WellFormed, new, Histogram.mk', MArray.mk']

theorem inv_reset (a : RegularAxis ℝ) (s : Direct) (fs c) (h : Inv0 a s fs c) :
    Inv0 a s.reset [] c := by
  refine ⟨h.axes, h.kaxes, ?_, ?_, locals_reset a _ _ h.loc, locals_reset a _ _ h.kloc,
    h.cal, ⟨fun _ => rfl, by simp, by simp⟩, by simp [reset]⟩
  · simp [reset, Histogram.mk', MArray.mk', h.axes]
  · simp [WellFormed, reset, Histogram.mk', MArray.mk', h.axes]

theorem directSamples_append (fs : List (SFArgs × List (Vec3 ℝ))) (f : SFArgs) (ks : List (Vec3 ℝ)) :
    directSamples (fs ++ [(f, ks)]) =
      directSamples fs ++ ks.map (fun k => (Vec3.norm k, directS f k)) := by
  simp [directSamples, List.flatMap_append]

theorem range_flatMap_getElem {α β : Type*} (l : List α) (g : α → β) :
    (List.range l.length).flatMap (fun i => ((l[i]?).map g).toList) = l.map g := by
  induction l with
  | nil => simp
  | cons x l ih =>
    rw [List.length_cons, List.range_succ_eq_map, List.flatMap_cons, List.flatMap_map]
    simp [ih]

theorem addAll_one {T : Type*} [AddCommMonoid T] (hh : Histogram ℝ T) (v : List ℝ) (w : T) :
    hh.addAll [(v, w)] = hh.add v w := by
  unfold Histogram.addAll
  simp only [List.foldlM_cons, List.foldlM_nil]
  cases hh.add v w <;> rfl

/-- The choice of the wave vectors. -/
noncomputable def chosen (s : Direct) (b : Box ℝ) (sampled : List (Vec3 ℝ)) : Direct :=
  if s.prevBox.any (fun b' => boxEq b b') then s else { s with prevBox := some b, kPoints := sampled }

theorem chosen_spec (a : RegularAxis ℝ) (s : Direct) (last fs c) (h : Inv0 a s fs c)
    (hc : Cached s last) (b : Box ℝ) (sampled : List (Vec3 ℝ)) :
    Inv0 a (chosen s b sampled) fs c ∧
      Cached (chosen s b sampled) (some (b, waveVectors last b sampled)) := by
  classical
  have hrefl : SameBox b b := ⟨rfl, rfl, rfl, rfl, rfl, rfl, rfl⟩
  have hnew : Inv0 a { s with prevBox := some b, kPoints := sampled } fs c :=
    ⟨h.axes, h.kaxes, h.shape, h.wf, h.loc, h.kloc, h.cal, h.mvk, h.red⟩
  unfold chosen
  cases last with
  | none =>
    have hp : s.prevBox = none := hc
    simp only [hp, Option.any_none, Bool.false_eq_true, if_false]
    exact ⟨hnew, ⟨b, rfl, hrefl⟩, rfl⟩
  | some l =>
    obtain ⟨⟨b', hp, hs⟩, hk⟩ := hc
    simp only [hp, Option.any_some]
    by_cases hb : SameBox b b'
    · have hbe : boxEq b b' = true := by unfold boxEq; exact decide_eq_true hb
      rw [if_pos hbe]
      have hbl : SameBox b l.1 := by
        obtain ⟨h1, h2, h3, h4, h5, h6, h7⟩ := hb
        obtain ⟨g1, g2, g3, g4, g5, g6, g7⟩ := hs
        exact ⟨h1.trans g1.symm, h2.trans g2.symm, h3.trans g3.symm, h4.trans g4.symm,
          h5.trans g5.symm, h6.trans g6.symm, h7.trans g7.symm⟩
      refine ⟨h, ⟨b', hp, hb⟩, ?_⟩
      simp [waveVectors, hbl, hk]
    · have hbe : boxEq b b' = false := by unfold boxEq; exact decide_eq_false hb
      rw [if_neg (by simp [hbe])]
      have hbl : ¬ SameBox b l.1 := by
        intro hbl
        apply hb
        obtain ⟨h1, h2, h3, h4, h5, h6, h7⟩ := hbl
        obtain ⟨g1, g2, g3, g4, g5, g6, g7⟩ := hs
        exact ⟨h1.trans g1, h2.trans g2, h3.trans g3, h4.trans g4, h5.trans g5, h6.trans g6,
          h7.trans g7⟩
      refine ⟨hnew, ⟨b, rfl, hrefl⟩, ?_⟩
      simp [waveVectors, hbl]

theorem inv_accumulate (a : RegularAxis ℝ) (ha : AxisOK a) (s : Direct) (last fs c)
    (h : Inv0 a s fs c) (hc : Cached s last) (f : SFArgs) (n : ℕ) (hn : n = sfTotal f)
    (sampled : List (Vec3 ℝ)) (ev : List (ℕ × ℕ))
    (hev : IsExecution (waveVectors last f.box sampled).length ev) :
    ∃ s', s.accumulate f.box f.points (sfQuery f) n sampled ev = some s' ∧
      Inv0 a s' (fs ++ [(f, waveVectors last f.box sampled)]) c ∧
      Cached s' (some (f.box, waveVectors last f.box sampled)) := by
  obtain ⟨h1, hc1⟩ := chosen_spec a s last fs c h hc f.box sampled
  set ks := waveVectors last f.box sampled with hks
  set s1 := chosen s f.box sampled with hs1
  have hkp : s1.kPoints = ks := hc1.2
  have hax : ∀ x ∈ [a], AxisOK x := by simpa using ha
  have hsz : (([a] : List (RegularAxis ℝ)).map (·.nbins)).prod ≤ OVERFLOW_BIN := by
    simpa using ha.small
  have hlt : ∀ e ∈ ev, e.2 < ks.length := fun e he =>
    List.mem_range.mp (hev.subset (List.mem_map_of_mem he))
  obtain ⟨t, et, ht⟩ := histLocals_step [a] hax hsz s1.locals _ h1.loc ks.length
    (fun i => ((ks[i]?).map (fun k => ([Vec3.norm k], directS f k))).toList)
    (fun i _ x hx => by
      obtain ⟨k, -, rfl⟩ := Option.map_eq_some_iff.mp (Option.mem_toList.mp hx); rfl) ev hev
  obtain ⟨t2, et2, ht2⟩ := histLocals_step (T := ℕ) [a] hax hsz s1.kLocals _ h1.kloc ks.length
    (fun i => ((ks[i]?).map (fun k => ([Vec3.norm k], 1))).toList)
    (fun i _ x hx => by
      obtain ⟨k, -, rfl⟩ := Option.map_eq_some_iff.mp (Option.mem_toList.mp hx); rfl) ev hev
  rw [range_flatMap_getElem] at ht ht2
  rw [parallelFor_congr _ (fun i hh => ks[i]?.bind (fun k =>
    (ks.map (value f.points (sfQuery f) n))[i]?.bind (fun x => hh.add [Vec3.norm k] x))) ev
    (fun e he => by
      funext hh
      have hi := hlt e he
      rw [List.getElem?_map, List.getElem?_eq_getElem hi]
      simp only [Option.map_some, Option.toList_some, Option.bind_some]
      rw [addAll_one, value_eq f _ n hn])] at et
  rw [parallelFor_congr _ (fun i hh => ks[i]?.bind (fun k => hh.add [Vec3.norm k] 1)) ev
    (fun e he => by
      funext hh
      have hi := hlt e he
      rw [List.getElem?_eq_getElem hi]
      simp only [Option.map_some, Option.toList_some, Option.bind_some]
      rw [addAll_one])] at et2
  refine ⟨{ s1 with
      locals := t
      kLocals := t2
      minValidK := min s1.minValidK (2 * Real.pi / minBoxLength f.box : ℝ)
      needReduce := true }, ?_, ⟨h1.axes, h1.kaxes, h1.shape, h1.wf, ?_, ?_, h1.cal, ?_, by simp⟩,
      hc1⟩
  · unfold accumulate
    simp only
    rw [show (if s.prevBox.any (fun b' => boxEq f.box b') then s
      else { s with prevBox := some f.box, kPoints := sampled }) = s1 from rfl, hkp, et,
      Option.bind_some, et2, Option.map_some]
  · rw [directSamples_append, List.map_append, List.map_map]
    exact ht
  · rw [directSamples_append, List.map_append, List.map_map]
    exact ht2
  · refine ⟨by simp, ?_, fun _ => ?_⟩
    · intro g hg
      rcases List.mem_append.mp hg with hg | hg
      · exact le_trans (min_le_left _ _) (h1.mvk.2.1 g hg)
      · rw [List.mem_singleton.mp hg]; exact min_le_right _ _
    · by_cases hm : s1.minValidK ≤ ((2 * Real.pi / minBoxLength f.box : ℝ) : WithTop ℝ)
      · by_cases hfs : fs = []
        · exfalso
          rw [h1.mvk.1 hfs, top_le_iff] at hm
          exact WithTop.coe_ne_top hm
        · obtain ⟨g, hg, e⟩ := h1.mvk.2.2 hfs
          exact ⟨g, List.mem_append_left _ hg, by rw [min_eq_left hm, e]⟩
      · exact ⟨(f, ks), by simp, min_eq_right (le_of_not_ge hm)⟩

theorem normalize_mean (a : RegularAxis ℝ) (l : List (ℝ × ℝ)) :
    normalize ((List.range a.nbins).map (fun i => weightIn [a] [i] (l.map (fun b => ([b.1], 1)))))
      ((List.range a.nbins).map (fun i => weightIn [a] [i] (l.map (fun b => ([b.1], b.2))))) =
    (List.range a.nbins).map (fun i =>
      meanIn (edge a.min a.max a.nbins i) (edge a.min a.max a.nbins (i + 1)) l) := by
  classical
  unfold normalize
  rw [List.zip_map', List.map_map]
  refine List.map_congr_left fun i _ => ?_
  simp only [Function.comp_apply]
  have h1 := weightIn_one a i (l.map (fun b => (b.1, 1)))
  rw [List.map_map] at h1
  rw [show (l.map (fun b => ([b.1], 1)) : List (List ℝ × ℕ)) =
    l.map ((fun b : ℝ × ℕ => ([b.1], b.2)) ∘ fun b => (b.1, 1)) from rfl, h1,
    weightIn_one a i l, List.filter_map, List.map_map]
  set p : ℝ × ℝ → Bool := fun b => decide (edge a.min a.max a.nbins i ≤ b.1 ∧
    b.1 < edge a.min a.max a.nbins (i + 1)) with hp
  have h2 : ((l.filter ((fun b : ℝ × ℕ => decide (edge a.min a.max a.nbins i ≤ b.1 ∧
      b.1 < edge a.min a.max a.nbins (i + 1))) ∘ fun b : ℝ × ℝ => (b.1, 1))).map
      ((fun x : ℝ × ℕ => x.2) ∘ fun b : ℝ × ℝ => (b.1, 1))).sum = (l.filter p).length := by
    rw [show ((fun x : ℝ × ℕ => x.2) ∘ fun b : ℝ × ℝ => (b.1, 1)) = fun _ => 1 from rfl]
    rw [List.map_const', List.sum_replicate]
    simp only [smul_eq_mul, mul_one]; rfl
  rw [h2]
  unfold meanIn
  simp only [← hp]
  by_cases he : l.filter p = []
  · simp [he]
  · rw [if_pos (by simpa using he), if_neg he]

theorem inv_read (a : RegularAxis ℝ) (s : Direct) (last fs c) (h : Inv0 a s fs c)
    (hc : Cached s last) (order : List ℕ) (hord : order.Perm (List.range a.nbins)) :
    ∃ s', s.read order = some (s', if c then .value ((List.range a.nbins).map (fun i =>
        meanIn (edge a.min a.max a.nbins i) (edge a.min a.max a.nbins (i + 1)) (directSamples fs)))
        else .raised) ∧ Inv0 a s' fs c ∧ Cached s' last := by
  cases hcl : s.called with
  | false =>
    refine ⟨s, ?_, h, hc⟩
    have : c = false := by rw [← h.cal]; exact hcl
    simp [read, hcl, this]
  | true =>
    have hct : c = true := by rw [← h.cal]; exact hcl
    cases hn : s.needReduce with
    | false =>
      refine ⟨{ s with needReduce := false }, ?_, ⟨h.axes, h.kaxes, h.shape, h.wf, h.loc, h.kloc,
        h.cal, h.mvk, fun _ => h.red hn⟩, ?_⟩
      · simp [read, hcl, hn, hct, h.red hn]
      · cases last with
        | none => exact hc
        | some l => exact hc
    | true =>
      obtain ⟨kc, ek, hks, hkw, hkv⟩ := histReduce_spec [a] s.kLocals _ h.kloc order
        (by simpa using hord) (Histogram.mk' (T := ℕ) [a]).counts rfl (by
          simp [WellFormed, Histogram.mk', MArray.mk'])
      obtain ⟨r, e, hs, hw, hv⟩ := histReduce_spec [a] s.locals _ h.loc order (by simpa using hord)
        s.sf.counts h.shape h.wf
      have hkd := data_of_at? a.nbins kc hks hkw _ (fun i hi => hkv [i] (by simpa [ValidIndex] using hi))
      have hrd := data_of_at? a.nbins r hs hw _ (fun i hi => hv [i] (by simpa [ValidIndex] using hi))
      have hnd := normalize_mean a (directSamples fs)
      rw [← hkd, ← hrd] at hnd
      refine ⟨{ s with
        kHist := { (Histogram.mk' [a] : Histogram ℝ ℕ) with counts := kc }
        sf := { s.sf with counts := { r with data := normalize kc.data r.data } }
        needReduce := false }, ?_, ⟨h.axes, rfl, hs, ?_, h.loc, h.kloc, h.cal, h.mvk,
          fun _ => hnd⟩, ?_⟩
      · unfold read
        rw [if_pos hcl, if_pos hn, hct, if_pos rfl]
        unfold reduce
        rw [h.kaxes]
        simp only [ek, Option.bind_some, e, Option.map_some]
        rw [hnd]
      · unfold WellFormed
        simp only
        rw [hnd, hs]
        simp
      · cases last with
        | none => exact hc
        | some l => exact hc

/-- The cached wave vectors after a history. -/
noncomputable def lastAfter : List Op → Option (Box ℝ × List (Vec3 ℝ)) →
    Option (Box ℝ × List (Vec3 ℝ))
  | [], last => last
  | .compute r f sampled _ :: os, last =>
    if f.queryPoints.isSome = f.nTotal.isSome then
      lastAfter os (some (f.box, waveVectors (if r then none else last) f.box sampled))
    else lastAfter os last
  | .failed r :: os, last => lastAfter os (if r then none else last)
  | .read _ :: os, last => lastAfter os last

theorem inv_run (a : RegularAxis ℝ) (ha : AxisOK a) (os : List Op) :
    ∀ (s : Direct) (last fs c), Inv0 a s fs c → Cached s last → DirectLegal a.nbins os last →
      ∃ s', s.run os = some s' ∧ Inv0 a s' (directFrames os last fs) (c || directCalled os) ∧
        Cached s' (lastAfter os last) := by
  induction os with
  | nil =>
    intro s last fs c h hc _
    exact ⟨s, rfl, by simpa [directFrames, directCalled] using h, hc⟩
  | cons o os ih =>
    intro s last fs c h hc hl
    cases o with
    | read order =>
      obtain ⟨s1, e, h1, hc1⟩ := inv_read a s last fs c h hc order hl.1
      obtain ⟨s2, e2, h2⟩ := ih s1 last fs c h1 hc1 hl.2
      exact ⟨s2, by simp only [run, step, e, Option.bind_some, e2], by
        simpa [directCalled, directFrames, lastAfter] using h2⟩
    | failed r =>
      have hb : Inv0 a (if r then s.reset else s) (if r then [] else fs) c ∧
          Cached (if r then s.reset else s) (if r then none else last) := by
        cases r with
        | true => exact ⟨inv_reset a s fs c h, rfl⟩
        | false => exact ⟨h, hc⟩
      obtain ⟨s2, e2, h2⟩ := ih _ _ _ c hb.1 hb.2 hl
      exact ⟨s2, by simp only [run, step, Option.bind_some, e2], by
        simpa [directCalled, directFrames, lastAfter] using h2⟩
    | compute r f sampled ev =>
      by_cases hg : f.queryPoints.isSome = f.nTotal.isSome
      · have hg' : ¬ f.queryPoints.isNone ≠ f.nTotal.isNone := by
          cases h1 : f.queryPoints <;> cases h2 : f.nTotal <;> simp_all
        have hb : Inv0 a (if r then s.reset else s) (if r then [] else fs) c ∧
            Cached (if r then s.reset else s) (if r then none else last) := by
          cases r with
          | true => exact ⟨inv_reset a s fs c h, rfl⟩
          | false => exact ⟨h, hc⟩
        simp only [DirectLegal, if_pos hg] at hl
        obtain ⟨s1, e, h1, hc1⟩ := inv_accumulate a ha _ _ _ _ hb.1 hb.2 f _ rfl sampled ev hl.2.2.1
        obtain ⟨s2, e2, h2, hc2⟩ := ih { s1 with called := true }
          (some (f.box, waveVectors (if r then none else last) f.box sampled)) _ true
          ⟨h1.axes, h1.kaxes, h1.shape, h1.wf, h1.loc, h1.kloc, rfl, h1.mvk, h1.red⟩ hc1 hl.2.2.2
        refine ⟨s2, ?_, ?_, ?_⟩
        · simp only [run, step, compute, if_neg hg']
          rw [show f.queryPoints.getD f.points = sfQuery f from rfl,
            show f.nTotal.getD f.points.length = sfTotal f from rfl, e]
          simp only [Option.map_some, Option.bind_some, e2]
        · simp only [directFrames, if_pos hg]
          have : (c || directCalled (Op.compute r f sampled ev :: os)) = true := by
            simp [directCalled, hg]
          rw [this]
          simpa using h2
        · simp only [lastAfter, if_pos hg]; exact hc2
      · have hg' : f.queryPoints.isNone ≠ f.nTotal.isNone := by
          cases h1 : f.queryPoints <;> cases h2 : f.nTotal <;> simp_all
        simp only [DirectLegal, if_neg hg] at hl
        obtain ⟨s2, e2, h2, hc2⟩ := ih s last fs c h hc hl
        refine ⟨s2, by simp only [run, step, compute, if_pos hg', Option.bind_some, e2], ?_, ?_⟩
        · simp only [directFrames, if_neg hg]
          simpa [directCalled, hg] using h2
        · simp only [lastAfter, if_neg hg]; exact hc2

/-- **C55** (guards): the constructor raises exactly for zero bins, a non-positive `k_max`, a negative
`k_min` or `k_max ≤ k_min`, and makes the axis from `k_min` to `k_max` otherwise. -/
theorem C55_guards (bins : ℕ) (kMax kMin : ℝ) :
    (mkAxis bins kMax kMin = .raised ↔ bins = 0 ∨ kMax ≤ 0 ∨ kMin < 0 ∨ kMax ≤ kMin) ∧
    (mkAxis bins kMax kMin = .ok ⟨bins, kMin, kMax⟩ ↔
      ¬ (bins = 0 ∨ kMax ≤ 0 ∨ kMin < 0 ∨ kMax ≤ kMin)) := by
  unfold mkAxis
  split_ifs with h1 h2 h3 h4 <;> simp_all

/-- **C55** (averaging): after any history, reading the structure factor gives in every bin the mean
of the documented formula over all wave vectors with magnitude in the bin, over all calls since the
last reset (zero for a bin without wave vectors), for every schedule of every loop and whatever wave
vectors are sampled. While the box does not change the wave vectors of the first call are used again.
The minimum valid k is the smallest of `2π/L` over these calls, with `L` the shortest side of the box. -/
theorem C55_mean (bins : ℕ) (kMax kMin : ℝ) (a : RegularAxis ℝ)
    (ha : mkAxis bins kMax kMin = .ok a) (hs : bins ≤ OVERFLOW_BIN)
    (history : List Op) (hl : DirectLegal bins history none)
    (order : List ℕ) (hord : order.Perm (List.range bins)) (hcal : directCalled history = true) :
    ∃ s s', (new a).run history = some s ∧
      s.read order = some (s', .value ((List.range bins).map (fun i =>
        meanIn (edge kMin kMax bins i) (edge kMin kMax bins (i + 1))
          (directSamples (directFrames history none []))))) ∧
      (∀ f ∈ directFrames history none [], ∀ L, ShortestSide f.1.box L →
        s'.minValidK ≤ ((2 * Real.pi / L : ℝ) : WithTop ℝ)) ∧
      (directFrames history none [] ≠ [] → ∃ f ∈ directFrames history none [], ∃ L, ShortestSide f.1.box L ∧
        s'.minValidK = ((2 * Real.pi / L : ℝ) : WithTop ℝ)) := by
  have hg : ¬ (bins = 0 ∨ kMax ≤ 0 ∨ kMin < 0 ∨ kMax ≤ kMin) := by
    intro hg
    rw [(C55_guards bins kMax kMin).1.mpr hg] at ha
    cases ha
  have hax : a = ⟨bins, kMin, kMax⟩ := by
    rw [(C55_guards bins kMax kMin).2.mpr hg] at ha
    injection ha with ha
    exact ha.symm
  push Not at hg
  have hok : AxisOK a := by rw [hax]; exact ⟨Nat.pos_of_ne_zero hg.1, hs, hg.2.2.2⟩
  have hn : a.nbins = bins := by rw [hax]
  obtain ⟨s, e, h, hc⟩ := inv_run a hok history (new a) none [] false (inv_new a) rfl
    (by rw [hn]; exact hl)
  obtain ⟨s', e', h', -⟩ := inv_read a s _ _ _ h hc order (by rw [hn]; exact hord)
  refine ⟨s, s', e, ?_, fun f hf L hL => (minBoxLength_iff _ _).mp hL ▸ h'.mvk.2.1 f hf, fun hf => by
    obtain ⟨f, h1, h2⟩ := h'.mvk.2.2 hf
    exact ⟨f, h1, _, (minBoxLength_iff _ _).mpr rfl, h2⟩⟩
  rw [e', hcal]
  simp only [Bool.or_true, if_true, hax]

-- one frame, then a second one in the same box: the vectors sampled first are used for both
example (b : Box ℝ) (p q : Vec3 ℝ) (k0 k1 k2 : Vec3 ℝ) :
    let f : SFArgs := ⟨b, [p], none, none⟩
    let g : SFArgs := ⟨b, [p, q], none, none⟩
    let hist : List Op := [.compute true f [k0, k1] [(0, 1), (1, 0)],
      .compute false g [k2] [(1, 0), (1, 1)]]
    DirectLegal 3 hist none ∧ directFrames hist none [] = [(f, [k0, k1]), (g, [k0, k1])] ∧
      directCalled hist = true := by
  have hs : SameBox b b := ⟨rfl, rfl, rfl, rfl, rfl, rfl, rfl⟩
  have h1 : [1, 0].Perm (List.range 2) := by decide
  have h2 : [0, 1].Perm (List.range 2) := by decide
  refine ⟨?_, ?_, ?_⟩
  · simp [DirectLegal, waveVectors, IsExecution, hs, h1, h2]
  · simp [directFrames, waveVectors, hs]
  · simp [directCalled]

/-- **C55** (range of one value): without query points the structure factor at any wave vector is
non-negative and at most the number of particles, and it is the number of particles at the zero
vector. -/
theorem C55_range (f : SFArgs) (hp : f.points ≠ []) (hq : f.queryPoints = none)
    (hn : f.nTotal = none) (k : Vec3 ℝ) :
    0 ≤ directS f k ∧ directS f k ≤ (f.points.length : ℝ) ∧
      directS f ⟨0, 0, 0⟩ = (f.points.length : ℝ) := by
  have hN : (0 : ℝ) < f.points.length := by
    have := List.length_pos_iff.mpr hp; exact_mod_cast this
  have ht : (sfTotal f : ℝ) = f.points.length := by simp [sfTotal, hn]
  have hsq : sfQuery f = f.points := by simp [sfQuery, hq]
  refine ⟨?_, ?_, ?_⟩
  · rw [directS_self f hq, ht]; positivity
  · unfold directS
    rw [ht, hsq, div_le_iff₀ hN]
    have hsum : ∀ (l : List (Vec3 ℝ)) (g : Vec3 ℝ → ℝ) (m : ℝ), (∀ x ∈ l, g x ≤ m) →
        (l.map g).sum ≤ (l.length : ℝ) * m := by
      intro l g m h
      induction l with
      | nil => simp
      | cons x l ih =>
        have h1 := h x List.mem_cons_self
        have h2 := ih (fun y hy => h y (List.mem_cons_of_mem _ hy))
        simp only [List.map_cons, List.sum_cons, List.length_cons]
        push_cast
        linarith
    refine hsum _ _ _ fun p _ => ?_
    have := hsum f.points (fun q => Real.cos (Vec3.dot k (q - p))) 1 (fun q _ => Real.cos_le_one _)
    simpa using this
  · unfold directS
    rw [ht, hsq]
    simp only [Vec3.dot, zero_mul, add_zero, Real.cos_zero]
    simp only [List.map_const', List.sum_replicate, nsmul_eq_mul, mul_one]
    field_simp

example (b : Box ℝ) : (⟨b, [⟨1, 2, 3⟩, ⟨0, 0, 0⟩], none, none⟩ : SFArgs).points ≠ [] := by simp

theorem meanIn_bounds (lo hi x y : ℝ) (l : List (ℝ × ℝ)) (hx : x ≤ 0) (hy : 0 ≤ y)
    (h : ∀ b ∈ l, lo ≤ b.1 → b.1 < hi → x ≤ b.2 ∧ b.2 ≤ y) :
    x ≤ meanIn lo hi l ∧ meanIn lo hi l ≤ y := by
  classical
  unfold meanIn
  simp only
  split_ifs with he
  · exact ⟨hx, hy⟩
  · have hpos : (0 : ℝ) < ((l.filter (fun b => decide (lo ≤ b.1 ∧ b.1 < hi))).length : ℝ) := by
      have := List.length_pos_iff.mpr he
      exact_mod_cast this
    rw [le_div_iff₀ hpos, div_le_iff₀ hpos]
    have key : ∀ m : List (ℝ × ℝ), (∀ b ∈ m, x ≤ b.2 ∧ b.2 ≤ y) →
        x * (m.length : ℝ) ≤ (m.map (·.2)).sum ∧ (m.map (·.2)).sum ≤ y * (m.length : ℝ) := by
      intro m
      induction m with
      | nil => intro _; simp
      | cons b m ih =>
        intro hm
        have h1 := hm b List.mem_cons_self
        have h2 := ih (fun c hc => hm c (List.mem_cons_of_mem _ hc))
        simp only [List.map_cons, List.sum_cons, List.length_cons]
        push_cast
        constructor <;> linarith [h1.1, h1.2, h2.1, h2.2]
    refine key _ fun b hb => ?_
    obtain ⟨hbl, hbp⟩ := List.mem_filter.mp hb
    have := of_decide_eq_true hbp
    exact h b hbl this.1 this.2

theorem meanIn_const (lo hi x : ℝ) (l : List (ℝ × ℝ)) (b : ℝ × ℝ) (hb : b ∈ l) (hlo : lo ≤ b.1)
    (hhi : b.1 < hi) (h : ∀ b ∈ l, lo ≤ b.1 → b.1 < hi → b.2 = x) : meanIn lo hi l = x := by
  classical
  unfold meanIn
  simp only
  have hne : l.filter (fun b => decide (lo ≤ b.1 ∧ b.1 < hi)) ≠ [] := by
    intro he
    have : b ∈ l.filter (fun b => decide (lo ≤ b.1 ∧ b.1 < hi)) :=
      List.mem_filter.mpr ⟨hb, decide_eq_true ⟨hlo, hhi⟩⟩
    rw [he] at this
    cases this
  rw [if_neg hne]
  have hpos : (0 : ℝ) < ((l.filter (fun b => decide (lo ≤ b.1 ∧ b.1 < hi))).length : ℝ) := by
    have := List.length_pos_iff.mpr hne
    exact_mod_cast this
  rw [div_eq_iff hpos.ne']
  have : (l.filter (fun b => decide (lo ≤ b.1 ∧ b.1 < hi))).map (·.2) =
      (l.filter (fun b => decide (lo ≤ b.1 ∧ b.1 < hi))).map (fun _ => x) := by
    refine List.map_congr_left fun c hc => ?_
    obtain ⟨hcl, hcp⟩ := List.mem_filter.mp hc
    have := of_decide_eq_true hcp
    exact h c hcl this.1 this.2
  rw [this, List.map_const', List.sum_replicate, nsmul_eq_mul, mul_comm]

theorem norm_eq_zero (k : Vec3 ℝ) : Vec3.norm k = 0 ↔ k = ⟨0, 0, 0⟩ := by
  unfold Vec3.norm Vec3.dot
  rw [Real.sqrt_eq_zero (by nlinarith [mul_self_nonneg k.x, mul_self_nonneg k.y, mul_self_nonneg k.z])]
  constructor
  · intro h
    ext
    · show k.x = 0; nlinarith [mul_self_nonneg k.x, mul_self_nonneg k.y, mul_self_nonneg k.z]
    · show k.y = 0; nlinarith [mul_self_nonneg k.x, mul_self_nonneg k.y, mul_self_nonneg k.z]
    · show k.z = 0; nlinarith [mul_self_nonneg k.x, mul_self_nonneg k.y, mul_self_nonneg k.z]
  · rintro rfl; simp

/-- **C55** (range after any history): when no call since the last reset has query points and none has
more than `N` particles, every value read is non-negative and at most `N`. If all have `N` particles
and the zero vector was used and no other vector has a magnitude in the first bin, the first bin
holds `N`. -/
theorem C55_values (bins : ℕ) (kMax kMin : ℝ) (a : RegularAxis ℝ)
    (ha : mkAxis bins kMax kMin = .ok a) (hs : bins ≤ OVERFLOW_BIN)
    (history : List Op) (hl : DirectLegal bins history none)
    (order : List ℕ) (hord : order.Perm (List.range bins)) (hcal : directCalled history = true)
    (N : ℕ) (hone : ∀ f ∈ directFrames history none [],
      f.1.queryPoints = none ∧ f.1.nTotal = none ∧ f.1.points ≠ [] ∧ f.1.points.length ≤ N) :
    ∃ s s' l, (new a).run history = some s ∧ s.read order = some (s', .value l) ∧
      l.length = bins ∧ (∀ x ∈ l, 0 ≤ x ∧ x ≤ (N : ℝ)) ∧
      (kMin = 0 → (∀ f ∈ directFrames history none [], f.1.points.length = N) →
        (∃ f ∈ directFrames history none [], (⟨0, 0, 0⟩ : Vec3 ℝ) ∈ f.2) →
        (∀ f ∈ directFrames history none [], ∀ k ∈ f.2, k = ⟨0, 0, 0⟩ ∨ kMax / bins ≤ Vec3.norm k) →
        l[0]? = some (N : ℝ)) := by
  obtain ⟨s, s', e, e', -⟩ := C55_mean bins kMax kMin a ha hs history hl order hord hcal
  have hsm : ∀ b ∈ directSamples (directFrames history none []), 0 ≤ b.2 ∧ b.2 ≤ (N : ℝ) := by
    intro b hb
    obtain ⟨f, hf, hb⟩ := List.mem_flatMap.mp hb
    obtain ⟨k, hk, rfl⟩ := List.mem_map.mp hb
    obtain ⟨h1, h2, h3, h4⟩ := hone f hf
    have := C55_range f.1 h3 h1 h2 k
    exact ⟨this.1, this.2.1.trans (by exact_mod_cast h4)⟩
  refine ⟨s, s', _, e, e', by simp, ?_, ?_⟩
  · intro x hx
    obtain ⟨i, -, rfl⟩ := List.mem_map.mp hx
    exact meanIn_bounds _ _ 0 N _ le_rfl (Nat.cast_nonneg' N) (fun b hb _ _ => hsm b hb)
  · rintro rfl hN ⟨f0, hf0, hz⟩ hfirst
    have hg : ¬ (bins = 0 ∨ kMax ≤ 0 ∨ (0 : ℝ) < 0 ∨ kMax ≤ 0) := by
      intro hg
      rw [(C55_guards bins kMax 0).1.mpr hg] at ha
      cases ha
    push Not at hg
    have hb0 : (0 : ℝ) < bins := by exact_mod_cast Nat.pos_of_ne_zero hg.1
    have he1 : edge 0 kMax bins 1 = kMax / bins := by simp [edge]
    have he0 : edge 0 kMax bins 0 = 0 := by simp [edge]
    rw [List.getElem?_map, List.getElem?_range (Nat.pos_of_ne_zero hg.1), Option.map_some, he0,
      show 0 + 1 = 1 from rfl, he1]
    congr 1
    have hz0 : Vec3.norm (⟨0, 0, 0⟩ : Vec3 ℝ) = 0 := (norm_eq_zero _).mpr rfl
    refine meanIn_const _ _ _ _ (Vec3.norm ⟨0, 0, 0⟩, directS f0.1 ⟨0, 0, 0⟩)
      (List.mem_flatMap.mpr ⟨f0, hf0, List.mem_map.mpr ⟨_, hz, rfl⟩⟩) (by rw [hz0]) ?_ ?_
    · show Vec3.norm _ < _
      rw [hz0]; exact div_pos (by linarith [hg.2.1]) hb0
    · intro b hb h1 h2
      obtain ⟨f, hf, hb⟩ := List.mem_flatMap.mp hb
      obtain ⟨k, hk, rfl⟩ := List.mem_map.mp hb
      obtain ⟨g1, g2, g3, -⟩ := hone f hf
      rcases hfirst f hf k hk with rfl | hk2
      · show directS f.1 _ = _
        rw [(C55_range f.1 g3 g1 g2 ⟨0, 0, 0⟩).2.2, hN f hf]
      · exact absurd h2 (not_lt.mpr hk2)

end Direct
end Freud
