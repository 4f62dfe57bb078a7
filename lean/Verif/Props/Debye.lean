import Verif.Lemmas.Debye

/-!
# Property C54: the Debye structure factor
-/

namespace Freud
open Spec

/-- The query points of a call: the system's points unless given. -/
def Spec.sfQuery (f : SFArgs) : List (Vec3 ℝ) := f.queryPoints.getD f.points

/-- The normalisation of a call: the number of points unless `N_total` is given. -/
def Spec.sfTotal (f : SFArgs) : ℕ := f.nTotal.getD f.points.length

/-- The Debye scattering equation of one call, as documented: the sum over pairs of `sinc(k r)`
(`J₀(k r)` in two dimensions), with `r` the distance in the box, divided by the number of
particles. -/
noncomputable def Spec.debyeS (f : SFArgs) (k : ℝ) : ℝ :=
  (f.points.map (fun p => ((sfQuery f).map (fun q =>
    if f.box.is2D then besselJ0 (k * f.box.computeDistance p q)
    else Real.sinc (k * f.box.computeDistance p q))).sum)).sum / (sfTotal f : ℝ)

/-- The calls that count: those since the last reset that did not raise. `query_points` and
`N_total` have to be given together. -/
def Spec.debyeFrames : List Debye.Op → List SFArgs → List SFArgs
  | [], acc => acc
  | .compute r f _ :: os, acc =>
    if f.queryPoints.isSome = f.nTotal.isSome then
      Spec.debyeFrames os ((if r then [] else acc) ++ [f])
    else Spec.debyeFrames os acc
  | .failed r :: os, acc => Spec.debyeFrames os (if r then [] else acc)
  | .read _ :: os, acc => Spec.debyeFrames os acc

/-- Whether some call of `compute` returned. -/
def Spec.debyeCalled : List Debye.Op → Bool → Bool
  | [], c => c
  | .compute _ f _ :: os, c =>
    Spec.debyeCalled os (c || decide (f.queryPoints.isSome = f.nTotal.isSome))
  | .failed _ :: os, c => Spec.debyeCalled os c
  | .read _ :: os, c => Spec.debyeCalled os c

/-- What a user can do: a system has points, `N_total` is not zero, loops are executed by some
schedule, reductions process every bin once. -/
def Spec.DebyeLegal (bins : ℕ) : Debye.Op → Prop
  | .compute _ f ev => IsExecution bins ev ∧ f.points ≠ [] ∧ f.nTotal ≠ some 0
  | .failed _ => True
  | .read order => order.Perm (List.range bins)

/-- The mean of a function over the calls. -/
noncomputable def Spec.callMean (g : SFArgs → ℝ) (fs : List SFArgs) : ℝ :=
  (fs.map g).sum / (fs.length : ℝ)

/-- `L` is the shortest side of the box, of the two in the plane if it is two-dimensional. -/
def Spec.ShortestSide (b : Box ℝ) (L : ℝ) : Prop :=
  (L = b.L.x ∨ L = b.L.y ∨ (b.is2D = false ∧ L = b.L.z)) ∧ L ≤ b.L.x ∧ L ≤ b.L.y ∧ (b.is2D = false → L ≤ b.L.z)

theorem minBoxLength_iff (b : Box ℝ) (L : ℝ) : ShortestSide b L ↔ L = minBoxLength b := by
  unfold ShortestSide minBoxLength
  rcases b.is2D.eq_false_or_eq_true with h | h
  · simp only [h, if_true, Bool.true_eq_false, false_and, or_false, false_implies, and_true]
    constructor
    · rintro ⟨rfl | rfl, h1, h2⟩
      · exact (min_eq_left h2).symm
      · exact (min_eq_right h1).symm
    · rintro rfl
      exact ⟨min_choice _ _, min_le_left _ _, min_le_right _ _⟩
  · simp only [h, Bool.false_eq_true, if_false, true_and, forall_const]
    constructor
    · rintro ⟨hL, h1, h2, h3⟩
      refine le_antisymm (le_min h1 (le_min h2 h3)) ?_
      rcases hL with rfl | rfl | rfl
      · exact min_le_left _ _
      · exact (min_le_right _ _).trans (min_le_left _ _)
      · exact (min_le_right _ _).trans (min_le_right _ _)
    · rintro rfl
      refine ⟨?_, min_le_left _ _, (min_le_right _ _).trans (min_le_left _ _), (min_le_right _ _).trans (min_le_right _ _)⟩
      rcases min_choice b.L.x (min b.L.y b.L.z) with e | e
      · exact .inl e
      · rw [e]
        exact .inr (min_choice _ _)

-- a square in the plane, whatever the third side, and a cuboid
example : ShortestSide (Box.mk' 3 2 0 0 0 0 true) 2 ∧ ShortestSide (Box.mk' 3 2 1 0 0 0 false) 1 := by
  constructor <;> norm_num [ShortestSide, Box.mk', Box.setL]

namespace Debye

theorem value_eq (f : SFArgs) (k : ℝ) (hk : 0 ≤ k) (n : ℕ)
    (hn : n = sfTotal f) :
    value f.box.is2D (allDistances f.box f.points (sfQuery f)) n k = debyeS f k := by
  unfold value debyeS
  rw [foldl_term, zero_add, hn]
  congr 1
  unfold allDistances
  rw [List.map_flatMap]
  induction f.points with
  | nil => simp
  | cons p ps ih =>
    rw [List.flatMap_cons, List.sum_append, ih, List.map_cons, List.sum_cons, List.map_map]
    congr 2
    refine List.map_congr_left fun q _ => ?_
    simp only [Function.comp_apply, term, sincFn_eq, max_eq_right hk]

/-- The invariant of a Debye object. -/
structure Inv (a : RegularAxis ℝ) (s : Debye) (fs : List SFArgs) (called : Bool) : Prop where
  axes : s.sf.axes = [a]
  shape : s.sf.counts.shape = [a.nbins]
  len : s.sf.counts.data.length = a.nbins
  loc : Locals a s.locals (fun i => (fs.map (fun f => debyeS f (a.binCenters.getD i 0))).sum)
  cnt : s.frames = fs.length
  cal : s.called = called
  mvk : (fs = [] → s.minValidK = ⊤) ∧
    (∀ f ∈ fs, s.minValidK ≤ ((4 * Real.pi / minBoxLength f.box : ℝ) : WithTop ℝ)) ∧
    (fs ≠ [] → ∃ f ∈ fs, s.minValidK = ((4 * Real.pi / minBoxLength f.box : ℝ) : WithTop ℝ))
  red : s.needReduce = false → s.sf.counts.data = (List.range a.nbins).map (fun i =>
    callMean (fun f => debyeS f (a.binCenters.getD i 0)) fs)

theorem inv_new (a : RegularAxis ℝ) : Inv a (new a) [] false :=
  ⟨rfl, rfl, by simp [new, Histogram.mk', MArray.mk'], ⟨rfl, by simp [new], by simp [new]⟩, rfl, rfl,
    ⟨fun _ => rfl, by simp, by simp⟩, by simp [new]⟩

theorem inv_reset (a : RegularAxis ℝ) (s : Debye) (fs c) (h : Inv a s fs c) :
    Inv a s.reset [] c := by
  refine ⟨h.axes, ?_, ?_, ⟨h.loc.ex, ?_, ?_⟩, rfl, h.cal, ⟨fun _ => rfl, by simp, by simp⟩,
    by simp [reset]⟩
  · simp [reset, Histogram.mk', MArray.mk', h.axes]
  · simp [reset, Histogram.mk', MArray.mk', h.axes]
  · intro p hp
    obtain ⟨q, hq, rfl⟩ := List.mem_map.mp hp
    obtain ⟨h1, h2, h3⟩ := h.loc.ok q hq
    refine ⟨h1, h2, ?_⟩
    have : q.2.counts.shape.prod = a.nbins := by rw [h2]; simp
    simp [Histogram.reset, MArray.reset, h3]
  · intro i _
    simp only [reset, TLS.resetWith, List.map_map, List.map_nil, List.sum_nil]
    apply List.sum_eq_zero
    intro x hx
    obtain ⟨q, -, rfl⟩ := List.mem_map.mp hx
    simp [Histogram.reset, MArray.reset, List.getD_eq_getElem?_getD, List.getElem?_replicate]
    split_ifs <;> rfl

theorem inv_accumulate (a : RegularAxis ℝ) (hs : a.nbins ≤ OVERFLOW_BIN)
    (hk : ∀ i < a.nbins, 0 ≤ a.binCenters.getD i 0) (s : Debye) (fs c)
    (h : Inv a s fs c) (f : SFArgs) (n : ℕ)
    (hn : n = sfTotal f) (ev : List (ℕ × ℕ)) (hev : IsExecution a.nbins ev) :
    ∃ s', s.accumulate f.box f.points (sfQuery f) n ev = some s' ∧ Inv a s' (fs ++ [f]) c := by
  obtain ⟨t, e, ht⟩ := locals_step a hs s.locals _ h.loc
    (value f.box.is2D (allDistances f.box f.points (sfQuery f)) n) ev hev
  refine ⟨{ s with
    locals := t
    frames := s.frames + 1
    minValidK := min s.minValidK (2 * (2 * Real.pi) / minBoxLength f.box : ℝ)
    needReduce := true }, ?_, ⟨h.axes, h.shape, h.len, ⟨ht.ex, ht.ok, ?_⟩, ?_, h.cal, ?_, by simp⟩⟩
  · unfold accumulate
    simp [h.axes, e]
  · intro i hi
    rw [ht.sum i hi, value_eq f _ (hk i hi) n hn]
    simp
  · simp [h.cnt]
  · have h4 : (2 * (2 * Real.pi) / minBoxLength f.box : ℝ) = 4 * Real.pi / minBoxLength f.box := by
      ring
    simp only [h4]
    refine ⟨by simp, ?_, fun _ => ?_⟩
    · intro g hg
      rcases List.mem_append.mp hg with hg | hg
      · exact le_trans (min_le_left _ _) (h.mvk.2.1 g hg)
      · rw [List.mem_singleton.mp hg]; exact min_le_right _ _
    · by_cases hm : s.minValidK ≤ ((4 * Real.pi / minBoxLength f.box : ℝ) : WithTop ℝ)
      · by_cases hfs : fs = []
        · exfalso
          rw [h.mvk.1 hfs, top_le_iff] at hm
          exact WithTop.coe_ne_top hm
        · obtain ⟨g, hg, e⟩ := h.mvk.2.2 hfs
          exact ⟨g, List.mem_append_left _ hg, by rw [min_eq_left hm, e]⟩
      · exact ⟨f, by simp, min_eq_right (le_of_not_ge hm)⟩

theorem inv_read (a : RegularAxis ℝ) (s : Debye) (fs c) (h : Inv a s fs c) (order : List ℕ)
    (hord : order.Perm (List.range a.nbins)) :
    ∃ s', s.read order = some (s', if c then (if fs = [] then .notNumbers else
        .value ((List.range a.nbins).map (fun i =>
          callMean (fun f => debyeS f (a.binCenters.getD i 0)) fs))) else .raised) ∧
      Inv a s' fs c := by
  cases hc : s.called with
  | false =>
    refine ⟨s, ?_, h⟩
    have : c = false := by rw [← h.cal]; exact hc
    simp [read, hc, this]
  | true =>
    have hct : c = true := by rw [← h.cal]; exact hc
    have key : ∀ s1 : Debye, (if s.needReduce then s.reduce order else some s) = some s1 →
        Inv a { s1 with needReduce := false } fs c → s1.frames = fs.length →
        ∃ s', s.read order = some (s', if c then (if fs = [] then .notNumbers else
        .value ((List.range a.nbins).map (fun i =>
          callMean (fun f => debyeS f (a.binCenters.getD i 0)) fs))) else .raised) ∧
      Inv a s' fs c := by
      intro s1 e hi hf
      refine ⟨{ s1 with needReduce := false }, ?_, hi⟩
      have hd := hi.red rfl
      unfold read
      rw [if_pos hc, e, Option.map_some, hf, hct, if_pos rfl]
      by_cases hfs : fs = []
      · simp [hfs]
      · rw [if_neg (by simpa using hfs), if_neg hfs]
        congr 2
        rw [← hd]
    cases hn : s.needReduce with
    | false =>
      exact key s (by simp [hn]) ⟨h.axes, h.shape, h.len, h.loc, h.cnt, h.cal, h.mvk,
        fun _ => h.red hn⟩ h.cnt
    | true =>
      obtain ⟨r, e, hrs, hrd⟩ := reduce_locals a s.locals _ h.loc order hord s.sf.counts h.shape h.len
      refine key { s with sf := { s.sf with
        counts := { r with data := r.data.map (· / (s.frames : ℝ)) } } } (by simp only [hn, if_true, reduce, e, Option.map_some]) ?_ h.cnt
      refine ⟨h.axes, hrs, by simp [hrd], h.loc, h.cnt, h.cal, h.mvk, fun _ => ?_⟩
      simp only [hrd, List.map_map, h.cnt]
      rfl

theorem inv_step (a : RegularAxis ℝ) (hs : a.nbins ≤ OVERFLOW_BIN)
    (hk : ∀ i < a.nbins, 0 ≤ a.binCenters.getD i 0) (s : Debye) (fs c) (h : Inv a s fs c)
    (o : Op) (ho : DebyeLegal a.nbins o) :
    ∃ s' out, s.step o = some (s', out) ∧ Inv a s' (debyeFrames [o] fs) (debyeCalled [o] c) := by
  cases o with
  | read order =>
    obtain ⟨s', e, hi⟩ := inv_read a s fs c h order ho
    exact ⟨s', _, e, hi⟩
  | failed r =>
    cases r with
    | true => exact ⟨s.reset, _, rfl, inv_reset a s fs c h⟩
    | false => exact ⟨s, _, rfl, h⟩
  | compute r f ev =>
    by_cases hg : f.queryPoints.isSome = f.nTotal.isSome
    · have hg' : ¬ f.queryPoints.isNone ≠ f.nTotal.isNone := by
        cases h1 : f.queryPoints <;> cases h2 : f.nTotal <;> simp_all
      have hn : f.nTotal.getD (f.queryPoints.getD f.points).length = sfTotal f := by
        unfold sfTotal
        cases h1 : f.queryPoints <;> cases h2 : f.nTotal <;> simp_all
      have hb : Inv a (if r then s.reset else s) (if r then [] else fs) c := by
        cases r with
        | true => exact inv_reset a s fs c h
        | false => exact h
      obtain ⟨s', e, hi⟩ := inv_accumulate a hs hk _ _ _ hb f _ hn ev ho.1
      refine ⟨{ s' with called := true }, .done, ?_, ?_⟩
      · simp only [step, compute, if_neg hg']
        rw [show f.queryPoints.getD f.points = sfQuery f from rfl] at *
        rw [e]; rfl
      · simp only [debyeFrames, debyeCalled, hg, if_true, decide_true, Bool.or_true]
        exact ⟨hi.axes, hi.shape, hi.len, hi.loc, hi.cnt, rfl, hi.mvk, hi.red⟩
    · have hg' : f.queryPoints.isNone ≠ f.nTotal.isNone := by
        cases h1 : f.queryPoints <;> cases h2 : f.nTotal <;> simp_all
      refine ⟨s, .raised, by simp only [step, compute, if_pos hg'], ?_⟩
      simp only [debyeFrames, debyeCalled, if_neg hg, hg, decide_false, Bool.or_false]
      exact h

theorem frames_cons (o : Op) (os : List Op) (fs : List SFArgs) :
    debyeFrames (o :: os) fs = debyeFrames os (debyeFrames [o] fs) := by
  cases o with
  | compute r f ev => simp only [debyeFrames]; split_ifs <;> rfl
  | failed r => rfl
  | read order => rfl

theorem called_cons (o : Op) (os : List Op) (c : Bool) :
    debyeCalled (o :: os) c = debyeCalled os (debyeCalled [o] c) := by
  cases o <;> rfl

theorem inv_run (a : RegularAxis ℝ) (hs : a.nbins ≤ OVERFLOW_BIN)
    (hk : ∀ i < a.nbins, 0 ≤ a.binCenters.getD i 0) (os : List Op) :
    ∀ (s : Debye) (fs c), Inv a s fs c → (∀ o ∈ os, DebyeLegal a.nbins o) →
      ∃ s', s.run os = some s' ∧ Inv a s' (debyeFrames os fs) (debyeCalled os c) := by
  induction os with
  | nil => intro s fs c h _; exact ⟨s, rfl, h⟩
  | cons o os ih =>
    intro s fs c h hl
    obtain ⟨s1, out, e, h1⟩ := inv_step a hs hk s fs c h o (hl o List.mem_cons_self)
    obtain ⟨s2, e2, h2⟩ := ih s1 _ _ h1 (fun o ho => hl o (List.mem_cons_of_mem _ ho))
    refine ⟨s2, by simp only [run, e, Option.bind_some, e2], ?_⟩
    rw [frames_cons, called_cons]
    exact h2

theorem centers_nonneg {bins : ℕ} {kMax kMin : ℝ} {a : RegularAxis ℝ}
    (h : mkAxis bins kMax kMin = .ok a) : ∀ i < a.nbins, 0 ≤ a.binCenters.getD i 0 := by
  intro i hi
  obtain ⟨hb, h0, hlt, hn, -, -⟩ := axis_of_ok h
  rw [List.getD_eq_getElem?_getD, center_eq h i (by omega)]
  have hb1 : (0 : ℝ) < (bins : ℝ) - 1 := by
    have : (2 : ℝ) ≤ bins := by exact_mod_cast hb
    linarith
  have : 0 ≤ (i : ℝ) * (kMax - kMin) / ((bins : ℝ) - 1) := by
    have : (0 : ℝ) ≤ kMax - kMin := by linarith
    positivity
  simp only [Option.getD_some]
  linarith

/-- **C54** (guards): the constructor raises exactly for zero values, a non-positive `k_max`, a
negative `k_min` or `k_max ≤ k_min`. -/
theorem C54_guards (bins : ℕ) (kMax kMin : ℝ) :
    mkAxis bins kMax kMin = .raised ↔ bins = 0 ∨ kMax ≤ 0 ∨ kMin < 0 ∨ kMax ≤ kMin := by
  unfold mkAxis
  split_ifs with h1 h2 h3 h4 h5 <;> simp_all

/-- **C54** (k values): with at least two values they are evenly spaced from `k_min` to `k_max`, both
included. -/
theorem C54_k_values (bins : ℕ) (kMax kMin : ℝ) (hb : 2 ≤ bins) (h0 : 0 ≤ kMin) (hk : kMin < kMax) :
    ∃ a, mkAxis bins kMax kMin = .ok a ∧ a.nbins = bins ∧
      a.binCenters = (List.range bins).map
        (fun i : ℕ => kMin + (i : ℝ) * ((kMax - kMin) / ((bins : ℝ) - 1))) ∧
      a.binCenters.head? = some kMin ∧ a.binCenters.getLast? = some kMax := by
  have hb1 : (0 : ℝ) < (bins : ℝ) - 1 := by
    have : (2 : ℝ) ≤ bins := by exact_mod_cast hb
    linarith
  obtain ⟨a, ha⟩ : ∃ a, mkAxis bins kMax kMin = .ok a := by
    unfold mkAxis
    rw [if_neg (by omega), if_neg (by linarith), if_neg (by linarith), if_neg (by linarith),
      if_neg (by omega)]
    exact ⟨_, rfl⟩
  have hn := (axis_of_ok ha).2.2.2.1
  have hc : a.binCenters = (List.range bins).map
        (fun i : ℕ => kMin + (i : ℝ) * ((kMax - kMin) / ((bins : ℝ) - 1))) := by
    refine List.ext_getElem? fun i => ?_
    by_cases hi : i < bins
    · rw [center_eq ha i hi, List.getElem?_map, List.getElem?_range hi, Option.map_some, mul_div_assoc]
    · rw [List.getElem?_eq_none (by rw [binCenters_length]; omega),
        List.getElem?_eq_none (by simp; omega)]
  refine ⟨a, ha, hn, hc, ?_, ?_⟩
  · rw [List.head?_eq_getElem?, center_eq ha 0 (by omega)]; simp
  · rw [List.getLast?_eq_getElem?, binCenters_length, hn, center_eq ha (bins - 1) (by omega)]
    rw [Nat.cast_sub (by omega)]
    congr 1
    push_cast
    field_simp
    ring

example : (2 : ℕ) ≤ 100 ∧ (0 : ℝ) ≤ 0 ∧ (0 : ℝ) < 10 := by norm_num

/-- **C54** is false of the k values when one value is requested: the constructor accepts
`num_k_values = 1`, but the offset `(k_max - k_min) / (2 (bins - 1))` divides by zero and the axis has
infinite bounds. -/
theorem C54_one_value_counterexample (kMax kMin : ℝ) (h0 : 0 ≤ kMin) (hk : kMin < kMax) :
    mkAxis 1 kMax kMin = .notFinite := by
  unfold mkAxis
  rw [if_neg (by omega), if_neg (by linarith), if_neg (by linarith), if_neg (by linarith), if_pos rfl]

/-- **C54** (averaging): after any history, reading the structure factor gives, for each k value, the
mean over the calls since the last reset of the Debye equation -- for every schedule of every loop.
Calls that raise do not count. The minimum valid k is the smallest of `4π/L` over these calls, with `L` the shortest side
of the box. -/
theorem C54_mean (bins : ℕ) (kMax kMin : ℝ) (a : RegularAxis ℝ)
    (ha : mkAxis bins kMax kMin = .ok a) (hs : bins ≤ OVERFLOW_BIN)
    (history : List Op) (hl : ∀ o ∈ history, DebyeLegal bins o)
    (order : List ℕ) (hord : order.Perm (List.range bins))
    (hf : debyeFrames history [] ≠ []) :
    ∃ s s', (new a).run history = some s ∧
      s.read order = some (s', .value ((List.range bins).map (fun i : ℕ =>
        callMean (fun f => debyeS f (kMin + (i : ℝ) * ((kMax - kMin) / ((bins : ℝ) - 1))))
          (debyeFrames history [])))) ∧
      (∃ f ∈ debyeFrames history [], ∃ L, ShortestSide f.box L ∧
        s'.minValidK = ((4 * Real.pi / L : ℝ) : WithTop ℝ)) ∧
      ∀ f ∈ debyeFrames history [], ∀ L, ShortestSide f.box L →
        s'.minValidK ≤ ((4 * Real.pi / L : ℝ) : WithTop ℝ) := by
  have hn := (axis_of_ok ha).2.2.2.1
  obtain ⟨s, e, hi⟩ := inv_run a (by omega) (centers_nonneg ha) history (new a) [] false (inv_new a)
    (by rw [hn]; exact hl)
  obtain ⟨s', e', hi'⟩ := inv_read a s _ _ hi order (by rw [hn]; exact hord)
  have hcal : debyeCalled history false = true := by
    have : ∀ (os : List Op) (fs : List SFArgs) (c : Bool), (fs ≠ [] → c = true) →
        debyeFrames os fs ≠ [] → debyeCalled os c = true := by
      intro os
      induction os with
      | nil => intro fs c h1 h2; exact h1 h2
      | cons o os ih =>
        intro fs c h1 h2
        cases o with
        | read order => exact ih fs c h1 h2
        | failed r =>
          refine ih _ c (fun h => h1 ?_) h2
          cases r <;> simp_all
        | compute r f ev =>
          simp only [debyeFrames] at h2
          by_cases hg : f.queryPoints.isSome = f.nTotal.isSome
          · rw [if_pos hg] at h2
            exact ih _ _ (fun _ => by simp [hg]) h2
          · rw [if_neg hg] at h2
            exact ih fs _ (fun h => by simp [h1 h]) h2
    exact this history [] false (by simp) hf
  obtain ⟨f0, hf0, hv⟩ := hi'.mvk.2.2 hf
  refine ⟨s, s', e, ?_, ⟨f0, hf0, _, (minBoxLength_iff _ _).mpr rfl, hv⟩, fun f hf L hL =>
    (minBoxLength_iff _ _).mp hL ▸ hi'.mvk.2.1 f hf⟩
  rw [e', hcal, if_pos rfl, if_neg hf, hn]
  congr 3
  refine List.map_congr_left fun i hi => ?_
  rw [List.getD_eq_getElem?_getD, center_eq ha i (List.mem_range.mp hi), Option.getD_some,
    mul_div_assoc]

-- two accumulated frames of different boxes after an earlier one that is reset away, computed on two
-- threads
example (b b' : Box ℝ) (p q : Vec3 ℝ) :
    let f : SFArgs := ⟨b, [p], none, none⟩
    let g : SFArgs := ⟨b', [p, q], none, none⟩
    let hist : List Op := [.compute true f [(0, 0), (1, 2), (0, 1)], .read [0, 1, 2],
      .compute true g [(0, 0), (1, 2), (0, 1)], .compute false f [(1, 2), (1, 1), (0, 0)]]
    (∀ o ∈ hist, DebyeLegal 3 o) ∧ debyeFrames hist [] = [g, f] := by
  refine ⟨?_, by simp [debyeFrames]⟩
  have h1 : [0, 2, 1].Perm (List.range 3) := by decide
  have h2 : [2, 1, 0].Perm (List.range 3) := by decide
  have h3 : [0, 1, 2].Perm (List.range 3) := by decide
  simp [DebyeLegal, IsExecution, h1, h2, h3]

/-- **C54** (reads without data): before any successful `compute` a read raises; after a `compute`
with `reset=True` that failed on its arguments an object that had results gives `0/0`. -/
theorem C54_no_frames (bins : ℕ) (kMax kMin : ℝ) (a : RegularAxis ℝ)
    (ha : mkAxis bins kMax kMin = .ok a) (hs : bins ≤ OVERFLOW_BIN)
    (history : List Op) (hl : ∀ o ∈ history, DebyeLegal bins o)
    (order : List ℕ) (hord : order.Perm (List.range bins))
    (hf : debyeFrames history [] = []) :
    ∃ s s', (new a).run history = some s ∧
      s.read order = some (s', if debyeCalled history false then .notNumbers else .raised) := by
  have hn := (axis_of_ok ha).2.2.2.1
  obtain ⟨s, e, hi⟩ := inv_run a (by omega) (centers_nonneg ha) history (new a) [] false (inv_new a)
    (by rw [hn]; exact hl)
  obtain ⟨s', e', -⟩ := inv_read a s _ _ hi order (by rw [hn]; exact hord)
  exact ⟨s, s', e, by rw [e', hf]; simp⟩

/-- **C54** (S(0)): at `k = 0` the Debye equation gives the product of the numbers of points and query
points over `N_total`; without query points, the number of particles. -/
theorem C54_zero (f : SFArgs) (hp : f.points ≠ []) :
    debyeS f 0 = (f.points.length : ℝ) * ((sfQuery f).length : ℝ) / (sfTotal f : ℝ) ∧
    (f.queryPoints = none → f.nTotal = none → debyeS f 0 = (f.points.length : ℝ)) := by
  have h1 : debyeS f 0 = (f.points.length : ℝ) * ((sfQuery f).length : ℝ) / (sfTotal f : ℝ) := by
    unfold debyeS
    simp [besselJ0_zero]
  refine ⟨h1, fun hq hn => ?_⟩
  rw [h1]
  simp only [sfQuery, sfTotal, hq, hn, Option.getD_none]
  have : (f.points.length : ℝ) ≠ 0 := by
    simpa using hp
  field_simp

/-- **C54** (bound): no value exceeds the one at `k = 0` in absolute value. -/
theorem C54_bound (f : SFArgs) (k : ℝ) : |debyeS f k| ≤ debyeS f 0 := by
  have hsum : ∀ {α : Type} (l : List α) (g : α → ℝ) (m : ℝ), (∀ x ∈ l, |g x| ≤ m) →
      |(l.map g).sum| ≤ (l.length : ℝ) * m := by
    intro α l g m h
    induction l with
    | nil => simp
    | cons x l ih =>
      have h1 := h x List.mem_cons_self
      have h2 := ih (fun y hy => h y (List.mem_cons_of_mem _ hy))
      simp only [List.map_cons, List.sum_cons, List.length_cons]
      push_cast
      calc |g x + (l.map g).sum| ≤ |g x| + |(l.map g).sum| := abs_add_le _ _
        _ ≤ m + (l.length : ℝ) * m := add_le_add h1 h2
        _ = ((l.length : ℝ) + 1) * m := by ring
  have h0 : debyeS f 0 = (f.points.length : ℝ) * ((sfQuery f).length : ℝ) / (sfTotal f : ℝ) := by
    unfold debyeS
    simp [besselJ0_zero]
  rw [h0]
  unfold debyeS
  rw [abs_div, abs_of_nonneg (Nat.cast_nonneg' (sfTotal f) : (0 : ℝ) ≤ _)]
  refine div_le_div_of_nonneg_right ?_ (Nat.cast_nonneg' _)
  refine hsum _ _ _ fun p _ => ?_
  have := hsum (sfQuery f) (fun q => if f.box.is2D then besselJ0 (k * f.box.computeDistance p q)
    else Real.sinc (k * f.box.computeDistance p q)) 1 (fun q _ => by
      split_ifs
      · exact abs_besselJ0_le _
      · exact Real.abs_sinc_le_one _)
  simpa using this

/-- **C54** (S(0) after any history): with `k_min = 0` and no query points, the first value read is
the mean number of particles of the calls since the last reset; in particular it is `N` when all
have `N` particles. -/
theorem C54_first_value (bins : ℕ) (kMax : ℝ) (a : RegularAxis ℝ)
    (ha : mkAxis bins kMax 0 = .ok a) (hs : bins ≤ OVERFLOW_BIN)
    (history : List Op) (hl : ∀ o ∈ history, DebyeLegal bins o)
    (order : List ℕ) (hord : order.Perm (List.range bins))
    (hf : debyeFrames history [] ≠ []) (N : ℕ)
    (hN : ∀ f ∈ debyeFrames history [], f.queryPoints = none ∧ f.nTotal = none ∧
      f.points.length = N) (hN0 : N ≠ 0) :
    ∃ s s' l, (new a).run history = some s ∧ s.read order = some (s', .value l) ∧
      l[0]? = some (N : ℝ) := by
  obtain ⟨s, s', e, e', -⟩ := C54_mean bins kMax 0 a ha hs history hl order hord hf
  refine ⟨s, s', _, e, e', ?_⟩
  rw [List.getElem?_map, List.getElem?_range (by have := (axis_of_ok ha).1; omega), Option.map_some]
  simp only [Nat.cast_zero, zero_mul, add_zero]
  unfold callMean
  have : (debyeFrames history []).map (fun f => debyeS f 0) =
      (debyeFrames history []).map (fun _ => (N : ℝ)) := by
    refine List.map_congr_left fun f hfm => ?_
    obtain ⟨h1, h2, h3⟩ := hN f hfm
    have hp : f.points ≠ [] := by
      intro h; rw [h] at h3; exact hN0 h3.symm
    rw [(C54_zero f hp).2 h1 h2, h3]
  rw [this, List.map_const', List.sum_replicate, nsmul_eq_mul]
  have : ((debyeFrames history []).length : ℝ) ≠ 0 := by simpa using hf
  congr 1
  field_simp

/-- **C54**, what goes wrong with `min_valid_k` (documented as `4π/L` of the computed box): when frames of different boxes
are accumulated, it is below the smallest valid k of every box that is not the largest, also if that box comes last. -/
theorem C54_min_valid_k_counterexample (bins : ℕ) (kMax kMin : ℝ) (a : RegularAxis ℝ)
    (ha : mkAxis bins kMax kMin = .ok a) (hs : bins ≤ OVERFLOW_BIN) (history : List Op)
    (hl : ∀ o ∈ history, DebyeLegal bins o) (order : List ℕ) (hord : order.Perm (List.range bins)) (f g : SFArgs)
    (hf : f ∈ debyeFrames history []) (hg : g ∈ debyeFrames history []) (L L' : ℝ) (_h : ShortestSide f.box L)
    (h' : ShortestSide g.box L') (h0 : 0 < L) (hlt : L < L') :
    ∃ s s' l, (new a).run history = some s ∧ s.read order = some (s', .value l) ∧
      s'.minValidK < ((4 * Real.pi / L : ℝ) : WithTop ℝ) := by
  obtain ⟨s, s', e, e', -, hle⟩ := C54_mean bins kMax kMin a ha hs history hl order hord (List.ne_nil_of_mem hf)
  refine ⟨s, s', _, e, e', (hle g hg L' h').trans_lt ?_⟩
  exact WithTop.coe_lt_coe.mpr (div_lt_div_of_pos_left (by positivity) h0 hlt)

-- a large box, then a smaller one
example : ∃ (f g : SFArgs) (hist : List Op), ShortestSide f.box 5 ∧ ShortestSide g.box 10 ∧
    (∀ o ∈ hist, DebyeLegal 2 o) ∧ debyeFrames hist [] = [g, f] := by
  refine ⟨⟨Box.mk' 5 6 7 0 0 0 false, [⟨0, 0, 0⟩], none, none⟩, ⟨Box.mk' 10 11 12 0 0 0 false, [⟨0, 0, 0⟩], none, none⟩,
    [.compute true ⟨Box.mk' 10 11 12 0 0 0 false, [⟨0, 0, 0⟩], none, none⟩ [(0, 0), (1, 1)],
      .compute false ⟨Box.mk' 5 6 7 0 0 0 false, [⟨0, 0, 0⟩], none, none⟩ [(0, 1), (0, 0)]], ?_, ?_, ?_, by simp [debyeFrames]⟩
  · norm_num [ShortestSide, Box.mk', Box.setL]
  · norm_num [ShortestSide, Box.mk', Box.setL]
  · have h1 : [1, 0].Perm (List.range 2) := by decide
    have h2 : [0, 1].Perm (List.range 2) := by decide
    simp [DebyeLegal, IsExecution, h1, h2]

end Debye
end Freud
