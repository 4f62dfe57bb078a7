import Verif.Model.CorrelationFunction
import Verif.Props.RDF
import Mathlib.Data.Complex.Basic

/-!
# Property C36: CorrelationFunction is the per-bin mean of the products
-/

set_option linter.unusedSectionVars false

namespace Freud
open Spec
variable {K : Type*} [Field K] [LinearOrder K] [IsStrictOrderedRing K] [FloorRing K]
variable {V : Type*} [Field V] [StarRing V] [CharZero V] [DecidableEq V]

/-- The bonds of the frames since the last reset: the distance of each with the product of the
conjugate of the point's value and the query point's value. -/
def Spec.cfProducts : List (CorrelationFunction.Op K V) → List (K × V) → List (K × V)
  | [], acc => acc
  | .reset :: os, _ => Spec.cfProducts os []
  | .frame v w n bonds _ :: os, acc =>
    Spec.cfProducts os (acc ++ (List.range n).flatMap (fun i => (bonds i).map (fun b =>
      (b.distance, star (v.getD b.point 0) * w.getD b.query 0))))
  | .read _ :: os, acc => Spec.cfProducts os acc

open Classical in
/-- The mean of the products of the bonds with distance in `[lo, hi)`, zero if there is none. -/
noncomputable def Spec.meanIn (lo hi : K) (l : List (K × V)) : V :=
  let inside := l.filter (fun b => decide (lo ≤ b.1 ∧ b.1 < hi))
  if inside = [] then 0 else (inside.map (·.2)).sum / (inside.length : V)

/-- A history a user can produce: frames are executed by some schedule, bonds refer to existing
points and query points (there is a value for each), reductions process every bin once. -/
def Spec.CFLegal (bins : ℕ) : CorrelationFunction.Op K V → Prop
  | .reset => True
  | .frame v w n bonds ev => IsExecution n ev ∧
      ∀ i < n, ∀ b ∈ bonds i, b.point < v.length ∧ b.query < w.length
  | .read order => order.Perm (List.range bins)

theorem parallelFor_congr {σ : Type*} (f g : ℕ → σ → Option σ) (ev : List (ℕ × ℕ))
    (h : ∀ e ∈ ev, f e.2 = g e.2) (t : TLS σ) : t.parallelFor f ev = t.parallelFor g ev := by
  unfold TLS.parallelFor
  induction ev generalizing t with
  | nil => rfl
  | cons e ev ih =>
    simp only [List.foldlM_cons]
    have : TLS.step f t e = TLS.step g t e := by
      unfold TLS.step; rw [h e List.mem_cons_self]
    rw [this]
    cases TLS.step g t e with
    | none => rfl
    | some t' => exact ih (fun e he => h e (List.mem_cons_of_mem _ he)) t'

theorem foldlM_addBond (v w : List V) (bonds : List (CFBond K))
    (hb : ∀ b ∈ bonds, b.point < v.length ∧ b.query < w.length) (h : Histogram K V) :
    bonds.foldlM (CorrelationFunction.addBond v w) h =
      h.addAll (bonds.map (fun b => ([b.distance], star (v.getD b.point 0) * w.getD b.query 0))) := by
  unfold Histogram.addAll
  induction bonds generalizing h with
  | nil => rfl
  | cons b bs ih =>
    simp only [List.foldlM_cons, List.map_cons]
    have h1 := (hb b List.mem_cons_self).1
    have h2 := (hb b List.mem_cons_self).2
    have : CorrelationFunction.addBond v w h b =
        h.add [b.distance] (star (v.getD b.point 0) * w.getD b.query 0) := by
      unfold CorrelationFunction.addBond
      rw [List.getElem?_eq_getElem h1, List.getElem?_eq_getElem h2]
      simp [List.getElem?_eq_getElem h1, List.getElem?_eq_getElem h2]
    rw [this]
    cases h.add [b.distance] (star (v.getD b.point 0) * w.getD b.query 0) with
    | none => rfl
    | some h' => exact ih (fun b hb' => hb b (List.mem_cons_of_mem _ hb')) h'

theorem weightIn_one {T : Type*} [AddCommMonoid T] (a : RegularAxis K) (i : ℕ) (l : List (K × T)) :
    weightIn [a] [i] (l.map (fun b => ([b.1], b.2))) =
      open Classical in ((l.filter (fun b => decide (edge a.min a.max a.nbins i ≤ b.1 ∧
        b.1 < edge a.min a.max a.nbins (i + 1)))).map (·.2)).sum := by
  classical
  unfold weightIn
  rw [List.filter_map, List.map_map]
  have h1 : ((fun s : List K × T => decide (InBins [a] [i] s.1)) ∘ fun b : K × T => ([b.1], b.2)) =
      fun b => decide (edge a.min a.max a.nbins i ≤ b.1 ∧ b.1 < edge a.min a.max a.nbins (i + 1)) := by
    funext b
    simp only [Function.comp_apply, decide_eq_decide]
    simp [InBins, InBin]
  have h2 : ((fun x : List K × T => x.2) ∘ fun b : K × T => ([b.1], b.2)) = fun b => b.2 := rfl
  rw [h1, h2]

/-- The counts of a one-dimensional histogram, as a list. -/
theorem data_of_at? {T : Type*} [AddCommMonoid T] (nb : ℕ) (c : MArray T) (hs : c.shape = [nb])
    (hw : WellFormed c) (f : ℕ → T)
    (h : ∀ i < nb, c.at? [i] = some (f i)) : c.data = (List.range nb).map f := by
  have hl : c.data.length = nb := by
    have := hw; unfold WellFormed at this; rw [hs] at this; simpa [MArray.size] using this
  refine List.ext_getElem (by simp [hl]) fun i h1 h2 => ?_
  have h3 := h i (by omega)
  unfold MArray.at? MArray.get? at h3
  have h4 : MArray.linIndex c.shape [i] = i := by simp [hs, MArray.linIndex]
  rw [h4, if_neg (by simp only [MArray.size]; omega), List.getElem?_eq_getElem h1] at h3
  simpa using h3

structure CFInv (a : RegularAxis K) (s : CorrelationFunction K V) (bs : List (K × V)) : Prop where
  bhc : ∃ k, BHCInv [a] s.bhc (bs.map (fun b => ([b.1], 1))) k
  loc : HistLocals [a] s.locals (bs.map (fun b => ([b.1], b.2)))
  shape : s.corr.shape = [a.nbins]
  wf : WellFormed s.corr
  red : s.bhc.needReduce = false → s.corr.data = (List.range a.nbins).map (fun i =>
    meanIn (edge a.min a.max a.nbins i) (edge a.min a.max a.nbins (i + 1)) bs)
  real : s.isComplex = false → ∀ b ∈ bs, star b.2 = b.2

theorem cf_read (a : RegularAxis K) (ha : AxisOK a) (s : CorrelationFunction K V)
    (bs : List (K × V)) (h : CFInv a s bs) (order : List ℕ)
    (hord : order.Perm (List.range a.nbins)) :
    ∃ s', s.getCorrelation order = some s' ∧ CFInv a s' bs ∧ s'.bhc.needReduce = false := by
  classical
  cases hn : s.bhc.needReduce with
  | false => exact ⟨s, by simp [CorrelationFunction.getCorrelation, hn], h, hn⟩
  | true =>
    obtain ⟨k, hb⟩ := h.bhc
    obtain ⟨b, out, e, hb', hc⟩ := bhc_step_inv [a] (by simpa using ha)
      (by simpa using ha.small) s.bhc _ _ hb (.read order) (by simpa [Legal] using hord)
    simp only [BHC.step, Option.map_eq_some_iff, Prod.mk.injEq] at e
    obtain ⟨⟨b', cs⟩, e, rfl, rfl⟩ := e
    have hbn : b'.needReduce = false ∧ cs = b'.histogram.counts := by
      simp only [BHC.getBinCounts, hn, if_true, Option.map_eq_some_iff, Prod.mk.injEq] at e
      obtain ⟨c', -, rfl, rfl⟩ := e
      exact ⟨rfl, rfl⟩
    have hcs : cs.data = (List.range a.nbins).map (fun i =>
        weightIn [a] [i] (bs.map (fun b => ([b.1], 1)))) := by
      refine data_of_at? a.nbins cs ?_ ?_ _ (fun i hi => hc cs rfl [i] (by simpa [ValidIndex] using hi))
      · rw [hbn.2, hb'.hok.shape, hb'.hax]; rfl
      · rw [hbn.2]; exact hb'.hok.wf
    obtain ⟨c, ec, hs, hw, hv⟩ := histReduce_spec [a] s.locals _ h.loc order (by simpa using hord)
      s.corr h.shape h.wf
    have hcd : c.data = (List.range a.nbins).map (fun i =>
        weightIn [a] [i] (bs.map (fun b => ([b.1], b.2)))) :=
      data_of_at? a.nbins c hs hw _ (fun i hi => hv [i] (by simpa [ValidIndex] using hi))
    refine ⟨{ s with
        bhc := b'
        corr := { c with data := CorrelationFunction.normalize cs.data c.data } },
      by simp only [CorrelationFunction.getCorrelation, hn, if_true, e, Option.bind_some, ec,
      Option.map_some], ⟨⟨k, hb'⟩, h.loc, hs, ?_, ?_, h.real⟩, hbn.1⟩
    · unfold WellFormed at hw ⊢
      simp only [MArray.size, CorrelationFunction.normalize, List.length_map, List.length_zip] at hw ⊢
      rw [hw, hcs]; simp [hs]
    · intro _
      simp only [CorrelationFunction.normalize]
      rw [hcs, hcd, List.zip_map', List.map_map]
      refine List.map_congr_left fun i _ => ?_
      simp only [Function.comp_apply]
      have h1 := weightIn_one a i (bs.map (fun b => (b.1, 1)))
      rw [List.map_map] at h1
      rw [show (bs.map (fun b => ([b.1], 1)) : List (List K × ℕ)) =
        bs.map ((fun b : K × ℕ => ([b.1], b.2)) ∘ fun b => (b.1, 1)) from rfl, h1,
        weightIn_one a i bs, List.filter_map, List.map_map]
      set p : K × V → Bool := fun b => decide (edge a.min a.max a.nbins i ≤ b.1 ∧
        b.1 < edge a.min a.max a.nbins (i + 1)) with hp
      have h2 : ((bs.filter ((fun b : K × ℕ => decide (edge a.min a.max a.nbins i ≤ b.1 ∧
          b.1 < edge a.min a.max a.nbins (i + 1))) ∘ fun b : K × V => (b.1, 1))).map
          ((fun x : K × ℕ => x.2) ∘ fun b : K × V => (b.1, 1))).sum = (bs.filter p).length := by
        rw [show ((fun x : K × ℕ => x.2) ∘ fun b : K × V => (b.1, 1)) = fun _ => 1 from rfl]
        rw [List.map_const', List.sum_replicate]
        simp only [smul_eq_mul, mul_one]; rfl
      rw [h2]
      unfold meanIn
      simp only [← hp]
      by_cases he : bs.filter p = []
      · simp [he]
      · rw [if_pos (by simpa using he), if_neg he]

theorem cf_step (a : RegularAxis K) (ha : AxisOK a) (s : CorrelationFunction K V)
    (bs : List (K × V)) (h : CFInv a s bs) (o : CorrelationFunction.Op K V)
    (ho : CFLegal a.nbins o) :
    ∃ s', s.step o = some s' ∧ CFInv a s' (cfProducts [o] bs) := by
  have hax : ∀ x ∈ [a], AxisOK x := by simpa using ha
  have hsz : (([a] : List (RegularAxis K)).map (·.nbins)).prod ≤ OVERFLOW_BIN := by simpa using ha.small
  cases o with
  | read order =>
    obtain ⟨s', e, h', -⟩ := cf_read a ha s bs h order ho
    exact ⟨s', e, h'⟩
  | reset =>
    obtain ⟨k, hb⟩ := h.bhc
    obtain ⟨b, out, e, hb', -⟩ := bhc_step_inv [a] hax hsz s.bhc _ _ hb .reset trivial
    simp only [BHC.step, Option.some.injEq, Prod.mk.injEq] at e
    refine ⟨s.reset, rfl, ⟨⟨0, ?_⟩, ⟨h.loc.ex, ?_, ?_⟩, ?_, ?_, ?_, ?_⟩⟩
    · rw [← e.1] at hb'; exact hb'
    · intro p hp
      obtain ⟨p0, hp0, rfl⟩ := List.mem_map.mp hp
      obtain ⟨hok, hax0⟩ := h.loc.ok p0 hp0
      refine ⟨⟨hok.axes, hok.shape, ?_, hok.small⟩, hax0⟩
      have := hok.wf
      unfold WellFormed at this ⊢
      simpa [Histogram.reset, MArray.reset, MArray.size] using this
    · intro idx _
      simp only [CorrelationFunction.reset, TLS.resetWith, List.map_map, cfProducts, List.map_nil]
      have : ∀ p : ℕ × Histogram K V, (Histogram.reset p.2).counts.data.getD
          (rowMajor idx (([a] : List (RegularAxis K)).map (·.nbins))) 0 = 0 := by
        intro p; simp only [Histogram.reset, MArray.reset]
        rw [List.getD_eq_getElem?_getD, List.getElem?_replicate]; split <;> rfl
      simp only [Function.comp_def, this]
      simp [weightIn]
    · simp only [CorrelationFunction.reset, MArray.mk', hb.hax]; rfl
    · simp [WellFormed, CorrelationFunction.reset, MArray.mk']
    · intro hn; simp [CorrelationFunction.reset, BHC.reset] at hn
    · intro _ b hb; simp [cfProducts] at hb
  | frame v w n bonds ev =>
    obtain ⟨hev, hbd⟩ := ho
    obtain ⟨k, hb⟩ := h.bhc
    have hlt : ∀ e ∈ ev, e.2 < n := fun e he =>
      List.mem_range.mp (hev.subset (List.mem_map_of_mem he))
    obtain ⟨b, out, e, hb', -⟩ := bhc_step_inv [a] hax hsz s.bhc _ _ hb
      (.frame n (fun i => (bonds i).map (fun b => ([b.distance], 1))) ev)
      ⟨hev, fun i _ s hs => by
        obtain ⟨x, -, rfl⟩ := List.mem_map.mp hs; rfl⟩
    simp only [BHC.step, Option.map_eq_some_iff, Prod.mk.injEq] at e
    obtain ⟨b', e, rfl, -⟩ := e
    obtain ⟨t, et, ht⟩ := histLocals_step [a] hax hsz s.locals _ h.loc n
      (fun i => (bonds i).map (fun b => ([b.distance],
        star (v.getD b.point 0) * w.getD b.query 0)))
      (fun i _ s hs => by obtain ⟨x, -, rfl⟩ := List.mem_map.mp hs; rfl) ev hev
    rw [← parallelFor_congr (fun i h => (bonds i).foldlM (CorrelationFunction.addBond v w) h) _ ev
      (fun e he => by
        funext h
        exact foldlM_addBond v w (bonds e.2) (hbd e.2 (hlt e he)) h)] at et
    refine ⟨{ s with
        bhc := b'
        locals := t
        isComplex := s.isComplex || v.any (fun v => decide (star v ≠ v)) ||
          w.any (fun v => decide (star v ≠ v)) },
      by simp only [CorrelationFunction.step, CorrelationFunction.accumulate, e,
      Option.bind_some, et, Option.map_some], ⟨⟨k + 1, ?_⟩, ?_, h.shape, h.wf, ?_, ?_⟩⟩
    · simpa [cfProducts, samplesSince, framesSince, List.map_flatMap, Function.comp_def] using hb'
    · simpa [cfProducts, List.map_flatMap, Function.comp_def] using ht
    · intro hn
      simp only [BHC.accumulate, Option.map_eq_some_iff] at e
      obtain ⟨l, -, rfl⟩ := e
      simp at hn
    · intro hc x hx
      simp only [Bool.or_eq_false_iff] at hc
      obtain ⟨⟨hc1, hc2⟩, hc3⟩ := hc
      have hv : ∀ y ∈ v, star y = y := by
        simpa using hc2
      have hw : ∀ y ∈ w, star y = y := by
        simpa using hc3
      have hg : ∀ (l : List V), (∀ y ∈ l, star y = y) → ∀ j, star (l.getD j 0) = l.getD j 0 := by
        intro l hl j
        rw [List.getD_eq_getElem?_getD]
        cases hj : l[j]? with
        | none => simp
        | some y => exact hl y (List.mem_of_getElem? hj)
      simp only [cfProducts, List.mem_append, List.mem_flatMap, List.mem_map] at hx
      rcases hx with hx | ⟨i, -, b, -, rfl⟩
      · exact h.real hc1 x hx
      · simp only [star_mul', star_star, hg v hv, hg w hw]

theorem cf_run (a : RegularAxis K) (ha : AxisOK a) (os : List (CorrelationFunction.Op K V)) :
    ∀ (s : CorrelationFunction K V) (bs : List (K × V)), CFInv a s bs →
      (∀ o ∈ os, CFLegal a.nbins o) → ∃ s', s.run os = some s' ∧ CFInv a s' (cfProducts os bs) := by
  induction os with
  | nil => intro s bs h _; exact ⟨s, rfl, h⟩
  | cons o os ih =>
    intro s bs h hl
    obtain ⟨s1, e1, h1⟩ := cf_step a ha s bs h o (hl o List.mem_cons_self)
    obtain ⟨s2, e2, h2⟩ := ih s1 _ h1 (fun o h => hl o (List.mem_cons_of_mem _ h))
    refine ⟨s2, by simp [CorrelationFunction.run, e1, e2], ?_⟩
    cases o <;> exact h2

theorem cf_new (a : RegularAxis K) (ha : AxisOK a) :
    CFInv a (CorrelationFunction.new a : CorrelationFunction K V) [] where
  bhc := ⟨0, bhc_new_inv [a] (by simpa using ha) (by simpa using ha.small)⟩
  loc := ⟨rfl, by simp [CorrelationFunction.new],
    by intro idx _; simp [CorrelationFunction.new, weightIn]⟩
  shape := rfl
  wf := by simp [WellFormed, CorrelationFunction.new, MArray.mk']
  red := by simp [CorrelationFunction.new, BHC.new]
  real := by simp

/-- **C36**: the constructor succeeds exactly for at least one bin and positive `r_max`. -/
theorem C36_constructor (bins : ℕ) (rMax : K) (a : RegularAxis K) :
    CorrelationFunction.mkAxis bins rMax = some a ↔ 1 ≤ bins ∧ 0 < rMax ∧ a = ⟨bins, 0, rMax⟩ := by
  unfold CorrelationFunction.mkAxis
  split_ifs with h1 h2
  · simp; omega
  · simp only [reduceCtorEq, false_iff]; rintro ⟨_, _, _⟩; linarith
  · simp only [Option.some.injEq]
    exact ⟨by rintro rfl; exact ⟨by omega, by linarith, rfl⟩, by rintro ⟨_, _, rfl⟩; rfl⟩

theorem meanIn_real (lo hi : K) (l : List (K × V)) (h : ∀ b ∈ l, star b.2 = b.2) :
    star (meanIn lo hi l) = meanIn lo hi l := by
  classical
  unfold meanIn
  simp only
  split_ifs
  · simp
  · rw [star_div₀, star_natCast]
    congr 1
    have : ∀ l' : List (K × V), (∀ b ∈ l', star b.2 = b.2) →
        star (l'.map (·.2)).sum = (l'.map (·.2)).sum := by
      intro l' h'
      induction l' with
      | nil => simp
      | cons b l' ih =>
        rw [List.map_cons, List.sum_cons, star_add, h' b List.mem_cons_self,
          ih (fun b hb => h' b (List.mem_cons_of_mem _ hb))]
    exact this _ (fun b hb => h b (List.mem_filter.mp hb).1)

/-- **C36**: after every history of resets, frames (each under any thread schedule) and reads,
reading `correlation` succeeds and returns for every bin the mean of
`conj(value) * query_value` over all bonds of the frames since the last reset whose distance lies
between the edges of the bin, and zero for a bin without bonds. This holds although only the real
part is returned when no value of those frames was complex. -/
theorem C36_correlation (bins : ℕ) (rMax : K) (a : RegularAxis K)
    (ha : CorrelationFunction.mkAxis bins rMax = some a) (hb : bins ≤ OVERFLOW_BIN)
    (history : List (CorrelationFunction.Op K V)) (hl : ∀ o ∈ history, CFLegal bins o)
    (order : List ℕ) (hord : order.Perm (List.range bins)) :
    ∃ s s', (CorrelationFunction.new a : CorrelationFunction K V).run history = some s ∧
      s.getCorrelation order = some s' ∧
      s'.output = (List.range bins).map (fun i =>
        meanIn (edge 0 rMax bins i) (edge 0 rMax bins (i + 1)) (cfProducts history [])) := by
  obtain ⟨h1, h2, rfl⟩ := (C36_constructor bins rMax a).mp ha
  have hok : AxisOK (⟨bins, 0, rMax⟩ : RegularAxis K) := ⟨h1, hb, h2⟩
  obtain ⟨s, e, h⟩ := cf_run _ hok history _ _ (cf_new _ hok) hl
  obtain ⟨s', e', h', hn⟩ := cf_read _ hok s _ h order hord
  refine ⟨s, s', e, e', ?_⟩
  unfold CorrelationFunction.output
  have hr := h'.red hn
  split_ifs with hc
  · exact hr
  · rw [hr, List.map_map]
    refine List.map_congr_left fun i _ => ?_
    have := meanIn_real (edge 0 rMax bins i) (edge 0 rMax bins (i + 1)) (cfProducts history [])
      (h'.real (by simpa using hc))
    simp only [Function.comp_apply]
    rw [this]
    ring

/-- The hypotheses hold for a history of two frames with complex values and reads in between. -/
noncomputable example : ∃ history : List (CorrelationFunction.Op ℚ ℂ),
    (∀ o ∈ history, CFLegal 2 o) ∧ (cfProducts history []).length = 4 :=
  ⟨[.frame [1, Complex.I] [2, Complex.I] 2 (fun i => [⟨i, 1 - i, 1 / 2⟩]) [(0, 1), (1, 0)],
      .read [1, 0],
      .frame [1, Complex.I] [2, Complex.I] 2 (fun i => [⟨i, 1 - i, 3 / 2⟩]) [(0, 0), (0, 1)]], by
    intro o ho
    simp only [List.mem_cons, List.not_mem_nil, or_false] at ho
    rcases ho with rfl | rfl | rfl
    · refine ⟨by unfold IsExecution; decide, fun i hi b hb => ?_⟩
      simp only [List.mem_singleton] at hb
      subst hb
      simp only [List.length_cons, List.length_nil]; omega
    · simp only [CFLegal]; decide
    · refine ⟨by unfold IsExecution; decide, fun i hi b hb => ?_⟩
      simp only [List.mem_singleton] at hb
      subst hb
      simp only [List.length_cons, List.length_nil]; omega, by simp [cfProducts]⟩

/-- **C36** (exception): if separate query points are given without `query_values`, the values of
the points are used for the query points too. With more query points than points the loop then
reads beyond the end of the array: no result (here an error of the model, undefined behaviour in
the code) although every argument is accepted. The history has 1 point and 2 query points. -/
theorem C36_default_query_values_counterexample (v : V) (a : RegularAxis ℚ) (d : ℚ) :
    (CorrelationFunction.new a : CorrelationFunction ℚ V).run
      [.frame [v] [v] 2 (fun i => [⟨i, 0, d⟩]) [(0, 1), (0, 0)]] = none := by
  simp only [CorrelationFunction.run, CorrelationFunction.step, CorrelationFunction.accumulate,
    CorrelationFunction.new]
  simp [TLS.parallelFor, TLS.step, TLS.upd, CorrelationFunction.addBond]

end Freud
