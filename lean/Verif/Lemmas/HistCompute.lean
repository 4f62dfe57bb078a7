import Verif.Spec.HistCompute

/-! # Lemmas on histogram computes -/

namespace Freud
open Spec
variable {K : Type*} [Field K] [LinearOrder K] [IsStrictOrderedRing K] [FloorRing K]
variable {C F R : Type*}

set_option linter.unusedSectionVars false

/-- Samples with weight 1. -/
abbrev unitWeights (l : List (List K)) : List (List K × ℕ) := l.map (fun v => (v, 1))

theorem weightIn_unit (axes : List (RegularAxis K)) (idx : List ℕ) (l : List (List K)) :
    weightIn axes idx (unitWeights l) = countIn axes idx l := by
  classical
  unfold weightIn countIn unitWeights
  induction l with
  | nil => rfl
  | cons a l ih =>
    by_cases h : InBins axes idx a
    · simp only [List.map_cons, List.filter_cons, h, decide_true, if_true, List.sum_cons,
        List.length_cons]
      rw [ih]; omega
    · simp only [List.map_cons, List.filter_cons, h, decide_false, Bool.false_eq_true, if_false]
      exact ih

/-- The invariant of a histogram compute. `used` is the configuration of the stored result. -/
structure HCInv (fill : C → F → ℕ → List ℕ → R) (axes : List (RegularAxis K))
    (s : HistCompute K C F R) (fs : List (F × List (List K))) (info : F) (cur : C)
    (used : Option C) : Prop where
  bhc : BHCInv axes s.bhc (unitWeights (fs.flatMap (·.2))) fs.length
  hinfo : s.info = info
  hcfg : s.cfg = cur
  hred : s.bhc.needReduce = used.isNone
  hout : ∀ c, used = some c → s.out = fill c info fs.length s.bhc.histogram.counts.data

theorem hc_step_inv (fill : C → F → ℕ → List ℕ → R) (zero : R) (axes : List (RegularAxis K))
    (hax : ∀ a ∈ axes, AxisOK a) (hs : (axes.map (·.nbins)).prod ≤ OVERFLOW_BIN)
    (s : HistCompute K C F R) (fs info cur used) (h : HCInv fill axes s fs info cur used)
    (o : HistCompute.Op K C F) (ho : HCLegalOp axes o) :
    ∃ s' cur' used', s.step fill zero o = some s' ∧
      HCInv fill axes s' (frames [o] fs) (lastInfo [o] info) cur' used' ∧
      (∀ os, cfgUsed (o :: os) cur used = cfgUsed os cur' used') := by
  cases o with
  | reset =>
    obtain ⟨b, out, e, hb, -⟩ := bhc_step_inv axes hax hs s.bhc _ _ h.bhc .reset trivial
    simp only [BHC.step, Option.some.injEq, Prod.mk.injEq] at e
    refine ⟨_, cur, none, rfl, ⟨?_, h.hinfo, h.hcfg, rfl, by simp⟩, fun _ => rfl⟩
    simpa [frames, samplesSince, framesSince, e.1] using hb
  | frame i n f ev =>
    obtain ⟨b, out, e, hb, -⟩ := bhc_step_inv axes hax hs s.bhc _ _ h.bhc
      (.frame n (fun i => unitWeights (f i)) ev) ⟨ho.1, fun i hi s hs => by
        obtain ⟨v, hv, rfl⟩ := List.mem_map.mp hs
        exact ho.2 i hi v hv⟩
    simp only [BHC.step, Option.map_eq_some_iff, Prod.mk.injEq] at e
    obtain ⟨b', e, rfl, -⟩ := e
    refine ⟨{ s with bhc := b', info := i }, cur, none,
      by simp only [HistCompute.step, e, Option.map_some],
      ⟨?_, rfl, h.hcfg, ?_, by simp⟩, fun _ => rfl⟩
    · simpa [frames, samplesSince, framesSince, List.map_flatMap, unitWeights] using hb
    · simp only [BHC.accumulate, Option.map_eq_some_iff] at e
      obtain ⟨l, -, rfl⟩ := e
      rfl
  | setCfg c =>
    exact ⟨_, c, used, rfl, ⟨h.bhc, h.hinfo, rfl, h.hred, h.hout⟩, fun _ => rfl⟩
  | read order =>
    cases used with
    | some c =>
      refine ⟨s, cur, some c, ?_, h, fun _ => rfl⟩
      simp [HistCompute.step, HistCompute.refresh, h.hred]
    | none =>
      obtain ⟨b, out, e, hb, -⟩ := bhc_step_inv axes hax hs s.bhc _ _ h.bhc (.read order) ho
      simp only [BHC.step, Option.map_eq_some_iff, Prod.mk.injEq] at e
      obtain ⟨⟨b', cs⟩, e, rfl, -⟩ := e
      refine ⟨{ s with bhc := b', out := fill s.cfg s.info b'.frameCounter cs.data }, cur,
        some cur, by
        simp only [HistCompute.step, HistCompute.refresh, h.hred, Option.isNone_none, if_true, e,
          Option.map_some], ⟨hb, h.hinfo, h.hcfg, ?_, ?_⟩, fun _ => rfl⟩
      · simp only [BHC.getBinCounts, h.hred, Option.isNone_none, if_true,
          Option.map_eq_some_iff, Prod.mk.injEq] at e
        obtain ⟨c', -, rfl, -⟩ := e
        rfl
      · intro c hc
        obtain rfl : cur = c := by simpa using hc
        have hc' : cs = b'.histogram.counts := by
          simp only [BHC.getBinCounts, h.hred, Option.isNone_none, if_true,
            Option.map_eq_some_iff, Prod.mk.injEq] at e
          obtain ⟨c', -, rfl, rfl⟩ := e
          rfl
        simp only [h.hcfg, h.hinfo, hc', lastInfo]
        congr 1
        simpa [frames, framesSince] using hb.cnt

theorem hc_run_inv (fill : C → F → ℕ → List ℕ → R) (zero : R) (axes : List (RegularAxis K))
    (hax : ∀ a ∈ axes, AxisOK a) (hs : (axes.map (·.nbins)).prod ≤ OVERFLOW_BIN)
    (os : List (HistCompute.Op K C F)) : ∀ (s : HistCompute K C F R) (fs info cur used),
    HCInv fill axes s fs info cur used → (∀ o ∈ os, HCLegalOp axes o) →
    ∃ s' cur' used', s.run fill zero os = some s' ∧
      HCInv fill axes s' (frames os fs) (lastInfo os info) cur' used' ∧
      cfgUsed os cur used = used'.getD cur' := by
  induction os with
  | nil => intro s fs info cur used h _; exact ⟨s, cur, used, rfl, h, rfl⟩
  | cons o os ih =>
    intro s fs info cur used h hl
    obtain ⟨s1, c1, u1, e1, h1, hc1⟩ :=
      hc_step_inv fill zero axes hax hs s fs info cur used h o (hl o List.mem_cons_self)
    obtain ⟨s2, c2, u2, e2, h2, hc2⟩ := ih s1 _ _ _ _ h1 (fun o h => hl o (List.mem_cons_of_mem _ h))
    refine ⟨s2, c2, u2, by simp [HistCompute.run, e1, e2], ?_, by rw [hc1, hc2]⟩
    cases o <;> exact h2

theorem hc_new_inv (fill : C → F → ℕ → List ℕ → R) (axes : List (RegularAxis K))
    (hax : ∀ a ∈ axes, AxisOK a) (hs : (axes.map (·.nbins)).prod ≤ OVERFLOW_BIN)
    (cfg : C) (info : F) (out : R) :
    HCInv fill axes (HistCompute.new axes cfg info out) [] info cfg none :=
  ⟨bhc_new_inv axes hax hs, rfl, rfl, rfl, by simp⟩

/-- After any history a read succeeds, and what it leaves in the result arrays is `fill` of the
configuration used, the last frame, the number of frames since the last reset and exact counts. -/
theorem hc_read (fill : C → F → ℕ → List ℕ → R) (zero : R) (axes : List (RegularAxis K))
    (hax : ∀ a ∈ axes, AxisOK a) (hs : (axes.map (·.nbins)).prod ≤ OVERFLOW_BIN)
    (cfg : C) (info : F) (history : List (HistCompute.Op K C F))
    (hl : ∀ o ∈ history, HCLegalOp axes o) (order : List ℕ)
    (hord : order.Perm (List.range (axes.map (·.nbins)).prod)) :
    ∃ s s', (HistCompute.new axes cfg info zero).run fill zero history = some s ∧
      s.refresh fill order = some s' ∧
      s'.out = fill (cfgUsed history cfg none) (lastInfo history info) (frames history []).length
        s'.bhc.histogram.counts.data ∧
      HistOK s'.bhc.histogram ∧ s'.bhc.histogram.axes = axes ∧
      ∀ idx, ValidIndex idx (axes.map (·.nbins)) →
        s'.bhc.histogram.counts.at? idx =
          some (countIn axes idx ((frames history []).flatMap (·.2))) := by
  obtain ⟨s, c, u, e, h, hc⟩ := hc_run_inv fill zero axes hax hs history _ _ _ _ _
    (hc_new_inv fill axes hax hs cfg info zero) hl
  obtain ⟨s', c', u', e', h', hc'⟩ := hc_step_inv fill zero axes hax hs s _ _ _ _ h (.read order) hord
  have hcc := hc' []
  have hu : ∃ cc, u' = some cc := by
    cases u' with
    | some cc => exact ⟨cc, rfl⟩
    | none =>
      exfalso
      have hr := h'.hred
      simp only [HistCompute.step, HistCompute.refresh] at e'
      split at e'
      · rename_i hn
        simp only [Option.map_eq_some_iff] at e'
        obtain ⟨⟨b, cs⟩, e1, rfl⟩ := e'
        simp only [BHC.getBinCounts, hn, if_true, Option.map_eq_some_iff, Prod.mk.injEq] at e1
        obtain ⟨_, -, rfl, -⟩ := e1
        simp at hr
      · rename_i hn
        obtain rfl : s = s' := by simpa using e'
        simp [hr] at hn
  obtain ⟨cc, rfl⟩ := hu
  refine ⟨s, s', e, e', ?_, h'.bhc.hok, h'.bhc.hax, ?_⟩
  · rw [h'.hout cc rfl, hc]
    simp only [cfgUsed, Option.getD_some] at hcc
    rw [← hcc]; rfl
  · have := h'.bhc.red (by simpa using h'.hred)
    intro idx hi
    rw [← weightIn_unit]
    simpa [frames] using this idx hi

end Freud
