import Verif.Spec.PMFT
import Verif.Lemmas.HistCompute
import Mathlib.Tactic.Ring
import Mathlib.Tactic.FieldSimp

/-! # Lemmas on PMFT histories -/

namespace Freud
open Spec PMFT
variable {K : Type*} [Field K] [LinearOrder K] [IsStrictOrderedRing K] [FloorRing K]
variable {C F : Type*}

set_option linter.unusedSectionVars false

/-- The operations on the histogram compute that a history of calls amounts to. -/
def pmftTrans (check : C → Attempt K → C × Bool) (c0 : C) : C → List (PMFT.Op K) →
    List (HistCompute.Op K C (FrameInfo K))
  | _, [] => []
  | _, .reset :: os => .reset :: .setCfg c0 :: pmftTrans check c0 c0 os
  | c, .accumulate a :: os => .setCfg (check c a).1 ::
      (if (check c a).2 then .frame a.info a.n a.samples a.ev :: pmftTrans check c0 (check c a).1 os
        else pmftTrans check c0 (check c a).1 os)
  | c, .read o :: os => .read o :: pmftTrans check c0 c os

theorem hc_step_cfg (fill : C → FrameInfo K → ℕ → List ℕ → List K) (zero : List K)
    (s s' : HistCompute K C (FrameInfo K) (List K)) (o : HistCompute.Op K C (FrameInfo K))
    (h : s.step fill zero o = some s') (ho : ∀ c, o ≠ .setCfg c) : s'.cfg = s.cfg := by
  cases o with
  | reset => simp only [HistCompute.step, Option.some.injEq] at h; rw [← h]
  | frame i n f ev =>
    simp only [HistCompute.step, Option.map_eq_some_iff] at h
    obtain ⟨_, -, rfl⟩ := h; rfl
  | setCfg c => exact absurd rfl (ho c)
  | read order =>
    simp only [HistCompute.step, HistCompute.refresh] at h
    split at h
    · simp only [Option.map_eq_some_iff] at h
      obtain ⟨_, -, rfl⟩ := h; rfl
    · simp only [Option.some.injEq] at h; rw [h]

theorem pmft_run_eq (check : C → Attempt K → C × Bool) (c0 : C)
    (fill : C → FrameInfo K → ℕ → List ℕ → List K) (zero : List K) (os : List (PMFT.Op K)) :
    ∀ s : HistCompute K C (FrameInfo K) (List K),
    PMFT.run check c0 fill zero s os = s.run fill zero (pmftTrans check c0 s.cfg os) := by
  induction os with
  | nil => intro s; rfl
  | cons o os ih =>
    intro s
    cases o with
    | reset =>
      simp only [PMFT.run, PMFT.step, HistCompute.step, Option.map_some, Option.bind_some, pmftTrans,
        HistCompute.run]
      rw [ih]
    | accumulate a =>
      simp only [PMFT.run, PMFT.step, pmftTrans, HistCompute.run]
      rw [show s.step fill zero (.setCfg (check s.cfg a).1) =
        some { s with cfg := (check s.cfg a).1 } from rfl, Option.bind_some]
      split
      · rename_i hc
        simp only [HistCompute.run]
        cases hs : HistCompute.step fill zero { s with cfg := (check s.cfg a).1 }
            (.frame a.info a.n a.samples a.ev) with
        | none => rfl
        | some s' =>
          simp only [Option.map_some, Option.bind_some]
          rw [ih, hc_step_cfg fill zero _ _ _ hs (by simp)]
      · simp only [Option.bind_some]
        rw [ih]
    | read order =>
      simp only [PMFT.run, PMFT.step, pmftTrans, HistCompute.run, HistCompute.step]
      cases hs : HistCompute.refresh fill s order with
      | none => rfl
      | some s' =>
        simp only [Option.map_some, Option.bind_some]
        rw [ih, hc_step_cfg fill zero s s' (.read order) hs (by simp)]

theorem pmftTrans_legal (check : C → Attempt K → C × Bool) (c0 : C) (axes : List (RegularAxis K))
    (os : List (PMFT.Op K)) : ∀ c, (∀ o ∈ os, PMFTLegal axes o) →
    ∀ o ∈ pmftTrans check c0 c os, HCLegalOp axes o := by
  induction os with
  | nil => intro c _ o ho; simp [pmftTrans] at ho
  | cons o os ih =>
    intro c hl p hp
    have hl' : ∀ o ∈ os, PMFTLegal axes o := fun o h => hl o (List.mem_cons_of_mem _ h)
    have ho := hl o List.mem_cons_self
    cases o with
    | reset =>
      simp only [pmftTrans, List.mem_cons] at hp
      rcases hp with rfl | rfl | hp
      · trivial
      · trivial
      · exact ih _ hl' p hp
    | accumulate a =>
      simp only [pmftTrans, List.mem_cons] at hp
      rcases hp with rfl | hp
      · trivial
      · split at hp
        · rcases List.mem_cons.mp hp with rfl | hp
          · exact ⟨ho.1, ho.2.1⟩
          · exact ih _ hl' p hp
        · exact ih _ hl' p hp
    | read order =>
      simp only [pmftTrans, List.mem_cons] at hp
      rcases hp with rfl | hp
      · exact ho
      · exact ih _ hl' p hp

theorem lastInfo_frames (os : List (HistCompute.Op K C F)) :
    ∀ (acc : List (F × List (List K))) (i : F), (∀ f, acc.getLast? = some f → f.1 = i) →
    ∀ f, (frames os acc).getLast? = some f → f.1 = lastInfo os i := by
  induction os with
  | nil => intro acc i h f hf; exact h f hf
  | cons o os ih =>
    intro acc i h f hf
    cases o with
    | reset => exact ih [] i (by simp) f hf
    | frame info n g ev =>
      exact ih (acc ++ [(info, (List.range n).flatMap g)]) info (by simp) f hf
    | setCfg c => exact ih acc i h f hf
    | read o => exact ih acc i h f hf

theorem frames_trans2D (os : List (PMFT.Op K)) : ∀ acc,
    frames (pmftTrans check2D () () os) acc = frames2D os acc := by
  induction os with
  | nil => intro acc; rfl
  | cons o os ih =>
    intro acc
    cases o with
    | reset => exact ih []
    | accumulate a =>
      have e : (check2D () a).2 = a.info.box.is2D := rfl
      simp only [pmftTrans, frames, frames2D]
      by_cases h : a.info.box.is2D = true
      · rw [if_pos (e.trans h), if_pos h]
        exact ih _
      · rw [if_neg (by rw [e]; exact h), if_neg h]
        exact ih _
    | read o => exact ih acc

theorem frames_transXYZ (axes : List (RegularAxis K)) (os : List (PMFT.Op K)) : ∀ (k : Option ℕ) acc,
    (∀ o ∈ os, PMFTLegal axes o) → (∀ n, k = some n → n ≠ NO_NUMBER) →
    frames (pmftTrans checkXYZ NO_NUMBER (k.getD NO_NUMBER) os) acc = framesXYZ os k acc := by
  induction os with
  | nil => intro k acc _ _; rfl
  | cons o os ih =>
    intro k acc hl hk
    have hl' : ∀ o ∈ os, PMFTLegal axes o := fun o h => hl o (List.mem_cons_of_mem _ h)
    have ho := hl o List.mem_cons_self
    cases o with
    | reset => exact ih none [] hl' (by simp)
    | accumulate a =>
      have e1 : (checkXYZ (k.getD NO_NUMBER) a).1 = k.getD a.numEquiv := by
        cases k with
        | none => simp [checkXYZ]
        | some n =>
          simp only [Option.getD_some, checkXYZ, if_neg (hk n rfl)]
          split <;> rfl
      have e2 : (checkXYZ (k.getD NO_NUMBER) a).2 = true ↔
          (k.getD a.numEquiv = a.numEquiv ∧ a.info.box.is2D = false) := by
        cases k with
        | none => simp [checkXYZ]
        | some n =>
          simp only [Option.getD_some, checkXYZ, if_neg (hk n rfl)]
          split
          · rename_i h; simp [h]
          · rename_i h; push Not at h; simp [h]
      have hk' : ∀ m, some (k.getD a.numEquiv) = some m → m ≠ NO_NUMBER := by
        rintro m h
        obtain rfl : k.getD a.numEquiv = m := by simpa using h
        cases k with
        | none => exact ho.2.2
        | some n => exact hk n rfl
      have hrec := fun acc => ih (some (k.getD a.numEquiv)) acc hl' hk'
      simp only [pmftTrans, frames, framesXYZ, e1]
      split
      · rename_i h
        rw [if_pos (e2.mp h)]
        simp only [frames]; exact hrec _
      · rename_i h
        rw [if_neg (fun hh => h (e2.mpr hh))]
        exact hrec _
    | read o => exact ih k acc hl' hk

theorem cfgUsed_transXYZ (axes : List (RegularAxis K)) (os : List (PMFT.Op K)) :
    ∀ (k : Option ℕ) acc (cur : ℕ) (used : Option ℕ),
    (∀ o ∈ os, PMFTLegal axes o) → (∀ n, k = some n → n ≠ NO_NUMBER) →
    cur = k.getD NO_NUMBER →
    (acc ≠ [] → ∃ n, k = some n ∧ (used = none ∨ used = some n)) →
    framesXYZ os k acc ≠ [] →
    ∃ n, firstNumber os k = some n ∧
      cfgUsed (pmftTrans checkXYZ NO_NUMBER (k.getD NO_NUMBER) os) cur used = n := by
  induction os with
  | nil =>
    intro k acc cur used _ _ hc hu hne
    obtain ⟨n, rfl, h⟩ := hu hne
    refine ⟨n, rfl, ?_⟩
    rcases h with rfl | rfl
    · simpa [pmftTrans, cfgUsed] using hc
    · simp [pmftTrans, cfgUsed]
  | cons o os ih =>
    intro k acc cur used hl hk hc hu hne
    have hl' : ∀ o ∈ os, PMFTLegal axes o := fun o h => hl o (List.mem_cons_of_mem _ h)
    have ho := hl o List.mem_cons_self
    cases o with
    | reset => exact ih none [] NO_NUMBER none hl' (by simp) rfl (by simp) hne
    | accumulate a =>
      have e1 : (checkXYZ (k.getD NO_NUMBER) a).1 = k.getD a.numEquiv := by
        cases k with
        | none => simp [checkXYZ]
        | some n =>
          simp only [Option.getD_some, checkXYZ, if_neg (hk n rfl)]
          split <;> rfl
      have e2 : (checkXYZ (k.getD NO_NUMBER) a).2 = true ↔
          (k.getD a.numEquiv = a.numEquiv ∧ a.info.box.is2D = false) := by
        cases k with
        | none => simp [checkXYZ]
        | some n =>
          simp only [Option.getD_some, checkXYZ, if_neg (hk n rfl)]
          split
          · rename_i h; simp [h]
          · rename_i h; push Not at h; simp [h]
      have hk' : ∀ m, some (k.getD a.numEquiv) = some m → m ≠ NO_NUMBER := by
        rintro m h
        obtain rfl : k.getD a.numEquiv = m := by simpa using h
        cases k with
        | none => exact ho.2.2
        | some n => exact hk n rfl
      simp only [firstNumber, pmftTrans, e1]
      simp only [framesXYZ] at hne
      split
      · rename_i h
        rw [if_pos (e2.mp h)] at hne
        exact ih (some (k.getD a.numEquiv)) _ _ none hl' hk' rfl (fun _ => ⟨_, rfl, Or.inl rfl⟩) hne
      · rename_i h
        rw [if_neg (fun hh => h (e2.mpr hh))] at hne
        refine ih (some (k.getD a.numEquiv)) acc _ used hl' hk' rfl (fun ha => ?_) hne
        obtain ⟨n, rfl, hn⟩ := hu ha
        exact ⟨n, rfl, hn⟩
    | read o =>
      simp only [firstNumber, pmftTrans]
      refine ih k acc cur (some (used.getD cur)) hl' hk hc (fun ha => ?_) hne
      obtain ⟨n, rfl, hn⟩ := hu ha
      refine ⟨n, rfl, Or.inr ?_⟩
      rcases hn with rfl | rfl
      · simpa using hc
      · rfl

/-- Reading the flat result array at a multi-index. -/
theorem fill_at {s : BHC K ℕ} (axes : List (RegularAxis K)) (hh : HistOK s.histogram)
    (hax : s.histogram.axes = axes) (idx : List ℕ) (hi : ValidIndex idx (axes.map (·.nbins))) (c : ℕ)
    (hc : s.histogram.counts.at? idx = some c) (g : ℕ → K) :
    ((List.range s.histogram.counts.data.length).map (fun i =>
        (s.histogram.counts.data.getD i 0 : K) * g i))[rowMajor idx (axes.map (·.nbins))]? =
      some ((c : K) * g (rowMajor idx (axes.map (·.nbins)))) := by
  have h5 := at?_eq_getD hh (idx := idx) (by rw [hax]; exact hi)
  rw [hax, hc, Option.some.injEq] at h5
  have hlen : s.histogram.counts.data.length = (axes.map (·.nbins)).prod := by
    have h1 := hh.wf
    have h2 := hh.shape
    rw [hax] at h2
    unfold WellFormed at h1
    rw [h1, h2]
  rw [List.getElem?_map, List.getElem?_range (by rw [hlen]; exact h5.2), Option.map_some, ← h5.1]

theorem fill_length {s : BHC K ℕ} (axes : List (RegularAxis K)) (hh : HistOK s.histogram)
    (hax : s.histogram.axes = axes) :
    s.histogram.counts.data.length = (axes.map (·.nbins)).prod := by
  have h1 := hh.wf
  have h2 := hh.shape
  rw [hax] at h2
  unfold WellFormed at h1
  rw [h1, h2]

theorem binLength_eq (lo hi : K) (n i : ℕ) : binLength lo hi n i = (hi - lo) / n := by
  unfold binLength edge; push_cast; ring

end Freud
