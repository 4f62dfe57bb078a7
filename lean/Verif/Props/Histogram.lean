import Verif.Model.Histogram
import Verif.Spec.Histogram
import Verif.Lemmas.Box
import Verif.Props.MArray
import Mathlib.Data.Rat.Floor

/-!
# Properties C10, C11: histogram binning and counting
-/

set_option linter.unusedSectionVars false

namespace Freud
open Spec
variable {K : Type*} [Field K] [LinearOrder K] [IsStrictOrderedRing K] [FloorRing K]

/-- An axis a user can build: at least one bin (and fewer than the sentinel value), and a
non-empty range. -/
structure Spec.AxisOK (a : RegularAxis K) : Prop where
  pos : 1 ≤ a.nbins
  small : a.nbins ≤ OVERFLOW_BIN
  range : a.min < a.max

theorem binWidth_pos {a : RegularAxis K} (h : AxisOK a) : 0 < a.binWidth := by
  have : (0 : K) < a.nbins := by exact_mod_cast h.pos
  exact div_pos (by linarith [h.range]) this

theorem edge_eq (a : RegularAxis K) (i : ℕ) :
    edge a.min a.max a.nbins i = a.min + (i : K) * a.binWidth := rfl

theorem bin_in_range {a : RegularAxis K} (h : AxisOK a) {v : K} (h1 : a.min ≤ v)
    (h2 : v < a.max) :
    a.bin v = ⌊(v - a.min) / a.binWidth⌋.toNat ∧ a.bin v < a.nbins := by
  have hw := binWidth_pos h
  have hn : (0 : K) < a.nbins := by exact_mod_cast h.pos
  have hq0 : 0 ≤ (v - a.min) / a.binWidth := div_nonneg (by linarith) hw.le
  have hq1 : (v - a.min) / a.binWidth < a.nbins := by
    rw [div_lt_iff₀ hw]
    have : (a.nbins : K) * a.binWidth = a.max - a.min := by
      unfold RegularAxis.binWidth; field_simp
    rw [this]; linarith
  have hfl : ⌊(v - a.min) / a.binWidth⌋.toNat < a.nbins := by
    have h0 : 0 ≤ ⌊(v - a.min) / a.binWidth⌋ := Int.floor_nonneg.mpr hq0
    have h3 : ⌊(v - a.min) / a.binWidth⌋ < (a.nbins : ℤ) := by
      rw [Int.floor_lt]; exact_mod_cast hq1
    omega
  have e : a.bin v = ⌊(v - a.min) / a.binWidth⌋.toNat := by
    unfold RegularAxis.bin
    rw [if_neg (by push Not; exact ⟨h1, h2⟩)]
    have e1 : (v - a.min) * a.invWidth = (v - a.min) / a.binWidth := by
      simp [RegularAxis.invWidth, div_eq_mul_inv]
    simp only [e1, trunc_of_nonneg hq0]
    rw [if_neg (by omega)]
  exact ⟨e, e ▸ hfl⟩

/-- **C10**: on an axis with at least one bin and `min < max`, a value is put in bin `i`
exactly when it lies in the half-open interval between the edges `i` and `i + 1`. -/
theorem C10_bin_iff (a : RegularAxis K) (h : AxisOK a) (v : K) (i : ℕ) (hi : i < a.nbins) :
    a.bin v = i ↔ InBin a.min a.max a.nbins i v := by
  have hw := binWidth_pos h
  have hn : (0 : K) < a.nbins := by exact_mod_cast h.pos
  have htop : (a.nbins : K) * a.binWidth = a.max - a.min := by
    unfold RegularAxis.binWidth; field_simp
  unfold InBin
  rw [edge_eq, edge_eq]
  constructor
  · intro hb
    by_cases hr : a.min ≤ v ∧ v < a.max
    · obtain ⟨e, -⟩ := bin_in_range h hr.1 hr.2
      have hq0 : 0 ≤ (v - a.min) / a.binWidth := div_nonneg (by linarith [hr.1]) hw.le
      have h0 : 0 ≤ ⌊(v - a.min) / a.binWidth⌋ := Int.floor_nonneg.mpr hq0
      have e2 : ⌊(v - a.min) / a.binWidth⌋ = (i : ℤ) := by omega
      rw [Int.floor_eq_iff] at e2
      obtain ⟨e3, e4⟩ := e2
      rw [le_div_iff₀ hw] at e3
      rw [div_lt_iff₀ hw] at e4
      push_cast at e3 e4 ⊢
      constructor <;> linarith
    · exfalso
      have : a.bin v = OVERFLOW_BIN := by
        unfold RegularAxis.bin
        rw [if_pos (by by_contra hc; push Not at hc; exact hr hc)]
      have := h.small
      omega
  · rintro ⟨h1, h2⟩
    have hi' : ((i : K) + 1) ≤ a.nbins := by exact_mod_cast hi
    have h3 : a.min ≤ v := by
      have : (0 : K) ≤ i * a.binWidth := mul_nonneg (Nat.cast_nonneg i) hw.le
      linarith
    have h4 : v < a.max := by
      push_cast at h2
      have : ((i : K) + 1) * a.binWidth ≤ a.nbins * a.binWidth :=
        mul_le_mul_of_nonneg_right hi' hw.le
      linarith
    rw [(bin_in_range h h3 h4).1]
    have e : ⌊(v - a.min) / a.binWidth⌋ = (i : ℤ) := by
      rw [Int.floor_eq_iff, le_div_iff₀ hw, div_lt_iff₀ hw]
      push_cast at h1 h2 ⊢
      constructor <;> linarith
    rw [e]; rfl

/-- **C10**: a value outside `[min, max)` is in no bin; a value inside is in a real bin. -/
theorem C10_overflow_iff (a : RegularAxis K) (h : AxisOK a) (v : K) :
    (a.bin v = OVERFLOW_BIN ↔ v < a.min ∨ a.max ≤ v) ∧
    (a.min ≤ v ∧ v < a.max → a.bin v < a.nbins) := by
  refine ⟨⟨fun hb => ?_, fun hb => ?_⟩, fun hr => (bin_in_range h hr.1 hr.2).2⟩
  · by_contra hc
    push Not at hc
    have := (bin_in_range h hc.1 hc.2).2
    have := h.small
    omega
  · unfold RegularAxis.bin; rw [if_pos hb]

/-- **C10**: the reported edges start at `min`, end at `max`, are strictly increasing and there
is one more of them than bins. -/
theorem C10_edges (a : RegularAxis K) (h : AxisOK a) :
    a.binEdges.length = a.nbins + 1 ∧
    (∀ i, i ≤ a.nbins → a.binEdges[i]? = some (edge a.min a.max a.nbins i)) ∧
    edge a.min a.max a.nbins 0 = a.min ∧ edge a.min a.max a.nbins a.nbins = a.max ∧
    (∀ i j, i < j → edge a.min a.max a.nbins i < edge a.min a.max a.nbins j) := by
  have hw := binWidth_pos h
  have hn : (0 : K) < a.nbins := by exact_mod_cast h.pos
  refine ⟨by simp [RegularAxis.binEdges], fun i hi => ?_, by simp [edge], ?_, ?_⟩
  · rw [edge_eq]
    simp only [RegularAxis.binEdges, List.getElem?_map]
    rw [List.getElem?_range (by omega)]; rfl
  · unfold edge; field_simp; ring
  · intro i j hij
    rw [edge_eq, edge_eq]
    have : (i : K) < j := by exact_mod_cast hij
    have := mul_lt_mul_of_pos_right this hw
    linarith

/-- **C10**: the reported centers are the midpoints of consecutive edges. -/
theorem C10_centers (a : RegularAxis K) (h : AxisOK a) :
    a.binCenters.length = a.nbins ∧
    ∀ i, i < a.nbins → a.binCenters[i]? =
      some ((edge a.min a.max a.nbins i + edge a.min a.max a.nbins (i + 1)) / 2) := by
  refine ⟨by simp [RegularAxis.binCenters], fun i hi => ?_⟩
  have he := (C10_edges a h).2.1
  simp only [RegularAxis.binCenters, List.getElem?_map]
  rw [List.getElem?_range hi]
  simp only [Option.map_some, List.getD_eq_getElem?_getD, he i (by omega), he (i + 1) (by omega),
    Option.getD_some]

example : AxisOK (⟨3, 0, 1⟩ : RegularAxis ℚ) ∧ (⟨3, 0, 1⟩ : RegularAxis ℚ).bin (2 / 3) = 2 ∧
    (⟨3, 0, 1⟩ : RegularAxis ℚ).bin 1 = OVERFLOW_BIN :=
  ⟨⟨by decide, by decide, by decide⟩, by decide +kernel, by decide +kernel⟩

/-! ### C11 -/

variable {T : Type*} [AddCommMonoid T]

/-- The sample falls in the multi-dimensional bin `idx`: each coordinate is in its bin. -/
def Spec.InBins : List (RegularAxis K) → List ℕ → List K → Prop
  | a :: as, i :: is, v :: vs => InBin a.min a.max a.nbins i v ∧ Spec.InBins as is vs
  | [], [], [] => True
  | _, _, _ => False

open Classical in
/-- The total weight of the samples that fall in the bin `idx`. -/
noncomputable def Spec.weightIn (axes : List (RegularAxis K)) (idx : List ℕ)
    (samples : List (List K × T)) : T :=
  ((samples.filter (fun s => decide (InBins axes idx s.1))).map (·.2)).sum

theorem axisBins_some {axes : List (RegularAxis K)} (hax : ∀ a ∈ axes, AxisOK a)
    {vs : List K} (hl : vs.length = axes.length) {l : List ℕ}
    (h : Histogram.axisBins axes vs = some l) :
    ValidIndex l (axes.map (·.nbins)) ∧
    ∀ idx, ValidIndex idx (axes.map (·.nbins)) → (InBins axes idx vs ↔ idx = l) := by
  induction axes generalizing vs l with
  | nil =>
    cases vs with
    | nil =>
      simp only [Histogram.axisBins, Option.some.injEq] at h
      subst h
      refine ⟨List.Forall₂.nil, fun idx hi => ?_⟩
      cases hi
      simp [InBins]
    | cons => simp at hl
  | cons a as ih =>
    cases vs with
    | nil => simp at hl
    | cons v vs =>
      have ha := hax a List.mem_cons_self
      simp only [Histogram.axisBins] at h
      split_ifs at h with ho
      cases hr : Histogram.axisBins as vs with
      | none => rw [hr] at h; simp at h
      | some l' =>
        rw [hr] at h
        simp only [Option.map_some, Option.some.injEq] at h
        subst h
        obtain ⟨h1, h2⟩ := ih (fun a h => hax a (List.mem_cons_of_mem _ h)) (by simpa using hl) hr
        have hlt : a.bin v < a.nbins := by
          apply (C10_overflow_iff a ha v).2
          by_contra hc
          apply ho
          rw [(C10_overflow_iff a ha v).1]
          by_contra hc2
          push Not at hc2
          exact hc hc2
        refine ⟨List.Forall₂.cons hlt h1, fun idx hidx => ?_⟩
        cases hidx with
        | @cons i _ is _ hi his =>
          simp only [InBins, List.cons.injEq]
          rw [h2 is his, ← C10_bin_iff a ha v i hi]
          constructor
          · rintro ⟨e1, e2⟩; exact ⟨e1.symm, e2⟩
          · rintro ⟨e1, e2⟩; exact ⟨e1.symm, e2⟩

theorem axisBins_none {axes : List (RegularAxis K)} (hax : ∀ a ∈ axes, AxisOK a)
    {vs : List K} (h : Histogram.axisBins axes vs = none) :
    ∀ idx, ValidIndex idx (axes.map (·.nbins)) → ¬ InBins axes idx vs := by
  induction axes generalizing vs with
  | nil => cases vs <;> simp [Histogram.axisBins] at h
  | cons a as ih =>
    cases vs with
    | nil => simp [Histogram.axisBins] at h
    | cons v vs =>
      have ha := hax a List.mem_cons_self
      intro idx hidx
      cases hidx with
      | @cons i _ is _ hi his =>
        simp only [InBins, not_and]
        intro hb
        simp only [Histogram.axisBins] at h
        have hbin := (C10_bin_iff a ha v i hi).mpr hb
        rw [if_neg (by have := ha.small; simp only at hi; omega)] at h
        simp only [Option.map_eq_none_iff] at h
        exact ih (fun a h => hax a (List.mem_cons_of_mem _ h)) h is his

/-- A histogram object in a reachable state. -/
structure Spec.HistOK (h : Histogram K T) : Prop where
  axes : ∀ a ∈ h.axes, AxisOK a
  shape : h.counts.shape = h.axes.map (·.nbins)
  wf : WellFormed h.counts
  small : (h.axes.map (·.nbins)).prod ≤ OVERFLOW_BIN

theorem histOK_mk' (axes : List (RegularAxis K)) (hax : ∀ a ∈ axes, AxisOK a)
    (hs : (axes.map (·.nbins)).prod ≤ OVERFLOW_BIN) :
    HistOK (Histogram.mk' (T := T) axes) :=
  ⟨hax, rfl, (C09_new_array _).1, hs⟩

open Classical in
theorem add_spec (h : Histogram K T) (hh : HistOK h) (vs : List K) (w : T)
    (hl : vs.length = h.axes.length) :
    ∃ h', h.add vs w = some h' ∧ HistOK h' ∧ h'.axes = h.axes ∧
      ∀ idx, ValidIndex idx (h.axes.map (·.nbins)) → ∀ x, h.counts.at? idx = some x →
        h'.counts.at? idx = some (x + if InBins h.axes idx vs then w else 0) := by
  unfold Histogram.add Histogram.bin
  rw [if_neg (by simpa using hl)]
  cases hb : Histogram.axisBins h.axes vs with
  | none =>
    refine ⟨h, by simp [Histogram.increment], hh, rfl, fun idx hidx x hx => ?_⟩
    rw [if_neg (axisBins_none hh.axes hb idx hidx), hx, add_zero]
  | some l =>
    obtain ⟨hv, hin⟩ := axisBins_some hh.axes hl hb
    have hv' : ValidIndex l h.counts.shape := hh.shape ▸ hv
    have hgi := (C09_checked_index_partial h.counts l).1 hv'
    have hbij := (C09_index_bijection h.counts.shape).1 l hv'
    have hlt : rowMajor l h.counts.shape < h.counts.data.length := by
      rw [hh.wf, ← hbij.1]; exact hbij.2.1
    have hne : rowMajor l h.counts.shape ≠ OVERFLOW_BIN := by
      have h1 : h.counts.data.length = (h.axes.map (·.nbins)).prod := by
        rw [← hh.shape]; exact hh.wf
      have h2 := hh.small
      omega
    obtain ⟨⟨x0, hx0⟩, -⟩ := C09_read_write h.counts hh.wf l hv' w
    have hx0' : h.counts.get? (rowMajor l h.counts.shape) = some x0 := by
      rw [← hbij.1]; exact hx0
    obtain ⟨-, c', hc', hwf', hsh', hat', hoth⟩ :=
      C09_read_write h.counts hh.wf l hv' (x0 + w)
    have hc'' : h.counts.set? (rowMajor l h.counts.shape) (x0 + w) = some c' := by
      rw [← hbij.1]; exact hc'
    refine ⟨{ h with counts := c' }, ?_, ⟨hh.axes, by rw [hsh']; exact hh.shape, hwf', hh.small⟩,
      rfl, fun idx hidx x hx => ?_⟩
    · simp only [hgi, Option.bind_eq_bind, Option.bind_some, Histogram.increment]
      rw [if_pos hne]
      simp [hx0', hc'']
    · by_cases he : idx = l
      · subst he
        rw [if_pos ((hin idx hidx).mpr rfl), hat']
        rw [hx0] at hx
        rw [Option.some.inj hx]
      · rw [if_neg (fun hc => he ((hin idx hidx).mp hc)), add_zero,
          hoth idx (hh.shape ▸ hidx) he, hx]

/-- **C11**: after any sequence of samples of the right dimension, starting from an empty
histogram, the count stored at a multi-dimensional bin is the total weight of the samples all
of whose coordinates fall in the corresponding one-dimensional bins. With weights 1 it is
their number. -/
theorem C11_counts_exact (axes : List (RegularAxis K)) (hax : ∀ a ∈ axes, AxisOK a)
    (hs : (axes.map (·.nbins)).prod ≤ OVERFLOW_BIN) (samples : List (List K × T))
    (hd : ∀ s ∈ samples, s.1.length = axes.length) :
    ∃ h', (Histogram.mk' axes).addAll samples = some h' ∧
      ∀ idx, ValidIndex idx (axes.map (·.nbins)) →
        h'.counts.at? idx = some (weightIn axes idx samples) := by
  classical
  have key : ∀ (samples : List (List K × T)) (h : Histogram K T), HistOK h → h.axes = axes →
      (∀ s ∈ samples, s.1.length = axes.length) →
      ∃ h', h.addAll samples = some h' ∧
        ∀ idx, ValidIndex idx (axes.map (·.nbins)) → ∀ x, h.counts.at? idx = some x →
          h'.counts.at? idx = some (x + weightIn axes idx samples) := by
    intro samples
    induction samples with
    | nil =>
      intro h _ _ _
      exact ⟨h, rfl, fun idx _ x hx => by simp [weightIn, hx]⟩
    | cons s ss ih =>
      intro h hh he hd
      obtain ⟨h1, e1, hh1, he1, hc1⟩ := add_spec h hh s.1 s.2 (by
        rw [he]; exact hd s List.mem_cons_self)
      obtain ⟨h2, e2, hc2⟩ := ih h1 hh1 (he1.trans he)
        (fun s hs => hd s (List.mem_cons_of_mem _ hs))
      refine ⟨h2, ?_, fun idx hidx x hx => ?_⟩
      · unfold Histogram.addAll at e2 ⊢
        simp only [List.foldlM_cons, e1, Option.bind_eq_bind, Option.bind_some]
        exact e2
      · rw [hc2 idx hidx _ (hc1 idx (by rw [he]; exact hidx) x hx), he]
        congr 1
        unfold weightIn
        by_cases hin : InBins axes idx s.1
        · simp [hin, List.filter_cons, add_assoc]
        · simp [hin, List.filter_cons]
  obtain ⟨h', e, hc⟩ := key samples (Histogram.mk' axes) (histOK_mk' axes hax hs) rfl hd
  refine ⟨h', e, fun idx hidx => ?_⟩
  rw [hc idx hidx 0 ((C09_new_array _).2 idx hidx), zero_add]

/-- **C11**: a sample with the wrong number of coordinates raises, whatever the histogram. -/
theorem C11_wrong_dimension (h : Histogram K T) (vs : List K) (w : T)
    (hl : vs.length ≠ h.axes.length) : h.add vs w = none := by
  simp [Histogram.add, Histogram.bin, hl]

/-- **C11**: a sample outside the range in any coordinate leaves the histogram as it is. -/
theorem C11_out_of_range_ignored (h : Histogram K T) (hh : HistOK h) (vs : List K) (w : T)
    (hl : vs.length = h.axes.length)
    (hout : ∃ p ∈ h.axes.zip vs, p.2 < p.1.min ∨ p.1.max ≤ p.2) : h.add vs w = some h := by
  have key : ∀ (axes : List (RegularAxis K)) (vs : List K), (∀ a ∈ axes, AxisOK a) →
      (∃ p ∈ axes.zip vs, p.2 < p.1.min ∨ p.1.max ≤ p.2) →
      Histogram.axisBins axes vs = none := by
    intro axes
    induction axes with
    | nil => rintro vs - ⟨p, hp, -⟩; simp at hp
    | cons a as ih =>
      rintro vs hax ⟨p, hp, ho⟩
      cases vs with
      | nil => simp at hp
      | cons v vs =>
        simp only [List.zip_cons_cons, List.mem_cons] at hp
        simp only [Histogram.axisBins]
        rcases hp with rfl | hp
        · rw [if_pos ((C10_overflow_iff a (hax a List.mem_cons_self) v).1.mpr ho)]
        · split_ifs
          · rfl
          · rw [ih vs (fun a h => hax a (List.mem_cons_of_mem _ h)) ⟨p, hp, ho⟩]; rfl
  have := key h.axes vs hh.axes hout
  simp [Histogram.add, Histogram.bin, hl, this, Histogram.increment]

-- a two-dimensional histogram and samples meeting the hypotheses
example : let axes : List (RegularAxis ℚ) := [⟨2, 0, 1⟩, ⟨3, -1, 2⟩]
    (∀ a ∈ axes, AxisOK a) ∧ (axes.map (·.nbins)).prod ≤ OVERFLOW_BIN ∧
    ∀ s ∈ ([([1 / 2, 0], 1), ([3, 0], 1)] : List (List ℚ × ℕ)), s.1.length = axes.length := by
  refine ⟨?_, by decide, by simp⟩
  intro a ha
  simp only [List.mem_cons, List.not_mem_nil, or_false] at ha
  rcases ha with rfl | rfl
  · exact ⟨by decide, by decide, by decide⟩
  · exact ⟨by decide, by decide, by decide⟩

end Freud
