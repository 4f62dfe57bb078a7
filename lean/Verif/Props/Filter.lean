import Verif.Lemmas.Filter
import Mathlib.Data.Rat.Floor
import Mathlib.Tactic.FieldSimp
import Mathlib.Tactic.Positivity

/-!
# Properties C30, C31 and C64: the SANN and RAD filters
-/

set_option linter.unusedSectionVars false

namespace Freud
open Spec NList Bond

/-- `R` lists the unfiltered bonds of query point `i`, each as often as it occurs, in order of
increasing distance. -/
def Spec.Row {K : Type*} [LE K] (n : NList K) (i : ℕ) (R : List (Bond K)) : Prop :=
  R.Perm (n.bonds.filter (fun b => b.q = i)) ∧ R.Pairwise (fun a b => a.dist ≤ b.dist)

/-- The bonds of query point `i`. -/
def Spec.bondsOf {K : Type*} (n : NList K) (i : ℕ) : List (Bond K) :=
  n.bonds.filter (fun b => b.q = i)

/-- Ordered by query point, then distance, then point. -/
def Spec.Ordered {K : Type*} [LinearOrder K] (l : List (Bond K)) : Prop :=
  l.Pairwise (fun a b => a.q < b.q ∨ (a.q = b.q ∧
      (a.dist < b.dist ∨ (a.dist = b.dist ∧ a.p ≤ b.p))))

theorem Spec.Row.dists {K : Type*} [LinearOrder K] {n : NList K} {i : ℕ} {R R' : List (Bond K)}
    (h : Row n i R) (h' : Row n i R') : R.map (·.dist) = R'.map (·.dist) := by
  apply List.Perm.eq_of_pairwise (le := (· ≤ ·)) (fun a b _ _ => le_antisymm)
  · rw [List.pairwise_map]; exact h.2
  · rw [List.pairwise_map]; exact h'.2
  · exact (h.1.trans h'.1.symm).map _

section common
variable {K : Type*} [LinearOrder K]

theorem ofBonds_some {out : List (Bond K)} {nl : NList K} (h : some nl = NList.ofBonds out) :
    nl.bonds = out ∧ out ≠ [] ∧ (∀ b ∈ out, b.q < nl.numQueryPoints ∧ b.p < nl.numPoints) ∧
      (∃ b ∈ out, b.q + 1 = nl.numQueryPoints) ∧ (∃ b ∈ out, b.p + 1 = nl.numPoints) := by
  unfold NList.ofBonds at h
  split_ifs at h with h0
  simp only [Option.some.injEq] at h
  rw [h]
  obtain ⟨-, q2, q3⟩ := foldl_max_spec (fun b : Bond K => b.q) out 0
  obtain ⟨-, p2, p3⟩ := foldl_max_spec (fun b : Bond K => b.p) out 0
  obtain ⟨b0, hb0⟩ := List.exists_mem_of_ne_nil out h0
  refine ⟨rfl, h0, fun b hb => ⟨Nat.lt_succ_of_le (q2 b hb), Nat.lt_succ_of_le (p2 b hb)⟩, ?_, ?_⟩
  · rcases q3 with q3 | ⟨b, hb, q3⟩
    · refine ⟨b0, hb0, ?_⟩
      have := q2 b0 hb0
      simp only at this ⊢
      omega
    · exact ⟨b, hb, by simp only; omega⟩
  · rcases p3 with p3 | ⟨b, hb, p3⟩
    · refine ⟨b0, hb0, ?_⟩
      have := p2 b0 hb0
      simp only at this ⊢
      omega
    · exact ⟨b, hb, by simp only; omega⟩

theorem ofBonds_none {out : List (Bond K)} (h : none = NList.ofBonds out) : out = [] := by
  unfold NList.ofBonds at h
  split_ifs at h with h0
  exact h0

theorem sorted_row (n : NList K) (h : GoodList n) (sorted : List (Bond K)) (s : NList K)
    (hs : SortedBy (less true) n.bonds sorted) (e : Filter.sortedList n sorted = some s) (i : ℕ) :
    GoodList s ∧ Row n i (bondsOf s i) ∧
      (i < n.numQueryPoints → s.counts.getD i 0 = (bondsOf s i).length) := by
  obtain ⟨s', e', hg, hb, -, -, hc, hr⟩ := sortedList_spec n h sorted hs
  have : s' = s := by rw [e] at e'; exact (Option.some.inj e').symm
  subst this
  unfold bondsOf
  rw [hb]
  exact ⟨hg, hr i, hc i⟩

theorem perm_row {nq : ℕ} {f : ℕ → List (Bond K)} {out : List (Bond K)}
    (ho : SortedBy (less true) ((List.range nq).flatMap f) out)
    (hq : ∀ i < nq, ∀ b ∈ f i, b.q = i) (i : ℕ) (hi : i < nq) :
    (out.filter (fun b => b.q = i)).Perm (f i) := by
  have := ho.1.filter (fun b => decide (b.q = i))
  rwa [flatMap_filter f nq hq i hi] at this

theorem out_nil {nq : ℕ} {f : ℕ → List (Bond K)} {out : List (Bond K)}
    (ho : SortedBy (less true) ((List.range nq).flatMap f) out) (h0 : out = []) (i : ℕ)
    (hi : i < nq) : f i = [] := by
  subst h0
  have := ho.1.symm.eq_nil
  rw [List.flatMap_eq_nil_iff] at this
  exact this i (List.mem_range.mpr hi)

theorem row_nil_iff {n : NList K} (h : GoodList n) :
    (∀ i < n.numQueryPoints, ∀ R, Row n i R → R = []) ↔ n.bonds = [] := by
  constructor
  · intro hall
    by_contra h0
    obtain ⟨b, hb⟩ := List.exists_mem_of_ne_nil _ h0
    have hlt := h.qlt b hb
    obtain ⟨sorted, hs⟩ := C19_sort_exists true n.bonds
    obtain ⟨s, e, -⟩ := sortedList_spec n h sorted hs
    have hr := (sorted_row n h sorted s hs e b.q).2.1
    have := hall b.q hlt _ hr
    rw [this] at hr
    have := hr.1.symm.eq_nil
    rw [List.filter_eq_nil_iff] at this
    exact this b hb (by simp)
  · intro h0 i _ R hR
    have := hR.1
    rw [h0] at this
    exact this.eq_nil

end common

/-! ### C30: FilterSANN -/

section sann
variable {K : Type*} [Field K] [LinearOrder K] [IsStrictOrderedRing K]

theorem sann_point (n : NList K) (h : GoodList n) (sorted : List (Bond K)) (s : NList K)
    (hs : SortedBy (less true) n.bonds sorted) (e : Filter.sortedList n sorted = some s) (i : ℕ)
    (hi : i < n.numQueryPoints) :
    ∃ m, SannCount ((bondsOf s i).map (·.dist)) m ∧
      FilterSANN.point s i = some ((bondsOf s i).take m, decide (m = (bondsOf s i).length)) := by
  obtain ⟨hg, -, hc⟩ := sorted_row n h sorted s hs e i
  exact sannPoint_spec s hg i (hc hi)

/-- The computation for a list of the right size, with the parallel loop removed. -/
theorem sann_iff (n : NList K) (h : GoodList n) (allow : Bool) (ev : List (ℕ × ℕ))
    (hev : IsExecution n.numQueryPoints ev) (r : Option (NList K)) :
    FilterSANN.Compute n n.numQueryPoints n.numPoints allow ev r ↔
      ∃ sorted s, SortedBy (less true) n.bonds sorted ∧ Filter.sortedList n sorted = some s ∧
        ((allow = false ∧ (∃ i < n.numQueryPoints,
            ((FilterSANN.point s i).getD ([], false)).2 = true) ∧ r = none) ∨
          (¬ (allow = false ∧ ∃ i < n.numQueryPoints,
            ((FilterSANN.point s i).getD ([], false)).2 = true) ∧
            ∃ out, SortedBy (less true) ((List.range n.numQueryPoints).flatMap
              (fun i => ((FilterSANN.point s i).getD ([], false)).1)) out ∧
              r = NList.ofBonds out)) := by
  refine run_iff FilterSANN.point n h allow ev hev
    (fun s i => ((FilterSANN.point s i).getD ([], false)).1)
    (fun s i => ((FilterSANN.point s i).getD ([], false)).2) ?_ r
  intro sorted s hs e i hi
  obtain ⟨m, -, e2⟩ := sann_point n h sorted s hs e i hi
  rw [e2]
  rfl

theorem sann_q (n : NList K) (h : GoodList n) (sorted : List (Bond K)) (s : NList K)
    (hs : SortedBy (less true) n.bonds sorted) (e : Filter.sortedList n sorted = some s) :
    ∀ i < n.numQueryPoints, ∀ b ∈ ((FilterSANN.point s i).getD ([], false)).1,
      b.q = i ∧ b ∈ n.bonds := by
  intro i hi b hb
  obtain ⟨m, -, e2⟩ := sann_point n h sorted s hs e i hi
  rw [e2] at hb
  have hr := (sorted_row n h sorted s hs e i).2.1
  have hb2 : b ∈ bondsOf s i := List.mem_of_mem_take hb
  have hb3 := hr.1.subset hb2
  rw [List.mem_filter] at hb3
  exact ⟨of_decide_eq_true hb3.2, hb3.1⟩

/-- **C30**: for every query point the filtered list holds exactly the `m` nearest of its
unfiltered neighbors, unchanged, where `m` is the least number of at least three neighbors whose
SANN radius does not exceed the distance of the next one (all of them if there is no such
number); there are no other bonds, and the bonds are ordered by query point and distance. -/
theorem C30_shell (n : NList K) (h : GoodList n) (allow : Bool) (ev : List (ℕ × ℕ))
    (hev : IsExecution n.numQueryPoints ev) (nl : NList K)
    (hr : FilterSANN.Compute n n.numQueryPoints n.numPoints allow ev (some nl)) :
    (∀ i < n.numQueryPoints, ∃ R m, Row n i R ∧ SannCount (R.map (·.dist)) m ∧
      (bondsOf nl i).Perm (R.take m)) ∧
    (∀ b ∈ nl.bonds, b.q < n.numQueryPoints) ∧ Ordered nl.bonds := by
  rw [sann_iff n h allow ev hev] at hr
  obtain ⟨sorted, s, hs, e, ⟨-, -, hr⟩ | ⟨-, out, ho, hr⟩⟩ := hr
  · exact absurd hr (by simp)
  obtain ⟨hb, -⟩ := ofBonds_some hr
  have hq := sann_q n h sorted s hs e
  refine ⟨fun i hi => ?_, ?_, ?_⟩
  · obtain ⟨m, hm, e2⟩ := sann_point n h sorted s hs e i hi
    refine ⟨bondsOf s i, m, (sorted_row n h sorted s hs e i).2.1, hm, ?_⟩
    have := perm_row ho (fun i hi b hb => (hq i hi b hb).1) i hi
    rw [e2] at this
    unfold bondsOf at this ⊢
    rw [hb]
    exact this
  · intro b hbm
    rw [hb] at hbm
    have := ho.1.subset hbm
    obtain ⟨i, hi, hbi⟩ := List.mem_flatMap.mp this
    have hi := List.mem_range.mp hi
    rw [(hq i hi b hbi).1]
    exact hi
  · rw [hb]; exact (C19_by_distance _ _ ho).2

/-- **C30**: without `allow_incomplete_shell` the filter raises exactly if the shell of some
query point never closes; with it, never. A list without any bond is outside the domain: the
code then reads past the end of an empty range. -/
theorem C30_raises_iff (n : NList K) (h : GoodList n) (hne : n.bonds ≠ []) (allow : Bool)
    (ev : List (ℕ × ℕ)) (hev : IsExecution n.numQueryPoints ev) :
    FilterSANN.Compute n n.numQueryPoints n.numPoints allow ev none ↔
      allow = false ∧ ∃ i < n.numQueryPoints, ∃ R, Row n i R ∧
        ∀ m, ¬ SannCloses (R.map (·.dist)) m := by
  have hu : ∀ sorted s, SortedBy (less true) n.bonds sorted → Filter.sortedList n sorted = some s →
      ∀ i < n.numQueryPoints, (((FilterSANN.point s i).getD ([], false)).2 = true ↔
        ∃ R, Row n i R ∧ ∀ m, ¬ SannCloses (R.map (·.dist)) m) := by
    intro sorted s hs e i hi
    obtain ⟨m, hm, e2⟩ := sann_point n h sorted s hs e i hi
    have hrow := (sorted_row n h sorted s hs e i).2.1
    rw [e2]
    simp only [Option.getD_some, decide_eq_true_eq]
    have h1 := hm.iff_length
    rw [List.length_map] at h1
    rw [h1]
    constructor
    · intro hn; exact ⟨_, hrow, hn⟩
    · rintro ⟨R, hR, hn⟩
      rw [hrow.dists hR]
      exact hn
  rw [sann_iff n h allow ev hev]
  constructor
  · rintro ⟨sorted, s, hs, e, ⟨ha, ⟨i, hi, hui⟩, -⟩ | ⟨-, out, ho, hr⟩⟩
    · exact ⟨ha, i, hi, (hu sorted s hs e i hi).mp hui⟩
    · exfalso
      have h0 := ofBonds_none hr
      apply hne
      rw [← row_nil_iff h]
      intro i hi R hR
      have h1 := out_nil ho h0 i hi
      obtain ⟨m, hm, e2⟩ := sann_point n h sorted s hs e i hi
      rw [e2] at h1
      have hrow := (sorted_row n h sorted s hs e i).2.1
      have hlen : (bondsOf s i).length = 0 := by
        rcases List.take_eq_nil_iff.mp h1 with rfl | h1
        · rcases hm.2 with hc | hc
          · exact absurd hc (not_closes_lt_three _ 0 (by omega))
          · simpa using hc.symm
        · rw [h1]; rfl
      have h3 := (hR.1.trans hrow.1.symm).length_eq
      rw [hlen] at h3
      exact List.eq_nil_of_length_eq_zero h3
  · rintro ⟨ha, i, hi, hex⟩
    obtain ⟨sorted, hs⟩ := C19_sort_exists true n.bonds
    obtain ⟨s, e, -⟩ := sortedList_spec n h sorted hs
    exact ⟨sorted, s, hs, e, Or.inl ⟨ha, ⟨i, hi, (hu sorted s hs e i hi).mpr hex⟩, rfl⟩⟩

/-- **C30**: a list whose sizes differ from those of the system is rejected. -/
theorem C30_wrong_size_raises (n : NList K) (nq np : ℕ) (allow : Bool) (ev : List (ℕ × ℕ))
    (hw : nq ≠ n.numQueryPoints ∨ np ≠ n.numPoints) (r : Option (NList K)) :
    FilterSANN.Compute n nq np allow ev r ↔ r = none := by
  unfold FilterSANN.Compute Filter.Run
  have : n.validate nq np = false := by
    unfold NList.validate
    by_cases h1 : nq = n.numQueryPoints
    · rw [if_neg (not_not.mpr h1), if_pos (hw.resolve_left (not_not.mpr h1))]
    · rw [if_pos h1]
  rw [if_pos this]

/-- **C30**: the outcome does not depend on how the loop over query points was executed. -/
theorem C30_schedule_independent (n : NList K) (h : GoodList n) (allow : Bool)
    (ev ev' : List (ℕ × ℕ)) (hev : IsExecution n.numQueryPoints ev)
    (hev' : IsExecution n.numQueryPoints ev') (r : Option (NList K)) :
    FilterSANN.Compute n n.numQueryPoints n.numPoints allow ev r ↔
      FilterSANN.Compute n n.numQueryPoints n.numPoints allow ev' r := by
  rw [sann_iff n h allow ev hev, sann_iff n h allow ev' hev']

/-- **C30**: every execution has an outcome. -/
theorem C30_result_exists (n : NList K) (h : GoodList n) (allow : Bool) (ev : List (ℕ × ℕ))
    (hev : IsExecution n.numQueryPoints ev) :
    ∃ r, FilterSANN.Compute n n.numQueryPoints n.numPoints allow ev r := by
  obtain ⟨sorted, hs⟩ := C19_sort_exists true n.bonds
  obtain ⟨s, e, -⟩ := sortedList_spec n h sorted hs
  by_cases hc : allow = false ∧ ∃ i < n.numQueryPoints,
      ((FilterSANN.point s i).getD ([], false)).2 = true
  · exact ⟨none, (sann_iff n h allow ev hev _).mpr ⟨sorted, s, hs, e, Or.inl ⟨hc.1, hc.2, rfl⟩⟩⟩
  · obtain ⟨out, ho⟩ := C19_sort_exists true ((List.range n.numQueryPoints).flatMap
      (fun i => ((FilterSANN.point s i).getD ([], false)).1))
    exact ⟨_, (sann_iff n h allow ev hev _).mpr ⟨sorted, s, hs, e, Or.inr ⟨hc, out, ho, rfl⟩⟩⟩

/-- **C64** (SANN): every bond of the filtered list is a bond of the unfiltered one, with its
distance, weight and vector. -/
theorem C64_sann_data (n : NList K) (h : GoodList n) (allow : Bool) (ev : List (ℕ × ℕ))
    (hev : IsExecution n.numQueryPoints ev) (nl : NList K)
    (hr : FilterSANN.Compute n n.numQueryPoints n.numPoints allow ev (some nl)) :
    nl.bonds ⊆ n.bonds := by
  rw [sann_iff n h allow ev hev] at hr
  obtain ⟨sorted, s, hs, e, ⟨-, -, hr⟩ | ⟨-, out, ho, hr⟩⟩ := hr
  · exact absurd hr (by simp)
  obtain ⟨hb, -⟩ := ofBonds_some hr
  intro b hbm
  rw [hb] at hbm
  obtain ⟨i, hi, hbi⟩ := List.mem_flatMap.mp (ho.1.subset hbm)
  exact (sann_q n h sorted s hs e i (List.mem_range.mp hi) b hbi).2

/-- **C64** (SANN, partial): with complete shells required, the filtered list is for as many
query points as the unfiltered one and for at most as many points. That the number of points is
the same is false, see `C64_num_points_counterexample`. -/
theorem C64_sann_sizes_partial (n : NList K) (h : GoodList n) (ev : List (ℕ × ℕ))
    (hev : IsExecution n.numQueryPoints ev) (nl : NList K)
    (hr : FilterSANN.Compute n n.numQueryPoints n.numPoints false ev (some nl)) :
    nl.numQueryPoints = n.numQueryPoints ∧ nl.numPoints ≤ n.numPoints ∧
      (nl.numPoints = n.numPoints ↔ ∃ b ∈ nl.bonds, b.p + 1 = n.numPoints) := by
  have hdata := C64_sann_data n h false ev hev nl hr
  obtain ⟨hsh, hlt, -⟩ := C30_shell n h false ev hev nl hr
  have hr0 := hr
  rw [sann_iff n h false ev hev] at hr
  obtain ⟨sorted, s, hs, e, ⟨-, -, hr⟩ | ⟨hnu, out, ho, hr⟩⟩ := hr
  · exact absurd hr (by simp)
  obtain ⟨hb, hne, hrange, ⟨bq, hbq, hbq2⟩, ⟨bp, hbp, hbp2⟩⟩ := ofBonds_some hr
  rw [← hb] at hbq hbp hrange
  have hple : nl.numPoints ≤ n.numPoints := by
    have := h.plt bp (hdata hbp)
    omega
  refine ⟨?_, hple, ?_, ?_⟩
  · have h1 := hlt bq hbq
    -- the last query point has a complete shell, hence bonds
    have hlast : n.numQueryPoints - 1 < n.numQueryPoints := by omega
    obtain ⟨m, hm, e2⟩ := sann_point n h sorted s hs e _ hlast
    have hfull : m ≠ (bondsOf s (n.numQueryPoints - 1)).length := by
      intro hc
      refine hnu ⟨rfl, _, hlast, ?_⟩
      rw [e2]
      simpa using hc
    have hm3 : 3 ≤ m := by
      rcases hm.2 with hc | hc
      · exact hc.1
      · rw [List.length_map] at hc; exact absurd hc hfull
    have hperm := perm_row ho (fun i hi b hb => (sann_q n h sorted s hs e i hi b hb).1) _ hlast
    rw [e2] at hperm
    have hlen : 0 < ((bondsOf s (n.numQueryPoints - 1)).take m).length := by
      rw [List.length_take]
      have := hm.le
      rw [List.length_map] at this
      omega
    simp only [Option.getD_some] at hperm
    rw [← hperm.length_eq] at hlen
    obtain ⟨b, hbm⟩ := List.exists_mem_of_length_pos hlen
    rw [List.mem_filter, ← hb] at hbm
    have h2 := (hrange b hbm.1).1
    have h3 := of_decide_eq_true hbm.2
    omega
  · intro he
    exact ⟨bp, hbp, by omega⟩
  · rintro ⟨b, hbm, he⟩
    have := (hrange b hbm).2
    omega

end sann

/-! ### C31: FilterRAD -/

section rad
variable {K : Type*} [Field K] [LinearOrder K] [FloorRing K]

theorem rad_isSome (box : Box K) (qpt pt : ℕ → Vec3 K) (radius : ℕ → K) (closed : Bool)
    (n : NList K) (h : GoodList n) (sorted : List (Bond K)) (s : NList K)
    (hs : SortedBy (less true) n.bonds sorted) (e : Filter.sortedList n sorted = some s) (i : ℕ)
    (hi : i < n.numQueryPoints) :
    ∃ r, FilterRAD.point box qpt pt radius closed s i = some r ∧
      ∀ b ∈ r.1, ∃ b0 ∈ bondsOf s i, b = radBond box (qpt i) pt b0 := by
  obtain ⟨hg, -, hc⟩ := sorted_row n h sorted s hs e i
  cases closed with
  | false =>
    refine ⟨_, radPoint_open box qpt pt radius s hg i (bondsOf s i) rfl (hc hi), ?_⟩
    intro b hb
    obtain ⟨j, -, hj⟩ := List.mem_filterMap.mp hb
    rw [Option.map_eq_some_iff] at hj
    obtain ⟨b0, h0, h1⟩ := hj
    exact ⟨b0, List.mem_of_getElem? h0, h1.symm⟩
  | true =>
    obtain ⟨c, b, e2, -⟩ := radPoint_closed box qpt pt radius s hg i (bondsOf s i) rfl (hc hi)
    refine ⟨_, e2, ?_⟩
    intro b hb
    obtain ⟨b0, h0, h1⟩ := List.mem_map.mp hb
    exact ⟨b0, List.mem_of_mem_take h0, h1.symm⟩

theorem bondsOf_q {n : NList K} {i : ℕ} {b : Bond K} (hb : b ∈ bondsOf n i) : b.q = i := by
  unfold bondsOf at hb
  rw [List.mem_filter] at hb
  exact of_decide_eq_true hb.2

theorem rad_iff (box : Box K) (qpt pt : ℕ → Vec3 K) (radius : ℕ → K) (closed : Bool)
    (n : NList K) (h : GoodList n) (allow : Bool) (ev : List (ℕ × ℕ))
    (hev : IsExecution n.numQueryPoints ev) (r : Option (NList K)) :
    FilterRAD.Compute box qpt pt radius closed n n.numQueryPoints n.numPoints allow ev r ↔
      ∃ sorted s, SortedBy (less true) n.bonds sorted ∧ Filter.sortedList n sorted = some s ∧
        ((allow = false ∧ (∃ i < n.numQueryPoints,
            ((FilterRAD.point box qpt pt radius closed s i).getD ([], false)).2 = true) ∧ r = none) ∨
          (¬ (allow = false ∧ ∃ i < n.numQueryPoints,
            ((FilterRAD.point box qpt pt radius closed s i).getD ([], false)).2 = true) ∧
            ∃ out, SortedBy (less true) ((List.range n.numQueryPoints).flatMap
              (fun i => ((FilterRAD.point box qpt pt radius closed s i).getD ([], false)).1)) out ∧
              r = NList.ofBonds out)) := by
  refine run_iff (FilterRAD.point box qpt pt radius closed) n h allow ev hev
    (fun s i => ((FilterRAD.point box qpt pt radius closed s i).getD ([], false)).1)
    (fun s i => ((FilterRAD.point box qpt pt radius closed s i).getD ([], false)).2) ?_ r
  intro sorted s hs e i hi
  obtain ⟨r, e2, -⟩ := rad_isSome box qpt pt radius closed n h sorted s hs e i hi
  rw [e2]
  rfl

theorem rad_q (box : Box K) (qpt pt : ℕ → Vec3 K) (radius : ℕ → K) (closed : Bool)
    (n : NList K) (h : GoodList n) (sorted : List (Bond K)) (s : NList K)
    (hs : SortedBy (less true) n.bonds sorted) (e : Filter.sortedList n sorted = some s) :
    ∀ i < n.numQueryPoints,
      ∀ b ∈ ((FilterRAD.point box qpt pt radius closed s i).getD ([], false)).1, b.q = i ∧
        ∃ b0 ∈ n.bonds, b = radBond box (qpt i) pt b0 := by
  intro i hi b hb
  obtain ⟨r, e2, h2⟩ := rad_isSome box qpt pt radius closed n h sorted s hs e i hi
  rw [e2] at hb
  obtain ⟨b0, h0, rfl⟩ := h2 b hb
  have := (sorted_row n h sorted s hs e i).2.1.1.subset h0
  exact ⟨bondsOf_q (b := b0) h0, b0, (List.mem_filter.mp this).1, rfl⟩

/-- What holds of the result in both modes. -/
theorem rad_some (box : Box K) (qpt pt : ℕ → Vec3 K) (radius : ℕ → K) (closed : Bool)
    (n : NList K) (h : GoodList n) (allow : Bool) (ev : List (ℕ × ℕ))
    (hev : IsExecution n.numQueryPoints ev) (nl : NList K)
    (hr : FilterRAD.Compute box qpt pt radius closed n n.numQueryPoints n.numPoints allow ev
      (some nl)) :
    ∃ sorted s, SortedBy (less true) n.bonds sorted ∧ Filter.sortedList n sorted = some s ∧
      ¬ (allow = false ∧ ∃ i < n.numQueryPoints,
            ((FilterRAD.point box qpt pt radius closed s i).getD ([], false)).2 = true) ∧
      (∀ i < n.numQueryPoints, (bondsOf nl i).Perm
        ((FilterRAD.point box qpt pt radius closed s i).getD ([], false)).1) ∧
      (∀ b ∈ nl.bonds, b.q < n.numQueryPoints ∧
        b ∈ ((FilterRAD.point box qpt pt radius closed s b.q).getD ([], false)).1) ∧
      Ordered nl.bonds := by
  rw [rad_iff box qpt pt radius closed n h allow ev hev] at hr
  obtain ⟨sorted, s, hs, e, ⟨-, -, hr⟩ | ⟨hnu, out, ho, hr⟩⟩ := hr
  · exact absurd hr (by simp)
  obtain ⟨hb, -⟩ := ofBonds_some hr
  have hq := rad_q box qpt pt radius closed n h sorted s hs e
  refine ⟨sorted, s, hs, e, hnu, fun i hi => ?_, ?_, ?_⟩
  · have := perm_row ho (fun i hi b hb => (hq i hi b hb).1) i hi
    unfold bondsOf
    rw [hb]
    exact this
  · intro b hbm
    rw [hb] at hbm
    obtain ⟨i, hi, hbi⟩ := List.mem_flatMap.mp (ho.1.subset hbm)
    have hi := List.mem_range.mp hi
    have hqi := (hq i hi b hbi).1
    subst hqi
    exact ⟨hi, hbi⟩
  · rw [hb]; exact (C19_by_distance _ _ ho).2

open Classical in
/-- **C31** (open mode): for every query point the filtered list holds exactly those of its
unfiltered neighbors that no closer one blocks. -/
theorem C31_open_exact (box : Box K) (qpt pt : ℕ → Vec3 K) (radius : ℕ → K)
    (n : NList K) (h : GoodList n) (allow : Bool) (ev : List (ℕ × ℕ))
    (hev : IsExecution n.numQueryPoints ev) (nl : NList K)
    (hr : FilterRAD.Compute box qpt pt radius false n n.numQueryPoints n.numPoints allow ev
      (some nl)) :
    (∀ i < n.numQueryPoints, ∃ R, Row n i R ∧
      (bondsOf nl i).Perm (((List.range R.length).filter
        (fun j => ¬ Blocked (RadTest box (qpt i) pt radius) R j)).filterMap
          (fun j => (R[j]?).map (radBond box (qpt i) pt)))) ∧
    (∀ b ∈ nl.bonds, b.q < n.numQueryPoints) ∧ Ordered nl.bonds := by
  obtain ⟨sorted, s, hs, e, -, h1, h2, h3⟩ := rad_some box qpt pt radius false n h allow ev hev nl hr
  refine ⟨fun i hi => ?_, fun b hb => (h2 b hb).1, h3⟩
  obtain ⟨hg, hrow, hc⟩ := sorted_row n h sorted s hs e i
  refine ⟨bondsOf s i, hrow, ?_⟩
  have := h1 i hi
  rwa [radPoint_open box qpt pt radius s hg i (bondsOf s i) rfl (hc hi)] at this

/-- **C31** (closed mode): for every query point the filtered list holds exactly those of its
unfiltered neighbors that come before the first blocked one. -/
theorem C31_closed_exact (box : Box K) (qpt pt : ℕ → Vec3 K) (radius : ℕ → K)
    (n : NList K) (h : GoodList n) (allow : Bool) (ev : List (ℕ × ℕ))
    (hev : IsExecution n.numQueryPoints ev) (nl : NList K)
    (hr : FilterRAD.Compute box qpt pt radius true n n.numQueryPoints n.numPoints allow ev
      (some nl)) :
    (∀ i < n.numQueryPoints, ∃ R c, Row n i R ∧ c ≤ R.length ∧
      (∀ k < c, ¬ Blocked (RadTest box (qpt i) pt radius) R k) ∧
      (c < R.length → Blocked (RadTest box (qpt i) pt radius) R c) ∧
      (bondsOf nl i).Perm ((R.take c).map (radBond box (qpt i) pt))) ∧
    (∀ b ∈ nl.bonds, b.q < n.numQueryPoints) ∧ Ordered nl.bonds := by
  obtain ⟨sorted, s, hs, e, -, h1, h2, h3⟩ := rad_some box qpt pt radius true n h allow ev hev nl hr
  refine ⟨fun i hi => ?_, fun b hb => (h2 b hb).1, h3⟩
  obtain ⟨hg, hrow, hc⟩ := sorted_row n h sorted s hs e i
  obtain ⟨c, b, e2, g1, g2, g3, -⟩ :=
    radPoint_closed box qpt pt radius s hg i (bondsOf s i) rfl (hc hi)
  refine ⟨bondsOf s i, c, hrow, g1, g2, g3, ?_⟩
  have := h1 i hi
  rwa [e2] at this

/-- Blocking depends on indices and distances only. -/
theorem blocked_congr (box : Box K) (qp : Vec3 K) (pt : ℕ → Vec3 K) (radius : ℕ → K)
    {R R' : List (Bond K)} (he : R.map (fun b => (b.p, b.dist)) = R'.map (fun b => (b.p, b.dist)))
    {j : ℕ} (hb : Blocked (RadTest box qp pt radius) R j) :
    Blocked (RadTest box qp pt radius) R' j := by
  obtain ⟨k, hk, bj, bk, hbj, hbk, ht⟩ := hb
  have get : ∀ (m : ℕ) (b : Bond K), R[m]? = some b →
      ∃ b', R'[m]? = some b' ∧ b'.p = b.p ∧ b'.dist = b.dist := by
    intro m b hm
    have h1 := congrArg (fun l => l[m]?) he
    simp only [List.getElem?_map, hm, Option.map_some] at h1
    obtain ⟨b', hb', h2⟩ := Option.map_eq_some_iff.mp h1.symm
    simp only [Prod.mk.injEq] at h2
    exact ⟨b', hb', h2⟩
  obtain ⟨bj', hj', e1, e2⟩ := get j bj hbj
  obtain ⟨bk', hk', e3, e4⟩ := get k bk hbk
  refine ⟨k, hk, bj', bk', hj', hk', ?_⟩
  unfold RadTest at ht ⊢
  rw [e1, e2, e3, e4]
  exact ht

theorem rows_columns (n : NList K) (h : GoodList n) (sorted sorted' : List (Bond K))
    (s s' : NList K) (hs : SortedBy (less true) n.bonds sorted)
    (hs' : SortedBy (less true) n.bonds sorted') (e : Filter.sortedList n sorted = some s)
    (e' : Filter.sortedList n sorted' = some s') (i : ℕ) :
    (bondsOf s i).map (fun b => (b.p, b.dist)) = (bondsOf s' i).map (fun b => (b.p, b.dist)) := by
  obtain ⟨t, et, -, hb, -⟩ := sortedList_spec n h sorted hs
  obtain ⟨t', et', -, hb', -⟩ := sortedList_spec n h sorted' hs'
  have : t = s := by rw [e] at et; exact (Option.some.inj et).symm
  subst this
  have : t' = s' := by rw [e'] at et'; exact (Option.some.inj et').symm
  subst this
  unfold bondsOf
  rw [hb, hb']
  have hcol := C19_same_columns true n.bonds n.bonds sorted sorted' (List.Perm.refl _) hs hs'
  have h1 := congrArg (fun l => (l.filter (fun x : ℕ × ℕ × K × K => decide (x.1 = i))).map
    (fun x => (x.2.1, x.2.2.2))) hcol
  simp only [List.filter_map, List.map_map] at h1
  exact h1

/-- **C31**: what the closed mode keeps, the open mode keeps too. -/
theorem C31_closed_subset_open (box : Box K) (qpt pt : ℕ → Vec3 K) (radius : ℕ → K)
    (n : NList K) (h : GoodList n) (allow allow' : Bool) (ev ev' : List (ℕ × ℕ))
    (hev : IsExecution n.numQueryPoints ev) (hev' : IsExecution n.numQueryPoints ev')
    (nl nl' : NList K)
    (hr : FilterRAD.Compute box qpt pt radius true n n.numQueryPoints n.numPoints allow ev
      (some nl))
    (hr' : FilterRAD.Compute box qpt pt radius false n n.numQueryPoints n.numPoints allow' ev'
      (some nl')) :
    nl.bonds ⊆ nl'.bonds := by
  obtain ⟨sorted, s, hs, e, -, -, h2, -⟩ := rad_some box qpt pt radius true n h allow ev hev nl hr
  obtain ⟨sorted', s', hs', e', -, g1, -, -⟩ :=
    rad_some box qpt pt radius false n h allow' ev' hev' nl' hr'
  intro b hb
  obtain ⟨hlt, hbm⟩ := h2 b hb
  obtain ⟨hg, -, hc⟩ := sorted_row n h sorted s hs e b.q
  obtain ⟨hg', -, hc'⟩ := sorted_row n h sorted' s' hs' e' b.q
  obtain ⟨c, u, e2, k1, k2, -, -⟩ :=
    radPoint_closed box qpt pt radius s hg b.q (bondsOf s b.q) rfl (hc hlt)
  rw [e2] at hbm
  simp only [Option.getD_some] at hbm
  obtain ⟨b0, hb0, hb1⟩ := List.mem_map.mp hbm
  obtain ⟨j, hj⟩ := List.getElem?_of_mem hb0
  rw [List.getElem?_take] at hj
  split_ifs at hj with hjc
  have hcol := rows_columns n h sorted sorted' s s' hs hs' e e' b.q
  have hmem : b ∈ bondsOf nl' b.q := by
    refine (g1 b.q hlt).symm.subset ?_
    rw [radPoint_open box qpt pt radius s' hg' b.q (bondsOf s' b.q) rfl (hc' hlt)]
    simp only [Option.getD_some]
    rw [List.mem_filterMap]
    have h1 := congrArg (fun l => l[j]?) hcol
    simp only [List.getElem?_map, hj, Option.map_some] at h1
    obtain ⟨b0', hb0', h3⟩ := Option.map_eq_some_iff.mp h1.symm
    simp only [Prod.mk.injEq] at h3
    refine ⟨j, ?_, ?_⟩
    · rw [List.mem_filter, List.mem_range]
      refine ⟨(List.getElem?_eq_some_iff.mp hb0').1, @decide_eq_true _ (_) ?_⟩
      intro hbl
      exact k2 j hjc (blocked_congr box (qpt b.q) pt radius hcol.symm hbl)
    · rw [hb0', Option.map_some, Option.some.injEq, ← hb1]
      unfold radBond
      have q1 := bondsOf_q (List.mem_of_getElem? hb0')
      have q2 := bondsOf_q (List.mem_of_mem_take hb0)
      simp only [h3.1, h3.2, q1, q2]
  unfold bondsOf at hmem
  exact (List.mem_filter.mp hmem).1

/-- **C31**: the closed mode without `allow_incomplete_shell` raises exactly if some query point
has no blocked neighbor. -/
theorem C31_closed_raises_iff (box : Box K) (qpt pt : ℕ → Vec3 K) (radius : ℕ → K)
    (n : NList K) (h : GoodList n) (hne : n.bonds ≠ []) (allow : Bool) (ev : List (ℕ × ℕ))
    (hev : IsExecution n.numQueryPoints ev) :
    FilterRAD.Compute box qpt pt radius true n n.numQueryPoints n.numPoints allow ev none ↔
      allow = false ∧ ∃ i < n.numQueryPoints, ∃ sorted, SortedBy (less true) n.bonds sorted ∧
        ∀ j, ¬ Blocked (RadTest box (qpt i) pt radius) (sorted.filter (fun b => b.q = i)) j := by
  rw [rad_iff box qpt pt radius true n h allow ev hev]
  have hu : ∀ sorted s, SortedBy (less true) n.bonds sorted → Filter.sortedList n sorted = some s →
      ∀ i < n.numQueryPoints,
        (((FilterRAD.point box qpt pt radius true s i).getD ([], false)).2 = true ↔
        ∀ j, ¬ Blocked (RadTest box (qpt i) pt radius) (bondsOf s i) j) ∧
        (((FilterRAD.point box qpt pt radius true s i).getD ([], false)).1 = [] →
          bondsOf s i = []) := by
    intro sorted s hs e i hi
    obtain ⟨hg, -, hc⟩ := sorted_row n h sorted s hs e i
    obtain ⟨c, b, e2, g1, g2, g3, g4⟩ :=
      radPoint_closed box qpt pt radius s hg i (bondsOf s i) rfl (hc hi)
    rw [e2]
    simp only [Option.getD_some]
    constructor
    · rw [g4]
      constructor
      · intro hcl j hbl
        by_cases hj : j < c
        · exact g2 j hj hbl
        · obtain ⟨k, hk, bj, bk, hbj, -⟩ := hbl
          have := (List.getElem?_eq_some_iff.mp hbj).1
          omega
      · intro hall
        by_contra hcl
        exact hall c (g3 (by omega))
    · intro hnil
      rw [List.map_eq_nil_iff, List.take_eq_nil_iff] at hnil
      rcases hnil with rfl | hnil
      · by_contra hn
        have hpos : 0 < (bondsOf s i).length := List.length_pos_iff.mpr hn
        obtain ⟨k, hk, -⟩ := g3 hpos
        omega
      · exact hnil
  have hb : ∀ sorted s, SortedBy (less true) n.bonds sorted → Filter.sortedList n sorted = some s →
      s.bonds = sorted := by
    intro sorted s hs e
    obtain ⟨t, et, -, hb, -⟩ := sortedList_spec n h sorted hs
    have : t = s := by rw [e] at et; exact (Option.some.inj et).symm
    subst this
    exact hb
  constructor
  · rintro ⟨sorted, s, hs, e, ⟨ha, ⟨i, hi, hui⟩, -⟩ | ⟨-, out, ho, hr⟩⟩
    · refine ⟨ha, i, hi, sorted, hs, ?_⟩
      have := (hu sorted s hs e i hi).1.mp hui
      unfold bondsOf at this
      rwa [hb sorted s hs e] at this
    · exfalso
      have h0 := ofBonds_none hr
      apply hne
      rw [← row_nil_iff h]
      intro i hi R hR
      have h1 := (hu sorted s hs e i hi).2 (out_nil ho h0 i hi)
      have hrow := (sorted_row n h sorted s hs e i).2.1
      rw [h1] at hrow
      exact (hR.1.trans hrow.1.symm).eq_nil
  · rintro ⟨ha, i, hi, sorted, hs, hall⟩
    obtain ⟨s, e, -⟩ := sortedList_spec n h sorted hs
    refine ⟨sorted, s, hs, e, Or.inl ⟨ha, ⟨i, hi, (hu sorted s hs e i hi).1.mpr ?_⟩, rfl⟩⟩
    unfold bondsOf
    rw [hb sorted s hs e]
    exact hall

/-- **C31**: the open mode never raises (for a list of the right size with at least one bond). -/
theorem C31_open_never_raises (box : Box K) (qpt pt : ℕ → Vec3 K) (radius : ℕ → K)
    (n : NList K) (h : GoodList n) (hne : n.bonds ≠ []) (allow : Bool) (ev : List (ℕ × ℕ))
    (hev : IsExecution n.numQueryPoints ev) :
    ¬ FilterRAD.Compute box qpt pt radius false n n.numQueryPoints n.numPoints allow ev none := by
  rw [rad_iff box qpt pt radius false n h allow ev hev]
  rintro ⟨sorted, s, hs, e, ⟨-, ⟨i, hi, hui⟩, -⟩ | ⟨-, out, ho, hr⟩⟩
  · obtain ⟨hg, -, hc⟩ := sorted_row n h sorted s hs e i
    rw [radPoint_open box qpt pt radius s hg i (bondsOf s i) rfl (hc hi)] at hui
    exact absurd hui (by simp)
  · have h0 := ofBonds_none hr
    apply hne
    rw [← row_nil_iff h]
    intro i hi R hR
    obtain ⟨hg, hrow, hc⟩ := sorted_row n h sorted s hs e i
    have h1 := out_nil ho h0 i hi
    rw [radPoint_open box qpt pt radius s hg i (bondsOf s i) rfl (hc hi)] at h1
    simp only [Option.getD_some] at h1
    have h2 : bondsOf s i = [] := by
      by_contra hn
      have hpos : 0 < (bondsOf s i).length := List.length_pos_iff.mpr hn
      have hmem : (radBond box (qpt i) pt ((bondsOf s i)[0])) ∈
          ([] : List (Bond K)) := by
        rw [← h1, List.mem_filterMap]
        refine ⟨0, ?_, by rw [List.getElem?_eq_getElem hpos]; rfl⟩
        rw [List.mem_filter, List.mem_range]
        refine ⟨hpos, @decide_eq_true _ (_) ?_⟩
        rintro ⟨k, hk, -⟩
        omega
      exact absurd hmem (by simp)
    rw [h2] at hrow
    exact (hR.1.trans hrow.1.symm).eq_nil

/-- **C31**: the outcome does not depend on how the loop over query points was executed. -/
theorem C31_schedule_independent (box : Box K) (qpt pt : ℕ → Vec3 K) (radius : ℕ → K)
    (closed : Bool) (n : NList K) (h : GoodList n) (allow : Bool)
    (ev ev' : List (ℕ × ℕ)) (hev : IsExecution n.numQueryPoints ev)
    (hev' : IsExecution n.numQueryPoints ev') (r : Option (NList K)) :
    FilterRAD.Compute box qpt pt radius closed n n.numQueryPoints n.numPoints allow ev r ↔
      FilterRAD.Compute box qpt pt radius closed n n.numQueryPoints n.numPoints allow ev' r := by
  rw [rad_iff box qpt pt radius closed n h allow ev hev,
    rad_iff box qpt pt radius closed n h allow ev' hev']

/-- **C31**: there is an outcome. -/
theorem C31_result_exists (box : Box K) (qpt pt : ℕ → Vec3 K) (radius : ℕ → K) (closed : Bool) (n : NList K)
    (h : GoodList n) (allow : Bool) (ev : List (ℕ × ℕ)) (hev : IsExecution n.numQueryPoints ev) :
    ∃ r, FilterRAD.Compute box qpt pt radius closed n n.numQueryPoints n.numPoints allow ev r := by
  obtain ⟨sorted, hs⟩ := C19_sort_exists true n.bonds
  obtain ⟨s, e, -⟩ := sortedList_spec n h sorted hs
  by_cases hc : allow = false ∧ ∃ i < n.numQueryPoints,
      ((FilterRAD.point box qpt pt radius closed s i).getD ([], false)).2 = true
  · exact ⟨none, (rad_iff box qpt pt radius closed n h allow ev hev _).mpr
      ⟨sorted, s, hs, e, Or.inl ⟨hc.1, hc.2, rfl⟩⟩⟩
  · obtain ⟨out, ho⟩ := C19_sort_exists true ((List.range n.numQueryPoints).flatMap
      (fun i => ((FilterRAD.point box qpt pt radius closed s i).getD ([], false)).1))
    exact ⟨_, (rad_iff box qpt pt radius closed n h allow ev hev _).mpr
      ⟨sorted, s, hs, e, Or.inr ⟨hc, out, ho, rfl⟩⟩⟩

/-- **C64** (RAD, partial): every bond of the filtered list is a bond of the unfiltered one with
its indices and distance, and there are at most as many points and query points. The weight is
replaced by 1 and the vector by the wrapped `query point - point`, and the sizes may shrink, see
the counterexamples. -/
theorem C64_rad_partial (box : Box K) (qpt pt : ℕ → Vec3 K) (radius : ℕ → K)
    (closed : Bool) (n : NList K) (h : GoodList n) (allow : Bool) (ev : List (ℕ × ℕ))
    (hev : IsExecution n.numQueryPoints ev) (nl : NList K)
    (hr : FilterRAD.Compute box qpt pt radius closed n n.numQueryPoints n.numPoints allow ev
      (some nl)) :
    (∀ b ∈ nl.bonds, ∃ b0 ∈ n.bonds, b.q = b0.q ∧ b.p = b0.p ∧ b.dist = b0.dist ∧ b.weight = 1 ∧
      b.vec = box.wrap (qpt b.q - pt b.p)) ∧
    nl.numQueryPoints ≤ n.numQueryPoints ∧ nl.numPoints ≤ n.numPoints := by
  have key : ∀ b ∈ nl.bonds, ∃ b0 ∈ n.bonds, b.q = b0.q ∧ b.p = b0.p ∧ b.dist = b0.dist ∧
      b.weight = 1 ∧ b.vec = box.wrap (qpt b.q - pt b.p) := by
    obtain ⟨sorted, s, hs, e, -, -, h2, -⟩ :=
      rad_some box qpt pt radius closed n h allow ev hev nl hr
    intro b hb
    obtain ⟨hlt, hbm⟩ := h2 b hb
    obtain ⟨hq, b0, hb0, he⟩ := rad_q box qpt pt radius closed n h sorted s hs e b.q hlt b hbm
    refine ⟨b0, hb0, ?_⟩
    have f1 : b.q = b0.q := (congrArg Bond.q he).trans rfl
    have f2 : b.p = b0.p := (congrArg Bond.p he).trans rfl
    have f3 : b.dist = b0.dist := (congrArg Bond.dist he).trans rfl
    have f4 : b.weight = 1 := congrArg Bond.weight he
    have f5 : b.vec = box.wrap (qpt b.q - pt b0.p) := congrArg Bond.vec he
    exact ⟨f1, f2, f3, f4, by rw [f2]; exact f5⟩
  refine ⟨key, ?_⟩
  rw [rad_iff box qpt pt radius closed n h allow ev hev] at hr
  obtain ⟨sorted, s, hs, e, ⟨-, -, hr⟩ | ⟨-, out, ho, hr⟩⟩ := hr
  · exact absurd hr (by simp)
  obtain ⟨hb, -, -, ⟨bq, hbq, hbq2⟩, ⟨bp, hbp, hbp2⟩⟩ := ofBonds_some hr
  rw [← hb] at hbq hbp
  obtain ⟨b0, hb0, hq, -⟩ := key bq hbq
  obtain ⟨b1, hb1, -, hp, -⟩ := key bp hbp
  have := h.qlt b0 hb0
  have := h.plt b1 hb1
  omega

end rad

/-- The separations of two neighbors at `v1` and `v2` with radii `r1`, `r2`: the second blocks the
first if the solid angle `r1² / |v1|²` is less than `r2² / |v2|²` times the cosine of the angle
between them. -/
noncomputable def Spec.RadBlocks (r1 r2 : ℝ) (v1 v2 : Vec3 ℝ) : Prop :=
  r1 ^ 2 / (v1.x ^ 2 + v1.y ^ 2 + v1.z ^ 2) < r2 ^ 2 / (v2.x ^ 2 + v2.y ^ 2 + v2.z ^ 2) *
    ((v1.x * v2.x + v1.y * v2.y + v1.z * v2.z) /
      (Real.sqrt (v1.x ^ 2 + v1.y ^ 2 + v1.z ^ 2) * Real.sqrt (v2.x ^ 2 + v2.y ^ 2 + v2.z ^ 2)))

/-- **C31**: where the stored distances are the lengths of the wrapped separations and these are
not zero, the blocking test is the criterion on solid angles. -/
theorem C31_blocking_is_geometric (box : Box ℝ) (qp : Vec3 ℝ) (pt : ℕ → Vec3 ℝ) (radius : ℕ → ℝ)
    (bj bk : Bond ℝ)
    (hj : bj.dist = (box.wrap (qp - pt bj.p)).norm) (hk : bk.dist = (box.wrap (qp - pt bk.p)).norm)
    (hj0 : bj.dist ≠ 0) (hk0 : bk.dist ≠ 0) :
    RadTest box qp pt radius bj bk ↔
      RadBlocks (radius bj.p) (radius bk.p) (box.wrap (qp - pt bj.p)) (box.wrap (qp - pt bk.p)) := by
  unfold RadTest RadBlocks
  simp only
  generalize box.wrap (qp - pt bj.p) = v1 at *
  generalize box.wrap (qp - pt bk.p) = v2 at *
  have e1 : v1.norm = Real.sqrt (v1.x ^ 2 + v1.y ^ 2 + v1.z ^ 2) := by
    simp [Vec3.norm, Vec3.dot, pow_two]
  have e2 : v2.norm = Real.sqrt (v2.x ^ 2 + v2.y ^ 2 + v2.z ^ 2) := by
    simp [Vec3.norm, Vec3.dot, pow_two]
  rw [e1] at hj
  rw [e2] at hk
  have n1 : 0 ≤ v1.x ^ 2 + v1.y ^ 2 + v1.z ^ 2 := by positivity
  have n2 : 0 ≤ v2.x ^ 2 + v2.y ^ 2 + v2.z ^ 2 := by positivity
  have s1 := Real.sq_sqrt n1
  have s2 := Real.sq_sqrt n2
  rw [← hj] at s1 ⊢
  rw [← hk] at s2 ⊢
  have d1 : v1.dot v1 = v1.x ^ 2 + v1.y ^ 2 + v1.z ^ 2 := by simp [Vec3.dot, pow_two]
  have d2 : v2.dot v2 = v2.x ^ 2 + v2.y ^ 2 + v2.z ^ 2 := by simp [Vec3.dot, pow_two]
  have d3 : v1.dot v2 = v1.x * v2.x + v1.y * v2.y + v1.z * v2.z := by simp [Vec3.dot]
  rw [d1, d2, d3, ← s1, ← s2]
  have p1 : 0 < bj.dist := lt_of_le_of_ne (by rw [hj]; exact Real.sqrt_nonneg _) (Ne.symm hj0)
  have p2 : 0 < bk.dist := lt_of_le_of_ne (by rw [hk]; exact Real.sqrt_nonneg _) (Ne.symm hk0)
  generalize v1.x * v2.x + v1.y * v2.y + v1.z * v2.z = D
  generalize bj.dist = a at *
  generalize bk.dist = b at *
  generalize radius bj.p = r1
  generalize radius bk.p = r2
  have e : r2 ^ 2 / b ^ 2 * (D / (a * b)) - r1 ^ 2 / a ^ 2 =
      (r2 ^ 2 * a ^ 2 * D - r1 ^ 2 * b ^ 2 * (a * b)) / (a ^ 2 * b ^ 2 * (a * b)) := by
    field_simp
  have pos : 0 < a ^ 2 * b ^ 2 * (a * b) := by positivity
  rw [← sub_pos, ← sub_pos (a := r2 ^ 2 / b ^ 2 * (D / (a * b))), e, div_pos_iff_of_pos_right pos]

/-! ### Examples and counterexamples -/

/-- One query point with neighbors at distances 1, 1, 1 and 3. -/
def exSann : NList ℚ :=
  ⟨1, 4, [⟨0, 3, 3, 1, ⟨3, 0, 0⟩⟩, ⟨0, 0, 1, 1, ⟨1, 0, 0⟩⟩, ⟨0, 1, 1, 1, ⟨0, 1, 0⟩⟩,
    ⟨0, 2, 1, 1, ⟨0, 0, 1⟩⟩], false, [], []⟩

/-- The three nearest. -/
def exSannOut : List (Bond ℚ) :=
  [⟨0, 0, 1, 1, ⟨1, 0, 0⟩⟩, ⟨0, 1, 1, 1, ⟨0, 1, 0⟩⟩, ⟨0, 2, 1, 1, ⟨0, 0, 1⟩⟩]

theorem exSann_good : GoodList exSann := by
  refine ⟨by simp [exSann], ?_, ?_, by simp [exSann]⟩ <;> intro b hb <;>
    simp only [exSann, List.mem_cons, List.not_mem_nil, or_false] at hb ⊢ <;>
    rcases hb with rfl | rfl | rfl | rfl <;> simp

theorem exSann_compute (nl : NList ℚ) (h : NList.ofBonds exSannOut = some nl) :
    FilterSANN.Compute exSann 1 4 false [(0, 0)] (some nl) := by
  unfold FilterSANN.Compute Filter.Run
  rw [if_neg (by decide +kernel)]
  refine ⟨exSannOut ++ [⟨0, 3, 3, 1, ⟨3, 0, 0⟩⟩], ⟨by decide +kernel, by decide +kernel⟩, ?_⟩
  have e : (Filter.sortedList exSann (exSannOut ++ [⟨0, 3, 3, 1, ⟨3, 0, 0⟩⟩])).bind
      (fun s => Filter.collect (FilterSANN.point s) s.numQueryPoints false [(0, 0)]) =
        some exSannOut := by decide +kernel
  rw [e]
  exact ⟨exSannOut, ⟨List.Perm.refl _, by decide +kernel⟩, h.symm⟩

example : GoodList exSann ∧ IsExecution exSann.numQueryPoints [(0, 0)] ∧ exSann.bonds ≠ [] ∧
    ∃ nl, FilterSANN.Compute exSann exSann.numQueryPoints exSann.numPoints false [(0, 0)] (some nl) ∧
      nl.bonds.length = 3 :=
  ⟨exSann_good, by simp [IsExecution, exSann], by simp [exSann], _, exSann_compute _ rfl, rfl⟩

/-- **C64** is false for the number of points: a filter applied to a list for 4 points returns a
list for 3 points (the largest index that is kept, plus one), and passing it to an analysis of
the same system is rejected by the size check. -/
theorem C64_num_points_counterexample :
    ∃ (n nl : NList ℚ), GoodList n ∧
      FilterSANN.Compute n n.numQueryPoints n.numPoints false [(0, 0)] (some nl) ∧
      nl.numPoints < n.numPoints ∧ nl.validate n.numQueryPoints n.numPoints = false :=
  ⟨exSann, _, exSann_good, exSann_compute _ rfl, by decide +kernel, by decide +kernel⟩

/-- A cubic box of side 10. -/
def exBox10 : Box ℚ := Box.mk' 10 10 10 0 0 0 false

/-- The points of the RAD example: two in the same direction from the origin. -/
def exRadPt (j : ℕ) : Vec3 ℚ := if j = 0 then ⟨1, 0, 0⟩ else ⟨3, 0, 0⟩

/-- The neighbors of the origin, with vectors from the query point to the points. -/
def exRad : NList ℚ :=
  ⟨1, 2, [⟨0, 0, 1, 5, ⟨1, 0, 0⟩⟩, ⟨0, 1, 3, 7, ⟨3, 0, 0⟩⟩], false, [], []⟩

theorem exRad_good : GoodList exRad := by
  refine ⟨by simp [exRad], ?_, ?_, by simp [exRad]⟩ <;> intro b hb <;>
    simp only [exRad, List.mem_cons, List.not_mem_nil, or_false] at hb ⊢ <;>
    rcases hb with rfl | rfl <;> simp

theorem exRad_compute (closed : Bool) (nl : NList ℚ)
    (h : NList.ofBonds [(⟨0, 0, 1, 1, ⟨-1, 0, 0⟩⟩ : Bond ℚ)] = some nl) :
    FilterRAD.Compute exBox10 (fun _ => ⟨0, 0, 0⟩) exRadPt (fun _ => 1) closed exRad 1 2 false
      [(0, 0)] (some nl) := by
  unfold FilterRAD.Compute Filter.Run
  rw [if_neg (by decide +kernel)]
  refine ⟨exRad.bonds, ⟨List.Perm.refl _, by decide +kernel⟩, ?_⟩
  have e : (Filter.sortedList exRad exRad.bonds).bind
      (fun s => Filter.collect (FilterRAD.point exBox10 (fun _ => ⟨0, 0, 0⟩) exRadPt (fun _ => 1)
        closed s) s.numQueryPoints false [(0, 0)]) =
        some [⟨0, 0, 1, 1, ⟨-1, 0, 0⟩⟩] := by cases closed <;> decide +kernel
  rw [e]
  exact ⟨_, ⟨List.Perm.refl _, by decide +kernel⟩, h.symm⟩

example : GoodList exRad ∧ IsExecution exRad.numQueryPoints [(0, 0)] ∧ exRad.bonds ≠ [] ∧
    ∀ closed, ∃ nl, FilterRAD.Compute exBox10 (fun _ => ⟨0, 0, 0⟩) exRadPt (fun _ => 1) closed exRad
      exRad.numQueryPoints exRad.numPoints false [(0, 0)] (some nl) :=
  ⟨exRad_good, by simp [IsExecution, exRad], by simp [exRad],
    fun closed => ⟨_, exRad_compute closed _ rfl⟩⟩

/-- **C64** is false for the data of RAD: the one bond kept has its vector reversed and its weight
replaced. -/
theorem C64_rad_data_counterexample :
    ∃ (n nl : NList ℚ) (b b' : Bond ℚ), GoodList n ∧
      FilterRAD.Compute exBox10 (fun _ => ⟨0, 0, 0⟩) exRadPt (fun _ => 1) true n n.numQueryPoints
        n.numPoints false [(0, 0)] (some nl) ∧
      b ∈ n.bonds ∧ nl.bonds = [b'] ∧ (b'.q, b'.p) = (b.q, b.p) ∧
      b'.vec.x = - b.vec.x ∧ b'.vec ≠ b.vec ∧ b'.weight ≠ b.weight :=
  ⟨exRad, _, ⟨0, 0, 1, 5, ⟨1, 0, 0⟩⟩, ⟨0, 0, 1, 1, ⟨-1, 0, 0⟩⟩, exRad_good, exRad_compute true _ rfl,
    by decide +kernel, rfl, by decide +kernel, by decide +kernel, by decide +kernel,
    by decide +kernel⟩

end Freud
