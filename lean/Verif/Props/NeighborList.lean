import Verif.Model.NeighborList
import Mathlib.Data.List.Sort
import Mathlib.Data.Prod.Lex

/-!
# Properties C14 - C16: construction, segments, filters of neighbor lists
-/

set_option linter.unusedSectionVars false

namespace Freud
open Spec NList

/-- The bonds are sorted by query index and all indices are in range. -/
structure Spec.GoodList {K : Type*} (n : NList K) : Prop where
  sorted : (n.bonds.map (·.q)).Pairwise (· ≤ ·)
  qlt : ∀ b ∈ n.bonds, b.q < n.numQueryPoints
  plt : ∀ b ∈ n.bonds, b.p < n.numPoints
  small : n.numQueryPoints ≤ 0xffffffff

/-! ### C14 -/

theorem arrayLoop_spec (nq np last : ℕ) (es : List (ℕ × ℕ × ℝ × Vec3 ℝ)) :
    ((arrayLoop nq np last es).isSome ↔
      (last :: es.map (·.1)).Pairwise (· ≤ ·) ∧ ∀ e ∈ es, e.1 < nq ∧ e.2.1 < np) ∧
    ∀ bs, arrayLoop nq np last es = some bs →
      bs = es.map (fun e => ⟨e.1, e.2.1,
        Real.sqrt (e.2.2.2.x ^ 2 + e.2.2.2.y ^ 2 + e.2.2.2.z ^ 2), e.2.2.1, e.2.2.2⟩) := by
  induction es generalizing last with
  | nil => simp [arrayLoop]
  | cons e es ih =>
    obtain ⟨index, pi, w, v⟩ := e
    obtain ⟨ih1, ih2⟩ := ih index
    unfold arrayLoop
    split_ifs with h1 h2 h3
    · refine ⟨⟨by simp, fun ⟨h, _⟩ => ?_⟩, by simp⟩
      have := (List.pairwise_cons.mp h).1 index (by simp)
      omega
    · refine ⟨⟨by simp, fun ⟨_, h⟩ => ?_⟩, by simp⟩
      have := (h _ List.mem_cons_self).1
      simp only at this
      omega
    · refine ⟨⟨by simp, fun ⟨_, h⟩ => ?_⟩, by simp⟩
      have := (h _ List.mem_cons_self).2
      simp only at this
      omega
    · refine ⟨?_, ?_⟩
      · rw [Option.isSome_map, ih1]
        simp only [List.map_cons, List.mem_cons, forall_eq_or_imp]
        constructor
        · rintro ⟨h4, h5⟩
          refine ⟨List.pairwise_cons.mpr ⟨?_, h4⟩, ⟨by omega, by omega⟩, h5⟩
          intro a ha
          rcases List.mem_cons.mp ha with rfl | ha
          · omega
          · have := (List.pairwise_cons.mp h4).1 a ha
            omega
        · rintro ⟨h4, -, h5⟩
          exact ⟨(List.pairwise_cons.mp h4).2, h5⟩
      · intro bs hbs
        simp only [Option.map_eq_some_iff] at hbs
        obtain ⟨bs', e, rfl⟩ := hbs
        simp only [List.map_cons]
        rw [ih2 bs' e]
        simp [Bond.ofVec, Vec3.norm, Vec3.dot, pow_two]

/-- **C14**: `from_arrays` succeeds exactly when the query indices are sorted and all query and
point indices are in range. -/
theorem C14_accepts_iff (nq np : ℕ) (entries : List (ℕ × ℕ × ℝ × Vec3 ℝ)) :
    (fromArrays nq np entries).isSome ↔
      (entries.map (·.1)).Pairwise (· ≤ ·) ∧ ∀ e ∈ entries, e.1 < nq ∧ e.2.1 < np := by
  unfold fromArrays
  rw [Option.isSome_map, (arrayLoop_spec nq np 0 entries).1, List.pairwise_cons]
  simp

/-- **C14**: the list built holds every bond unchanged, in order, and the distance of each is the
length of its vector. -/
theorem C14_stores_bonds (nq np : ℕ) (entries : List (ℕ × ℕ × ℝ × Vec3 ℝ)) (nl : NList ℝ)
    (h : fromArrays nq np entries = some nl) :
    nl.numQueryPoints = nq ∧ nl.numPoints = np ∧
    nl.bonds = entries.map (fun e => ⟨e.1, e.2.1,
      Real.sqrt (e.2.2.2.x ^ 2 + e.2.2.2.y ^ 2 + e.2.2.2.z ^ 2), e.2.2.1, e.2.2.2⟩) := by
  unfold fromArrays at h
  simp only [Option.map_eq_some_iff] at h
  obtain ⟨bs, e, rfl⟩ := h
  exact ⟨rfl, rfl, (arrayLoop_spec nq np 0 entries).2 bs e⟩

example : (fromArrays 2 3 [(0, 2, 1, ⟨1, 0, 0⟩), (1, 0, 1, ⟨0, 3, 4⟩), (1, 1, 1, ⟨0, 0, 0⟩)]).isSome :=
  (C14_accepts_iff _ _ _).mpr (by simp)

/-! ### C15 -/

/-- The first position of `k` in a list (or 0). -/
theorem segLoop_spec (nq : ℕ) (qs : List ℕ) (hs : qs.Pairwise (· ≤ ·)) (hlt : ∀ q ∈ qs, q < nq)
    (hsmall : nq ≤ indexTerminator) :
    ∀ (pre rest : List ℕ) (s : SegState), qs = pre ++ rest →
      s.counts.length = nq → s.segments.length = nq → s.counter = pre.count s.last →
      (∀ k, k ≠ s.last → s.counts.getD k 0 = pre.count k) →
      (∀ k ∈ pre, k ≤ s.last ∧ s.segments.getD k 0 = pre.idxOf k) →
      (pre = [] → s.last = indexTerminator) → (pre ≠ [] → s.last ∈ pre) →
      ∃ s', segLoop s pre.length rest = some s' ∧ s'.counts.length = nq ∧
        s'.segments.length = nq ∧ s'.counter = qs.count s'.last ∧
        (∀ k, k ≠ s'.last → s'.counts.getD k 0 = qs.count k) ∧
        (∀ k ∈ qs, s'.segments.getD k 0 = qs.idxOf k) ∧
        (qs = [] → s'.last = indexTerminator) ∧ (qs ≠ [] → s'.last ∈ qs) := by
  intro pre rest
  induction rest generalizing pre with
  | nil =>
    intro s e h1 h2 h3 h4 h5 h6 h7
    simp only [List.append_nil] at e
    subst e
    exact ⟨s, rfl, h1, h2, h3, h4, fun k hk => (h5 k hk).2, h6, h7⟩
  | cons index rest ih =>
    intro s e h1 h2 h3 h4 h5 h6 h7
    have hidx : index < nq := hlt index (by rw [e]; simp)
    have hle : ∀ k ∈ pre, k ≤ index := by
      intro k hk
      rw [e, List.pairwise_append] at hs
      exact hs.2.2 k hk index List.mem_cons_self
    have e' : qs = (pre ++ [index]) ++ rest := by rw [e]; simp
    have hlen : (pre ++ [index]).length = pre.length + 1 := by simp
    by_cases hnew : index = s.last
    · -- same query point as before
      have hmem : index ∈ pre := by
        by_contra hc
        have : pre = [] := by
          by_contra hp
          exact hc (hnew ▸ h7 hp)
        have := h6 this
        omega
      have hstep : segStep s pre.length index =
          some { s with last := index, counter := s.counter + 1 } := by
        simp [segStep, hnew]
      obtain ⟨s', e2, hr⟩ := ih (pre ++ [index]) { s with last := index, counter := s.counter + 1 }
        e' h1 h2 (by
          show s.counter + 1 = _
          rw [h3, ← hnew]; simp [List.count_append])
        (by
          intro k hk
          have hk : k ≠ index := hk
          have hk' : k ≠ s.last := by rw [← hnew]; exact hk
          show s.counts.getD k 0 = _
          rw [h4 k hk']
          simp [List.count_append, List.count_singleton, Ne.symm hk])
        (by
          intro k hk
          have hk' : k ∈ pre := by
            rcases List.mem_append.mp hk with h | h
            · exact h
            · simp only [List.mem_cons, List.not_mem_nil, or_false] at h
              rw [h]; exact hmem
          refine ⟨hle k hk', ?_⟩
          rw [List.idxOf_append_of_mem hk']
          exact (h5 k hk').2)
        (by simp) (by simp)
      refine ⟨s', ?_, hr⟩
      rw [segLoop, hstep]
      rw [hlen] at e2
      exact e2
    · -- a new query point
      have hnmem : index ∉ pre := by
        intro hc
        have h8 := (h5 index hc).1
        have h9 := h7 (List.ne_nil_of_mem hc)
        have := hle _ h9
        omega
      have hseg : setChecked s.segments index pre.length =
          some (s.segments.set index pre.length) := by
        unfold setChecked; rw [if_neg (by omega)]
      have hcnt : ∃ c, (if s.last ≠ indexTerminator then setChecked s.counts s.last s.counter
          else some s.counts) = some c ∧ c.length = nq ∧ ∀ k, c.getD k 0 = pre.count k := by
        by_cases hT : s.last = indexTerminator
        · have hpre : pre = [] := by
            by_contra hp
            have h9 := hle _ (h7 hp)
            omega
          refine ⟨s.counts, by simp [hT], h1, fun k => ?_⟩
          by_cases hk : k = s.last
          · rw [hk, hT, hpre]
            rw [List.getD_eq_getElem?_getD, List.getElem?_eq_none (by omega)]
            simp
          · exact h4 k hk
        · have hpre : pre ≠ [] := fun hp => hT (h6 hp)
          have hl : s.last < nq := by
            have := hle _ (h7 hpre)
            omega
          refine ⟨s.counts.set s.last s.counter, ?_, by simp [h1], fun k => ?_⟩
          · rw [if_pos hT]; unfold setChecked; rw [if_neg (by omega)]
          · by_cases hk : k = s.last
            · rw [hk]
              simp [List.getD_eq_getElem?_getD, h1, hl, h3]
            · rw [← h4 k hk]
              simp [List.getD_eq_getElem?_getD, List.getElem?_set, Ne.symm hk]
      obtain ⟨c, hc1, hc2, hc3⟩ := hcnt
      have hzero : index = 0 → s.counter = 0 ∧ c = s.counts := by
        intro h0
        have hpre : pre = [] := by
          by_contra hp
          have h9 := hle _ (h7 hp)
          have : s.last = 0 := by omega
          omega
        have hT := h6 hpre
        refine ⟨by rw [h3, hpre]; simp, ?_⟩
        simp only [hT, ne_eq, not_true, if_false, Option.some.injEq] at hc1
        exact hc1.symm
      have hstep : segStep s pre.length index =
          some ⟨c, s.segments.set index pre.length, index, 1⟩ := by
        unfold segStep
        rw [if_pos hnew, hseg]
        simp only [Option.bind_some]
        by_cases h0 : index > 0
        · rw [if_pos h0, hc1]; simp
        · have h0' : index = 0 := by omega
          obtain ⟨hz1, hz2⟩ := hzero h0'
          rw [if_neg h0, hz2]
          simp [hz1]
      obtain ⟨s', e2, hr⟩ := ih (pre ++ [index]) ⟨c, s.segments.set index pre.length, index, 1⟩
        e' hc2 (by simp [h2])
        (by simp [List.count_append, List.count_eq_zero_of_not_mem hnmem])
        (by
          intro k hk
          have hk : k ≠ index := hk
          simp only [hc3, List.count_append, List.count_singleton]
          simp [Ne.symm hk])
        (by
          intro k hk
          rcases List.mem_append.mp hk with h | h
          · refine ⟨hle k h, ?_⟩
            rw [List.idxOf_append_of_mem h, ← (h5 k h).2]
            have : index ≠ k := fun hc => hnmem (hc ▸ h)
            simp [List.getD_eq_getElem?_getD, List.getElem?_set, this]
          · simp only [List.mem_cons, List.not_mem_nil, or_false] at h
            rw [h]
            refine ⟨le_refl _, ?_⟩
            rw [List.idxOf_append_of_notMem hnmem]
            simp [List.getD_eq_getElem?_getD, h2, hidx])
        (by simp) (by simp)
      refine ⟨s', ?_, hr⟩
      rw [segLoop, hstep]
      rw [hlen] at e2
      exact e2

theorem segCompute_spec (nq : ℕ) (qs : List ℕ) (hs : qs.Pairwise (· ≤ ·))
    (hlt : ∀ q ∈ qs, q < nq) (hsmall : nq ≤ indexTerminator) :
    ∃ c sg, segCompute nq qs = some (c, sg) ∧ c.length = nq ∧ sg.length = nq ∧
      (∀ k, c.getD k 0 = qs.count k) ∧ (∀ k ∈ qs, sg.getD k 0 = qs.idxOf k) := by
  obtain ⟨s, e, h1, h2, h3, h4, h5, h6, h7⟩ := segLoop_spec nq qs hs hlt hsmall [] qs
    ⟨List.replicate nq 0, List.replicate nq 0, indexTerminator, 0⟩ (by simp) (by simp) (by simp)
    (by simp)
    (by intro k _; simp [List.getD_eq_getElem?_getD, List.getElem?_replicate]; split_ifs <;> rfl)
    (by simp) (by simp) (by simp)
  unfold segCompute
  simp only [List.length_nil] at e
  rw [e]
  simp only [Option.bind_some]
  by_cases hT : s.last = indexTerminator
  · have hq : qs = [] := by
      by_contra hq
      have := hlt _ (h7 hq)
      omega
    refine ⟨s.counts, s.segments, by simp [hT], h1, h2, fun k => ?_, h5⟩
    by_cases hk : k = s.last
    · rw [hk, hT, hq, List.getD_eq_getElem?_getD, List.getElem?_eq_none (by omega)]
      simp
    · exact h4 k hk
  · have hq : qs ≠ [] := fun hq => hT (h6 hq)
    have hl : s.last < nq := hlt _ (h7 hq)
    refine ⟨s.counts.set s.last s.counter, s.segments, ?_, by simp [h1], h2, fun k => ?_, h5⟩
    · rw [if_pos hT]; unfold setChecked; rw [if_neg (by omega)]; rfl
    · by_cases hk : k = s.last
      · rw [hk]; simp [List.getD_eq_getElem?_getD, h1, hl, h3]
      · rw [← h4 k hk]; simp [List.getD_eq_getElem?_getD, List.getElem?_set, Ne.symm hk]

/-- In a sorted list, the positions holding `k` are the block of length `count k` that starts at
the first occurrence. -/
theorem sorted_block (qs : List ℕ) (hs : qs.Pairwise (· ≤ ·)) (k : ℕ) (hk : k ∈ qs) (b : ℕ) :
    (qs[b]? = some k) ↔ qs.idxOf k ≤ b ∧ b < qs.idxOf k + qs.count k := by
  induction qs generalizing b with
  | nil => simp at hk
  | cons a as ih =>
    obtain ⟨ha, has⟩ := List.pairwise_cons.mp hs
    by_cases hak : a = k
    · subst hak
      simp only [List.idxOf_cons_self, List.count_cons_self, Nat.zero_le, true_and, zero_add]
      by_cases hm : a ∈ as
      · -- all occurrences are at the front of `as`
        have h0 : as.idxOf a = 0 := by
          cases as with
          | nil => simp at hm
          | cons c cs =>
            have h1 := ha c List.mem_cons_self
            rcases List.mem_cons.mp hm with rfl | hm'
            · simp
            · have := (List.pairwise_cons.mp has).1 a hm'
              have : c = a := by omega
              simp [this]
        cases b with
        | zero => simp
        | succ b =>
          rw [List.getElem?_cons_succ, ih has hm b, h0]
          omega
      · rw [List.count_eq_zero_of_not_mem hm]
        cases b with
        | zero => simp
        | succ b =>
          rw [List.getElem?_cons_succ]
          constructor
          · intro h; exact absurd (List.mem_of_getElem? h) hm
          · intro h; omega
    · have hm : k ∈ as := by
        rcases List.mem_cons.mp hk with h | h
        · exact absurd h.symm hak
        · exact h
      rw [List.idxOf_cons_ne _ hak, List.count_cons_of_ne hak]
      cases b with
      | zero => simp [hak]
      | succ b =>
        rw [List.getElem?_cons_succ, ih has hm b]
        omega

variable {K : Type*}

/-- **C15**: on a neighbor list (sorted, indices in range) reading `segments` and
`neighbor_counts` succeeds, and for every query point `k` the bonds of `k` are exactly the bonds
numbered from `segments[k]` up to (not including) `segments[k] + neighbor_counts[k]`; the number
of them is `neighbor_counts[k]`. -/
theorem C15_segments (n : NList K) (h : GoodList n) (hfresh : n.segUpdated = false) :
    ∃ n', n.updateSegmentCounts = some n' ∧ n'.bonds = n.bonds ∧
      n'.segments.length = n.numQueryPoints ∧ n'.counts.length = n.numQueryPoints ∧
      ∀ k < n.numQueryPoints,
        n'.counts.getD k 0 = (n.bonds.filter (fun b => b.q = k)).length ∧
        ∀ b, ((n.bonds[b]?).map (·.q) = some k ↔
          n'.segments.getD k 0 ≤ b ∧ b < n'.segments.getD k 0 + n'.counts.getD k 0) := by
  obtain ⟨c, sg, e, h1, h2, h3, h4⟩ := segCompute_spec n.numQueryPoints (n.bonds.map (·.q)) h.sorted
    (by intro q hq; obtain ⟨b, hb, rfl⟩ := List.mem_map.mp hq; exact h.qlt b hb) h.small
  refine ⟨{ n with counts := c, segments := sg, segUpdated := true }, ?_, rfl, h2, h1, ?_⟩
  · simp [updateSegmentCounts, hfresh, e]
  · intro k hk
    have hcount : c.getD k 0 = (n.bonds.filter (fun b => b.q = k)).length := by
      rw [h3, List.count_eq_length_filter, List.filter_map, List.length_map]
      congr 1
    refine ⟨hcount, fun b => ?_⟩
    rw [← List.getElem?_map]
    by_cases hm : k ∈ n.bonds.map (·.q)
    · rw [sorted_block _ h.sorted k hm b]
      simp only
      rw [h4 k hm, h3 k]
    · simp only
      rw [h3 k, List.count_eq_zero_of_not_mem hm]
      constructor
      · intro hb; exact absurd (List.mem_of_getElem? hb) hm
      · intro hb; omega

theorem bisection_spec (qs : List ℕ) (hs : qs.Pairwise (· ≤ ·)) (val : ℕ) :
    ∀ (m left right : ℕ), right - left = m → left < right → right ≤ qs.length →
      (left ≠ 0 → qs.getD left 0 < val) →
      (∀ j, right ≤ j → j < qs.length → val ≤ qs.getD j 0) →
      let r := bisectionSearch qs val left right
      r < qs.length ∧ (r ≠ 0 → qs.getD r 0 < val) ∧
      ∀ j, r < j → j < qs.length → val ≤ qs.getD j 0 := by
  intro m
  induction m using Nat.strong_induction_on with
  | _ m ih =>
    intro left right hm hlr hrl hleft hright
    rw [bisectionSearch]
    by_cases hc : left + 1 ≥ right
    · rw [if_pos hc]
      exact ⟨by omega, hleft, fun j hj hj2 => hright j (by omega) hj2⟩
    rw [if_neg hc]
    by_cases hmid : qs.getD ((left + right) / 2) 0 < val
    · simp only [if_pos hmid]
      exact ih (right - (left + right) / 2) (by omega) _ right rfl (by omega) hrl
        (fun _ => hmid) hright
    · simp only [if_neg hmid]
      refine ih ((left + right) / 2 - left) (by omega) left _ rfl (by omega) (by omega) hleft ?_
      intro j hj hj2
      have hmono : qs.getD ((left + right) / 2) 0 ≤ qs.getD j 0 := by
        rcases Nat.eq_or_lt_of_le hj with h | h
        · rw [h]
        · have := List.pairwise_iff_getElem.mp hs _ j (by omega) hj2 h
          simpa [List.getD_eq_getElem?_getD, hj2, show (left + right) / 2 < qs.length by omega]
            using this
      push Not at hmid
      exact le_trans hmid hmono

/-- **C15**: `find_first_index(i)` is the lowest bond index whose query index is at least `i`,
and the number of bonds if there is none. -/
theorem C15_find_first_index (n : NList K) (h : GoodList n) (i : ℕ) :
    n.findFirstIndex i ≤ n.bonds.length ∧
    ∀ k b, n.bonds[k]? = some b → (n.findFirstIndex i ≤ k ↔ i ≤ b.q) := by
  unfold findFirstIndex
  have hs := h.sorted
  have hget : ∀ k b, n.bonds[k]? = some b → (n.bonds.map (·.q)).getD k 0 = b.q := by
    intro k b hb
    simp [List.getD_eq_getElem?_getD, List.getElem?_map, hb]
  generalize hq : n.bonds.map (·.q) = qs at *
  have hlen : qs.length = n.bonds.length := by rw [← hq]; simp
  simp only
  split_ifs with h0 h1
  · -- i > first query index
    obtain ⟨g1, g2, g3⟩ := bisection_spec qs hs i _ 0 qs.length rfl (by omega) (le_refl _)
      (by simp) (by intro j hj hj2; omega)
    refine ⟨by omega, fun k b hb => ?_⟩
    have hk : k < n.bonds.length := (List.getElem?_eq_some_iff.mp hb).1
    rw [← hget k b hb]
    constructor
    · intro hle; exact g3 k (by omega) (by omega)
    · intro hle
      by_contra hc
      have hkr : k ≤ bisectionSearch qs i 0 qs.length := by omega
      have hlt : qs.getD (bisectionSearch qs i 0 qs.length) 0 < i := by
        by_cases hz : bisectionSearch qs i 0 qs.length = 0
        · rw [hz]; exact h1
        · exact g2 hz
      have hmono : qs.getD k 0 ≤ qs.getD (bisectionSearch qs i 0 qs.length) 0 := by
        rcases Nat.eq_or_lt_of_le hkr with h | h
        · rw [← h]
        · have := List.pairwise_iff_getElem.mp hs k _ (by omega) g1 h
          simpa [List.getD_eq_getElem?_getD, g1, show k < qs.length by omega] using this
      omega
  · -- i ≤ first query index
    obtain ⟨g1, g2, g3⟩ := bisection_spec qs hs i _ 0 qs.length rfl (by omega) (le_refl _)
      (by simp) (by intro j hj hj2; omega)
    have hmono : ∀ k, k < qs.length → qs.getD 0 0 ≤ qs.getD k 0 := by
      intro k hk
      rcases Nat.eq_zero_or_pos k with h | h
      · rw [h]
      · have := List.pairwise_iff_getElem.mp hs 0 k (by omega) hk h
        simpa [List.getD_eq_getElem?_getD, hk, show 0 < qs.length by omega] using this
    have hr : bisectionSearch qs i 0 qs.length = 0 := by
      by_contra hz
      have := g2 hz
      have := hmono _ g1
      omega
    refine ⟨by omega, fun k b hb => ?_⟩
    have hk : k < n.bonds.length := (List.getElem?_eq_some_iff.mp hb).1
    have := hmono k (by omega)
    rw [hget k b hb] at this
    constructor
    · intro; omega
    · intro; omega
  · refine ⟨by omega, fun k b hb => ?_⟩
    have hk : k < n.bonds.length := (List.getElem?_eq_some_iff.mp hb).1
    omega

/-- A list of three bonds used as a witness below. -/
def exList : NList ℚ :=
  ⟨4, 3, [⟨0, 1, 1, 1, ⟨1, 0, 0⟩⟩, ⟨2, 0, 2, 1, ⟨0, 2, 0⟩⟩, ⟨2, 2, 3, 1, ⟨0, 0, 3⟩⟩], false, [], []⟩

theorem exList_good : GoodList exList := by
  refine ⟨by simp [exList], ?_, ?_, by simp [exList]⟩ <;> intro b hb <;>
    simp only [exList, List.mem_cons, List.not_mem_nil, or_false] at hb ⊢ <;>
    rcases hb with rfl | rfl | rfl <;> simp

example : GoodList exList ∧ exList.segUpdated = false ∧ exList.findFirstIndex 1 = 1 ∧
    exList.findFirstIndex 3 = 3 := ⟨exList_good, rfl, by decide +kernel, by decide +kernel⟩

/-! ### C16 -/

/-- The bonds whose mask entry is true, in their order. -/
def Spec.keep : List (Bond K) → List Bool → List (Bond K)
  | b :: bs, m :: ms => if m then b :: Spec.keep bs ms else Spec.keep bs ms
  | _, _ => []

theorem filterLoop_spec [Zero K] (bs : List (Bond K)) (ms : List Bool) (hl : bs.length = ms.length)
    (done : List (Bond K)) (d : Bond K) :
    filterLoop bs ms done.length (done ++ List.replicate (ms.count true) d) =
      done ++ keep bs ms := by
  induction bs generalizing ms done with
  | nil =>
    cases ms with
    | nil => simp [filterLoop, keep]
    | cons => simp at hl
  | cons b bs ih =>
    cases ms with
    | nil => simp at hl
    | cons m ms =>
      have hl' : bs.length = ms.length := by simpa using hl
      cases m with
      | false =>
        simp only [filterLoop, keep, Bool.false_eq_true, if_false]
        rw [List.count_cons_of_ne (by decide)]
        exact ih ms hl' done
      | true =>
        simp only [filterLoop, keep, if_true, List.count_cons_self]
        have := ih ms hl' (done ++ [b])
        rw [List.length_append, List.length_singleton] at this
        rw [List.replicate_succ]
        rw [List.set_append_right _ _ (le_refl _)]
        simp only [Nat.sub_self, List.set_cons_zero]
        rw [show done ++ b :: List.replicate (ms.count true) d =
          (done ++ [b]) ++ List.replicate (ms.count true) d by simp, this]
        simp

theorem keep_length (bs : List (Bond K)) (ms : List Bool) (hl : bs.length = ms.length) :
    (keep bs ms).length = ms.count true := by
  induction bs generalizing ms with
  | nil => cases ms with
    | nil => simp [keep]
    | cons => simp at hl
  | cons b bs ih => cases ms with
    | nil => simp at hl
    | cons m ms =>
      have := ih ms (by simpa using hl)
      cases m <;> simp [keep, this]

theorem keep_take (bs : List (Bond K)) (ms : List Bool) :
    keep bs (ms.take bs.length) = keep bs ms := by
  induction bs generalizing ms with
  | nil => simp [keep]
  | cons b bs ih => cases ms with
    | nil => simp
    | cons m ms => cases m <;> simp [keep, ih]

theorem keep_map (bs : List (Bond K)) (f : Bond K → Bool) :
    keep bs (bs.map f) = bs.filter f := by
  induction bs with
  | nil => simp [keep]
  | cons b bs ih => cases hb : f b <;> simp [keep, ih, hb]

/-- **C16**: with a mask that has an entry for every bond, `filter` keeps exactly the bonds whose
entry is true, in their original order, returns how many were removed, and keeps the numbers of
points. -/
theorem C16_filter [Zero K] (n : NList K) (mask : List Bool) (hm : n.bonds.length ≤ mask.length) :
    ∃ n' removed, n.filter mask = some (n', removed) ∧ n'.bonds = keep n.bonds mask ∧
      removed + n'.bonds.length = n.bonds.length ∧
      n'.numQueryPoints = n.numQueryPoints ∧ n'.numPoints = n.numPoints := by
  have hl : n.bonds.length = (mask.take n.bonds.length).length := by simp [hm]
  have e := filterLoop_spec n.bonds (mask.take n.bonds.length) hl [] ⟨0, 0, 0, 0, ⟨0, 0, 0⟩⟩
  simp only [List.nil_append, List.length_nil] at e
  have hk := keep_length n.bonds _ hl
  rw [keep_take] at e hk
  unfold NList.filter
  rw [if_neg (by omega)]
  refine ⟨_, _, rfl, e, ?_, rfl, rfl⟩
  simp only [e, hk]
  have : (mask.take n.bonds.length).count true ≤ (mask.take n.bonds.length).length :=
    List.count_le_length
  omega

/-- **C16**, what is missing from the English claim: the code does not check the length of the
mask. A mask that is too short is read past its end (`none` in the model), nothing is raised. -/
theorem C16_short_mask_counterexample : exList.filter [true, true] = none := by decide +kernel

/-- **C16**: `filter_r` with valid bounds keeps exactly the bonds with `r_min ≤ distance < r_max`,
in their order, and returns how many were removed. -/
theorem C16_filter_r [Zero K] [LinearOrder K] (n : NList K) (rMax rMin : K) (h1 : 0 < rMax)
    (h2 : 0 ≤ rMin) (h3 : rMin < rMax) :
    ∃ n' removed, n.filterR rMax rMin = some (n', removed) ∧
      n'.bonds = n.bonds.filter (fun b => rMin ≤ b.dist ∧ b.dist < rMax) ∧
      removed + n'.bonds.length = n.bonds.length ∧
      n'.numQueryPoints = n.numQueryPoints ∧ n'.numPoints = n.numPoints := by
  obtain ⟨n', r, e, e2, e3, e4, e5⟩ := C16_filter n
    (n.bonds.map (fun b : Bond K => decide (b.dist ≥ rMin) && decide (b.dist < rMax))) (by simp)
  refine ⟨n', r, ?_, ?_, e3, e4, e5⟩
  · unfold filterR
    rw [if_neg (not_le.mpr h1), if_neg (not_lt.mpr h2), if_neg (not_le.mpr h3), e]
  · rw [e2, keep_map]
    congr 1
    funext b
    simp

/-- **C16**: `filter_r` raises exactly when the bounds are invalid. -/
theorem C16_filter_r_raises_iff [Zero K] [LinearOrder K] (n : NList K) (rMax rMin : K) :
    n.filterR rMax rMin = none ↔ rMax ≤ 0 ∨ rMin < 0 ∨ rMax ≤ rMin := by
  constructor
  · intro h
    by_contra hc
    push Not at hc
    obtain ⟨n', r, e, -⟩ := C16_filter_r n rMax rMin hc.1 hc.2.1 hc.2.2
    rw [e] at h
    simp at h
  · intro h
    unfold filterR
    split_ifs with h1 h2 h3
    · rfl
    · rfl
    · rfl
    · rcases h with h | h | h <;> contradiction

example : (exList.filterR 3 (3 / 2)).map (fun p => (p.1.bonds.length, p.2)) = some (1, 2) := by
  decide +kernel

end Freud
