import Verif.Model.Filter
import Verif.Props.NeighborListSort
import Mathlib.Tactic.Linarith
import Mathlib.Tactic.Ring

/-!
# Lemmas about the neighbor filters
-/

set_option linter.unusedSectionVars false

namespace Freud
open Spec NList Bond

section rows
variable {K : Type*}

/-- In a list sorted by query index the bonds of a query point are one block. -/
theorem row_split (l : List (Bond K)) (hs : (l.map (·.q)).Pairwise (· ≤ ·)) (i : ℕ) :
    l = l.filter (fun b => b.q < i) ++ (l.filter (fun b => b.q = i) ++
      l.filter (fun b => i < b.q)) := by
  induction l with
  | nil => rfl
  | cons a as ih =>
    rw [List.map_cons, List.pairwise_cons] at hs
    obtain ⟨h1, h2⟩ := hs
    have ih := ih h2
    have h1' : ∀ b ∈ as, a.q ≤ b.q := fun b hb => h1 _ (List.mem_map_of_mem hb)
    rcases Nat.lt_trichotomy a.q i with h | h | h
    · rw [List.filter_cons_of_pos (by simpa using h), List.filter_cons_of_neg (by simpa using h.ne),
        List.filter_cons_of_neg (by simpa using h.le), List.cons_append, ← ih]
    · have e : as.filter (fun b => decide (b.q < i)) = [] := by
        rw [List.filter_eq_nil_iff]
        intro b hb
        have := h1' b hb
        simp only [decide_eq_true_eq]
        omega
      rw [e, List.nil_append] at ih
      rw [List.filter_cons_of_neg (by simp [h]), e, List.filter_cons_of_pos (by simpa using h),
        List.filter_cons_of_neg (by simp [h]), List.nil_append, List.cons_append, ← ih]
    · have e : as.filter (fun b => decide (b.q < i)) = [] := by
        rw [List.filter_eq_nil_iff]
        intro b hb
        have := h1' b hb
        simp only [decide_eq_true_eq]
        omega
      have e2 : as.filter (fun b => decide (b.q = i)) = [] := by
        rw [List.filter_eq_nil_iff]
        intro b hb
        have := h1' b hb
        simp only [decide_eq_true_eq]
        omega
      rw [e, e2, List.nil_append, List.nil_append] at ih
      rw [List.filter_cons_of_neg (by simpa using h.le), e, List.filter_cons_of_neg (by simpa using h.ne'),
        List.filter_cons_of_pos (by simpa using h), e2, List.nil_append, List.nil_append, ← ih]

/-- Entries from `find_first_index(i)` on are the bonds of `i`. -/
theorem row_access (s : NList K) (h : GoodList s) (i m : ℕ)
    (hm : m < (s.bonds.filter (fun b => b.q = i)).length) :
    s.bonds[s.findFirstIndex i + m]? = (s.bonds.filter (fun b => b.q = i))[m]? := by
  obtain ⟨h1, h2⟩ := C15_find_first_index s h i
  have hs := row_split s.bonds h.sorted i
  set A := s.bonds.filter (fun b => b.q < i) with hA
  set R := s.bonds.filter (fun b => b.q = i) with hR
  set C := s.bonds.filter (fun b => i < b.q) with hC
  have hfirst : s.findFirstIndex i = A.length := by
    have ha : s.findFirstIndex i ≤ A.length := by
      have hlt : A.length < s.bonds.length := by
        rw [hs, List.length_append, List.length_append]; omega
      have e : s.bonds[A.length]? = R[0]? := by
        conv_lhs => rw [hs]
        rw [List.getElem?_append_right (le_refl _), Nat.sub_self,
          List.getElem?_append_left (by omega)]
      have hr : R[0]? = some (R[0]'(by omega)) := List.getElem?_eq_getElem _
      have hmem : R[0]'(by omega) ∈ R := List.getElem_mem _
      have hmem2 := of_decide_eq_true (List.mem_filter.mp hmem).2
      exact (h2 A.length _ (e.trans hr)).mpr (le_of_eq hmem2.symm)
    refine le_antisymm ha ?_
    by_contra hc
    push Not at hc
    have e : s.bonds[s.findFirstIndex i]? = A[s.findFirstIndex i]? := by
      conv_lhs => rw [hs]
      rw [List.getElem?_append_left hc]
    have ha2 : A[s.findFirstIndex i]? = some (A[s.findFirstIndex i]'hc) := List.getElem?_eq_getElem _
    have hmem : A[s.findFirstIndex i]'hc ∈ A := List.getElem_mem _
    have h3 := (h2 _ _ (e.trans ha2)).mp (le_refl _)
    have h4 := (List.mem_filter.mp hmem).2
    simp only [decide_eq_true_eq] at h4
    omega
  rw [hfirst]
  conv_lhs => rw [hs]
  rw [List.getElem?_append_right (by omega), Nat.add_sub_cancel_left,
    List.getElem?_append_left hm]

end rows

/-! ### SANN on one row -/

section sann
variable {K : Type*} [Field K] [LinearOrder K] [IsStrictOrderedRing K]

/-- The shell closes after the `m` nearest: the SANN radius of `m` neighbors at distances `ds`
(in increasing order) does not exceed the distance of the next one. -/
def Spec.SannCloses (ds : List K) (m : ℕ) : Prop :=
  3 ≤ m ∧ ∃ d, ds[m]? = some d ∧ (ds.take m).sum / ((m : K) - 2) ≤ d

/-- `m` neighbors are taken: the least number for which the shell closes, or all of them if it
never does. -/
def Spec.SannCount (ds : List K) (m : ℕ) : Prop :=
  (∀ k < m, ¬ SannCloses ds k) ∧ (SannCloses ds m ∨ m = ds.length)

theorem take_succ_sum (ds : List K) (m : ℕ) (d : K) (h : ds[m]? = some d) :
    (ds.take (m + 1)).sum = (ds.take m).sum + d := by
  rw [List.take_add_one, h]; simp

theorem firstThree_spec (R : List (Bond K)) (i : ℕ) (hq : ∀ b ∈ R, b.q = i)
    (row : ℕ → Option (Bond K)) (hrow : ∀ m < R.length, row m = R[m]?) (m : ℕ) (hm : m ≤ R.length)
    (hm3 : m ≤ 3) :
    FilterSANN.firstThree row R.length i m ((R.map (·.dist)).take m).sum (R.take m) =
      some (min 3 R.length, ((R.map (·.dist)).take (min 3 R.length)).sum,
        R.take (min 3 R.length)) := by
  induction h : 3 - m generalizing m with
  | zero =>
    rw [FilterSANN.firstThree, if_neg (by omega)]
    have : m = min 3 R.length := by omega
    rw [this]
  | succ k ih =>
    rw [FilterSANN.firstThree]
    by_cases hlt : m < R.length
    · rw [if_pos ⟨by omega, hlt⟩, hrow m hlt, List.getElem?_eq_getElem hlt, Option.bind_some,
        ← take_succ_sum _ _ _ (by simp [hlt])]
      have e : (⟨i, R[m].p, R[m].dist, R[m].weight, R[m].vec⟩ : Bond K) = R[m] := by
        have := hq R[m] (List.getElem_mem _)
        rw [← this]
      rw [e, List.take_concat_get']
      exact ih (m + 1) (by omega) (by omega) (by omega)
    · rw [if_neg (by omega)]
      have : m = min 3 R.length := by omega
      rw [this]

theorem others_spec (R : List (Bond K)) (i : ℕ) (hq : ∀ b ∈ R, b.q = i)
    (row : ℕ → Option (Bond K)) (hrow : ∀ m < R.length, row m = R[m]?) (m : ℕ) (hm : m ≤ R.length)
    (hm3 : 3 ≤ m ∨ m = R.length) (hprev : ∀ k < m, ¬ SannCloses (R.map (·.dist)) k) :
    ∃ m', FilterSANN.others row R.length i m ((R.map (·.dist)).take m).sum (R.take m) =
      some (m', R.take m') ∧ m' ≤ R.length ∧ SannCount (R.map (·.dist)) m' := by
  induction h : R.length - m generalizing m with
  | zero =>
    have e : m = R.length := by omega
    refine ⟨m, ?_, hm, hprev, Or.inr (by simpa using e)⟩
    rw [FilterSANN.others, if_neg (by omega)]
  | succ k ih =>
    have hlt : m < R.length := by omega
    rw [FilterSANN.others, if_pos hlt, hrow m hlt, List.getElem?_eq_getElem hlt, Option.bind_some]
    by_cases hc : ((R.map (·.dist)).take m).sum / ((m : K) - 2) > R[m].dist
    · rw [if_pos hc, ← take_succ_sum _ _ _ (by simp [hlt])]
      have e : (⟨i, R[m].p, R[m].dist, R[m].weight, R[m].vec⟩ : Bond K) = R[m] := by
        have := hq R[m] (List.getElem_mem _)
        rw [← this]
      rw [e, List.take_concat_get']
      refine ih (m + 1) (by omega) (Or.inl (by omega)) ?_ (by omega)
      intro k hk
      rcases Nat.lt_succ_iff_lt_or_eq.mp hk with hk | rfl
      · exact hprev k hk
      · rintro ⟨-, d, hd, hle⟩
        simp only [List.getElem?_map, List.getElem?_eq_getElem hlt, Option.map_some,
          Option.some.injEq] at hd
        rw [← hd] at hle
        exact absurd hle (not_le.mpr hc)
    · rw [if_neg hc]
      refine ⟨m, rfl, hm, hprev, Or.inl ⟨by omega, R[m].dist, by simp [hlt], not_lt.mp hc⟩⟩

theorem Spec.SannCount.le {ds : List K} {m : ℕ} (h : SannCount ds m) : m ≤ ds.length := by
  rcases h.2 with ⟨-, d, hd, -⟩ | h
  · exact (List.getElem?_eq_some_iff.mp hd).1.le
  · omega

theorem Spec.SannCount.unique {ds : List K} {m m' : ℕ} (h : SannCount ds m) (h' : SannCount ds m') :
    m = m' := by
  have key : ∀ a b, SannCount ds a → SannCount ds b → ¬ a < b := by
    intro a b ha hb hlt
    rcases ha.2 with hc | hc
    · exact hb.1 a hlt hc
    · have := hb.le
      omega
  have := key m m' h h'
  have := key m' m h' h
  omega

theorem Spec.SannCount.iff_length {ds : List K} {m : ℕ} (h : SannCount ds m) :
    m = ds.length ↔ ∀ k, ¬ SannCloses ds k := by
  constructor
  · rintro rfl k hk
    have : k < ds.length := by
      obtain ⟨-, d, hd, -⟩ := hk
      exact (List.getElem?_eq_some_iff.mp hd).1
    exact h.1 k this hk
  · intro hn
    rcases h.2 with hc | hc
    · exact absurd hc (hn m)
    · exact hc

theorem not_closes_lt_three (ds : List K) (k : ℕ) (h : k < 3) : ¬ SannCloses ds k := by
  rintro ⟨h3, -⟩
  omega

/-- What one iteration of the SANN loop returns. -/
theorem sannPoint_spec (s : NList K) (h : GoodList s) (i : ℕ)
    (hc : s.counts.getD i 0 = (s.bonds.filter (fun b => b.q = i)).length) :
    ∃ m, SannCount ((s.bonds.filter (fun b => b.q = i)).map (·.dist)) m ∧
      FilterSANN.point s i = some ((s.bonds.filter (fun b => b.q = i)).take m,
        decide (m = (s.bonds.filter (fun b => b.q = i)).length)) := by
  have hrow := row_access s h i
  generalize hR : s.bonds.filter (fun b => b.q = i) = R at *
  have hq : ∀ b ∈ R, b.q = i := by
    intro b hb
    rw [← hR, List.mem_filter] at hb
    exact of_decide_eq_true hb.2
  unfold FilterSANN.point
  simp only [hc]
  have e1 := firstThree_spec R i hq (fun m => s.bonds[s.findFirstIndex i + m]?)
    (fun m hm => hrow m hm) 0 (by omega) (by omega)
  simp only [List.take_zero, List.sum_nil] at e1
  rw [e1, Option.bind_some]
  obtain ⟨m', e2, h2, h3⟩ := others_spec R i hq (fun m => s.bonds[s.findFirstIndex i + m]?)
    (fun m hm => hrow m hm) (min 3 R.length) (by omega) (by omega)
    (fun k hk => not_closes_lt_three _ k (by omega))
  refine ⟨m', h3, ?_⟩
  simp only [e2, Option.map_some]

end sann

/-! ### RAD on one row -/

section rad
variable {K : Type*}

/-- Candidate `j` of the row is blocked by an earlier one. -/
def Spec.Blocked (blk : Bond K → Bond K → Prop) (R : List (Bond K)) (j : ℕ) : Prop :=
  ∃ k < j, ∃ bj bk, R[j]? = some bj ∧ R[k]? = some bk ∧ blk bj bk

theorem unblocked_spec (test : ℕ → Option Bool) (j k : ℕ) (t : ℕ → Bool)
    (ht : ∀ k < j, test k = some (t k)) (hk : ∀ k' < k, t k' = false) (hkj : k ≤ j) :
    ∃ g, FilterRAD.unblocked test j k = some g ∧ (g = true ↔ ∀ k < j, t k = false) := by
  induction h : j - k generalizing k with
  | zero =>
    refine ⟨true, by rw [FilterRAD.unblocked, if_neg (by omega)], ?_⟩
    simp only [true_iff]
    intro k' hk'
    exact hk k' (by omega)
  | succ n ih =>
    rw [FilterRAD.unblocked, if_pos (by omega), ht k (by omega), Option.bind_some]
    cases hb : t k with
    | true =>
      refine ⟨false, by simp, ?_⟩
      simp only [Bool.false_eq_true, false_iff]
      intro hall
      rw [hall k (by omega)] at hb
      exact absurd hb (by simp)
    | false =>
      simp only [Bool.false_eq_true, if_false]
      refine ih (k + 1) ?_ (by omega) (by omega)
      intro k' hk'
      rcases Nat.lt_succ_iff_lt_or_eq.mp hk' with h' | rfl
      · exact hk k' h'
      · exact hb

theorem candidates_open (g : ℕ → Bool) (f : ℕ → Bond K) (good : ℕ → Option Bool)
    (bond : ℕ → Option (Bond K)) (num : ℕ) (hg : ∀ j < num, good j = some (g j))
    (hf : ∀ j < num, bond j = some (f j)) (j : ℕ) (hj : j ≤ num) (acc : List (Bond K)) (last : Bool) :
    ∃ b, FilterRAD.candidates good bond false num j acc last =
      some (acc ++ ((List.range' j (num - j)).filter g).map f, b) := by
  induction h : num - j generalizing j acc last with
  | zero =>
    exact ⟨last, by rw [FilterRAD.candidates, if_neg (by omega)]; simp⟩
  | succ n ih =>
    rw [FilterRAD.candidates, if_pos (by omega), hg j (by omega), Option.bind_some, List.range'_succ]
    cases hb : g j with
    | true =>
      obtain ⟨b, e⟩ := ih (j + 1) (by omega) (acc ++ [f j]) true (by omega)
      refine ⟨b, ?_⟩
      simp only [if_true, hf j (by omega), Option.bind_some, e]
      rw [List.filter_cons_of_pos hb]
      simp
    | false =>
      obtain ⟨b, e⟩ := ih (j + 1) (by omega) acc false (by omega)
      refine ⟨b, ?_⟩
      simp only [Bool.false_eq_true, if_false, e]
      rw [List.filter_cons_of_neg (by simp [hb])]

theorem candidates_closed (g : ℕ → Bool) (f : ℕ → Bond K) (good : ℕ → Option Bool)
    (bond : ℕ → Option (Bond K)) (num : ℕ) (hg : ∀ j < num, good j = some (g j))
    (hf : ∀ j < num, bond j = some (f j)) (j : ℕ) (hj : j ≤ num) (acc : List (Bond K)) :
    ∃ c b, FilterRAD.candidates good bond true num j acc true =
      some (acc ++ (List.range' j (c - j)).map f, b) ∧ j ≤ c ∧ c ≤ num ∧
      (∀ k, j ≤ k → k < c → g k = true) ∧ (c < num → g c = false) ∧ (b = true ↔ c = num) := by
  induction h : num - j generalizing j acc with
  | zero =>
    have : j = num := by omega
    refine ⟨j, true, by rw [FilterRAD.candidates, if_neg (by omega)]; simp, le_refl _, hj,
      by intros; omega, by omega, by simp [this]⟩
  | succ n ih =>
    rw [FilterRAD.candidates, if_pos (by omega), hg j (by omega), Option.bind_some]
    cases hb : g j with
    | true =>
      obtain ⟨c, b, e, h1, h2, h3, h4, h5⟩ := ih (j + 1) (by omega) (acc ++ [f j]) (by omega)
      refine ⟨c, b, ?_, by omega, h2, ?_, h4, h5⟩
      · simp only [if_true, hf j (by omega), Option.bind_some, e]
        rw [show c - j = (c - (j + 1)) + 1 by omega, List.range'_succ]
        simp
      · intro k hk1 hk2
        rcases Nat.eq_or_lt_of_le hk1 with rfl | hk
        · exact hb
        · exact h3 k hk hk2
    | false =>
      refine ⟨j, false, by simp, le_refl _, hj, by intros; omega, fun _ => hb, ?_⟩
      simp only [Bool.false_eq_true, false_iff]
      omega

end rad

section radpoint
variable {K : Type*} [Field K] [LinearOrder K] [FloorRing K]

/-- Neighbor `bk` blocks neighbor `bj` of the query point `qp`, in terms of the wrapped
separations, the stored distances and the radii. -/
def Spec.RadTest (box : Box K) (qp : Vec3 K) (pt : ℕ → Vec3 K) (radius : ℕ → K)
    (bj bk : Bond K) : Prop :=
  let v1 := box.wrap (qp - pt bj.p)
  let v2 := box.wrap (qp - pt bk.p)
  radius bj.p ^ 2 * v2.dot v2 * (bj.dist * bk.dist) < radius bk.p ^ 2 * v1.dot v1 * v1.dot v2

theorem blocks_iff (box : Box K) (qp : Vec3 K) (pt : ℕ → Vec3 K) (radius : ℕ → K)
    (bj bk : Bond K) :
    FilterRAD.blocks box qp pt radius bj bk = true ↔ RadTest box qp pt radius bj bk := by
  unfold FilterRAD.blocks RadTest
  simp only [decide_eq_true_eq]
  rw [show ∀ a b c d : K, a * a * b * c * d = a ^ 2 * b * (c * d) by intros; ring,
    show ∀ a b c : K, a * a * b * c = a ^ 2 * c * b by intros; ring]

/-- What a kept bond looks like in the filtered list. -/
def Spec.radBond (box : Box K) (qp : Vec3 K) (pt : ℕ → Vec3 K) (b : Bond K) : Bond K :=
  ⟨b.q, b.p, b.dist, 1, box.wrap (qp - pt b.p)⟩

theorem radPoint_good (box : Box K) (qpt pt : ℕ → Vec3 K) (radius : ℕ → K)
    (s : NList K) (h : GoodList s) (i : ℕ) (R : List (Bond K))
    (hR : s.bonds.filter (fun b => b.q = i) = R) :
    ∃ g : ℕ → Bool, (∀ j < R.length, FilterRAD.unblocked
        (fun k => (s.bonds[s.findFirstIndex i + j]?).bind (fun bj =>
          (s.bonds[s.findFirstIndex i + k]?).map (FilterRAD.blocks box (qpt i) pt radius bj))) j 0 =
          some (g j)) ∧
      ∀ j < R.length, (g j = true ↔ ¬ Blocked (RadTest box (qpt i) pt radius) R j) := by
  have hrow := row_access s h i
  rw [hR] at hrow
  have key : ∀ j, ∃ g : Bool, j < R.length → (FilterRAD.unblocked
        (fun k => (s.bonds[s.findFirstIndex i + j]?).bind (fun bj =>
          (s.bonds[s.findFirstIndex i + k]?).map (FilterRAD.blocks box (qpt i) pt radius bj))) j 0 =
          some g ∧ (g = true ↔ ¬ Blocked (RadTest box (qpt i) pt radius) R j)) := by
    intro j
    by_cases hj : j < R.length
    · obtain ⟨g, e, hg⟩ := unblocked_spec
        (fun k => (s.bonds[s.findFirstIndex i + j]?).bind (fun bj =>
          (s.bonds[s.findFirstIndex i + k]?).map (FilterRAD.blocks box (qpt i) pt radius bj))) j 0
        (fun k => if hk : k < R.length then
          FilterRAD.blocks box (qpt i) pt radius R[j] R[k] else false)
        (by
          intro k hk
          have hk' : k < R.length := by omega
          rw [hrow j hj, hrow k hk', List.getElem?_eq_getElem hj, List.getElem?_eq_getElem hk',
            Option.bind_some, Option.map_some, dif_pos hk'])
        (by intro k hk; omega) (by omega)
      refine ⟨g, fun _ => ⟨e, hg.trans ?_⟩⟩
      unfold Blocked
      push Not
      constructor
      · intro hall k hk bj bk hbj hbk
        have hk' : k < R.length := by omega
        have := hall k hk
        rw [dif_pos hk'] at this
        rw [List.getElem?_eq_getElem hj] at hbj
        rw [List.getElem?_eq_getElem hk'] at hbk
        cases hbj
        cases hbk
        rw [← blocks_iff, this]
        simp
      · intro hall k hk
        have hk' : k < R.length := by omega
        rw [dif_pos hk']
        have := hall k hk _ _ (List.getElem?_eq_getElem hj) (List.getElem?_eq_getElem hk')
        rw [← blocks_iff] at this
        simpa using this
    · exact ⟨true, fun h => absurd h hj⟩
  choose g hg using key
  exact ⟨g, fun j hj => (hg j hj).1, fun j hj => (hg j hj).2⟩

open Classical in
/-- What one iteration of the RAD loop returns in open mode. -/
theorem radPoint_open (box : Box K) (qpt pt : ℕ → Vec3 K) (radius : ℕ → K)
    (s : NList K) (h : GoodList s) (i : ℕ) (R : List (Bond K))
    (hR : s.bonds.filter (fun b => b.q = i) = R) (hc : s.counts.getD i 0 = R.length) :
    FilterRAD.point box qpt pt radius false s i = some
      (((List.range R.length).filter (fun j => ¬ Blocked (RadTest box (qpt i) pt radius) R j)
        ).filterMap (fun j => (R[j]?).map (radBond box (qpt i) pt)), false) := by
  obtain ⟨g, hg1, hg2⟩ := radPoint_good box qpt pt radius s h i R hR
  have hrow := row_access s h i
  rw [hR] at hrow
  have hq : ∀ b ∈ R, b.q = i := by
    intro b hb
    rw [← hR, List.mem_filter] at hb
    exact of_decide_eq_true hb.2
  unfold FilterRAD.point
  simp only [hc]
  by_cases h0 : R.length = 0
  · rw [h0, FilterRAD.candidates, if_neg (by omega)]
    simp
  have hdef : Inhabited (Bond K) := ⟨R[0]'(by omega)⟩
  obtain ⟨b, e⟩ := candidates_open g
    (fun j => radBond box (qpt i) pt ((R[j]?).getD default))
    (fun j => FilterRAD.unblocked (fun k => (s.bonds[s.findFirstIndex i + j]?).bind (fun bj =>
          (s.bonds[s.findFirstIndex i + k]?).map (FilterRAD.blocks box (qpt i) pt radius bj))) j 0)
    (fun j => (s.bonds[s.findFirstIndex i + j]?).map (fun b =>
      ⟨i, b.p, b.dist, 1, box.wrap (qpt i - pt b.p)⟩)) R.length hg1
    (by
      intro j hj
      rw [hrow j hj, List.getElem?_eq_getElem hj]
      simp only [Option.map_some, Option.getD_some, radBond, Option.some.injEq]
      rw [hq R[j] (List.getElem_mem _)])
    0 (by omega) [] true
  rw [e]
  simp only [Option.map_some, Bool.and_false, Option.some.injEq, Prod.mk.injEq, and_true,
    List.nil_append, Nat.sub_zero, ← List.range_eq_range']
  have e2 : (List.range R.length).filter g = (List.range R.length).filter
      (fun j => decide (¬ Blocked (RadTest box (qpt i) pt radius) R j)) := by
    apply List.filter_congr
    intro j hj
    rw [Bool.eq_iff_iff, hg2 j (List.mem_range.mp hj), decide_eq_true_iff]
  rw [e2, ← List.filterMap_eq_map]
  apply List.filterMap_congr
  intro j hj
  have hj' : j < R.length := List.mem_range.mp (List.mem_filter.mp hj).1
  simp [List.getElem?_eq_getElem hj']

/-- What one iteration of the RAD loop returns in closed mode. -/
theorem radPoint_closed (box : Box K) (qpt pt : ℕ → Vec3 K) (radius : ℕ → K)
    (s : NList K) (h : GoodList s) (i : ℕ) (R : List (Bond K))
    (hR : s.bonds.filter (fun b => b.q = i) = R) (hc : s.counts.getD i 0 = R.length) :
    ∃ c b, FilterRAD.point box qpt pt radius true s i = some
      ((R.take c).map (radBond box (qpt i) pt), b) ∧ c ≤ R.length ∧
      (∀ k < c, ¬ Blocked (RadTest box (qpt i) pt radius) R k) ∧
      (c < R.length → Blocked (RadTest box (qpt i) pt radius) R c) ∧
      (b = true ↔ c = R.length) := by
  obtain ⟨g, hg1, hg2⟩ := radPoint_good box qpt pt radius s h i R hR
  have hrow := row_access s h i
  rw [hR] at hrow
  have hq : ∀ b ∈ R, b.q = i := by
    intro b hb
    rw [← hR, List.mem_filter] at hb
    exact of_decide_eq_true hb.2
  unfold FilterRAD.point
  simp only [hc]
  by_cases h0 : R.length = 0
  · refine ⟨0, true, ?_, by omega, by intros; omega, by omega, by simp [h0]⟩
    rw [h0, FilterRAD.candidates, if_neg (by omega)]
    simp
  have hdef : Inhabited (Bond K) := ⟨R[0]'(by omega)⟩
  obtain ⟨c, b, e, h1, h2, h3, h4, h5⟩ := candidates_closed g
    (fun j => radBond box (qpt i) pt ((R[j]?).getD default))
    (fun j => FilterRAD.unblocked (fun k => (s.bonds[s.findFirstIndex i + j]?).bind (fun bj =>
          (s.bonds[s.findFirstIndex i + k]?).map (FilterRAD.blocks box (qpt i) pt radius bj))) j 0)
    (fun j => (s.bonds[s.findFirstIndex i + j]?).map (fun b =>
      ⟨i, b.p, b.dist, 1, box.wrap (qpt i - pt b.p)⟩)) R.length hg1
    (by
      intro j hj
      rw [hrow j hj, List.getElem?_eq_getElem hj]
      simp only [Option.map_some, Option.getD_some, radBond, Option.some.injEq]
      rw [hq R[j] (List.getElem_mem _)])
    0 (by omega) []
  refine ⟨c, b, ?_, h2, ?_, ?_, h5⟩
  · rw [e]
    simp only [Option.map_some, Bool.and_true, Option.some.injEq, Prod.mk.injEq, and_true,
      List.nil_append, Nat.sub_zero, ← List.range_eq_range']
    apply List.ext_getElem
    · simp; omega
    · intro j hj hj2
      have hjc : j < c := by simpa using hj
      simp [List.getElem?_eq_getElem (show j < R.length by omega)]
  · intro k hk
    exact (hg2 k (by omega)).mp (h3 k (by omega) hk)
  · intro hc'
    by_contra hn
    have := (hg2 c hc').mpr hn
    rw [h4 hc'] at this
    exact absurd this (by simp)

end radpoint

/-! ### The part shared by both filters -/

section common
variable {K : Type*}

theorem collect_spec (point : ℕ → Option (List (Bond K) × Bool)) (nq : ℕ) (allow : Bool)
    (ev : List (ℕ × ℕ)) (hev : IsExecution nq ev) (f : ℕ → List (Bond K)) (u : ℕ → Bool)
    (hp : ∀ i < nq, point i = some (f i, u i)) :
    (Filter.collect point nq allow ev = none ↔ allow = false ∧ ∃ i < nq, u i = true) ∧
    ∀ l, Filter.collect point nq allow ev = some l → l.Perm ((List.range nq).flatMap f) := by
  have hok : ∀ e ∈ ev, e.2 < nq := by
    intro e he
    have : e.2 ∈ ev.map (·.2) := List.mem_map_of_mem he
    exact List.mem_range.mp (hev.subset this)
  obtain ⟨t, e, -, -, -, hv⟩ := parallelFor_spec (T := Multiset (Bond K)) (C := Unit)
    (P := fun _ : List (Bond K) => True) (val := fun l _ => (l : Multiset (Bond K)))
    (d := fun i _ => ((f i : List (Bond K)) : Multiset (Bond K)))
    (body := fun i acc => (point i).map (fun r => acc ++ r.1)) (ok := fun i => i < nq)
    (fun i s hi _ => ⟨s ++ f i, by rw [hp i hi]; rfl, trivial, fun _ => by rw [Multiset.coe_add]⟩)
    ⟨[], []⟩ trivial (fun _ => rfl) (by simp) ev hok
  unfold Filter.collect
  rw [e, Option.bind_some]
  have hany : (List.range nq).any (fun i => (point i).any (·.2)) = true ↔ ∃ i < nq, u i = true := by
    rw [List.any_eq_true]
    constructor
    · rintro ⟨i, hi, h⟩
      rw [hp i (List.mem_range.mp hi)] at h
      exact ⟨i, List.mem_range.mp hi, h⟩
    · rintro ⟨i, hi, h⟩
      exact ⟨i, List.mem_range.mpr hi, by rw [hp i hi]; exact h⟩
  constructor
  · rw [← hany]
    cases allow <;> simp
  · intro l hl
    split_ifs at hl
    simp only [Option.some.injEq] at hl
    rw [← hl, ← Multiset.coe_eq_coe]
    have h1 : ∀ ls : List (ℕ × List (Bond K)), ((ls.flatMap (·.2) : List (Bond K)) : Multiset _) =
        (ls.map (fun p => (p.2 : Multiset (Bond K)))).sum := by
      intro ls
      induction ls with
      | nil => simp
      | cons a as ih => simp [List.flatMap_cons, ← Multiset.coe_add, ih]
    have h2 : ∀ ls : List ℕ, (((ls.flatMap f : List (Bond K))) : Multiset _) =
        (ls.map (fun i => ((f i : List (Bond K)) : Multiset (Bond K)))).sum := by
      intro ls
      induction ls with
      | nil => simp
      | cons a as ih => rw [List.flatMap_cons, ← Multiset.coe_add, ih]; simp
    rw [h1, h2, hv ()]
    simp only [List.map_nil, List.sum_nil, zero_add]
    have := (hev.map (fun i => ((f i : List (Bond K)) : Multiset (Bond K)))).sum_eq
    rw [List.map_map] at this
    exact this

theorem flatMap_filter (f : ℕ → List (Bond K)) (nq : ℕ) (hq : ∀ i < nq, ∀ b ∈ f i, b.q = i) (i : ℕ)
    (hi : i < nq) : ((List.range nq).flatMap f).filter (fun b => b.q = i) = f i := by
  induction nq with
  | zero => omega
  | succ n ih =>
    rw [List.range_succ, List.flatMap_append, List.filter_append]
    simp only [List.flatMap_cons, List.flatMap_nil, List.append_nil]
    by_cases h : i = n
    · subst h
      have h1 : ((List.range i).flatMap f).filter (fun b => b.q = i) = [] := by
        rw [List.filter_eq_nil_iff]
        intro b hb
        obtain ⟨j, hj, hb⟩ := List.mem_flatMap.mp hb
        have hj := List.mem_range.mp hj
        have := hq j (by omega) b hb
        simp only [decide_eq_true_eq]
        omega
      rw [h1, List.nil_append, List.filter_eq_self]
      intro b hb
      simp [hq i (by omega) b hb]
    · have h1 : (f n).filter (fun b => b.q = i) = [] := by
        rw [List.filter_eq_nil_iff]
        intro b hb
        have := hq n (by omega) b hb
        simp only [decide_eq_true_eq]
        omega
      rw [ih (fun i hi => hq i (by omega)) (by omega), h1, List.append_nil]

theorem foldl_max_spec (k : Bond K → ℕ) (l : List (Bond K)) (m0 : ℕ) :
    let r := l.foldl (fun m b => if m < k b then k b else m) m0
    m0 ≤ r ∧ (∀ b ∈ l, k b ≤ r) ∧ (r = m0 ∨ ∃ b ∈ l, k b = r) := by
  induction l generalizing m0 with
  | nil => simp
  | cons a as ih =>
    obtain ⟨h1, h2, h3⟩ := ih (if m0 < k a then k a else m0)
    simp only [List.foldl_cons]
    refine ⟨?_, ?_, ?_⟩
    · refine le_trans ?_ h1
      split_ifs <;> omega
    · intro b hb
      rcases List.mem_cons.mp hb with rfl | hb
      · refine le_trans ?_ h1
        split_ifs <;> omega
      · exact h2 b hb
    · rcases h3 with h3 | ⟨b, hb, h3⟩
      · by_cases h : m0 < k a
        · rw [if_pos h] at h3 ⊢
          exact Or.inr ⟨a, List.mem_cons_self, h3.symm⟩
        · rw [if_neg h] at h3 ⊢
          exact Or.inl h3
      · exact Or.inr ⟨b, List.mem_cons_of_mem _ hb, h3⟩

/-- The sorted copy, its counts, and its rows. -/
theorem sortedList_spec [LinearOrder K] (n : NList K) (h : GoodList n) (sorted : List (Bond K))
    (hs : SortedBy (less true) n.bonds sorted) :
    ∃ s, Filter.sortedList n sorted = some s ∧ GoodList s ∧ s.bonds = sorted ∧
      s.numQueryPoints = n.numQueryPoints ∧ s.numPoints = n.numPoints ∧
      (∀ i < n.numQueryPoints, s.counts.getD i 0 = (sorted.filter (fun b => b.q = i)).length) ∧
      ∀ i, ((sorted.filter (fun b => b.q = i)).Perm (n.bonds.filter (fun b => b.q = i))) ∧
        (sorted.filter (fun b => b.q = i)).Pairwise (fun a b => a.dist ≤ b.dist) := by
  obtain ⟨hp, hord⟩ := C19_by_distance n.bonds sorted hs
  have hg : GoodList ({ n with segUpdated := false }.withBonds sorted) := by
    refine ⟨?_, ?_, ?_, h.small⟩
    · show (sorted.map (·.q)).Pairwise (· ≤ ·)
      rw [List.pairwise_map]
      refine hord.imp ?_
      intro a b hab
      rcases hab with h | h <;> omega
    · intro b hb
      exact h.qlt b (hp.subset hb)
    · intro b hb
      exact h.plt b (hp.subset hb)
  obtain ⟨s, e, hb, -, -, hk⟩ := C15_segments _ hg rfl
  have hb' : s.bonds = sorted := hb
  have hn : s.numQueryPoints = n.numQueryPoints ∧ s.numPoints = n.numPoints := by
    unfold updateSegmentCounts at e
    split_ifs at e with h1
    · simp only [Option.some.injEq] at e
      rw [← e]; exact ⟨rfl, rfl⟩
    · simp only [Option.map_eq_some_iff] at e
      obtain ⟨cs, -, rfl⟩ := e
      exact ⟨rfl, rfl⟩
  refine ⟨s, e, ⟨?_, ?_, ?_, ?_⟩, hb', hn.1, hn.2, ?_, ?_⟩
  · rw [hb']; exact hg.sorted
  · intro b hb
    rw [hb'] at hb
    rw [hn.1]
    exact hg.qlt b hb
  · intro b hb
    rw [hb'] at hb
    rw [hn.2]
    exact hg.plt b hb
  · rw [hn.1]; exact h.small
  · intro i hi
    exact (hk i hi).1
  · intro i
    refine ⟨hp.filter _, ?_⟩
    have := hord.filter (fun b => decide (b.q = i))
    refine this.imp_of_mem ?_
    intro a b ha hb hab
    have ha := of_decide_eq_true (List.mem_filter.mp ha).2
    have hb := of_decide_eq_true (List.mem_filter.mp hb).2
    rcases hab with h | ⟨-, h | ⟨h, -⟩⟩
    · omega
    · exact le_of_lt h
    · exact le_of_eq h

/-- The whole computation, without the execution of the parallel loop. -/
theorem run_iff [LinearOrder K] (point : NList K → ℕ → Option (List (Bond K) × Bool)) (n : NList K)
    (h : GoodList n) (allow : Bool) (ev : List (ℕ × ℕ)) (hev : IsExecution n.numQueryPoints ev)
    (f : NList K → ℕ → List (Bond K)) (u : NList K → ℕ → Bool)
    (hp : ∀ sorted s, SortedBy (less true) n.bonds sorted → Filter.sortedList n sorted = some s →
      ∀ i < n.numQueryPoints, point s i = some (f s i, u s i)) (r : Option (NList K)) :
    Filter.Run point n n.numQueryPoints n.numPoints allow ev r ↔
      ∃ sorted s, SortedBy (less true) n.bonds sorted ∧ Filter.sortedList n sorted = some s ∧
        ((allow = false ∧ (∃ i < n.numQueryPoints, u s i = true) ∧ r = none) ∨
          (¬ (allow = false ∧ ∃ i < n.numQueryPoints, u s i = true) ∧
            ∃ out, SortedBy (less true) ((List.range n.numQueryPoints).flatMap (f s)) out ∧
              r = NList.ofBonds out)) := by
  unfold Filter.Run
  rw [if_neg (by simp [NList.validate])]
  apply exists_congr
  intro sorted
  constructor
  · rintro ⟨hs, hr⟩
    obtain ⟨s, e, -, -, hn, -, -⟩ := sortedList_spec n h sorted hs
    rw [e, Option.bind_some, hn] at hr
    obtain ⟨h1, h2⟩ := collect_spec (point s) n.numQueryPoints allow ev hev (f s) (u s)
      (hp sorted s hs e)
    refine ⟨s, hs, e, ?_⟩
    cases hc : Filter.collect (point s) n.numQueryPoints allow ev with
    | none =>
      rw [hc] at hr
      exact Or.inl ⟨(h1.mp hc).1, (h1.mp hc).2, hr⟩
    | some l =>
      rw [hc] at hr
      refine Or.inr ⟨fun hn => ?_, ?_⟩
      · rw [h1.mpr hn] at hc
        exact absurd hc (by simp)
      · obtain ⟨out, ho, hr⟩ := hr
        exact ⟨out, ⟨ho.1.trans (h2 l hc), ho.2⟩, hr⟩
  · rintro ⟨s, hs, e, hr⟩
    obtain ⟨s', e', -, -, hn, -, -⟩ := sortedList_spec n h sorted hs
    have : s' = s := by rw [e] at e'; exact (Option.some.inj e').symm
    subst this
    refine ⟨hs, ?_⟩
    rw [e, Option.bind_some, hn]
    obtain ⟨h1, h2⟩ := collect_spec (point s') n.numQueryPoints allow ev hev (f s') (u s')
      (hp sorted s' hs e)
    cases hc : Filter.collect (point s') n.numQueryPoints allow ev with
    | none =>
      rcases hr with ⟨-, -, hr⟩ | ⟨hn, -⟩
      · exact hr
      · exact absurd (h1.mp hc) hn
    | some l =>
      rcases hr with ⟨ha, hu, -⟩ | ⟨-, out, ho, hr⟩
      · rw [h1.mpr ⟨ha, hu⟩] at hc
        exact absurd hc (by simp)
      · exact ⟨out, ⟨ho.1.trans (h2 l hc).symm, ho.2⟩, hr⟩

end common
end Freud
