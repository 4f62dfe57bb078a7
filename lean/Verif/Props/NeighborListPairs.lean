import Verif.Model.NeighborList
import Verif.Lemmas.Box
import Mathlib.Data.List.Range
import Mathlib.Tactic.NormNum
import Mathlib.Data.List.Nodup

/-!
# Property C17: the all-pairs neighbor list
-/

namespace Freud
open NList

section splice
variable {α : Type*}

/-- Writing a list into consecutive slots. -/
def splice : List α → ℕ → List α → List α
  | arr, _, [] => arr
  | arr, idx, x :: xs => splice (arr.set idx x) (idx + 1) xs

theorem splice_length (arr : List α) (idx : ℕ) (l : List α) :
    (splice arr idx l).length = arr.length := by
  induction l generalizing arr idx with
  | nil => rfl
  | cons x xs ih => rw [splice, ih]; simp

theorem splice_get (arr : List α) (idx : ℕ) (l : List α) (k : ℕ) (hk : k < arr.length) :
    (splice arr idx l)[k]? = if idx ≤ k ∧ k < idx + l.length then l[k - idx]? else arr[k]? := by
  induction l generalizing arr idx with
  | nil => simp only [splice, List.length_nil]; rw [if_neg (by omega)]
  | cons x xs ih =>
    rw [splice, ih _ _ (by simpa using hk)]
    simp only [List.length_cons]
    by_cases h1 : idx + 1 ≤ k ∧ k < idx + 1 + xs.length
    · rw [if_pos h1, if_pos (by omega)]
      have : k - idx = (k - (idx + 1)) + 1 := by omega
      rw [this, List.getElem?_cons_succ]
    · rw [if_neg h1, List.getElem?_set]
      by_cases h2 : idx = k
      · subst h2
        simp [hk]
      · rw [if_neg h2, if_neg (by omega)]

/-- Filling rows at their offsets, in any order, gives the concatenation of the rows. -/
theorem fill_rows (n : ℕ) (row : ℕ → List α) (off : ℕ → ℕ) (h0 : off 0 = 0)
    (hstep : ∀ i, off (i + 1) = off i + (row i).length) (init : List α)
    (hinit : init.length = off n) (order : List ℕ) (hord : order.Perm (List.range n)) :
    order.foldl (fun arr i => splice arr (off i) (row i)) init = (List.range n).flatMap row := by
  have hmono : ∀ i j, i ≤ j → off i ≤ off j := by
    intro i j hij
    induction hij with
    | refl => exact le_refl _
    | step _ ih => rw [hstep]; omega
  have hlen : ∀ m, ((List.range m).flatMap row).length = off m := by
    intro m
    induction m with
    | zero => simp [h0]
    | succ m ih => rw [List.range_succ, List.flatMap_append, List.length_append, ih, hstep]; simp
  have hget : ∀ m i t, i < m → t < (row i).length →
      ((List.range m).flatMap row)[off i + t]? = (row i)[t]? := by
    intro m
    induction m with
    | zero => intro i t hi; omega
    | succ m ih =>
      intro i t hi ht
      rw [List.range_succ, List.flatMap_append]
      by_cases him : i < m
      · rw [List.getElem?_append_left, ih i t him ht]
        rw [hlen]
        have := hmono (i + 1) m him
        have := hstep i
        omega
      · have : i = m := by omega
        subst this
        rw [List.getElem?_append_right (by rw [hlen]; omega), hlen]
        simp
  have hdec : ∀ m k, k < off m → ∃ i t, i < m ∧ t < (row i).length ∧ k = off i + t := by
    intro m
    induction m with
    | zero => intro k hk; omega
    | succ m ih =>
      intro k hk
      by_cases h : k < off m
      · obtain ⟨i, t, hi, ht, e⟩ := ih k h
        exact ⟨i, t, by omega, ht, e⟩
      · exact ⟨m, k - off m, by omega, by rw [hstep] at hk; omega, by omega⟩
  have hfold : ∀ (order : List ℕ), order.Nodup → (∀ i ∈ order, i < n) →
      ∀ arr : List α, arr.length = off n →
      (order.foldl (fun arr i => splice arr (off i) (row i)) arr).length = off n ∧
      ∀ i t, i < n → t < (row i).length →
        (order.foldl (fun arr i => splice arr (off i) (row i)) arr)[off i + t]? =
          if i ∈ order then (row i)[t]? else arr[off i + t]? := by
    intro order
    induction order with
    | nil => intro _ _ arr ha; exact ⟨ha, fun i t _ _ => by simp⟩
    | cons j js ih =>
      intro hnd hlt arr ha
      obtain ⟨hj, hjs⟩ := List.nodup_cons.mp hnd
      obtain ⟨ih1, ih2⟩ := ih hjs (fun i hi => hlt i (List.mem_cons_of_mem _ hi))
        (splice arr (off j) (row j)) (by rw [splice_length, ha])
      refine ⟨ih1, fun i t hi ht => ?_⟩
      rw [List.foldl_cons, ih2 i t hi ht]
      have hk : off i + t < arr.length := by
        rw [ha]
        have := hmono (i + 1) n hi
        have := hstep i
        omega
      rw [splice_get _ _ _ _ hk]
      by_cases hij : i = j
      · subst hij
        rw [if_neg hj, if_pos (by omega), if_pos List.mem_cons_self]
        simp
      · have hout : ¬ (off j ≤ off i + t ∧ off i + t < off j + (row j).length) := by
          rintro ⟨h1, h2⟩
          rcases Nat.lt_or_gt_of_ne hij with h | h
          · have := hmono (i + 1) j h
            have := hstep i
            omega
          · have := hmono (j + 1) i h
            have := hstep j
            omega
        rw [if_neg hout]
        simp [hij]
  obtain ⟨hl, hg⟩ := hfold order (hord.nodup_iff.mpr List.nodup_range)
    (fun i hi => List.mem_range.mp (hord.subset hi)) init hinit
  apply List.ext_getElem?
  intro k
  by_cases hk : k < off n
  · obtain ⟨i, t, hi, ht, rfl⟩ := hdec n k hk
    rw [hg i t hi ht, if_pos (hord.symm.subset (List.mem_range.mpr hi)), hget n i t hi ht]
  · rw [List.getElem?_eq_none (by omega), List.getElem?_eq_none (by rw [hlen]; omega)]

end splice

/-- The bond between query point `i` and point `j` as the code stores it. -/
noncomputable def pairBond (b : Box ℝ) (qpt pt : ℕ → Vec3 ℝ) (i j : ℕ) : Bond ℝ :=
  ⟨i, j, (b.wrap (qpt i - pt j)).norm, 1, b.wrap (qpt i - pt j)⟩

theorem allPairsRow_eq (b : Box ℝ) (qpt pt : ℕ → Vec3 ℝ) (excl : Bool) (i : ℕ) (js : List ℕ)
    (idx : ℕ) (arr : List (Bond ℝ)) :
    allPairsRow b qpt pt excl i js idx arr =
      splice arr idx ((js.filter (fun j => !(excl && decide (i = j)))).map (pairBond b qpt pt i)) := by
  induction js generalizing idx arr with
  | nil => rfl
  | cons j js ih =>
    unfold allPairsRow
    by_cases h : (excl && decide (i = j)) = true
    · rw [if_pos h, ih]
      rw [List.filter_cons, if_neg (by rw [h]; simp)]
    · rw [if_neg h]
      simp only
      rw [ih]
      have h' : (!(excl && decide (i = j))) = true := by rw [Bool.not_eq_true'] ; exact Bool.eq_false_iff.mpr h
      rw [List.filter_cons, if_pos h', List.map_cons, splice]
      rfl

theorem filter_row_length (excl : Bool) (i np : ℕ) :
    ((List.range np).filter (fun j => !(excl && decide (i = j)))).length =
      np - (if excl = true ∧ i < np then 1 else 0) := by
  cases excl with
  | false => simp
  | true =>
    simp only [Bool.true_and, true_and]
    induction np with
    | zero => simp
    | succ np ih =>
      rw [List.range_succ, List.filter_append, List.length_append, ih]
      by_cases h : i = np
      · subst h; simp
      · have : (!decide (i = np)) = true := by simpa using h
        simp only [List.filter_cons, this, if_true, List.filter_nil, List.length_singleton]
        split_ifs <;> omega

/-- **C17**: for every order in which the parallel loop fills the rows, the all-pairs list is, for
`i = 0, 1, ...` and within that `j = 0, 1, ...`, the bond `(i, j)` with weight 1 and the wrapped
separation of the two points, leaving out `i = j` exactly when `exclude_ii` is set. -/
theorem C17_all_pairs (b : Box ℝ) (qpt pt : ℕ → Vec3 ℝ) (excl : Bool) (nq np : ℕ)
    (order : List ℕ) (hord : order.Perm (List.range nq)) :
    (allPairs b qpt pt excl nq np order).bonds =
      (List.range nq).flatMap (fun i =>
        ((List.range np).filter (fun j => !(excl && decide (i = j)))).map (fun j =>
          ⟨i, j, (b.wrap (qpt i - pt j)).norm, 1, b.wrap (qpt i - pt j)⟩)) := by
  unfold allPairs
  simp only [allPairsRow_eq]
  rw [fill_rows nq (fun i => ((List.range np).filter (fun j => !(excl && decide (i = j)))).map
      (pairBond b qpt pt i)) (rowStart excl np) _ _ _ _ order hord]
  · rfl
  · simp [rowStart]
  · intro i
    simp only [List.length_map, filter_row_length]
    unfold rowStart
    cases excl with
    | false => simp [Nat.add_mul]
    | true =>
      simp only [if_true, true_and]
      rcases Nat.eq_zero_or_pos np with h | h
      · subst h; simp
      · have h1 : i ≤ i * np := Nat.le_mul_of_pos_right i h
        rw [Nat.add_mul, Nat.one_mul]
        generalize i * np = m at *
        split_ifs <;> omega
  · simp only [List.length_replicate]
    unfold rowStart
    rw [Nat.mul_comm]
    cases excl <;> simp [Nat.min_comm]

/-- **C17**: every pair is there exactly once, and the pairs are sorted. -/
theorem C17_pairs_exactly (b : Box ℝ) (qpt pt : ℕ → Vec3 ℝ) (excl : Bool) (nq np : ℕ)
    (order : List ℕ) (hord : order.Perm (List.range nq)) :
    let pairs := (allPairs b qpt pt excl nq np order).bonds.map (fun c => (c.q, c.p))
    (∀ i j, (i, j) ∈ pairs ↔ i < nq ∧ j < np ∧ ¬ (excl = true ∧ i = j)) ∧ pairs.Nodup ∧
    pairs.Pairwise (fun a c => a.1 < c.1 ∨ (a.1 = c.1 ∧ a.2 < c.2)) := by
  have hp : (allPairs b qpt pt excl nq np order).bonds.map (fun c => (c.q, c.p)) =
      (List.range nq).flatMap (fun i =>
        ((List.range np).filter (fun j => !(excl && decide (i = j)))).map (fun j => (i, j))) := by
    rw [C17_all_pairs b qpt pt excl nq np order hord, List.map_flatMap]
    congr 1
    funext i
    rw [List.map_map]
    rfl
  simp only [hp]
  have hsorted : ((List.range nq).flatMap (fun i =>
        ((List.range np).filter (fun j => !(excl && decide (i = j)))).map (fun j => (i, j)))).Pairwise
      (fun a c => a.1 < c.1 ∨ (a.1 = c.1 ∧ a.2 < c.2)) := by
    rw [List.pairwise_flatMap]
    constructor
    · intro i _
      rw [List.pairwise_map]
      refine List.Pairwise.filter _ (List.pairwise_lt_range.imp ?_)
      intro a c h
      exact Or.inr ⟨rfl, h⟩
    · refine List.pairwise_lt_range.imp ?_
      intro i i' h x hx y hy
      obtain ⟨j, -, rfl⟩ := List.mem_map.mp hx
      obtain ⟨j', -, rfl⟩ := List.mem_map.mp hy
      exact Or.inl h
  refine ⟨?_, hsorted.imp ?_, hsorted⟩
  · intro i j
    simp only [List.mem_flatMap, List.mem_range, List.mem_map, List.mem_filter, Prod.mk.injEq]
    constructor
    · rintro ⟨i', hi', j', ⟨hj', hne⟩, rfl, rfl⟩
      refine ⟨hi', hj', ?_⟩
      rintro ⟨h1, h2⟩
      simp [h1, h2] at hne
    · rintro ⟨hi, hj, hne⟩
      exact ⟨i, hi, j, ⟨hj, by cases excl <;> simp at hne ⊢; exact hne⟩, rfl, rfl⟩
  · rintro a c h rfl
    rcases h with h | ⟨-, h⟩ <;> omega

/-- **C17**, a disagreement with the documentation of `NeighborList.vectors` ("vectors from query
points to points"): the all-pairs list stores the opposite vector. With the query point at the
origin and the point at `(1,0,0)` in a cubic box of side 10 the stored vector is `(-1,0,0)`. -/
theorem C17_direction_counterexample :
    (allPairs (Box.mk' 10 10 10 0 0 0 false) (fun _ => ⟨0, 0, 0⟩) (fun _ => ⟨1, 0, 0⟩) false 1 1
      [0]).bonds.map (·.vec) = [⟨-1, 0, 0⟩] := by
  have hw : (Box.mk' 10 10 10 0 0 0 false : Box ℝ).wrap ⟨-1, 0, 0⟩ = ⟨-1, 0, 0⟩ := by
    have h1 : Int.fract (2 / 5 : ℝ) = 2 / 5 := by rw [Int.fract_eq_self]; norm_num
    have h2 : Int.fract (1 / 2 : ℝ) = 1 / 2 := by rw [Int.fract_eq_self]; norm_num
    have hf : (Box.mk' 10 10 10 0 0 0 false : Box ℝ).makeFractional ⟨-1, 0, 0⟩ =
        ⟨2 / 5, 1 / 2, 1 / 2⟩ := by
      ext <;> simp [Box.makeFractional, Box.mk', Box.setL] <;> norm_num
    unfold Box.wrap
    rw [hf]
    simp only [modulusPositive_one, h1, h2]
    ext <;> simp [Box.makeAbsolute, Box.mk', Box.setL, Vec3.cmul] <;> norm_num
  rw [C17_all_pairs _ _ _ _ _ _ _ (by decide)]
  have e : (⟨0, 0, 0⟩ - ⟨1, 0, 0⟩ : Vec3 ℝ) = ⟨-1, 0, 0⟩ := by ext <;> simp
  simp [List.range_succ, e, hw]

-- rows filled out of order by a parallel loop
example : [2, 0, 1].Perm (List.range 3) := by decide

end Freud
