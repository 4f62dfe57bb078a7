import Verif.Model.MArray
import Mathlib.Tactic.Ring
import Mathlib.Tactic.Linarith
import Mathlib.Data.List.Forall2
import Mathlib.Algebra.Order.BigOperators.Group.List

/-!
# Property C09: array indexing
-/

namespace Freud

/-- A valid multi-index: one index per dimension, each below the size of its dimension. -/
def Spec.ValidIndex (idx shape : List ℕ) : Prop := List.Forall₂ (· < ·) idx shape

/-- The row-major position: the number of elements that come before `idx` in
lexicographic order, `i₀ * (s₁ s₂ ...) + i₁ * (s₂ ...) + ...`. -/
def Spec.rowMajor : List ℕ → List ℕ → ℕ
  | i :: is, _ :: ss => i * ss.prod + rowMajor is ss
  | _, _ => 0

open Spec MArray

theorem linIndex_fold (idx shape : List ℕ) (h : idx.length = shape.length) :
    (idx.zip shape).foldr (fun p acc => (acc.1 + p.1 * acc.2, acc.2 * p.2)) (0, 1) =
      (rowMajor idx shape, shape.prod) := by
  induction idx generalizing shape with
  | nil => cases shape with
    | nil => rfl
    | cons => simp at h
  | cons i is ih =>
    cases shape with
    | nil => simp at h
    | cons s ss =>
      simp only [List.zip_cons_cons, List.foldr_cons]
      rw [ih ss (by simpa using h)]
      simp [rowMajor, mul_comm, add_comm]

theorem linIndex_eq (idx shape : List ℕ) (h : idx.length = shape.length) :
    linIndex shape idx = rowMajor idx shape := by
  unfold linIndex; rw [linIndex_fold idx shape h]

theorem rowMajor_lt {idx shape : List ℕ} (h : ValidIndex idx shape) :
    rowMajor idx shape < shape.prod := by
  induction h with
  | nil => simp [rowMajor]
  | @cons i s is ss hi _ ih =>
    simp only [rowMajor, List.prod_cons]
    have : (i + 1) * ss.prod ≤ s * ss.prod := Nat.mul_le_mul_right _ hi
    nlinarith

theorem multiGo_rowMajor {idx shape : List ℕ} (h : ValidIndex idx shape) :
    multiGo shape shape.prod (rowMajor idx shape) = idx := by
  induction h with
  | nil => rfl
  | @cons i s is ss hi hh ih =>
    have hs : 0 < s := by omega
    have hlt := rowMajor_lt hh
    have hpos : 0 < ss.prod := by omega
    simp only [rowMajor, List.prod_cons, multiGo]
    rw [Nat.mul_div_cancel_left _ hs]
    have h1 : (i * ss.prod + rowMajor is ss) / ss.prod = i := by
      rw [mul_comm, Nat.mul_add_div hpos, Nat.div_eq_of_lt hlt]; rfl
    have h2 : (i * ss.prod + rowMajor is ss) % ss.prod = rowMajor is ss := by
      rw [mul_comm, Nat.mul_add_mod, Nat.mod_eq_of_lt hlt]
    rw [h1, h2, ih]

theorem multiGo_valid (shape : List ℕ) (k : ℕ) (h : k < shape.prod) :
    ValidIndex (multiGo shape shape.prod k) shape ∧
      rowMajor (multiGo shape shape.prod k) shape = k := by
  induction shape generalizing k with
  | nil => simp at h; subst h; exact ⟨List.Forall₂.nil, rfl⟩
  | cons s ss ih =>
    simp only [List.prod_cons] at h
    have hpos : 0 < ss.prod := by
      rcases Nat.eq_zero_or_pos ss.prod with h0 | h0
      · simp [h0] at h
      · exact h0
    have hs : 0 < s := by
      rcases Nat.eq_zero_or_pos s with h0 | h0
      · simp [h0] at h
      · exact h0
    obtain ⟨h1, h2⟩ := ih (k % ss.prod) (Nat.mod_lt _ hpos)
    simp only [List.prod_cons, multiGo]
    rw [Nat.mul_div_cancel_left _ hs]
    refine ⟨List.Forall₂.cons ?_ h1, ?_⟩
    · rw [Nat.div_lt_iff_lt_mul hpos]; exact h
    · simp only [rowMajor, h2]
      rw [mul_comm]; exact Nat.div_add_mod k ss.prod

/-- **C09**: for every shape, the linear index is the row-major position, which maps the valid
multi-indices into `0 .. size-1`, and `getMultiIndex` is its two-sided inverse. -/
theorem C09_index_bijection (shape : List ℕ) :
    (∀ idx, ValidIndex idx shape → linIndex shape idx = rowMajor idx shape ∧
      linIndex shape idx < shape.prod ∧
      getMultiIndex shape (linIndex shape idx) = idx) ∧
    (∀ k, k < shape.prod → ValidIndex (getMultiIndex shape k) shape ∧
      linIndex shape (getMultiIndex shape k) = k) := by
  constructor
  · intro idx h
    have hl : idx.length = shape.length := h.length_eq
    rw [linIndex_eq idx shape hl]
    exact ⟨rfl, rowMajor_lt h, multiGo_rowMajor h⟩
  · intro k hk
    obtain ⟨h1, h2⟩ := multiGo_valid shape k hk
    exact ⟨h1, by rw [getMultiIndex, linIndex_eq _ _ h1.length_eq, h2]⟩

example : ValidIndex [1, 0, 2] [2, 3, 4] ∧ linIndex [2, 3, 4] [1, 0, 2] = 14 ∧
    getMultiIndex [2, 3, 4] 14 = [1, 0, 2] :=
  ⟨by repeat constructor
   , by decide, by decide⟩

/-- An array as made by the constructor and kept by all operations. -/
def Spec.WellFormed {α : Type*} (a : MArray α) : Prop := a.data.length = a.shape.prod

/-- **C09**: the checked index function accepts every valid multi-index and rejects tuples of
the wrong length and tuples with a component above the size of its dimension. The remaining
tuples (some component equal to its size) are accepted although they are invalid, see
`C09_boundary_counterexample`. -/
theorem C09_checked_index_partial {α : Type*} (a : MArray α) (idx : List ℕ) :
    (ValidIndex idx a.shape → a.getIndex idx = some (rowMajor idx a.shape)) ∧
    (a.getIndex idx = none ↔ ¬ List.Forall₂ (· ≤ ·) idx a.shape) := by
  have hany : ∀ (l s : List ℕ), l.length = s.length →
      ((l.zip s).any (fun p => decide (p.1 > p.2)) = false ↔ List.Forall₂ (· ≤ ·) l s) := by
    intro l
    induction l with
    | nil => intro s hs; cases s with
      | nil => simp
      | cons => simp at hs
    | cons x l ih => intro s hs; cases s with
      | nil => simp at hs
      | cons y s =>
        rw [List.forall₂_cons, ← ih s (by simpa using hs)]
        simp [List.any_cons, Bool.or_eq_false_iff]
  constructor
  · intro h
    have hl : idx.length = a.shape.length := h.length_eq
    have hle : List.Forall₂ (· ≤ ·) idx a.shape := h.imp (fun _ _ h => le_of_lt h)
    unfold getIndex
    rw [if_neg (by simpa using hl), if_neg (by rw [(hany _ _ hl).mpr hle]; simp),
      linIndex_eq _ _ hl]
  · unfold getIndex
    by_cases hl : idx.length = a.shape.length
    · rw [if_neg (by simpa using hl)]
      cases hb : (idx.zip a.shape).any (fun p => decide (p.1 > p.2)) with
      | true =>
        have : ¬ List.Forall₂ (· ≤ ·) idx a.shape := fun h => by
          rw [(hany _ _ hl).mpr h] at hb; simp at hb
        simpa using this
      | false =>
        have := (hany _ _ hl).mp hb
        simpa using this
    · rw [if_pos hl]
      simp only [true_iff]
      exact fun h => hl h.length_eq

/-- **C09** is false at the upper boundary: `getIndex` accepts the component `2` in a dimension
of size 2, and element access through `operator()` silently returns another element. -/
theorem C09_boundary_counterexample :
    ∃ (a : MArray ℕ) (idx : List ℕ), WellFormed a ∧ ¬ ValidIndex idx a.shape ∧
      a.getIndex idx = some 2 ∧ a.at? idx = a.at? [1, 0] := by
  refine ⟨⟨[2, 2], [10, 11, 12, 13]⟩, [0, 2], rfl, ?_, by decide, by decide⟩
  intro h
  cases h with
  | cons _ h => cases h with
    | cons h _ => omega

/-- **C09**: element access. In a well-formed array every valid multi-index can be read and
written, a write is seen by a read at the same index and by no read at any other valid index,
and it keeps the array well-formed. -/
theorem C09_read_write {α : Type*} (a : MArray α) (ha : WellFormed a) (idx : List ℕ)
    (h : ValidIndex idx a.shape) (v : α) :
    (∃ x, a.at? idx = some x) ∧
    ∃ a', a.put? idx v = some a' ∧ WellFormed a' ∧ a'.shape = a.shape ∧ a'.at? idx = some v ∧
      ∀ idx', ValidIndex idx' a.shape → idx' ≠ idx → a'.at? idx' = a.at? idx' := by
  have hlt : linIndex a.shape idx < a.data.length := by
    rw [ha]; exact ((C09_index_bijection a.shape).1 idx h).2.1
  constructor
  · refine ⟨a.data[linIndex a.shape idx], ?_⟩
    unfold at? get?
    rw [if_neg (by simpa [size] using hlt), List.getElem?_eq_getElem hlt]
  · refine ⟨{ a with data := a.data.set (linIndex a.shape idx) v }, ?_, ?_, rfl, ?_, ?_⟩
    · unfold put? set?
      rw [if_neg (by simpa [size] using hlt)]
    · simpa [WellFormed] using ha
    · unfold at? get?
      rw [if_neg (by simpa [size] using hlt)]
      simp [hlt]
    · intro idx' h' hne
      have hlt' : linIndex a.shape idx' < a.data.length := by
        rw [ha]; exact ((C09_index_bijection a.shape).1 idx' h').2.1
      have hne' : linIndex a.shape idx ≠ linIndex a.shape idx' := by
        intro e
        have h1 := ((C09_index_bijection a.shape).1 idx h).2.2
        have h2 := ((C09_index_bijection a.shape).1 idx' h').2.2
        rw [e, h2] at h1
        exact hne h1
      unfold at? get?
      rw [if_neg (by simpa [size] using hlt'), if_neg (by simpa [size] using hlt')]
      simp [List.getElem?_set, hne']

/-- **C09**: a new array is well-formed and zero everywhere. -/
theorem C09_new_array {α : Type*} [Zero α] (shape : List ℕ) :
    WellFormed (MArray.mk' (α := α) shape) ∧
    ∀ idx, ValidIndex idx shape → (MArray.mk' (α := α) shape).at? idx = some 0 := by
  refine ⟨by simp [WellFormed, MArray.mk'], fun idx h => ?_⟩
  have hlt := ((C09_index_bijection shape).1 idx h).2.1
  unfold at? get?
  rw [if_neg (by simpa [size, MArray.mk'] using hlt)]
  simp [MArray.mk', hlt]

/-- **C09**: reading past the end through `operator[]` raises. -/
theorem C09_flat_access {α : Type*} (a : MArray α) (i : ℕ) (v : α) :
    (a.get? i = none ↔ a.size ≤ i) ∧ (a.set? i v = none ↔ a.size ≤ i) := by
  unfold get? set?
  by_cases h : i ≥ a.size
  · simp [h]
  · have h' : i < a.data.length := by simpa [size] using h
    simp [h]; omega

/-- `prefixSum` returns, for each position, the sum of all earlier summands. -/
theorem prefixSum_get (l : List ℕ) (i : ℕ) (h : i < l.length) :
    (prefixSum l)[i]? = some (l.take i).sum := by
  have key : ∀ (l : List ℕ) (o i : ℕ), i < l.length →
      (prefixSumGo o l)[i]? = some (o + (l.take i).sum) := by
    intro l
    induction l with
    | nil => intro o i h; simp at h
    | cons s ss ih =>
      intro o i h
      cases i with
      | zero => simp [prefixSumGo]
      | succ i =>
        simp only [prefixSumGo, List.getElem?_cons_succ, List.take_succ_cons, List.sum_cons]
        rw [ih (o + s) i (by simpa using h), add_assoc]
  simpa [prefixSum] using key l 0 i h

end Freud
