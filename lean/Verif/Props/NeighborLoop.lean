import Verif.Model.NeighborLoop
import Verif.Lemmas.Filter
import Verif.Props.MArray

/-!
# C66: iterating over the neighbors of every query point
-/

namespace Freud
open Spec MArray

section iter
variable {K : Type*}

theorem collect_eq (n : NList K) (it : PPIter) (hf : it.finished = false) :
    it.collect n = (n.bonds.drop it.cur).takeWhile (fun b => decide (b.q = it.queryIdx)) := by
  obtain ⟨k, hk⟩ : ∃ k, k = n.bonds.length - it.cur := ⟨_, rfl⟩
  induction k using Nat.strong_induction_on generalizing it with
  | _ k ih =>
    rw [PPIter.collect.eq_1]
    split
    · rename_i h
      rw [List.drop_eq_nil_of_le (List.getElem?_eq_none_iff.mp h)]
      rfl
    · rename_i nb h
      obtain ⟨hlt, e⟩ := List.getElem?_eq_some_iff.mp h
      have hnext : (it.next n).2 = { it with cur := it.cur + 1, returned := nb.q } := by
        simp [PPIter.next, h]
      rw [hnext, List.drop_eq_getElem_cons hlt, e, List.takeWhile_cons]
      by_cases hq : nb.q = it.queryIdx
      · rw [if_neg (by simp [PPIter.isEnd, hq, hf]), if_pos (decide_eq_true hq)]
        congr 1
        exact ih (n.bonds.length - (it.cur + 1)) (by omega) _ hf rfl
      · rw [if_pos (by simp [PPIter.isEnd, hq]), if_neg (by simpa using hq)]

theorem takeWhile_eq_filter (i : ℕ) (D : List (Bond K)) (hD : ∀ b ∈ D, i ≤ b.q)
    (hs : (D.map (·.q)).Pairwise (· ≤ ·)) :
    D.takeWhile (fun b => decide (b.q = i)) = D.filter (fun b => decide (b.q = i)) := by
  induction D with
  | nil => rfl
  | cons a D ih =>
    rw [List.map_cons, List.pairwise_cons] at hs
    by_cases hq : a.q = i
    · rw [List.takeWhile_cons_of_pos (by simpa using hq), List.filter_cons_of_pos (by simpa using hq),
        ih (fun b hb => hD b (List.mem_cons_of_mem _ hb)) hs.2]
    · rw [List.takeWhile_cons_of_neg (by simpa using hq), List.filter_cons_of_neg (by simpa using hq)]
      symm
      rw [List.filter_eq_nil_iff]
      intro b hb hbq
      have h1 := hs.1 b.q (List.mem_map_of_mem hb)
      have h2 := hD a List.mem_cons_self
      have h3 := of_decide_eq_true hbq
      omega

variable [Field K] [LinearOrder K] [IsStrictOrderedRing K]

/-- **C66**: on a neighbor list sorted by query index, the loop over the neighbors of query point `i`
sees exactly the bonds of `i`, each once, in the order of the list; in particular none when `i` has
no bonds or lies beyond the last query point. -/
theorem C66_per_point (n : NList K) (h : GoodList n) (i : ℕ) :
    (PPIter.new n i).collect n = n.bonds.filter (fun b => b.q = i) := by
  obtain ⟨h1, h2⟩ := C15_find_first_index n h i
  have key : (n.bonds.drop (n.findFirstIndex i)).takeWhile (fun b => decide (b.q = i)) =
      n.bonds.filter (fun b => b.q = i) := by
    have hA : (n.bonds.take (n.findFirstIndex i)).filter (fun b => decide (b.q = i)) = [] := by
      rw [List.filter_eq_nil_iff]
      intro b hb hq
      obtain ⟨k, hk, e⟩ := List.getElem_of_mem hb
      rw [List.length_take] at hk
      rw [List.getElem_take] at e
      have := (h2 k b (by rw [List.getElem?_eq_getElem (by omega), e])).mpr
        (of_decide_eq_true hq).ge
      omega
    have hD : ∀ b ∈ n.bonds.drop (n.findFirstIndex i), i ≤ b.q := by
      intro b hb
      obtain ⟨k, hk, e⟩ := List.getElem_of_mem hb
      rw [List.length_drop] at hk
      rw [List.getElem_drop] at e
      exact (h2 (n.findFirstIndex i + k) b (by rw [List.getElem?_eq_getElem (by omega), e])).mp
        (by omega)
    have hsD : ((n.bonds.drop (n.findFirstIndex i)).map (·.q)).Pairwise (· ≤ ·) := by
      rw [List.map_drop]; exact h.sorted.sublist (List.drop_sublist _ _)
    conv_rhs => rw [← List.take_append_drop (n.findFirstIndex i) n.bonds, List.filter_append, hA,
      List.nil_append]
    generalize n.bonds.drop (n.findFirstIndex i) = D at hD hsD
    exact takeWhile_eq_filter i D hD hsD
  by_cases hf : n.findFirstIndex i = n.bonds.length
  · rw [PPIter.collect.eq_1]
    have : n.bonds[(PPIter.new n i).cur]? = none := by
      rw [List.getElem?_eq_none_iff]; exact hf.ge
    rw [← key, hf, List.drop_length, List.takeWhile_nil]
    split
    · rfl
    · rename_i nb h'; rw [this] at h'; cases h'
  · rw [collect_eq _ _ (by simpa [PPIter.new] using hf)]
    exact key

/-- **C66**: the loops over the neighbors of all query points together see every bond of the list
exactly once, in the order of the list. -/
theorem C66_all_points (n : NList K) (h : GoodList n) :
    (List.range n.numQueryPoints).flatMap (fun i => (PPIter.new n i).collect n) = n.bonds := by
  simp only [C66_per_point n h]
  have hs := h.sorted
  have hq := h.qlt
  generalize n.bonds = l at hs hq
  generalize n.numQueryPoints = m at hq
  induction m generalizing l with
  | zero =>
    cases l with
    | nil => rfl
    | cons b l => exact absurd (hq b List.mem_cons_self) (by omega)
  | succ m ih =>
    rw [List.range_succ, List.flatMap_append, List.flatMap_singleton]
    have hsplit := row_split l hs m
    have h0 : l.filter (fun b => decide (m < b.q)) = [] := by
      rw [List.filter_eq_nil_iff]
      intro b hb hlt
      have := hq b hb
      have := of_decide_eq_true hlt
      omega
    rw [h0, List.append_nil] at hsplit
    conv_rhs => rw [hsplit]
    congr 1
    rw [← ih (l.filter (fun b => decide (b.q < m)))
      ((hs.sublist ((List.filter_sublist (l := l)).map _)))
      (fun b hb => of_decide_eq_true (List.mem_filter.mp hb).2)]
    refine List.flatMap_congr fun i hi => ?_
    rw [List.filter_filter]
    refine List.filter_congr fun b _ => ?_
    have := List.mem_range.mp hi
    by_cases hb : b.q = i
    · simp [hb, this]
    · simp [hb]

end iter

/-! ### Loops that write one element per iteration -/

theorem forEach_spec {T : Type*} (order : List ℕ) (body : ℕ → T → Option T) (g : ℕ → T)
    (a : MArray T) (n : ℕ) (hn : a.data.length = n) (hord : order.Perm (List.range n))
    (hbody : ∀ i x, a.data[i]? = some x → body i x = some (g i)) :
    ∃ a', a.forEach order body = some a' ∧ a'.shape = a.shape ∧
      a'.data = (List.range n).map g := by
  have key : ∀ (order : List ℕ) (a : MArray T), order.Nodup → (∀ i ∈ order, i < a.data.length) →
      (∀ i x, i ∈ order → a.data[i]? = some x → body i x = some (g i)) →
      ∃ a', a.forEach order body = some a' ∧ a'.shape = a.shape ∧
        a'.data.length = a.data.length ∧
        ∀ i < a.data.length, a'.data[i]? = if i ∈ order then some (g i) else a.data[i]? := by
    intro order
    induction order with
    | nil => intro a _ _ _; exact ⟨a, rfl, rfl, rfl, fun i _ => by simp⟩
    | cons j order ih =>
      intro a hnd hlt hb
      rw [List.nodup_cons] at hnd
      have hj : j < a.data.length := hlt j List.mem_cons_self
      have hget : a.data[j]? = some a.data[j] := List.getElem?_eq_getElem hj
      set a1 : MArray T := ⟨a.shape, a.data.set j (g j)⟩ with ha1
      have hlen : a1.data.length = a.data.length := List.length_set
      obtain ⟨a', e, hs, hl, hv⟩ := ih a1 hnd.2
        (fun i hi => by rw [hlen]; exact hlt i (List.mem_cons_of_mem _ hi))
        (fun i x hi hx => hb i x (List.mem_cons_of_mem _ hi) (by
          have hne : j ≠ i := fun h => hnd.1 (h ▸ hi)
          rwa [ha1, List.getElem?_set_ne hne] at hx))
      refine ⟨a', ?_, hs, hl.trans hlen, fun i hi => ?_⟩
      · unfold MArray.forEach at e ⊢
        rw [List.foldlM_cons]
        have : (a.get? j).bind (fun x => (body j x).bind (a.set? j)) = some a1 := by
          unfold MArray.get? MArray.set?
          rw [if_neg (by simpa [MArray.size] using hj), hget, Option.bind_some,
            hb j _ List.mem_cons_self hget, Option.bind_some,
            if_neg (by simpa [MArray.size] using hj)]
        rw [this]
        exact e
      · rw [hv i (by rw [hlen]; exact hi)]
        by_cases h1 : i ∈ order
        · rw [if_pos h1, if_pos (List.mem_cons_of_mem _ h1)]
        · rw [if_neg h1]
          by_cases h2 : i = j
          · subst h2
            rw [if_pos List.mem_cons_self, ha1, List.getElem?_set_self hj]
          · rw [if_neg (by simp [h1, h2]), ha1, List.getElem?_set_ne (Ne.symm h2)]
  obtain ⟨a', e, hs, hl, hv⟩ := key order a (hord.nodup_iff.mpr List.nodup_range)
    (fun i hi => by rw [hn]; exact List.mem_range.mp (hord.subset hi))
    (fun i x _ hx => hbody i x hx)
  refine ⟨a', e, hs, List.ext_getElem? fun i => ?_⟩
  by_cases hi : i < n
  · rw [hv i (by rw [hn]; exact hi), if_pos (hord.symm.subset (List.mem_range.mpr hi)),
      List.getElem?_map, List.getElem?_range hi]
    rfl
  · rw [List.getElem?_eq_none (by omega), List.getElem?_eq_none (by simp; omega)]

/-- **C66**: a compute that fills one element per query point from the bonds of that query point
gives, for every thread schedule, the array whose element `i` is the result for the bonds of `i`.
-/
theorem C66_schedule_independent {K T : Type*} [Field K] [LinearOrder K] [IsStrictOrderedRing K]
    (n : NList K) (h : GoodList n) (nq : ℕ) (order : List ℕ) (hord : order.Perm (List.range nq))
    (a : MArray T) (ha : a.data.length = nq) (cf : ℕ → List (Bond K) → T → Option T) (g : ℕ → T)
    (hcf : ∀ i x, a.data[i]? = some x →
      cf i (n.bonds.filter (fun b => b.q = i)) x = some (g i)) :
    ∃ a', loopOverNeighborsIterator n cf order a = some a' ∧ a'.shape = a.shape ∧
      a'.data = (List.range nq).map g := by
  refine forEach_spec order _ g a nq ha hord fun i x hx => ?_
  rw [C66_per_point n h]
  exact hcf i x hx

/-- The hypotheses are met: a list with bonds of query points 0, 2, 2; point 1 has none. -/
example : let n : NList ℚ := ⟨3, 4, [⟨0, 1, 1, 1, ⟨1, 0, 0⟩⟩, ⟨2, 0, 1, 1, ⟨1, 0, 0⟩⟩,
      ⟨2, 3, 2, 1, ⟨2, 0, 0⟩⟩], false, [], []⟩
    GoodList n ∧ ((PPIter.new n 1).collect n).map (·.p) = [] ∧
      ((PPIter.new n 2).collect n).map (·.p) = [0, 3] := by
  intro n
  have h : GoodList n := ⟨by decide, by decide, by decide, by decide⟩
  refine ⟨h, ?_, ?_⟩
  · rw [C66_per_point n h]; decide +kernel
  · rw [C66_per_point n h]; decide +kernel

end Freud
