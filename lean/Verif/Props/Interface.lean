import Verif.Model.Interface
import Verif.Props.NeighborListSort
import Mathlib.Data.Finset.Image
import Mathlib.Data.Finset.Card

/-!
# C60: Interface returns exactly the points that have a neighbor across

The specification: the identifiers are in strictly increasing order and are exactly the indices that occur
in some bond; the count is the number of such points.
-/

namespace Freud

/-- Specification: `ids` lists exactly the numbers with `P`, each once, in increasing order. -/
def Spec.ListsExactly (ids : List ℕ) (P : ℕ → Prop) : Prop :=
  ids.Pairwise (· < ·) ∧ ∀ i, i ∈ ids ↔ P i

open Spec NumpyUnique

theorem mem_insertSorted (a x : ℕ) (l : List ℕ) : x ∈ insertSorted a l ↔ x = a ∨ x ∈ l := by
  induction l with
  | nil => simp [insertSorted]
  | cons b l ih =>
    simp only [insertSorted]
    split_ifs
    · simp
    · simp only [List.mem_cons, ih]; tauto

theorem insertSorted_sorted (a : ℕ) (l : List ℕ) (h : l.Pairwise (· ≤ ·)) :
    (insertSorted a l).Pairwise (· ≤ ·) := by
  induction l with
  | nil => simp [insertSorted]
  | cons b l ih =>
    simp only [insertSorted]
    have hb := List.pairwise_cons.1 h
    split_ifs with hab
    · refine List.pairwise_cons.2 ⟨?_, h⟩
      intro c hc
      rcases List.mem_cons.1 hc with rfl | hc
      · exact hab
      · exact hab.trans (hb.1 c hc)
    · refine List.pairwise_cons.2 ⟨?_, ih hb.2⟩
      intro c hc
      rcases (mem_insertSorted a c l).1 hc with rfl | hc
      · omega
      · exact hb.1 c hc

theorem mem_sort (x : ℕ) (l : List ℕ) : x ∈ NumpyUnique.sort l ↔ x ∈ l := by
  induction l with
  | nil => simp [NumpyUnique.sort]
  | cons a l ih => simp [NumpyUnique.sort, mem_insertSorted, ih]

theorem sort_sorted (l : List ℕ) : (NumpyUnique.sort l).Pairwise (· ≤ ·) := by
  induction l with
  | nil => simp [NumpyUnique.sort]
  | cons a l ih => exact insertSorted_sorted a _ ih

theorem dropRepeats_spec (l : List ℕ) (h : l.Pairwise (· ≤ ·)) (prev : Option ℕ)
    (hp : ∀ p, prev = some p → ∀ x ∈ l, p ≤ x) :
    (dropRepeats prev l).Pairwise (· < ·) ∧
    (∀ x, x ∈ dropRepeats prev l ↔ x ∈ l ∧ prev ≠ some x) := by
  induction l generalizing prev with
  | nil => simp [dropRepeats]
  | cons a l ih =>
    have hb := List.pairwise_cons.1 h
    obtain ⟨i1, i2⟩ := ih hb.2 (some a) (fun p hpa x hx => by
      injection hpa with hpa; subst hpa; exact hb.1 x hx)
    simp only [dropRepeats]
    split_ifs with e
    · refine ⟨i1, fun x => ?_⟩
      rw [i2, e]
      simp only [List.mem_cons, ne_eq, Option.some.injEq]
      constructor
      · rintro ⟨h1, h2⟩; exact ⟨Or.inr h1, h2⟩
      · rintro ⟨rfl | h1, h2⟩
        · exact absurd rfl h2
        · exact ⟨h1, h2⟩
    · refine ⟨List.pairwise_cons.2 ⟨?_, i1⟩, fun x => ?_⟩
      · intro x hx
        obtain ⟨h1, h2⟩ := (i2 x).1 hx
        have := hb.1 x h1
        have h3 : a ≠ x := fun h => h2 (by rw [h])
        omega
      · rw [List.mem_cons, i2]
        constructor
        · rintro (rfl | ⟨h1, h2⟩)
          · exact ⟨List.mem_cons_self .., e⟩
          · refine ⟨List.mem_cons_of_mem _ h1, ?_⟩
            intro h3
            have h4 := hp x h3 a (List.mem_cons_self ..)
            have h5 := hb.1 x h1
            have h6 : a ≠ x := fun h => h2 (by rw [h])
            omega
        · rintro ⟨h1, h2⟩
          rcases List.mem_cons.1 h1 with rfl | h1
          · exact Or.inl rfl
          · by_cases h3 : x = a
            · exact Or.inl h3
            · exact Or.inr ⟨h1, fun h => h3 (by injection h with h; exact h.symm)⟩

theorem unique_spec (l : List ℕ) : ListsExactly (unique l) (· ∈ l) := by
  obtain ⟨h1, h2⟩ := dropRepeats_spec _ (sort_sorted l) none (fun p h => by cases h)
  refine ⟨h1, fun i => ?_⟩
  unfold unique
  rw [h2, mem_sort]
  simp

theorem ListsExactly.length {ids : List ℕ} {s : Finset ℕ} (h : ListsExactly ids (· ∈ s)) :
    ids.length = s.card := by
  have hn : ids.Nodup := h.1.imp (fun h => Nat.ne_of_lt h)
  rw [← List.toFinset_card_of_nodup hn]
  congr 1
  ext i
  rw [List.mem_toFinset, h.2]

/-- A strictly increasing listing is unique: two lists that satisfy the specification are equal. -/
theorem C60_listing_unique (a b : List ℕ) (P : ℕ → Prop) (ha : ListsExactly a P)
    (hb : ListsExactly b P) : a = b := by
  have hp : a.Perm b := by
    rw [List.perm_ext_iff_of_nodup (ha.1.imp Nat.ne_of_lt) (hb.1.imp Nat.ne_of_lt)]
    intro i; rw [ha.2, hb.2]
  exact hp.eq_of_pairwise (fun x y _ _ h1 h2 => absurd h1 (by omega)) ha.1 hb.1

namespace Interface

variable {K : Type*}

/-- **C60**: after any history of calls, a successful `compute` makes `point_ids` the increasing list of
exactly the points that occur in a bond, `query_point_ids` that of exactly the query points, and the
counts are the numbers of those points.  Nothing of the history before matters. -/
theorem C60_interface (before : List (Neighbors K)) (nb : Neighbors K) (n : NList K)
    (h : makeDefaultNlist nb = some n) :
    let s := (compute nb (run before)).1
    (∃ ids, getPointIds s = some ids ∧ ListsExactly ids (fun i => ∃ b ∈ n.bonds, b.p = i)) ∧
    (∃ ids, getQueryPointIds s = some ids ∧ ListsExactly ids (fun i => ∃ b ∈ n.bonds, b.q = i)) ∧
    getPointCount s = some (n.bonds.map (·.p)).toFinset.card ∧
    getQueryPointCount s = some (n.bonds.map (·.q)).toFinset.card := by
  intro s
  have hs : s = ⟨unique (n.bonds.map (·.p)), unique (n.bonds.map (·.q)), true⟩ := by
    show (compute nb (run before)).1 = _
    simp only [compute, h]
  have key : ∀ l : List ℕ, (unique l).length = l.toFinset.card := by
    intro l
    apply ListsExactly.length
    have := unique_spec l
    exact ⟨this.1, fun i => (this.2 i).trans List.mem_toFinset.symm⟩
  rw [hs]
  refine ⟨⟨_, rfl, ?_⟩, ⟨_, rfl, ?_⟩, ?_, ?_⟩
  · have := unique_spec (n.bonds.map (·.p))
    exact ⟨this.1, fun i => (this.2 i).trans List.mem_map⟩
  · have := unique_spec (n.bonds.map (·.q))
    exact ⟨this.1, fun i => (this.2 i).trans List.mem_map⟩
  · simp only [getPointCount, if_true]; rw [key]
  · simp only [getQueryPointCount, if_true]; rw [key]

/-- **C60**: with query arguments, the identifiers are those of the points found by the query for some
query point, whatever the schedule of the parallel loop that builds the neighbor list. -/
theorem C60_from_query (before : List (Neighbors ℝ)) (found : ℕ → List (Bond ℝ)) (nq np : ℕ) (d : Bool)
    (ev : List (ℕ × ℕ)) (hev : IsExecution nq ev) (nl : NList ℝ)
    (hnl : ToNeighborList found nq np d ev nl)
    (hq : ∀ i < nq, ∀ b ∈ found i, b.q = i) :
    let s := (compute (.dict (some nl)) (run before)).1
    (∃ ids, getPointIds s = some ids ∧
      ListsExactly ids (fun p => ∃ i < nq, ∃ b ∈ found i, b.p = p)) ∧
    (∃ ids, getQueryPointIds s = some ids ∧
      ListsExactly ids (fun i => i < nq ∧ found i ≠ [])) := by
  intro s
  obtain ⟨⟨a, a1, a2⟩, ⟨b, b1, b2⟩, -, -⟩ := C60_interface before (.dict (some nl)) nl rfl
  have hp := (C20_holds_found_bonds found nq np d ev hev nl hnl).1
  have hmem : ∀ x : Bond ℝ, x ∈ nl.bonds ↔ ∃ i < nq, ∃ y ∈ found i, stored y = x := by
    intro x
    rw [hp.mem_iff]
    simp only [List.mem_map, List.mem_flatMap, List.mem_range]
    constructor
    · rintro ⟨y, ⟨i, hi, hy⟩, e⟩; exact ⟨i, hi, y, hy, e⟩
    · rintro ⟨i, hi, y, hy, e⟩; exact ⟨y, ⟨i, hi, hy⟩, e⟩
  refine ⟨⟨a, a1, a2.1, fun p => ?_⟩, ⟨b, b1, b2.1, fun q => ?_⟩⟩
  · rw [a2.2]
    constructor
    · rintro ⟨x, hx, e⟩
      obtain ⟨i, hi, y, hy, rfl⟩ := (hmem x).1 hx
      exact ⟨i, hi, y, hy, e⟩
    · rintro ⟨i, hi, y, hy, e⟩
      exact ⟨stored y, (hmem _).2 ⟨i, hi, y, hy, rfl⟩, e⟩
  · rw [b2.2]
    constructor
    · rintro ⟨x, hx, e⟩
      obtain ⟨i, hi, y, hy, rfl⟩ := (hmem x).1 hx
      have : y.q = q := e
      rw [hq i hi y hy] at this
      subst this
      exact ⟨hi, List.ne_nil_of_mem hy⟩
    · rintro ⟨hi, hne⟩
      obtain ⟨y, hy⟩ := List.exists_mem_of_ne_nil _ hne
      exact ⟨stored y, (hmem _).2 ⟨q, hi, y, hy, rfl⟩, hq q hi y hy⟩

/-- **C60**: a `compute` that raises leaves the earlier identifiers. -/
theorem C60_failed_compute (before : List (Neighbors K)) (nb : Neighbors K)
    (h : makeDefaultNlist nb = none) :
    compute nb (run before) = (run before, true) := by
  simp only [compute, h]

/-- **C60**, counterexample: with the documented default `neighbors=None`, `compute` always raises
(`None` has no `copy` method). -/
theorem C60_default_neighbors_counterexample (s : State) :
    compute (K := K) .absent s = (s, true) := rfl

-- repeated and unordered points: five bonds, three distinct points, two distinct query points
def exBonds : NList ℚ :=
  ⟨3, 6, [⟨0, 5, 1, 1, ⟨1, 0, 0⟩⟩, ⟨0, 2, 1, 1, ⟨1, 0, 0⟩⟩, ⟨0, 2, 1, 1, ⟨-1, 0, 0⟩⟩, ⟨2, 2, 1, 1, ⟨1, 0, 0⟩⟩,
    ⟨2, 3, 1, 1, ⟨1, 0, 0⟩⟩], false, [], []⟩

example :
    let s := run [Neighbors.list exBonds]
    getPointIds s = some [2, 3, 5] ∧ getQueryPointIds s = some [0, 2] ∧
      getPointCount s = some 3 ∧ getQueryPointCount s = some 2 ∧ getPointIds new = none := by decide

-- the hypotheses of `C60_from_query` are met
example : ∃ nl, ToNeighborList (fun i => [Bond.ofVec i (i + 1) 1 ⟨1, 0, 0⟩]) 2 5 false [(1, 1), (0, 0)] nl ∧
    IsExecution 2 [(1, 1), (0, 0)] := by
  refine ⟨_, (C20_result_exists _ _ _ _ _).choose_spec, ?_⟩
  unfold IsExecution; decide

end Interface

end Freud
