import Verif.Props.NeighborList
import Verif.Props.Schedule
import Mathlib.Algebra.Order.Group.Multiset

/-!
# Properties C19, C20: sorting, and building neighbor lists under any schedule
-/

set_option linter.unusedSectionVars false

namespace Freud
open Spec NList Bond

variable {K : Type*} [LinearOrder K]

/-- The sort key for `by_distance=True`: query index, distance, point index, weight. -/
def keyD (b : Bond K) : ℕ ×ₗ K ×ₗ ℕ ×ₗ K :=
  toLex (b.q, toLex (b.dist, toLex (b.p, b.weight)))

/-- The sort key for `by_distance=False`: query index, point index, weight, distance. -/
def keyT (b : Bond K) : ℕ ×ₗ ℕ ×ₗ K ×ₗ K :=
  toLex (b.q, toLex (b.p, toLex (b.weight, b.dist)))

theorem lessTuple_iff (a b : Bond K) : lessTuple a b = true ↔ keyT a < keyT b := by
  unfold lessTuple keyT
  simp only [Prod.Lex.toLex_lt_toLex]
  split_ifs with h1 h2 h3
  · simp [h1]
  · push Not at h1; simp [h1, h2]
  · push Not at h1 h2; simp [h1, h2, h3]
  · push Not at h1 h2 h3; simp [h1, h2, h3]

theorem lessDistance_iff (a b : Bond K) : lessDistance a b = true ↔ keyD a < keyD b := by
  unfold lessDistance keyD
  simp only [Prod.Lex.toLex_lt_toLex]
  split_ifs with h1 h2 h3
  · simp [h1]
  · push Not at h1; simp [h1, h2]
  · push Not at h1 h2; simp [h1, h2, h3]
  · push Not at h1 h2 h3; simp [h1, h2, h3]

theorem keyT_inj {a b : Bond K} (h : keyT a = keyT b) :
    a.q = b.q ∧ a.p = b.p ∧ a.weight = b.weight ∧ a.dist = b.dist := by
  simp only [keyT, EmbeddingLike.apply_eq_iff_eq, Prod.mk.injEq] at h
  exact h

theorem keyD_inj {a b : Bond K} (h : keyD a = keyD b) :
    a.q = b.q ∧ a.p = b.p ∧ a.weight = b.weight ∧ a.dist = b.dist := by
  simp only [keyD, EmbeddingLike.apply_eq_iff_eq, Prod.mk.injEq] at h
  exact ⟨h.1, h.2.2.1, h.2.2.2, h.2.1⟩

theorem sortedBy_keyT {l out : List (Bond K)} (h : SortedBy (less false) l out) :
    (out.map keyT).Pairwise (· ≤ ·) := by
  rw [List.pairwise_map]
  refine h.2.imp ?_
  intro a b hab
  rw [← not_lt, ← lessTuple_iff]
  simpa [less] using hab

theorem sortedBy_keyD {l out : List (Bond K)} (h : SortedBy (less true) l out) :
    (out.map keyD).Pairwise (· ≤ ·) := by
  rw [List.pairwise_map]
  refine h.2.imp ?_
  intro a b hab
  rw [← not_lt, ← lessDistance_iff]
  simpa [less] using hab

/-- **C19**: `sort(by_distance=True)` only permutes the bonds, and afterwards they are ordered by
query index, then distance, then point index. -/
theorem C19_by_distance (l out : List (Bond K)) (h : SortedBy (less true) l out) :
    out.Perm l ∧ out.Pairwise (fun a b => a.q < b.q ∨ (a.q = b.q ∧
      (a.dist < b.dist ∨ (a.dist = b.dist ∧ a.p ≤ b.p)))) := by
  refine ⟨h.1, ?_⟩
  have h2 := sortedBy_keyD h
  rw [List.pairwise_map] at h2
  refine h2.imp ?_
  intro a b hab
  simp only [keyD, Prod.Lex.toLex_le_toLex] at hab
  rcases hab with h | ⟨h1, h | ⟨h2, h | ⟨h3, -⟩⟩⟩
  · exact Or.inl h
  · exact Or.inr ⟨h1, Or.inl h⟩
  · exact Or.inr ⟨h1, Or.inr ⟨h2, le_of_lt h⟩⟩
  · exact Or.inr ⟨h1, Or.inr ⟨h2, le_of_eq h3⟩⟩

/-- **C19**: `sort(by_distance=False)` only permutes the bonds, and afterwards they are ordered by
query index, then point index, then weight, then distance. -/
theorem C19_by_index (l out : List (Bond K)) (h : SortedBy (less false) l out) :
    out.Perm l ∧ out.Pairwise (fun a b => a.q < b.q ∨ (a.q = b.q ∧
      (a.p < b.p ∨ (a.p = b.p ∧ (a.weight < b.weight ∨
        (a.weight = b.weight ∧ a.dist ≤ b.dist)))))) := by
  refine ⟨h.1, ?_⟩
  have h2 := sortedBy_keyT h
  rw [List.pairwise_map] at h2
  refine h2.imp ?_
  intro a b hab
  simpa [keyT, Prod.Lex.toLex_le_toLex] using hab

/-- **C19**: two lists holding the same bonds in any order become equal after sorting, up to the
vectors of bonds that agree in everything else. -/
theorem C19_same_columns (d : Bool) (l l' out out' : List (Bond K)) (hl : l.Perm l')
    (h : SortedBy (less d) l out) (h' : SortedBy (less d) l' out') :
    out.map (fun b => (b.q, b.p, b.weight, b.dist)) =
      out'.map (fun b => (b.q, b.p, b.weight, b.dist)) := by
  have hp : out.Perm out' := (h.1.trans hl).trans h'.1.symm
  cases d with
  | false =>
    have e : out.map keyT = out'.map keyT :=
      (hp.map keyT).eq_of_pairwise (fun a b _ _ => le_antisymm) (sortedBy_keyT h) (sortedBy_keyT h')
    have := congrArg (List.map (fun k : ℕ ×ₗ ℕ ×ₗ K ×ₗ K =>
      ((ofLex k).1, (ofLex (ofLex k).2).1, (ofLex (ofLex (ofLex k).2).2).1,
        (ofLex (ofLex (ofLex k).2).2).2))) e
    simpa [List.map_map, Function.comp_def, keyT] using this
  | true =>
    have e : out.map keyD = out'.map keyD :=
      (hp.map keyD).eq_of_pairwise (fun a b _ _ => le_antisymm) (sortedBy_keyD h) (sortedBy_keyD h')
    have := congrArg (List.map (fun k : ℕ ×ₗ K ×ₗ ℕ ×ₗ K =>
      ((ofLex k).1, (ofLex (ofLex (ofLex k).2).2).1, (ofLex (ofLex (ofLex k).2).2).2,
        (ofLex (ofLex k).2).1))) e
    simpa [List.map_map, Function.comp_def, keyD] using this

/-- Bonds that agree in indices, weight and distance are the same bond. -/
def Spec.KeysDetermine (l : List (Bond K)) : Prop :=
  ∀ a ∈ l, ∀ b ∈ l, a.q = b.q → a.p = b.p → a.weight = b.weight → a.dist = b.dist → a = b

theorem map_inj_on {α β : Type*} {f : α → β} {l l' : List α}
    (hf : ∀ a ∈ l, ∀ b ∈ l', f a = f b → a = b) (h : l.map f = l'.map f) : l = l' := by
  induction l generalizing l' with
  | nil => cases l' with
    | nil => rfl
    | cons => simp at h
  | cons a as ih => cases l' with
    | nil => simp at h
    | cons b bs =>
      simp only [List.map_cons, List.cons.injEq] at h
      rw [hf a List.mem_cons_self b List.mem_cons_self h.1,
        ih (fun a ha b hb => hf a (List.mem_cons_of_mem _ ha) b (List.mem_cons_of_mem _ hb)) h.2]

/-- **C19**: if no two different bonds agree in indices, weight and distance, two lists holding
the same bonds in any order become equal after sorting. -/
theorem C19_deterministic (d : Bool) (l l' out out' : List (Bond K)) (hl : l.Perm l')
    (h : SortedBy (less d) l out) (h' : SortedBy (less d) l' out') (hk : KeysDetermine l) :
    out = out' := by
  have e := C19_same_columns d l l' out out' hl h h'
  refine map_inj_on ?_ e
  intro a ha b hb hab
  simp only [Prod.mk.injEq] at hab
  exact hk a (h.1.subset ha) b (hl.symm.subset (h'.1.subset hb)) hab.1 hab.2.1 hab.2.2.1 hab.2.2.2

/-- **C19**: sorting always has an outcome. -/
theorem C19_sort_exists (d : Bool) (l : List (Bond K)) : ∃ out, SortedBy (less d) l out := by
  refine ⟨l.mergeSort (fun a b => !(less d b a)), List.mergeSort_perm _ _, ?_⟩
  have key : (l.mergeSort (fun a b => !(less d b a))).Pairwise (fun a b => (!(less d b a)) = true) := by
    apply List.pairwise_mergeSort
    · intro a b c hab hbc
      cases d with
      | false =>
        simp only [less, Bool.false_eq_true, if_false, Bool.not_eq_true', ← Bool.not_eq_true,
          lessTuple_iff, not_lt] at *
        exact le_trans hab hbc
      | true =>
        simp only [less, if_true, Bool.not_eq_true', ← Bool.not_eq_true,
          lessDistance_iff, not_lt] at *
        exact le_trans hab hbc
    · intro a b
      cases d with
      | false =>
        simp only [less, Bool.false_eq_true, if_false, Bool.or_eq_true, Bool.not_eq_true',
          ← Bool.not_eq_true, lessTuple_iff, not_lt]
        exact le_total _ _
      | true =>
        simp only [less, if_true, Bool.or_eq_true, Bool.not_eq_true',
          ← Bool.not_eq_true, lessDistance_iff, not_lt]
        exact le_total _ _
  refine key.imp ?_
  intro a b h
  simpa using h

/-- **C19**, a disagreement with the documentation ("by query_point_index, then point_index, then
distance"): between bonds of the same pair the weight comes before the distance. -/
theorem C19_index_order_counterexample :
    let a : Bond ℚ := ⟨0, 0, 2, 1, ⟨2, 0, 0⟩⟩
    let b : Bond ℚ := ⟨0, 0, 1, 5, ⟨1, 0, 0⟩⟩
    ∀ out, SortedBy (less false) [b, a] out → out = [a, b] := by
  intro a b out h
  refine C19_deterministic false [b, a] [b, a] out [a, b] (List.Perm.refl _) h
    ⟨List.Perm.swap _ _ _, ?_⟩ ?_
  · simp only [List.pairwise_cons, List.mem_cons, List.not_mem_nil, or_false, forall_eq,
      IsEmpty.forall_iff, implies_true, List.Pairwise.nil, and_true]
    decide +kernel
  · intro x hx y hy h1 h2 h3 h4
    simp only [List.mem_cons, List.not_mem_nil, or_false] at hx hy
    rcases hx with rfl | rfl <;> rcases hy with rfl | rfl
    · rfl
    · simp [a, b] at h3
    · simp [a, b] at h3
    · rfl

/-- **C19**: the condition on the keys is needed: bonds that differ only in their vectors may come
out in either order. -/
theorem C19_vector_order_counterexample :
    let a : Bond ℚ := ⟨0, 0, 1, 1, ⟨1, 0, 0⟩⟩
    let b : Bond ℚ := ⟨0, 0, 1, 1, ⟨-1, 0, 0⟩⟩
    a ≠ b ∧ SortedBy (less false) [a, b] [a, b] ∧ SortedBy (less false) [a, b] [b, a] := by
  refine ⟨by decide +kernel, ⟨List.Perm.refl _, ?_⟩, ⟨List.Perm.swap _ _ _, ?_⟩⟩ <;>
  · simp only [List.pairwise_cons, List.mem_cons, List.not_mem_nil, or_false, forall_eq,
      IsEmpty.forall_iff, implies_true, List.Pairwise.nil, and_true]
    decide +kernel

example : KeysDetermine exList.bonds ∧ exList.bonds ≠ [] := by
  refine ⟨?_, by simp [exList]⟩
  intro a ha b hb h1 h2 _ _
  simp only [exList, List.mem_cons, List.not_mem_nil, or_false] at ha hb
  rcases ha with rfl | rfl | rfl <;> rcases hb with rfl | rfl | rfl <;> simp_all

/-! ### C20 -/

/-- A bond as it is stored in the list: the distance is the length of the vector. -/
noncomputable def Spec.stored (b : Bond ℝ) : Bond ℝ :=
  ⟨b.q, b.p, Real.sqrt (b.vec.x ^ 2 + b.vec.y ^ 2 + b.vec.z ^ 2), b.weight, b.vec⟩

/-- **C20**: whatever the execution of the loop over query points, the list built from a query
holds exactly the bonds found for all query points, each as often as it was found, sorted. -/
theorem C20_holds_found_bonds (found : ℕ → List (Bond ℝ)) (nq np : ℕ) (d : Bool)
    (ev : List (ℕ × ℕ)) (hev : IsExecution nq ev) (nl : NList ℝ)
    (h : ToNeighborList found nq np d ev nl) :
    nl.bonds.Perm (((List.range nq).flatMap found).map stored) ∧
    nl.bonds.Pairwise (fun a b => less d b a = false) ∧
    nl.numQueryPoints = nq ∧ nl.numPoints = np ∧ nl.segUpdated = false := by
  obtain ⟨t, e, out, hs, rfl⟩ := h
  refine ⟨hs.1.trans ?_, hs.2, rfl, rfl, rfl⟩
  obtain ⟨t', e', -, -, -, hv⟩ := parallelFor_spec (T := Multiset (Bond ℝ)) (C := Unit)
    (P := fun _ : List (Bond ℝ) => True) (val := fun l _ => (l : Multiset (Bond ℝ)))
    (d := fun i _ => (((found i).map stored : List (Bond ℝ)) : Multiset (Bond ℝ)))
    (body := collectBonds found) (ok := fun _ => True)
    (fun i s _ _ => ⟨_, rfl, trivial, fun _ => by
      rw [Multiset.coe_add]
      congr 2
      apply List.map_congr_left
      intro b _
      simp [stored, Bond.ofVec, Vec3.norm, Vec3.dot, pow_two]⟩)
    ⟨[], []⟩ trivial (fun _ => rfl) (by simp) ev (fun _ _ => trivial)
  rw [e] at e'
  cases e'
  have h1 : ∀ ls : List (ℕ × List (Bond ℝ)), ((ls.flatMap (·.2) : List (Bond ℝ)) : Multiset _) =
      (ls.map (fun p => (p.2 : Multiset (Bond ℝ)))).sum := by
    intro ls
    induction ls with
    | nil => simp
    | cons a as ih => simp [List.flatMap_cons, ← Multiset.coe_add, ih]
  have h2 : ∀ ls : List ℕ, ((((ls.flatMap found).map stored : List (Bond ℝ))) : Multiset _) =
      (ls.map (fun i => (((found i).map stored : List (Bond ℝ)) : Multiset (Bond ℝ)))).sum := by
    intro ls
    induction ls with
    | nil => simp
    | cons a as ih =>
      rw [List.flatMap_cons, List.map_append, ← Multiset.coe_add, ih]; simp
  rw [← Multiset.coe_eq_coe, h1, h2, hv ()]
  simp only [List.map_nil, List.sum_nil, zero_add]
  have := (hev.map (fun i => (((found i).map stored : List (Bond ℝ)) : Multiset (Bond ℝ)))).sum_eq
  rw [List.map_map] at this
  exact this

/-- **C20**: any two executions give the same list, with and without `sort_by_distance`, if no two
different bonds found agree in indices, weight and distance. -/
theorem C20_schedule_independent (found : ℕ → List (Bond ℝ)) (nq np : ℕ) (d : Bool)
    (ev ev' : List (ℕ × ℕ)) (hev : IsExecution nq ev) (hev' : IsExecution nq ev')
    (nl nl' : NList ℝ) (h : ToNeighborList found nq np d ev nl)
    (h' : ToNeighborList found nq np d ev' nl')
    (hk : KeysDetermine (((List.range nq).flatMap found).map stored)) : nl = nl' := by
  obtain ⟨p1, s1, -⟩ := C20_holds_found_bonds found nq np d ev hev nl h
  obtain ⟨p2, s2, -⟩ := C20_holds_found_bonds found nq np d ev' hev' nl' h'
  have e : nl.bonds = nl'.bonds :=
    C19_deterministic d _ _ _ _ (List.Perm.refl _) ⟨p1, s1⟩ ⟨p2, s2⟩ hk
  obtain ⟨t, -, out, -, rfl⟩ := h
  obtain ⟨t', -, out', -, rfl⟩ := h'
  simp only at e
  rw [e]

/-- **C20**: without that condition the index, weight and distance columns are still the same. -/
theorem C20_columns_schedule_independent (found : ℕ → List (Bond ℝ)) (nq np : ℕ) (d : Bool)
    (ev ev' : List (ℕ × ℕ)) (hev : IsExecution nq ev) (hev' : IsExecution nq ev')
    (nl nl' : NList ℝ) (h : ToNeighborList found nq np d ev nl)
    (h' : ToNeighborList found nq np d ev' nl') :
    nl.bonds.map (fun b => (b.q, b.p, b.weight, b.dist)) =
      nl'.bonds.map (fun b => (b.q, b.p, b.weight, b.dist)) := by
  obtain ⟨p1, s1, -⟩ := C20_holds_found_bonds found nq np d ev hev nl h
  obtain ⟨p2, s2, -⟩ := C20_holds_found_bonds found nq np d ev' hev' nl' h'
  exact C19_same_columns d _ _ _ _ (List.Perm.refl _) ⟨p1, s1⟩ ⟨p2, s2⟩

/-- **C20**: every execution has a result. -/
theorem C20_result_exists (found : ℕ → List (Bond ℝ)) (nq np : ℕ) (d : Bool)
    (ev : List (ℕ × ℕ)) : ∃ nl, ToNeighborList found nq np d ev nl := by
  obtain ⟨t, e, -⟩ := parallelFor_spec (T := Multiset (Bond ℝ)) (C := Unit)
    (P := fun _ : List (Bond ℝ) => True) (val := fun l _ => (l : Multiset (Bond ℝ)))
    (d := fun i _ => (((found i).map (fun b => Bond.ofVec b.q b.p b.weight b.vec) :
      List (Bond ℝ)) : Multiset (Bond ℝ)))
    (body := collectBonds found) (ok := fun _ => True)
    (fun i s _ _ => ⟨_, rfl, trivial, fun _ => by rw [Multiset.coe_add]⟩)
    ⟨[], []⟩ trivial (fun _ => rfl) (by simp) ev (fun _ _ => trivial)
  obtain ⟨out, ho⟩ := C19_sort_exists d (t.locals.flatMap (·.2))
  exact ⟨_, t, e, out, ho, rfl⟩

end Freud
