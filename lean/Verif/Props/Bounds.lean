import Verif.Spec.Bounds
import Mathlib.Tactic.Common
import Mathlib.Algebra.Order.BigOperators.Group.List
import Mathlib.Algebra.BigOperators.Group.List.Basic

/-!
# C88: an accepted call reads only elements that exist

`C88_checked` are the methods whose checks are enough for every call.  The others read outside their
arrays for some accepted calls; `C88_suitable_partial` states what the caller has to see to, and the
`iff` theorems that nothing less will do.
-/

namespace Freud

open Bounds Spec

instance (np a b : ℕ) (bonds : List (ℕ × ℕ)) : Decidable (RealNeighbors np (.list a b bonds)) :=
  inferInstanceAs (Decidable (∀ c ∈ bonds, c.1 < a ∧ c.2 < b))

instance (nq np a b : ℕ) (bonds : List (ℕ × ℕ)) : Decidable (FitsSystem nq np (.list a b bonds)) :=
  inferInstanceAs (Decidable (a = nq ∧ b = np))

instance (t : List Access) : Decidable (InBounds t) :=
  inferInstanceAs (Decidable (∀ a ∈ t, a.index < a.size))

theorem inBounds_nil : InBounds [] := by intro a h; cases h

theorem inBounds_append {s t : List Access} : InBounds (s ++ t) ↔ InBounds s ∧ InBounds t := by
  simp only [InBounds, List.mem_append]
  exact ⟨fun h => ⟨fun a ha => h a (Or.inl ha), fun a ha => h a (Or.inr ha)⟩,
    fun h a ha => ha.elim (h.1 a) (h.2 a)⟩

theorem inBounds_cons {a : Access} {t : List Access} : InBounds (a :: t) ↔ a.index < a.size ∧ InBounds t := by
  simp [InBounds]

theorem inBounds_flatMap {α : Type*} {l : List α} {f : α → List Access} :
    InBounds (l.flatMap f) ↔ ∀ x ∈ l, InBounds (f x) := by
  simp only [InBounds, List.mem_flatMap]
  exact ⟨fun h x hx a ha => h a ⟨x, hx, ha⟩, fun h a ⟨x, hx, ha⟩ => h x hx a ha⟩

theorem inBounds_map {α : Type*} {l : List α} {f : α → Access} :
    InBounds (l.map f) ↔ ∀ x ∈ l, (f x).index < (f x).size := by
  simp [InBounds]

theorem inBounds_queryReads (n : Nbrs) {k size : ℕ} (h : k ≤ size) : InBounds (n.queryReads k size) := by
  cases n with
  | search find =>
    simp only [Nbrs.queryReads, inBounds_map, List.mem_range]
    intro x hx; omega
  | list a b bonds => exact inBounds_nil

theorem real_validated {n : Nbrs} {nq np : ℕ} (h : RealNeighbors np n) {bonds : List (ℕ × ℕ)}
    (e : n.validated nq np = some bonds) : ∀ b ∈ bonds, b.1 < nq ∧ b.2 < np := by
  cases n with
  | search find => cases e; exact h nq
  | list a b bs =>
    simp only [Nbrs.validated] at e
    split_ifs at e with hc
    cases e
    intro c hc'
    have := h c hc'
    omega

theorem real_bonds {n : Nbrs} {nq np : ℕ} (h : RealNeighbors np n) (hf : FitsSystem nq np n) :
    ∀ b ∈ n.bonds nq, b.1 < nq ∧ b.2 < np := by
  cases n with
  | search find => exact h nq
  | list a b bs =>
    intro c hc
    have := h c hc
    simp only [FitsSystem] at hf
    omega

/-- **C88** (methods whose checks are enough).  Whatever neighbors and arrays a user passes, a call of
`LocalDescriptors`, `SolidLiquid`, `EnvironmentCluster`, `FilterRAD`, `Hexatic` (and `Steinhardt`),
`GaussianDensity` or `RotationalAutocorrelation` that does not raise reads only elements that exist. -/
theorem C88_checked (np : ℕ) (qp : Option ℕ) (n env : Nbrs) (hn : RealNeighbors np n)
    (henv : RealNeighbors np env) (local' : Bool) (a b : Option ℕ) (l m : ℕ) (t : List Access) :
    (localDescriptors np qp n local' a = some t → InBounds t) ∧
    (solidLiquid np n = some t → InBounds t) ∧
    (environmentCluster np n env = some t → InBounds t) ∧
    (filterRAD np qp n a b = some t → InBounds t) ∧
    (hexatic np n = some t → InBounds t) ∧
    (gaussianDensity np a = some t → InBounds t) ∧
    (rotationalAutocorrelation l m = some t → InBounds t) := by
  refine ⟨?_, ?_, ?_, ?_, ?_, ?_, ?_⟩
  · intro h
    simp only [localDescriptors] at h
    rw [ite_eq_iff] at h
    obtain ⟨-, h⟩ | ⟨hc, h⟩ := h
    · cases h
    obtain ⟨bonds, -, rfl⟩ := Option.map_eq_some_iff.mp h
    rw [inBounds_append]
    refine ⟨inBounds_queryReads n le_rfl, ?_⟩
    split_ifs with hl
    · have : a = some np := by
        by_contra h'; exact hc ⟨hl, h'⟩
      subst this
      simp [inBounds_map]
    · exact inBounds_nil
  · intro h
    simp only [solidLiquid] at h
    obtain ⟨bonds, e, rfl⟩ := Option.map_eq_some_iff.mp h
    rw [inBounds_append, inBounds_flatMap]
    refine ⟨inBounds_queryReads n le_rfl, fun c hc => ?_⟩
    have := real_validated hn e c hc
    simp only [inBounds_cons, inBounds_nil, and_true]
    omega
  · intro h
    simp only [environmentCluster] at h
    obtain ⟨bonds, e, h⟩ := Option.bind_eq_some_iff.mp h
    obtain ⟨bonds', e', rfl⟩ := Option.map_eq_some_iff.mp h
    rw [inBounds_append, inBounds_append, inBounds_flatMap]
    refine ⟨⟨inBounds_queryReads n le_rfl, inBounds_queryReads env le_rfl⟩, fun c hc => ?_⟩
    have := real_validated hn e c hc
    simp only [inBounds_cons, inBounds_nil, and_true]
    omega
  · intro h
    simp only [filterRAD] at h
    split_ifs at h with h1 h2
    obtain ⟨bonds, e, rfl⟩ := Option.map_eq_some_iff.mp h
    rw [inBounds_append, inBounds_flatMap]
    refine ⟨inBounds_queryReads n le_rfl, fun c hc => ?_⟩
    have := real_validated hn e c hc
    simp only [inBounds_cons, inBounds_nil, and_true]
    omega
  · intro h
    simp only [hexatic] at h
    split_ifs at h with h1
    cases h
    rw [inBounds_append, inBounds_append, inBounds_flatMap, inBounds_map]
    refine ⟨⟨inBounds_queryReads n le_rfl, by simp⟩, fun c hc => ?_⟩
    simp only [inBounds_cons, inBounds_nil, and_true]
    have h2 : c.1 < np := by simpa using (List.mem_filter.mp hc).2
    refine ⟨?_, h2⟩
    by_contra hge
    exact h1 (List.any_eq_true.mpr ⟨c, hc, by simpa using hge⟩)
  · intro h
    cases a with
    | none =>
      simp only [gaussianDensity, Option.some.injEq] at h
      subst h
      simp [inBounds_map]
    | some k =>
      simp only [gaussianDensity] at h
      split_ifs at h with hk
      cases h
      simp only [inBounds_flatMap, inBounds_cons, inBounds_nil, and_true, List.mem_range]
      intro x hx; omega
  · intro h
    simp only [rotationalAutocorrelation] at h
    split_ifs at h with hk
    cases h
    simp only [inBounds_flatMap, inBounds_cons, inBounds_nil, and_true, List.mem_range]
    intro x hx; omega

/-- The hypotheses of `C88_checked` are met by a call that reads: two points with a bond between them. -/
example : RealNeighbors 2 (.list 2 2 [(0, 1), (1, 0)]) ∧
    (solidLiquid 2 (.list 2 2 [(0, 1), (1, 0)])).map List.length = some 12 ∧
    solidLiquid 2 (.list 3 2 [(2, 1)]) = none := by decide

theorem count_le_foldl (l : List ℕ) : ∀ m, m ≤ l.foldl max m ∧ ∀ x ∈ l, x ≤ l.foldl max m := by
  induction l with
  | nil => intro m; simp
  | cons y ys ih =>
    intro m
    obtain ⟨h1, h2⟩ := ih (max m y)
    refine ⟨le_trans (le_max_left _ _) h1, fun x hx => ?_⟩
    rcases List.mem_cons.mp hx with rfl | hx
    · exact le_trans (le_max_right _ _) h1
    · exact h2 x hx

theorem sum_count_le (l : List ℕ) : ∀ c, ((List.range c).map fun x => l.count x).sum ≤ l.length := by
  intro c
  induction l with
  | nil => simp
  | cons y ys ih =>
    have : ∀ c, ((List.range c).map fun x => (y :: ys).count x).sum =
        ((List.range c).map fun x => ys.count x).sum + if y < c then 1 else 0 := by
      intro c
      induction c with
      | zero => simp
      | succ c ihc =>
        rw [List.range_succ, List.map_append, List.sum_append, List.map_append, List.sum_append, ihc]
        simp only [List.map_cons, List.map_nil, List.sum_cons, List.sum_nil, List.count_cons, beq_iff_eq]
        split_ifs <;> omega
    rw [this, List.length_cons]
    split_ifs <;> omega

/-- **C88** (what a caller has to see to).  A call that is accepted reads only elements that exist if the
neighbors fit the system, and moreover
* query values (orientations) are given whenever there are more query points than points
  (`CorrelationFunction`, `PMFTR12`, `PMFTXYT`);
* at least one equivalent orientation is given, and the query points are the points of the system or have
  their own orientations and are as many as the points (`AngularSeparationNeighbor`);
* as many orientations as points, and at least one equivalent orientation (`LocalBondProjection`);
* as many masses as points, and at least one point (`ClusterProperties`).
Missing: calls that do not satisfy these conditions are accepted too, see below. -/
theorem C88_suitable_partial (np : ℕ) (qp : Option ℕ) (n : Nbrs) (hn : RealNeighbors np n)
    (hfit : FitsSystem (qp.getD np) np n) (a b : Option ℕ)
    (v e k : ℕ) (idx : List ℕ) (t : List Access) :
    (correlation np qp n v a = some t → (a = none → qp.getD np ≤ np) → InBounds t) ∧
    (pmftR12 np qp n v a = some t → (a = none → qp.getD np ≤ np) → InBounds t) ∧
    (pmftXYT np qp n v a = some t → (a = none → qp.getD np ≤ np) → InBounds t) ∧
    (pmftXY np qp n v = some t → InBounds t) ∧
    (pmftXYZ np qp n v e = some t → InBounds t) ∧
    (bondOrder np qp n a b = some t → InBounds t) ∧
    (angularSeparation np qp n v a e = some t → 0 < e → qp.getD np = np → InBounds t) ∧
    (localBondProjection np qp n v k e = some t → 0 < e → np ≤ v → InBounds t) ∧
    (qp = none → cluster np n a = some t → InBounds t) ∧
    (clusterProperties np idx a = some t → 0 < np → (∀ m, a = some m → np ≤ m) → InBounds t) := by
  have hpair : ∀ s s', pairValues s s' np qp n v a = some t → (a = none → qp.getD np ≤ np) →
      InBounds t := by
    intro s s' h ha
    simp only [pairValues] at h
    split_ifs at h with h1 h2
    cases h
    rw [inBounds_append, inBounds_flatMap]
    refine ⟨inBounds_queryReads n le_rfl, fun c hc => ?_⟩
    have := real_bonds hn hfit c hc
    simp only [inBounds_cons, inBounds_nil, and_true]
    push Not at h1
    refine ⟨by omega, ?_⟩
    cases a with
    | none => have := ha rfl; simp only [Option.getD_none]; omega
    | some m =>
      have : m = qp.getD np := by
        by_contra h'; exact h2 ⟨m, rfl, h'⟩
      simp only [Option.getD_some]; omega
  refine ⟨hpair _ _, hpair _ _, hpair _ _, ?_, ?_, ?_, ?_, ?_, ?_, ?_⟩
  · intro h
    simp only [pmftXY] at h
    split_ifs at h with h1
    cases h
    rw [inBounds_append, inBounds_map]
    refine ⟨inBounds_queryReads n le_rfl, fun c hc => ?_⟩
    have := real_bonds hn hfit c hc
    simp only; omega
  · intro h
    simp only [pmftXYZ] at h
    split_ifs at h with h1
    cases h
    rw [inBounds_append, inBounds_flatMap]
    refine ⟨inBounds_queryReads n le_rfl, fun c hc => ?_⟩
    have := real_bonds hn hfit c hc
    rw [inBounds_cons, inBounds_map]
    exact ⟨by simp only; omega, by simp⟩
  · intro h
    simp only [bondOrder] at h
    split_ifs at h with h1 h2
    cases h
    rw [inBounds_append, inBounds_flatMap]
    refine ⟨inBounds_queryReads n le_rfl, fun c hc => ?_⟩
    have := real_bonds hn hfit c hc
    simp only [inBounds_cons, inBounds_nil, and_true]
    omega
  · intro h he hq
    simp only [angularSeparation] at h
    split_ifs at h with h1 h2
    obtain ⟨bonds, ev, rfl⟩ := Option.map_eq_some_iff.mp h
    have hqo : a.getD v = np := by
      cases a with
      | none => simp only [Option.getD_none]; omega
      | some m =>
        have : m = qp.getD np := by
          by_contra h'; exact h2 ⟨m, rfl, h'⟩
        simp only [Option.getD_some]; omega
    rw [hqo] at ev ⊢
    rw [inBounds_append, inBounds_append, inBounds_flatMap, inBounds_map]
    refine ⟨⟨inBounds_queryReads n (by omega), fun i hi => ?_⟩, fun c hc => ?_⟩
    · have := List.mem_range.mp hi
      simp only; omega
    · have := real_validated hn ev c (List.mem_filter.mp hc).1
      rw [inBounds_cons, inBounds_cons, inBounds_map]
      exact ⟨this.2, he, by simp⟩
  · intro h he hv
    simp only [localBondProjection] at h
    obtain ⟨bonds, ev, rfl⟩ := Option.map_eq_some_iff.mp h
    rw [inBounds_append, inBounds_flatMap]
    refine ⟨inBounds_queryReads n le_rfl, fun c hc => ?_⟩
    have := real_validated hn ev c (List.mem_filter.mp hc).1
    rw [inBounds_cons, inBounds_flatMap]
    refine ⟨by simp only; omega, fun j hj => ?_⟩
    rw [inBounds_cons, inBounds_cons, inBounds_map]
    exact ⟨List.mem_range.mp hj, he, by simp⟩
  · rintro rfl h
    simp only [cluster] at h
    split_ifs at h with h1
    cases h
    rw [inBounds_append, inBounds_append, inBounds_flatMap]
    refine ⟨⟨inBounds_queryReads n le_rfl, fun c hc => ?_⟩, ?_⟩
    · have := real_bonds (nq := np) hn hfit c hc
      simp only [inBounds_cons, inBounds_nil, and_true]
      omega
    · cases a with
      | none => exact inBounds_nil
      | some m =>
        have : m = np := by by_contra h'; exact h1 ⟨m, rfl, h'⟩
        subst this
        simp [inBounds_map]
  · intro h hpos hm
    simp only [clusterProperties] at h
    split_ifs at h with h1
    push Not at h1
    cases h
    have hidx : ∀ x ∈ idx, x < idx.foldl max 0 + 1 := fun x hx =>
      Nat.lt_succ_of_le ((count_le_foldl idx 0).2 x hx)
    rw [List.cons_append, List.cons_append, inBounds_cons, inBounds_append, inBounds_append, inBounds_map,
      inBounds_map]
    refine ⟨hpos, ⟨by simp, hidx⟩, ?_⟩
    cases a with
    | none => exact inBounds_nil
    | some m =>
      have := hm m rfl
      simp only [inBounds_append, inBounds_map, inBounds_flatMap, List.mem_range]
      refine ⟨fun i hi => by omega, fun c hc i hi => ?_⟩
      have hs := sum_count_le idx (c + 1)
      rw [List.range_succ, List.map_append, List.sum_append] at hs
      simp only [List.map_cons, List.map_nil, List.sum_cons, List.sum_nil] at hs
      omega

/-- The hypotheses of `C88_suitable_partial` are met by calls that read something. -/
example : RealNeighbors 2 (.list 3 2 [(0, 1), (2, 0)]) ∧ FitsSystem ((some 3).getD 2) 2 (.list 3 2 [(0, 1), (2, 0)]) ∧
    (correlation 2 (some 3) (.list 3 2 [(0, 1), (2, 0)]) 2 (some 3)).map List.length = some 4 ∧
    (bondOrder 2 (some 3) (.list 3 2 [(0, 1), (2, 0)]) none (some 3)).map List.length = some 4 ∧
    (localBondProjection 2 (some 3) (.list 3 2 [(0, 1), (2, 0)]) 2 1 1).map List.length = some 8 ∧
    (clusterProperties 3 [1, 0, 1] (some 3)).map List.length = some 13 := by decide

/-- **C88** (`CorrelationFunction`, `PMFTR12`, `PMFTXYT`, exactly).  For an accepted call with a
`NeighborList`, all lists of these sizes are safe exactly if the list has at most as many points as there
are values and at most as many query points as there are query values (or has room for no bond at all).
Nothing in the code checks this. -/
theorem C88_pair_values_iff (s s' : String) (np : ℕ) (qp : Option ℕ) (qv : Option ℕ)
    (hqv : ∀ m, qv = some m → m = qp.getD np) (a b : ℕ) :
    SafeForLists a b (fun n => pairValues s s' np qp n np qv) ↔
      (b ≤ np ∧ a ≤ qv.getD np) ∨ a = 0 ∨ b = 0 := by
  have hrun : ∀ bonds, pairValues s s' np qp (.list a b bonds) np qv =
      some (bonds.flatMap fun c => [⟨s, np, c.2⟩, ⟨s', qv.getD np, c.1⟩]) := by
    intro bonds
    simp only [pairValues, ne_eq, not_true, if_false]
    rw [if_neg (by rintro ⟨m, e, hm⟩; exact hm (hqv m e))]
    rfl
  constructor
  · intro h
    by_contra hc
    push Not at hc
    obtain ⟨h1, ha, hb⟩ := hc
    have := h [(a - 1, b - 1)] (by intro c hc; simp only [List.mem_singleton] at hc; subst hc; constructor <;> simp only <;> omega)
      _ (hrun _)
    simp only [List.flatMap_cons, List.flatMap_nil, List.append_nil, inBounds_cons, inBounds_nil,
      and_true] at this
    have := h1 (by omega)
    omega
  · rintro h bonds hr t e
    simp only [hrun, Option.some.injEq] at e
    subst e
    rw [inBounds_flatMap]
    intro c hc
    have := hr c hc
    simp only [inBounds_cons, inBounds_nil, and_true]
    omega

/-- **C88** (`PMFTXY`, `PMFTXYZ`, `BondOrder`, exactly), as `C88_pair_values_iff`. -/
theorem C88_orientations_iff (np : ℕ) (qp : Option ℕ) (e a b : ℕ) :
    (SafeForLists a b (fun n => pmftXY np qp n (qp.getD np)) ↔ a ≤ qp.getD np ∨ b = 0) ∧
    (SafeForLists a b (fun n => pmftXYZ np qp n (qp.getD np) e) ↔ a ≤ qp.getD np ∨ b = 0) ∧
    (SafeForLists a b (fun n => bondOrder np qp n (some np) (some (qp.getD np))) ↔
      (b ≤ np ∧ a ≤ qp.getD np) ∨ a = 0 ∨ b = 0) := by
  have key : ∀ (f : Nbrs → Option (List Access)) (g : ℕ × ℕ → List Access) (P : Prop),
      (∀ bonds, f (.list a b bonds) = some (bonds.flatMap g)) →
      (¬ P → 0 < a ∧ 0 < b ∧ ¬ InBounds (g (a - 1, b - 1))) →
      (P → ∀ c, c.1 < a → c.2 < b → InBounds (g c)) → (SafeForLists a b f ↔ P) := by
    intro f g P hrun hno hyes
    constructor
    · intro h
      by_contra hP
      obtain ⟨h1, h2, h3⟩ := hno hP
      have := h [(a - 1, b - 1)] (by intro c hc; simp only [List.mem_singleton] at hc; subst hc; constructor <;> simp only <;> omega)
        _ (hrun _)
      simp only [List.flatMap_cons, List.flatMap_nil, List.append_nil] at this
      exact h3 this
    · intro hP bonds hr t ht
      rw [hrun, Option.some.injEq] at ht
      subst ht
      rw [inBounds_flatMap]
      intro c hc
      exact hyes hP c (hr c hc).1 (hr c hc).2
  refine ⟨key _ (fun c => [⟨"query_orientations", qp.getD np, c.1⟩]) _ ?_ ?_ ?_,
    key _ (fun c => ⟨"query_orientations", qp.getD np, c.1⟩ ::
      (List.range e).map fun k => ⟨"equiv_orientations", e, k⟩) _ ?_ ?_ ?_,
    key _ (fun c => [⟨"orientations", np, c.2⟩, ⟨"query_orientations", qp.getD np, c.1⟩]) _ ?_ ?_ ?_⟩
  · intro bonds
    simp [pmftXY, Nbrs.queryReads, Nbrs.bonds]
    induction bonds with
    | nil => rfl
    | cons c cs ih => simp [ih]
  · intro h; push Not at h
    refine ⟨by omega, by omega, ?_⟩
    simp only [inBounds_cons, inBounds_nil, and_true]; omega
  · intro h c h1 h2
    simp only [inBounds_cons, inBounds_nil, and_true]; omega
  · intro bonds
    simp [pmftXYZ, Nbrs.queryReads, Nbrs.bonds]
  · intro h; push Not at h
    refine ⟨by omega, by omega, ?_⟩
    rw [inBounds_cons]; rintro ⟨h1, -⟩; simp only at h1; omega
  · intro h c h1 h2
    rw [inBounds_cons, inBounds_map]
    exact ⟨by simp only; omega, by simp⟩
  · intro bonds
    simp [bondOrder, Nbrs.queryReads, Nbrs.bonds]
  · intro h; push Not at h
    obtain ⟨h1, h2, h3⟩ := h
    refine ⟨by omega, by omega, ?_⟩
    simp only [inBounds_cons, inBounds_nil, and_true]
    rintro ⟨h4, h5⟩
    have := h1 (by omega)
    omega
  · intro h c h1 h2
    simp only [inBounds_cons, inBounds_nil, and_true]
    omega

/-- **C88** (`BondOrder`): without query orientations, a call with another number of query points than
points is refused. -/
theorem C88_bond_order_refuses (np nq : ℕ) (n : Nbrs) (a : Option ℕ) (h : nq ≠ np) :
    bondOrder np (some nq) n a none = none := by
  simp only [bondOrder, Option.getD_some, Option.getD_none]
  split_ifs with h1 h2
  · rfl
  · rfl
  · exfalso
    simp only [ne_eq, not_not] at h1 h2
    omega

/-- **C88**, counterexample (default query values): more query points than points, found by a search, and
no query values: the values of the points are read beyond their end. -/
theorem C88_default_values_counterexample (np nq : ℕ) (hnp : 0 < np) (h : np < nq) :
    ∃ n t, RealNeighbors np n ∧ FitsSystem nq np n ∧ correlation np (some nq) n np none = some t ∧
      ¬ InBounds t := by
  have hc : ∀ n, correlation np (some nq) n np none = some (n.queryReads nq nq ++ (n.bonds nq).flatMap fun b =>
      [⟨"values", np, b.2⟩, ⟨"query_values", np, b.1⟩]) := by
    intro n
    simp only [correlation, pairValues, ne_eq, not_true, if_false, Option.getD_some, Option.getD_none]
    rw [if_neg (by rintro ⟨m, e, -⟩; cases e)]
  refine ⟨.search fun k => if k = 0 then [] else [(k - 1, 0)], _, ?_, trivial, hc _, ?_⟩
  · intro k b hb
    simp only at hb
    split_ifs at hb with hk
    · cases hb
    · simp only [List.mem_singleton] at hb
      subst hb
      exact ⟨by simp only; omega, hnp⟩
  · rw [inBounds_append, inBounds_flatMap]
    rintro ⟨-, h2⟩
    have := h2 (nq - 1, 0) (by simp [Nbrs.bonds]; omega)
    simp only [inBounds_cons, inBounds_nil, and_true] at this
    omega

/-- **C88**, counterexample (a foreign list and `Cluster`): a list made for more points than the system has
is accepted, and its bonds select sets that do not exist. -/
theorem C88_cluster_counterexample (np a b : ℕ) (h : np < a) (hb : 0 < b) :
    ∃ bonds t, RealNeighbors np (.list a b bonds) ∧ cluster np (.list a b bonds) none = some t ∧
      ¬ InBounds t := by
  have hc : cluster np (.list a b [(np, 0)]) none = some ([] ++
      ([(np, 0)].flatMap fun b => [⟨"sets", np, b.2⟩, ⟨"sets", np, b.1⟩]) ++ []) := by
    simp only [cluster]
    exact if_neg (by rintro ⟨m, e, -⟩; cases e)
  refine ⟨[(np, 0)], _, ?_, hc, ?_⟩
  · intro c hc; simp only [List.mem_singleton] at hc; subst hc; exact ⟨h, hb⟩
  · rw [inBounds_append, inBounds_append, inBounds_flatMap]
    rintro ⟨⟨-, h2⟩, -⟩
    have := h2 (np, 0) (by simp)
    simp only [inBounds_cons, inBounds_nil, and_true] at this
    omega

/-- **C88**, counterexample (too few masses): the number of masses is not compared with the number of
points. -/
theorem C88_masses_counterexample (np m : ℕ) (idx : List ℕ) (h : idx.length = np) (hm : m < np) :
    ∃ t, clusterProperties np idx (some m) = some t ∧ ¬ InBounds t := by
  refine ⟨_, by simp only [clusterProperties]; rw [if_neg (not_not.2 h)], fun hb => ?_⟩
  rw [List.cons_append, List.cons_append, inBounds_cons, inBounds_append, inBounds_append] at hb
  have := hb.2.2
  simp only [inBounds_append, inBounds_map, List.mem_range] at this
  have := this.1 m hm
  omega

/-- **C88**, counterexample (no points): the largest cluster index is read although there is none. -/
theorem C88_no_points_counterexample :
    ∃ t, clusterProperties 0 [] none = some t ∧ ¬ InBounds t :=
  ⟨_, rfl, by decide⟩

/-- **C88**, counterexample (too few orientations): `LocalBondProjection` does not compare the number of
orientations with the number of points. -/
theorem C88_projection_counterexample (np v e k : ℕ) (h : v < np) :
    ∃ n t, RealNeighbors np n ∧ FitsSystem np np n ∧ localBondProjection np none n v k e = some t ∧
      ¬ InBounds t := by
  have hc : localBondProjection np none (.list np np [(0, v)]) v k e = some ([] ++
      ([(0, v)].filter fun b => b.1 < np).flatMap fun b =>
        ⟨"orientations", v, b.2⟩ :: (List.range k).flatMap fun k' =>
          ⟨"proj_vecs", k, k'⟩ :: ⟨"equiv_orientations", e, 0⟩ ::
            (List.range e).map fun m => ⟨"equiv_orientations", e, m⟩) := by
    simp only [localBondProjection, Nbrs.validated, Option.getD_none, and_self, if_true, Option.map_some]
    rfl
  refine ⟨.list np np [(0, v)], _, ?_, ⟨rfl, rfl⟩, hc, ?_⟩
  · intro c hc; simp only [List.mem_singleton] at hc; subst hc; exact ⟨by simp only; omega, h⟩
  · rw [inBounds_append, inBounds_flatMap]
    rintro ⟨-, h2⟩
    have := h2 (0, v) (by simp; omega)
    rw [inBounds_cons] at this
    simp only at this
    omega

/-- **C88**, counterexample (no equivalent orientations): with an empty array of equivalent orientations its
first element is read. -/
theorem C88_no_equivalents_counterexample :
    ∃ n t t', RealNeighbors 2 n ∧ FitsSystem 2 2 n ∧
      angularSeparation 2 none n 2 none 0 = some t ∧ ¬ InBounds t ∧
      localBondProjection 2 none n 2 1 0 = some t' ∧ ¬ InBounds t' :=
  ⟨.list 2 2 [(0, 1)], _, _, by decide, by decide, rfl, by decide, rfl, by decide⟩

/-- **C88**, counterexample (`AngularSeparationNeighbor` with fewer query points than points and no query
orientations): the number of query points is taken from the orientations, and the query points are read
beyond their end. -/
theorem C88_angular_separation_counterexample (np nq e : ℕ) (h : nq < np) (n : ℕ → List (ℕ × ℕ)) :
    ∃ t, angularSeparation np (some nq) (.search n) np none e = some t ∧ ¬ InBounds t := by
  refine ⟨_, by
    simp only [angularSeparation, ne_eq, not_true, if_false]
    rw [if_neg (by rintro ⟨m, e, -⟩; cases e)]
    rfl, ?_⟩
  rw [inBounds_append, inBounds_append]
  rintro ⟨⟨h2, -⟩, -⟩
  simp only [Nbrs.queryReads, inBounds_map, List.mem_range, Option.getD_some, Option.getD_none] at h2
  have := h2 nq h
  omega

end Freud
