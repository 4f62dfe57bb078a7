import Verif.Model.Registration
import Mathlib.Data.List.Permutation
import Mathlib.Data.List.Nodup
import Mathlib.Data.List.Range
import Mathlib.Data.List.Sort
import Mathlib.Data.Nat.Digits.Defs
import Mathlib.Data.Nat.Digits.Lemmas
import Mathlib.Tactic.Ring
import Mathlib.Tactic.Linarith

/-!
# Lemmas on the enumeration of tuples
-/

namespace Freud.Reg

/-- A run of a loop from `a` to `e`: the values it passes. -/
inductive Steps {A : Type*} (next : A → Option A) : A → List A → A → Prop
  | one (a : A) : Steps next a [a] a
  | step {a b e : A} {l : List A} : next a = some b → Steps next b l e → Steps next a (a :: l) e

theorem Steps.append {A : Type*} {next : A → Option A} {a b c d : A} {l l' : List A}
    (h : Steps next a l b) (hn : next b = some c) (h' : Steps next c l' d) :
    Steps next a (l ++ l') d := by
  induction h with
  | one a => exact Steps.step hn h'
  | step hs _ ih => exact Steps.step hs (ih hn)

theorem doWhile_of_steps {A : Type*} {next : A → Option A} {a e : A} {l : List A}
    (h : Steps next a l e) (he : next e = none) (fuel : ℕ) (hf : l.length ≤ fuel) :
    doWhile next fuel a = some l := by
  induction h generalizing fuel with
  | one a =>
    cases fuel with
    | zero => simp at hf
    | succ f => simp [doWhile, he]
  | step hs _ ih =>
    cases fuel with
    | zero => simp at hf
    | succ f =>
      simp only [List.length_cons, Nat.add_le_add_iff_right] at hf
      simp [doWhile, hs, ih he f hf]

/-- The increasing lists of `m` numbers between `lo` and `N`, in lexicographic order. -/
def lexCombos (N : ℕ) : ℕ → ℕ → List (List ℕ)
  | _, 0 => [[]]
  | lo, m + 1 => (List.range' lo (N - m - lo)).flatMap (fun c => (lexCombos N (c + 1) m).map (c :: ·))

theorem mem_lexCombos (N : ℕ) : ∀ (m lo : ℕ) (t : List ℕ), t ∈ lexCombos N lo m ↔
    t.length = m ∧ t.Pairwise (· < ·) ∧ ∀ x ∈ t, lo ≤ x ∧ x < N := by
  intro m
  induction m with
  | zero =>
    intro lo t
    simp only [lexCombos, List.mem_singleton]
    constructor
    · rintro rfl; simp
    · rintro ⟨h, -⟩; exact List.length_eq_zero_iff.mp h
  | succ m ih =>
    intro lo t
    simp only [lexCombos, List.mem_flatMap, List.mem_range'_1, List.mem_map]
    constructor
    · rintro ⟨c, ⟨h1, h2⟩, s, hs, rfl⟩
      obtain ⟨g1, g2, g3⟩ := (ih _ _).mp hs
      refine ⟨by simp [g1], ?_, ?_⟩
      · rw [List.pairwise_cons]
        exact ⟨fun x hx => by have := (g3 x hx).1; omega, g2⟩
      · intro x hx
        rcases List.mem_cons.mp hx with rfl | hx
        · omega
        · have := g3 x hx; omega
    · rintro ⟨h1, h2, h3⟩
      cases t with
      | nil => simp at h1
      | cons c s =>
        rw [List.pairwise_cons] at h2
        have hs : s ∈ lexCombos N (c + 1) m := by
          refine (ih _ _).mpr ⟨by simpa using h1, h2.2, fun x hx => ?_⟩
          have := h2.1 x hx
          exact ⟨this, (h3 x (List.mem_cons_of_mem _ hx)).2⟩
        refine ⟨c, ⟨(h3 c List.mem_cons_self).1, ?_⟩, s, hs, rfl⟩
        have hc := h3 c List.mem_cons_self
        -- the list of `m` increasing numbers above `c` fits below `N`
        have key : ∀ (l : List ℕ) (c : ℕ), (c :: l).Pairwise (· < ·) → (∀ x ∈ c :: l, x < N) →
            c + l.length < N := by
          intro l
          induction l with
          | nil => intro c _ h; simpa using h c List.mem_cons_self
          | cons d l ihl =>
            intro c hp hb
            rw [List.pairwise_cons] at hp
            have := ihl d hp.2 (fun x hx => hb x (List.mem_cons_of_mem _ hx))
            have := hp.1 d List.mem_cons_self
            simp only [List.length_cons]
            omega
        have := key s c (List.pairwise_cons.mpr h2) (fun x hx => (h3 x hx).2)
        have hl : s.length = m := by simpa using h1
        omega

theorem nodup_lexCombos (N : ℕ) : ∀ m lo, (lexCombos N lo m).Nodup := by
  intro m
  induction m with
  | zero => intro lo; simp [lexCombos]
  | succ m ih =>
    intro lo
    rw [lexCombos, List.nodup_flatMap]
    refine ⟨fun c _ => (ih _).map (fun a b h => by simpa using h), ?_⟩
    refine (List.nodup_range' (step := 1)).imp ?_
    intro a b hab t h1 h2
    simp only [List.mem_map] at h1 h2
    obtain ⟨s, -, rfl⟩ := h1
    obtain ⟨s', -, h⟩ := h2
    exact hab (by simpa using (List.cons_eq_cons.mp h).1.symm)

theorem steps_cons (N k i c : ℕ) {a e : List ℕ} {l : List (List ℕ)}
    (h : Steps (nextCombFrom N k (i + 1)) a l e) :
    Steps (nextCombFrom N k i) (c :: a) (l.map (c :: ·)) (c :: e) := by
  induction h with
  | one a => exact Steps.one _
  | step hs _ ih =>
    refine Steps.step ?_ ih
    simp [nextCombFrom, hs]

theorem nextComb_steps (N k : ℕ) : ∀ (m i lo : ℕ), i + m = k → lo + m ≤ N →
    Steps (nextCombFrom N k i) (List.range' lo m) (lexCombos N lo m) (List.range' (N - m) m) ∧
    nextCombFrom N k i (List.range' (N - m) m) = none := by
  intro m
  induction m with
  | zero => intro i lo _ _; exact ⟨by simpa [lexCombos] using Steps.one _, by simp [nextCombFrom]⟩
  | succ m ih =>
    intro i lo hk hlo
    have hnext : ∀ c, nextCombFrom N k i (c :: List.range' (N - m) m) =
        if c + 1 < N + i - k + 1 then some ((c + 1) :: List.range' (c + 2) m) else none := by
      intro c
      have := (ih (i + 1) 0 (by omega) (by omega)).2
      simp [nextCombFrom, this]
    have key : ∀ d lo, d + lo + m + 1 = N →
        Steps (nextCombFrom N k i) (List.range' lo (m + 1)) (lexCombos N lo (m + 1))
          (List.range' (N - (m + 1)) (m + 1)) := by
      intro d
      induction d with
      | zero =>
        intro lo h
        have e1 : N - (m + 1) = lo := by omega
        have e2 : N - m - lo = 1 := by omega
        have e3 : N - m = lo + 1 := by omega
        have := steps_cons N k i lo (ih (i + 1) (lo + 1) (by omega) (by omega)).1
        rw [e1, lexCombos, e2, List.range'_succ]
        rw [e3] at this
        simpa using this
      | succ d ihd =>
        intro lo h
        have h1 := steps_cons N k i lo (ih (i + 1) (lo + 1) (by omega) (by omega)).1
        have h2 := ihd (lo + 1) (by omega)
        have e2 : N - m - lo = (N - m - (lo + 1)) + 1 := by omega
        rw [lexCombos, e2, List.range'_succ (s := lo) (n := N - m - (lo + 1)), List.flatMap_cons]
        rw [List.range'_succ (s := lo)]
        refine Steps.append h1 ?_ (by simpa [lexCombos] using h2)
        rw [hnext, if_pos (by omega), List.range'_succ]
    refine ⟨key (N - (lo + m + 1)) lo (by omega), ?_⟩
    rw [List.range'_succ]
    have e : N - (m + 1) + 1 = N - m := by omega
    rw [e, hnext, if_neg (by omega)]

/-- The permutations of an increasing list of at most three numbers, in lexicographic order. -/
def permList : List ℕ → List (List ℕ)
  | [a] => [[a]]
  | [a, b] => [[a, b], [b, a]]
  | [a, b, c] => [[a, b, c], [a, c, b], [b, a, c], [b, c, a], [c, a, b], [c, b, a]]
  | _ => []

theorem perm_steps (N k : ℕ) (c : List ℕ) (hs : c.Pairwise (· < ·)) (h1 : 1 ≤ c.length)
    (h3 : c.length ≤ 3) :
    Steps (advance N k) c (permList c) c.reverse ∧ nextPermutation c.reverse = (false, c) := by
  match c, h1, h3 with
  | [a], _, _ => exact ⟨Steps.one _, by simp [nextPermutation]⟩
  | [a, b], _, _ =>
    have hab : a < b := by simpa using hs
    constructor
    · refine Steps.step (b := [b, a]) ?_ (Steps.one _)
      simp [advance, nextPermutation, hab]
    · simp [nextPermutation, hab.le]
  | [a, b, c], _, _ =>
    have hab : a < b ∧ a < c ∧ b < c := by simpa [and_assoc] using hs
    obtain ⟨hab, hac, hbc⟩ := hab
    constructor
    · refine Steps.step (b := [a, c, b]) ?_ (Steps.step (b := [b, a, c]) ?_
        (Steps.step (b := [b, c, a]) ?_ (Steps.step (b := [c, a, b]) ?_
        (Steps.step (b := [c, b, a]) ?_ (Steps.one _)))))
      all_goals simp [advance, nextPermutation, hab, hac, hbc, hab.not_gt, hac.not_gt, hbc.not_gt,
        hab.ne, hac.ne, hbc.ne, hab.ne', hac.ne', hbc.ne', List.find?]
    · simp [nextPermutation, hab.not_gt, hac.not_gt, hbc.not_gt]

theorem mem_permList (c t : List ℕ) (h1 : 1 ≤ c.length) (h3 : c.length ≤ 3) :
    t ∈ permList c ↔ t.Perm c := by
  rw [← List.mem_permutations']
  match c, h1, h3 with
  | [a], _, _ => simp [permList, List.permutations']
  | [a, b], _, _ => simp [permList, List.permutations']
  | [a, b, c], _, _ =>
    simp only [permList, List.permutations', List.permutations'Aux, List.flatMap_cons, List.flatMap_nil,
      List.map_cons, List.map_nil, List.append_nil, List.cons_append, List.nil_append, List.mem_cons,
      List.not_mem_nil, or_false]
    tauto

theorem nodup_permList (c : List ℕ) (hs : c.Pairwise (· < ·)) : (permList c).Nodup := by
  match c with
  | [] => simp [permList]
  | [a] => simp [permList]
  | [a, b] =>
    have hab : a < b := by simpa using hs
    simp [permList, hab.ne]
  | [a, b, c] =>
    have hab : a < b ∧ a < c ∧ b < c := by simpa [and_assoc] using hs
    obtain ⟨hab, hac, hbc⟩ := hab
    simp [permList, hab.ne, hac.ne, hbc.ne, hab.ne', hac.ne', hbc.ne']
  | _ :: _ :: _ :: _ :: _ => simp [permList]

theorem advance_steps (N k : ℕ) (hk : 1 ≤ k) (hk3 : k ≤ 3) (hN : 0 < N) {a e : List ℕ}
    {l : List (List ℕ)} (h : Steps (nextCombFrom N k 0) a l e) :
    (∀ c ∈ l, c.length = k ∧ c.Pairwise (· < ·)) →
    Steps (advance N k) a (l.flatMap permList) e.reverse := by
  induction h with
  | one a =>
    intro hl
    obtain ⟨h1, h2⟩ := hl a List.mem_cons_self
    simpa using (perm_steps N k a h2 (by omega) (by omega)).1
  | @step a b e l hs _ ih =>
    intro hl
    obtain ⟨h1, h2⟩ := hl a List.mem_cons_self
    obtain ⟨g1, g2⟩ := perm_steps N k a h2 (by omega) (by omega)
    rw [List.flatMap_cons]
    refine Steps.append g1 ?_ (ih (fun c hc => hl c (List.mem_cons_of_mem _ hc)))
    simp only [advance, g2, Bool.false_eq_true, if_false, nextCombination]
    rw [if_neg (by omega), hs]

theorem length_le_of_nodup (N k : ℕ) (l : List (List ℕ)) (hn : l.Nodup)
    (h : ∀ t ∈ l, t.length = k ∧ ∀ x ∈ t, x < N) : l.length ≤ (N + 1) ^ k := by
  by_cases hN : N = 0
  · -- only the empty tuple is possible
    subst hN
    have hall : ∀ t ∈ l, t = [] := by
      intro t ht
      obtain ⟨-, h2⟩ := h t ht
      cases t with
      | nil => rfl
      | cons x t => exact absurd (h2 x List.mem_cons_self) (by omega)
    have : l.length ≤ 1 := by
      match l, hn, hall with
      | [], _, _ => simp
      | [a], _, _ => simp
      | a :: b :: l, hn, hall =>
        have h1 := hall a (by simp)
        have h2 := hall b (by simp)
        subst h1; subst h2
        simp at hn
    simpa using this
  · have hb : 1 < N + 1 := by omega
    have hinj : (l.map (Nat.ofDigits (N + 1))).Nodup := by
      refine List.Nodup.map_on ?_ hn
      intro x hx y hy hxy
      obtain ⟨hx1, hx2⟩ := h x hx
      obtain ⟨hy1, hy2⟩ := h y hy
      exact Nat.ofDigits_inj_of_len_eq hb (hx1.trans hy1.symm)
        (fun z hz => by have := hx2 z hz; omega) (fun z hz => by have := hy2 z hz; omega) hxy
    have hsub : ∀ v ∈ l.map (Nat.ofDigits (N + 1)), v ∈ List.range ((N + 1) ^ k) := by
      intro v hv
      obtain ⟨t, ht, rfl⟩ := List.mem_map.mp hv
      obtain ⟨h1, h2⟩ := h t ht
      rw [List.mem_range, ← h1]
      exact Nat.ofDigits_lt_base_pow_length hb (fun z hz => by have := h2 z hz; omega)
    have := (hinj.subperm hsub).length_le
    simpa using this

/-- The tuples tried by the nested loops. -/
theorem tuples_spec (N : ℕ) (hN : 0 < N) :
    ∃ l, tuples N = some l ∧ l.Nodup ∧
      ∀ t, t ∈ l ↔ t.length = numPts N ∧ t.Nodup ∧ ∀ x ∈ t, x < N := by
  have hk : 1 ≤ numPts N ∧ numPts N ≤ 3 ∧ numPts N ≤ N := by
    unfold numPts
    split_ifs <;> omega
  obtain ⟨hk1, hk3, hkN⟩ := hk
  obtain ⟨hs, hnone⟩ := nextComb_steps N (numPts N) (numPts N) 0 0 (by omega) (by omega)
  have hmem : ∀ c ∈ lexCombos N 0 (numPts N), c.length = numPts N ∧ c.Pairwise (· < ·) := by
    intro c hc
    obtain ⟨h1, h2, -⟩ := (mem_lexCombos N _ _ _).mp hc
    exact ⟨h1, h2⟩
  have hst := advance_steps N _ hk1 hk3 hN hs hmem
  have hl : ∀ t, t ∈ (lexCombos N 0 (numPts N)).flatMap permList ↔
      t.length = numPts N ∧ t.Nodup ∧ ∀ x ∈ t, x < N := by
    intro t
    rw [List.mem_flatMap]
    constructor
    · rintro ⟨c, hc, ht⟩
      obtain ⟨h1, h2, h3⟩ := (mem_lexCombos N _ _ _).mp hc
      have hp := (mem_permList c t (by omega) (by omega)).mp ht
      exact ⟨hp.length_eq.trans h1, hp.nodup_iff.mpr (h2.imp (fun h => h.ne)),
        fun x hx => (h3 x (hp.mem_iff.mp hx)).2⟩
    · rintro ⟨h1, h2, h3⟩
      have hp := List.mergeSort_perm t (fun a b => decide (a ≤ b))
      have hsort : (t.mergeSort (fun a b => decide (a ≤ b))).Pairwise (· < ·) := by
        have hle : (t.mergeSort (fun a b => decide (a ≤ b))).Pairwise (fun a b => decide (a ≤ b) = true) :=
          List.pairwise_mergeSort (by simp; omega) (by simp; omega) t
        have hnd := hp.nodup_iff.mpr h2
        refine (hle.and hnd).imp ?_
        intro a b hab
        have := of_decide_eq_true hab.1
        have := hab.2
        omega
      refine ⟨t.mergeSort (fun a b => decide (a ≤ b)), (mem_lexCombos N _ _ _).mpr
        ⟨hp.length_eq.trans h1, hsort, fun x hx => ⟨Nat.zero_le _, h3 x (hp.mem_iff.mp hx)⟩⟩, ?_⟩
      rw [mem_permList _ _ (by rw [hp.length_eq]; omega) (by rw [hp.length_eq]; omega)]
      exact hp.symm
  have hnd : ((lexCombos N 0 (numPts N)).flatMap permList).Nodup := by
    rw [List.nodup_flatMap]
    refine ⟨fun c hc => nodup_permList c (hmem c hc).2, ?_⟩
    refine List.Pairwise.imp_of_mem ?_ (nodup_lexCombos N (numPts N) 0)
    intro a b ha hb hab t h1 h2
    have ha' := hmem a ha
    have hb' := hmem b hb
    have p1 := (mem_permList a t (by omega) (by omega)).mp h1
    have p2 := (mem_permList b t (by omega) (by omega)).mp h2
    apply hab
    exact (p1.symm.trans p2).eq_of_pairwise (fun x y _ _ h1 h2 => by omega) ha'.2 hb'.2
  refine ⟨_, ?_, hnd, hl⟩
  unfold tuples
  rw [List.range_eq_range']
  refine doWhile_of_steps hst ?_ _ (le_trans (length_le_of_nodup N _ _ hnd
    (fun t ht => ⟨((hl t).mp ht).1, ((hl t).mp ht).2.2⟩)) (Nat.pow_le_pow_left (by omega) _))
  have hc : (List.range' (N - numPts N) (numPts N)).Pairwise (· < ·) := List.pairwise_lt_range'
  obtain ⟨-, g2⟩ := perm_steps N (numPts N) (List.range' (N - numPts N) (numPts N)) hc
    (by simp; omega) (by simp; omega)
  simp only [advance, g2, Bool.false_eq_true, if_false, nextCombination]
  rw [if_neg (by omega), hnone]

end Freud.Reg
