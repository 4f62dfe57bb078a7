import Verif.Model.CellShell
import Mathlib.Tactic.Linarith
import Mathlib.Data.Prod.Lex

/-!
# Property C24: the walk over shells of cells
-/

namespace Freud

/-- The Chebyshev radius of a cell offset. -/
def Spec.chebyshev (o : Vec3 ℤ) : ℕ := max o.x.natAbs (max o.y.natAbs o.z.natAbs)

namespace CellShell
open Spec

/-- The third coordinates in stages 0 to 3 of shell `n`. -/
def InRim (d : Bool) (n z : ℤ) : Prop :=
  (d = true ∧ z = 0) ∨ (d = false ∧ -n + 1 ≤ z ∧ z ≤ n - 1)

/-- The first of these. -/
def rim0 (d : Bool) (n : ℤ) : ℤ := if d then 0 else -n + 1

/-- The states the walk can be in. -/
inductive Valid : CellShell → Prop
  | zero (d : Bool) : Valid ⟨0, 5, 0, 0, 0, d⟩
  | top (n x z : ℤ) (d : Bool) (hn : 0 < n) (hz : InRim d n z) (h1 : -n ≤ x) (h2 : x ≤ n - 1) :
      Valid ⟨n, 0, x, n, z, d⟩
  | right (n y z : ℤ) (d : Bool) (hn : 0 < n) (hz : InRim d n z) (h1 : -n + 1 ≤ y) (h2 : y ≤ n) :
      Valid ⟨n, 1, n, y, z, d⟩
  | bottom (n x z : ℤ) (d : Bool) (hn : 0 < n) (hz : InRim d n z) (h1 : -n + 1 ≤ x) (h2 : x ≤ n) :
      Valid ⟨n, 2, x, -n, z, d⟩
  | left (n y z : ℤ) (d : Bool) (hn : 0 < n) (hz : InRim d n z) (h1 : -n ≤ y) (h2 : y ≤ n - 1) :
      Valid ⟨n, 3, -n, y, z, d⟩
  | back (n x y : ℤ) (hn : 0 < n) (h1 : -n ≤ x) (h2 : x ≤ n) (h3 : -n ≤ y) (h4 : y ≤ n) :
      Valid ⟨n, 4, x, y, -n, false⟩
  | front (n x y : ℤ) (hn : 0 < n) (h1 : -n ≤ x) (h2 : x ≤ n) (h3 : -n ≤ y) (h4 : y ≤ n) :
      Valid ⟨n, 5, x, y, n, false⟩

theorem rim0_mem {d : Bool} {n : ℤ} (hn : 0 < n) : InRim d n (rim0 d n) := by
  cases d <;> simp [InRim, rim0]; omega

theorem reset_succ (d : Bool) (n : ℤ) (hn : 0 ≤ n) :
    reset d (n + 1).toNat = ⟨n + 1, 0, -(n + 1), n + 1, rim0 d (n + 1), d⟩ := by
  unfold reset rim0
  have h : (((n + 1).toNat : ℕ) : ℤ) = n + 1 := Int.toNat_of_nonneg (by omega)
  rw [if_neg (by omega)]
  simp only [h]

theorem reset_valid (d : Bool) (n : ℕ) : Valid (reset d n) := by
  cases n with
  | zero => exact .zero d
  | succ n =>
    have := reset_succ d n (by omega)
    rw [show ((n : ℤ) + 1).toNat = n + 1 by omega] at this
    rw [this]
    exact .top _ _ _ _ (by omega) (rim0_mem (by omega)) (by omega) (by omega)

/-- The advance of `z`. -/
theorem nextZ_eq {d : Bool} {n z : ℤ} (hz : InRim d n z) (st : ℕ) (x y : ℤ) (w : Bool) :
    nextZ ⟨n, st, x, y, z, d⟩ w =
      if w = true then (if d = false ∧ z + 1 < n then (z + 1, false) else (rim0 d n, true))
      else (z, false) := by
  rcases hz with ⟨rfl, rfl⟩ | ⟨rfl, h1, h2⟩ <;> cases w <;> simp [nextZ, rim0]
  · omega
  · split_ifs <;> first | rfl | omega | (simp; omega)

theorem step_top {d : Bool} {n x z : ℤ} (hz : InRim d n z) :
    step ⟨n, 0, x, n, z, d⟩ =
      if x + 1 < n then ⟨n, 0, x + 1, n, z, d⟩
      else if d = false ∧ z + 1 < n then ⟨n, 0, x + 1 - 2 * n, n, z + 1, d⟩
      else ⟨n, 1, n, n, rim0 d n, d⟩ := by
  simp only [step]
  rw [nextZ_eq hz]
  by_cases h : x + 1 < n
  · simp [h, not_le.mpr h]
  · by_cases h' : d = false ∧ z + 1 < n <;> simp [h, h', not_lt.mp h]

theorem step_right {d : Bool} {n y z : ℤ} (hz : InRim d n z) :
    step ⟨n, 1, n, y, z, d⟩ =
      if -n < y - 1 then ⟨n, 1, n, y - 1, z, d⟩
      else if d = false ∧ z + 1 < n then ⟨n, 1, n, y - 1 + 2 * n, z + 1, d⟩
      else ⟨n, 2, n, -n, rim0 d n, d⟩ := by
  simp only [step]
  rw [nextZ_eq hz]
  by_cases h : -n < y - 1
  · simp [h, not_le.mpr h]
  · by_cases h' : d = false ∧ z + 1 < n <;> simp [h, h', not_lt.mp h]

theorem step_bottom {d : Bool} {n x z : ℤ} (hz : InRim d n z) :
    step ⟨n, 2, x, -n, z, d⟩ =
      if -n < x - 1 then ⟨n, 2, x - 1, -n, z, d⟩
      else if d = false ∧ z + 1 < n then ⟨n, 2, x - 1 + 2 * n, -n, z + 1, d⟩
      else ⟨n, 3, -n, -n, rim0 d n, d⟩ := by
  simp only [step]
  rw [nextZ_eq hz]
  by_cases h : -n < x - 1
  · simp [h, not_le.mpr h]
  · by_cases h' : d = false ∧ z + 1 < n <;> simp [h, h', not_lt.mp h]

theorem step_left {d : Bool} {n y z : ℤ} (hn : 0 ≤ n) (hz : InRim d n z) :
    step ⟨n, 3, -n, y, z, d⟩ =
      if y + 1 < n then ⟨n, 3, -n, y + 1, z, d⟩
      else if d = false ∧ z + 1 < n then ⟨n, 3, -n, y + 1 - 2 * n, z + 1, d⟩
      else if d = true then ⟨n + 1, 0, -(n + 1), n + 1, rim0 d (n + 1), d⟩
      else ⟨n, 4, -n, -n, -n, d⟩ := by
  simp only [step]
  rw [nextZ_eq hz]
  by_cases h : y + 1 < n
  · simp [h, not_le.mpr h]
  · by_cases h' : d = false ∧ z + 1 < n
    · simp [h, h', not_lt.mp h]
    · simp [h, h', not_lt.mp h, reset_succ _ n hn]

theorem step_face {n x y z : ℤ} {d : Bool} {st : ℕ} (hst : st = 4 ∨ st = 5) (hn : 0 ≤ n)
    (hx : x ≤ n) (hy : y ≤ n) :
    step ⟨n, st, x, y, z, d⟩ =
      if x + 1 ≤ n then ⟨n, st, x + 1, y, z, d⟩
      else if y + 1 ≤ n then ⟨n, st, x + 1 - (2 * n + 1), y + 1, z, d⟩
      else if st = 4 then ⟨n, 5, x + 1 - (2 * n + 1), y + 1 - (2 * n + 1), n, d⟩
      else ⟨n + 1, 0, -(n + 1), n + 1, rim0 d (n + 1), d⟩ := by
  by_cases h : x + 1 ≤ n
  · rcases hst with rfl | rfl <;> simp [step, h, not_lt.mpr h, not_lt.mpr hy]
  · by_cases h' : y + 1 ≤ n
    · rcases hst with rfl | rfl <;> simp [step, h, h', not_lt.mpr h', not_le.mp h]
    · rcases hst with rfl | rfl <;> simp [step, h, h', not_le.mp h, not_le.mp h', reset_succ _ n hn]

/-- The slow coordinate of a stage. -/
def maj (s : CellShell) : ℤ := if s.stage ≤ 3 then s.z else s.y

/-- The fast coordinate of a stage, oriented along the walk. -/
def mnr (s : CellShell) : ℤ :=
  if s.stage = 1 then -s.y else if s.stage = 2 then -s.x else if s.stage = 3 then s.y else s.x

/-- The order of the walk. -/
def Before (s t : CellShell) : Prop :=
  s.range < t.range ∨ (s.range = t.range ∧ (s.stage < t.stage ∨ (s.stage = t.stage ∧
    (s.maj < t.maj ∨ (s.maj = t.maj ∧ s.mnr < t.mnr)))))

theorem Before.trans {s t u : CellShell} (h1 : Before s t) (h2 : Before t u) : Before s u := by
  unfold Before at *; omega

theorem Before.irrefl (s : CellShell) : ¬ Before s s := by
  unfold Before; omega

theorem key_bounds {s : CellShell} (h : Valid s) :
    -s.range ≤ s.maj ∧ -s.range ≤ s.mnr := by
  cases h <;> simp [maj, mnr] <;> first | omega | skip
  all_goals rename_i hz _ _; rcases hz with ⟨_, rfl⟩ | ⟨_, _, _⟩ <;> omega

theorem inRim_succ {d : Bool} {n z : ℤ} (hz : InRim d n z) (h : d = false ∧ z + 1 < n) :
    InRim d n (z + 1) := by
  rcases hz with ⟨rfl, rfl⟩ | ⟨rfl, h1, h2⟩
  · simp at h
  · right; exact ⟨rfl, by omega, by omega⟩

theorem step_spec {s : CellShell} (h : Valid s) :
    Valid s.step ∧ Before s s.step ∧ s.step.is2D = s.is2D := by
  cases h with
  | zero d =>
    rw [step_face (Or.inr rfl) le_rfl le_rfl le_rfl]
    simp only [zero_add, if_neg (by omega : ¬ (1 : ℤ) ≤ 0), if_neg (by omega : ¬ 5 = 4)]
    exact ⟨.top 1 _ _ _ one_pos (rim0_mem one_pos) (by omega) (by omega), Or.inl one_pos, trivial⟩
  | top n x z d hn hz h1 h2 =>
    rw [step_top hz]
    split_ifs with a b
    · exact ⟨.top _ _ _ _ hn hz (by omega) (by omega), by simp [Before, maj, mnr], rfl⟩
    · exact ⟨.top _ _ _ _ hn (inRim_succ hz b) (by omega) (by omega), by simp [Before, maj, mnr], rfl⟩
    · exact ⟨.right _ _ _ _ hn (rim0_mem hn) (by omega) (by omega), by simp [Before, maj, mnr], rfl⟩
  | right n y z d hn hz h1 h2 =>
    rw [step_right hz]
    split_ifs with a b
    · exact ⟨.right _ _ _ _ hn hz (by omega) (by omega), by simp [Before, maj, mnr], rfl⟩
    · exact ⟨.right _ _ _ _ hn (inRim_succ hz b) (by omega) (by omega), by simp [Before, maj, mnr], rfl⟩
    · exact ⟨.bottom _ _ _ _ hn (rim0_mem hn) (by omega) (by omega), by simp [Before, maj, mnr], rfl⟩
  | bottom n x z d hn hz h1 h2 =>
    rw [step_bottom hz]
    split_ifs with a b
    · exact ⟨.bottom _ _ _ _ hn hz (by omega) (by omega), by simp [Before, maj, mnr], rfl⟩
    · exact ⟨.bottom _ _ _ _ hn (inRim_succ hz b) (by omega) (by omega), by simp [Before, maj, mnr], rfl⟩
    · exact ⟨.left _ _ _ _ hn (rim0_mem hn) (by omega) (by omega), by simp [Before, maj, mnr], rfl⟩
  | left n y z d hn hz h1 h2 =>
    rw [step_left hn.le hz]
    split_ifs with a b c
    · exact ⟨.left _ _ _ _ hn hz (by omega) (by omega), by simp [Before, maj, mnr], rfl⟩
    · exact ⟨.left _ _ _ _ hn (inRim_succ hz b) (by omega) (by omega), by simp [Before, maj, mnr], rfl⟩
    · exact ⟨.top _ _ _ _ (by omega) (rim0_mem (by omega)) (by omega) (by omega),
        by simp [Before], rfl⟩
    · rw [Bool.not_eq_true] at c
      subst c
      exact ⟨.back _ _ _ hn (by omega) (by omega) (by omega) (by omega), by simp [Before], rfl⟩
  | back n x y hn h1 h2 h3 h4 =>
    rw [step_face (Or.inl rfl) hn.le h2 h4, if_pos rfl]
    split_ifs with a b
    · exact ⟨.back _ _ _ hn (by omega) (by omega) (by omega) (by omega), by simp [Before, maj, mnr], rfl⟩
    · exact ⟨.back _ _ _ hn (by omega) (by omega) (by omega) (by omega), by simp [Before, maj, mnr], rfl⟩
    · exact ⟨.front _ _ _ hn (by omega) (by omega) (by omega) (by omega), by simp [Before], rfl⟩
  | front n x y hn h1 h2 h3 h4 =>
    rw [step_face (Or.inr rfl) hn.le h2 h4, if_neg (by omega : ¬ 5 = 4)]
    split_ifs with a b
    · exact ⟨.front _ _ _ hn (by omega) (by omega) (by omega) (by omega), by simp [Before, maj, mnr], rfl⟩
    · exact ⟨.front _ _ _ hn (by omega) (by omega) (by omega) (by omega), by simp [Before, maj, mnr], rfl⟩
    · exact ⟨.top _ _ _ _ (by omega) (rim0_mem (by omega)) (by omega) (by omega),
        by simp [Before], rfl⟩

/-- Each state but the first is the successor of a state. -/
theorem exists_pred {s : CellShell} (h : Valid s) (h0 : s ≠ reset s.is2D 0) :
    ∃ p, Valid p ∧ p.step = s := by
  have last : ∀ d (n : ℤ), 0 < n → InRim d n (if d then 0 else n - 1) ∧
      ¬ (d = false ∧ (if d then (0 : ℤ) else n - 1) + 1 < n) := by
    intro d n hn; cases d <;> simp [InRim]; omega
  have prev : ∀ d (n z : ℤ), InRim d n z → z ≠ rim0 d n → InRim d n (z - 1) ∧
      (d = false ∧ z - 1 + 1 < n) := by
    intro d n z hz hne
    rcases hz with ⟨rfl, rfl⟩ | ⟨rfl, h1, h2⟩
    · exact absurd rfl hne
    · simp only [rim0, Bool.false_eq_true, if_false] at hne
      exact ⟨Or.inr ⟨rfl, by omega, by omega⟩, rfl, by omega⟩
  cases h with
  | zero d => exact absurd rfl h0
  | top n x z d hn hz h1 h2 =>
    by_cases hx : x = -n
    · by_cases hzz : z = rim0 d n
      · subst hx hzz
        rcases (by omega : n = 1 ∨ 1 < n) with rfl | h1n
        · refine ⟨_, .zero d, ?_⟩
          rw [step_face (Or.inr rfl) le_rfl le_rfl le_rfl, if_neg (by omega), if_neg (by omega),
            if_neg (by omega)]
          rfl
        · cases d with
          | true =>
            refine ⟨_, .left (n - 1) (n - 2) 0 true (by omega) (Or.inl ⟨rfl, rfl⟩) (by omega)
              (by omega), ?_⟩
            rw [step_left (by omega) (Or.inl ⟨rfl, rfl⟩), if_neg (by omega), if_neg (by simp),
              if_pos rfl]
            congr 1 <;> simp
          | false =>
            refine ⟨_, .front (n - 1) (n - 1) (n - 1) (by omega) (by omega) (by omega) (by omega)
              (by omega), ?_⟩
            rw [step_face (Or.inr rfl) (by omega) (by omega) (by omega), if_neg (by omega),
              if_neg (by omega), if_neg (by omega)]
            congr 1 <;> simp [rim0]
      · obtain ⟨p1, p2⟩ := prev d n z hz hzz
        refine ⟨_, .top n (n - 1) (z - 1) d hn p1 (by omega) (by omega), ?_⟩
        rw [step_top p1, if_neg (by omega), if_pos p2]
        congr 1 <;> omega
    · refine ⟨_, .top n (x - 1) z d hn hz (by omega) (by omega), ?_⟩
      rw [step_top hz, if_pos (by omega)]
      congr 1; omega
  | right n y z d hn hz h1 h2 =>
    by_cases hx : y = n
    · by_cases hzz : z = rim0 d n
      · subst hx hzz
        obtain ⟨p1, p2⟩ := last d y hn
        refine ⟨_, .top y (y - 1) _ d hn p1 (by omega) (by omega), ?_⟩
        rw [step_top p1, if_neg (by omega), if_neg p2]
      · obtain ⟨p1, p2⟩ := prev d n z hz hzz
        refine ⟨_, .right n (-n + 1) (z - 1) d hn p1 (by omega) (by omega), ?_⟩
        rw [step_right p1, if_neg (by omega), if_pos p2]
        congr 1 <;> omega
    · refine ⟨_, .right n (y + 1) z d hn hz (by omega) (by omega), ?_⟩
      rw [step_right hz, if_pos (by omega)]
      congr 1; omega
  | bottom n x z d hn hz h1 h2 =>
    by_cases hx : x = n
    · by_cases hzz : z = rim0 d n
      · subst hx hzz
        obtain ⟨p1, p2⟩ := last d x hn
        refine ⟨_, .right x (-x + 1) _ d hn p1 (by omega) (by omega), ?_⟩
        rw [step_right p1, if_neg (by omega), if_neg p2]
      · obtain ⟨p1, p2⟩ := prev d n z hz hzz
        refine ⟨_, .bottom n (-n + 1) (z - 1) d hn p1 (by omega) (by omega), ?_⟩
        rw [step_bottom p1, if_neg (by omega), if_pos p2]
        congr 1 <;> omega
    · refine ⟨_, .bottom n (x + 1) z d hn hz (by omega) (by omega), ?_⟩
      rw [step_bottom hz, if_pos (by omega)]
      congr 1; omega
  | left n y z d hn hz h1 h2 =>
    by_cases hx : y = -n
    · by_cases hzz : z = rim0 d n
      · subst hx hzz
        obtain ⟨p1, p2⟩ := last d n hn
        refine ⟨_, .bottom n (-n + 1) _ d hn p1 (by omega) (by omega), ?_⟩
        rw [step_bottom p1, if_neg (by omega), if_neg p2]
      · obtain ⟨p1, p2⟩ := prev d n z hz hzz
        refine ⟨_, .left n (n - 1) (z - 1) d hn p1 (by omega) (by omega), ?_⟩
        rw [step_left hn.le p1, if_neg (by omega), if_pos p2]
        congr 1 <;> omega
    · refine ⟨_, .left n (y - 1) z d hn hz (by omega) (by omega), ?_⟩
      rw [step_left hn.le hz, if_pos (by omega)]
      congr 1; omega
  | back n x y hn h1 h2 h3 h4 =>
    by_cases hx : x = -n
    · by_cases hy : y = -n
      · subst hx hy
        obtain ⟨p1, p2⟩ := last false n hn
        refine ⟨_, .left n (n - 1) _ false hn p1 (by omega) (by omega), ?_⟩
        rw [step_left hn.le p1, if_neg (by omega), if_neg p2, if_neg (by simp)]
      · refine ⟨_, .back n n (y - 1) hn (by omega) (by omega) (by omega) (by omega), ?_⟩
        rw [step_face (Or.inl rfl) hn.le (by omega) (by omega), if_neg (by omega), if_pos (by omega)]
        congr 1 <;> omega
    · refine ⟨_, .back n (x - 1) y hn (by omega) (by omega) (by omega) (by omega), ?_⟩
      rw [step_face (Or.inl rfl) hn.le (by omega) (by omega), if_pos (by omega)]
      congr 1; omega
  | front n x y hn h1 h2 h3 h4 =>
    by_cases hx : x = -n
    · by_cases hy : y = -n
      · subst hx hy
        refine ⟨_, .back n n n hn (by omega) (by omega) (by omega) (by omega), ?_⟩
        rw [step_face (Or.inl rfl) hn.le (by omega) (by omega), if_neg (by omega),
          if_neg (by omega), if_pos rfl]
        congr 1 <;> omega
      · refine ⟨_, .front n n (y - 1) hn (by omega) (by omega) (by omega) (by omega), ?_⟩
        rw [step_face (Or.inr rfl) hn.le (by omega) (by omega), if_neg (by omega), if_pos (by omega)]
        congr 1 <;> omega
    · refine ⟨_, .front n (x - 1) y hn (by omega) (by omega) (by omega) (by omega), ?_⟩
      rw [step_face (Or.inr rfl) hn.le (by omega) (by omega), if_pos (by omega)]
      congr 1; omega

theorem at_succ (d : Bool) (t : ℕ) : at' d (t + 1) = (at' d t).step := Function.iterate_succ_apply' _ _ _

theorem at_valid (d : Bool) (t : ℕ) : Valid (at' d t) ∧ (at' d t).is2D = d := by
  induction t with
  | zero => exact ⟨reset_valid d 0, rfl⟩
  | succ t ih =>
    rw [at_succ]
    obtain ⟨h1, -, h2⟩ := step_spec ih.1
    exact ⟨h1, h2.trans ih.2⟩

theorem at_before (d : Bool) {t u : ℕ} (h : t < u) : Before (at' d t) (at' d u) := by
  induction h with
  | refl => rw [at_succ]; exact (step_spec (at_valid d t).1).2.1
  | step _ ih => exact ih.trans (by rw [at_succ]; exact (step_spec (at_valid d _).1).2.1)

/-- The walk reaches every state. -/
theorem reach (s : CellShell) (h : Valid s) : ∃ t, at' s.is2D t = s := by
  by_cases h0 : s = reset s.is2D 0
  · exact ⟨0, h0.symm⟩
  · obtain ⟨p, hp, hs⟩ := exists_pred h h0
    have hb : Before p s := by rw [← hs]; exact (step_spec hp).2.1
    have hd : p.is2D = s.is2D := by rw [← hs]; exact (step_spec hp).2.2.symm
    obtain ⟨t, ht⟩ := reach p hp
    refine ⟨t + 1, ?_⟩
    rw [at_succ, ← hd, ht, hs]
termination_by (s.range.toNat, s.stage, (s.maj + s.range).toNat, (s.mnr + s.range).toNat)
decreasing_by
  have hr : 0 ≤ p.range := by cases hp <;> simp <;> omega
  have k1 := key_bounds hp
  have k2 := key_bounds h
  simp only [Prod.lex_def]
  unfold Before at hb
  omega


theorem valid_offset {s : CellShell} (h : Valid s) :
    (chebyshev s.offset : ℤ) = s.range ∧ (s.is2D = true → s.offset.z = 0) := by
  cases h with
  | zero d => simp [chebyshev, offset]
  | top n x z d hn hz h1 h2 =>
    rcases hz with ⟨rfl, rfl⟩ | ⟨rfl, h3, h4⟩ <;> exact ⟨by simp only [chebyshev, offset, Nat.cast_max]; omega, by simp [offset]⟩
  | right n y z d hn hz h1 h2 =>
    rcases hz with ⟨rfl, rfl⟩ | ⟨rfl, h3, h4⟩ <;> exact ⟨by simp only [chebyshev, offset, Nat.cast_max]; omega, by simp [offset]⟩
  | bottom n x z d hn hz h1 h2 =>
    rcases hz with ⟨rfl, rfl⟩ | ⟨rfl, h3, h4⟩ <;> exact ⟨by simp only [chebyshev, offset, Nat.cast_max]; omega, by simp [offset]⟩
  | left n y z d hn hz h1 h2 =>
    rcases hz with ⟨rfl, rfl⟩ | ⟨rfl, h3, h4⟩ <;> exact ⟨by simp only [chebyshev, offset, Nat.cast_max]; omega, by simp [offset]⟩
  | back n x y hn h1 h2 h3 h4 => exact ⟨by simp only [chebyshev, offset, Nat.cast_max]; omega, by simp⟩
  | front n x y hn h1 h2 h3 h4 => exact ⟨by simp only [chebyshev, offset, Nat.cast_max]; omega, by simp⟩

theorem offset_inj {s t : CellShell} (hs : Valid s) (ht : Valid t) (hd : s.is2D = t.is2D)
    (ho : s.offset = t.offset) : s = t := by
  have hr : s.range = t.range := by rw [← (valid_offset hs).1, ← (valid_offset ht).1, ho]
  simp only [offset, Vec3.mk.injEq] at ho
  cases hs <;> cases ht <;> simp only at hr hd ho <;> simp only [CellShell.mk.injEq] <;>
    (try simp only [InRim] at *) <;> (try simp only [hd, Bool.false_eq_true, false_and, true_and, false_or, reduceCtorEq] at *) <;>
    first | omega | simp_all

theorem exists_offset (d : Bool) (o : Vec3 ℤ) (h : d = true → o.z = 0) :
    ∃ s, Valid s ∧ s.is2D = d ∧ s.offset = o := by
  obtain ⟨x, y, z⟩ := o
  obtain ⟨n, hn⟩ : ∃ n : ℤ, n = chebyshev ⟨x, y, z⟩ := ⟨_, rfl⟩
  simp only [chebyshev] at hn h
  rcases (by omega : n = 0 ∨ 0 < n) with h0 | h0
  · refine ⟨_, .zero d, rfl, ?_⟩
    simp only [offset, Vec3.mk.injEq]; omega
  · by_cases hz : d = false ∧ (z = n ∨ z = -n)
    · obtain ⟨rfl, hz⟩ := hz
      rcases hz with rfl | rfl
      · exact ⟨_, .front z x y h0 (by omega) (by omega) (by omega) (by omega), rfl, rfl⟩
      · exact ⟨_, .back n x y h0 (by omega) (by omega) (by omega) (by omega), rfl, rfl⟩
    · have hrim : InRim d n z := by
        cases d with
        | true => exact Or.inl ⟨rfl, h rfl⟩
        | false => right; simp only [true_and] at hz ⊢; omega
      have hzn : d = true ∨ (-n < z ∧ z < n) := by
        cases d with
        | true => exact Or.inl rfl
        | false => right; simp only [true_and] at hz; omega
      have hxy : x = n ∨ x = -n ∨ y = n ∨ y = -n := by
        rcases hzn with hd | hzn
        · have := h hd; omega
        · omega
      by_cases c0 : y = n ∧ x ≤ n - 1
      · obtain ⟨rfl, c⟩ := c0
        exact ⟨_, .top y x z d h0 hrim (by omega) (by omega), rfl, rfl⟩
      · by_cases c1 : x = n ∧ -n + 1 ≤ y
        · obtain ⟨rfl, c⟩ := c1
          exact ⟨_, .right x y z d h0 hrim (by omega) (by omega), rfl, rfl⟩
        · by_cases c2 : y = -n ∧ -n + 1 ≤ x
          · obtain ⟨rfl, c⟩ := c2
            exact ⟨_, .bottom n x z d h0 hrim (by omega) (by omega), rfl, rfl⟩
          · obtain rfl : x = -n := by omega
            exact ⟨_, .left n y z d h0 hrim (by omega) (by omega), rfl, rfl⟩

/-- **C24**: the walk visits every cell offset exactly once (in 2D every offset in the plane). -/
theorem C24_every_offset_once (is2D : Bool) (o : Vec3 ℤ) (h : is2D = true → o.z = 0) :
    ∃! t, (at' is2D t).offset = o := by
  obtain ⟨s, hs, rfl, ho⟩ := exists_offset is2D o h
  obtain ⟨t, ht⟩ := reach s hs
  refine ⟨t, by simp only; rw [ht, ho], fun u hu => ?_⟩
  have : at' s.is2D u = at' s.is2D t :=
    offset_inj (at_valid _ u).1 (at_valid _ t).1 (by rw [(at_valid _ u).2, (at_valid _ t).2])
      (by simp only at hu; rw [hu, ht, ho])
  by_contra hne
  rcases Nat.lt_or_gt_of_ne hne with hlt | hlt
  · have := at_before s.is2D hlt; rw [‹at' s.is2D u = _›] at this; exact Before.irrefl _ this
  · have := at_before s.is2D hlt; rw [‹at' s.is2D u = _›] at this; exact Before.irrefl _ this

/-- **C24**: the walk goes outwards: the radius never decreases; it is what `getRange` returns; in
2D all offsets lie in the plane. -/
theorem C24_outwards (is2D : Bool) (t : ℕ) :
    ((chebyshev (at' is2D t).offset : ℤ) = (at' is2D t).range) ∧
    (is2D = true → (at' is2D t).offset.z = 0) ∧
    ∀ u, t ≤ u → chebyshev (at' is2D t).offset ≤ chebyshev (at' is2D u).offset := by
  have h1 := at_valid is2D t
  obtain ⟨v1, v2⟩ := valid_offset h1.1
  refine ⟨v1, fun h => v2 (h1.2.trans h), fun u hu => ?_⟩
  have v3 := (valid_offset (at_valid is2D u).1).1
  rcases hu.lt_or_eq with hu | rfl
  · have hb := at_before is2D hu
    unfold Before at hb
    omega
  · exact le_rfl

/-- **C24**: an iterator constructed for radius `n` is where the walk first has that radius. -/
theorem C24_shell_start (is2D : Bool) (n : ℕ) :
    ∃ t, at' is2D t = reset is2D n ∧ ∀ u, u < t ↔ chebyshev (at' is2D u).offset < n := by
  have hr : (reset is2D n).is2D = is2D := by unfold reset; split <;> rfl
  have hv := reset_valid is2D n
  obtain ⟨t, ht⟩ := reach _ hv
  rw [hr] at ht
  have hrange : (reset is2D n).range = n := by
    unfold reset; split
    · rename_i h; rw [h]; rfl
    · rfl
  refine ⟨t, ht, fun u => ?_⟩
  have v3 := (valid_offset (at_valid is2D u).1).1
  constructor
  · intro hu
    have hb := at_before is2D hu
    rw [ht] at hb
    have hmin : ¬ ((at' is2D u).range = (reset is2D n).range) := by
      intro he
      have hvu := (at_valid is2D u)
      generalize at' is2D u = s at *
      unfold Before at hb
      cases n with
      | zero =>
        cases hvu.1 <;> simp [reset, maj, mnr] at * <;> omega
      | succ n =>
        have e : reset is2D (n + 1) = ⟨n + 1, 0, -((n : ℤ) + 1), n + 1, rim0 is2D (n + 1), is2D⟩ := by
          have := reset_succ is2D n (by omega)
          rwa [show ((n : ℤ) + 1).toNat = n + 1 by omega] at this
        rw [e] at hb he
        have k := key_bounds hvu.1
        obtain ⟨hvu, hd⟩ := hvu
        cases hvu with
        | top m x z d hn hz h1 h2 =>
          simp only at hd
          subst hd
          rcases hz with ⟨rfl, rfl⟩ | ⟨rfl, h3, h4⟩ <;> simp [maj, mnr, rim0] at * <;> omega
        | _ => simp [maj, mnr] at *; omega
    unfold Before at hb
    omega
  · intro hlt
    by_contra hge
    have := (C24_outwards is2D t).2.2 u (by omega)
    have v4 := (valid_offset (at_valid is2D t).1).1
    rw [ht, hrange] at v4
    rw [ht] at this
    omega

/-- The walk at radius 1 in 2D and 3D. -/
example : ((List.range 10).map fun t => (at' true t).offset) =
    [⟨0, 0, 0⟩, ⟨-1, 1, 0⟩, ⟨0, 1, 0⟩, ⟨1, 1, 0⟩, ⟨1, 0, 0⟩, ⟨1, -1, 0⟩, ⟨0, -1, 0⟩, ⟨-1, -1, 0⟩,
      ⟨-1, 0, 0⟩, ⟨-2, 2, 0⟩] ∧
    (at' false 27).range = 2 ∧ (at' false 26).range = 1 := by decide +kernel

end CellShell
end Freud
