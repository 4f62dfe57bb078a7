import Verif.Lemmas.DSet
import Mathlib.Algebra.BigOperators.Group.List.Basic
import Mathlib.Order.WellFounded
import Mathlib.Tactic.Linarith

/-!
# Termination of the lock-free disjoint set
-/

namespace Freud
namespace DSet

/-- `x` is a root. -/
def IsRoot (m : DMem) (x : ℕ) : Prop := (m.cell x).parent = x

instance (m : DMem) (x : ℕ) : Decidable (IsRoot m x) := by unfold IsRoot; infer_instance

/-- The number of roots. -/
def numRoots (m : DMem) : ℕ := ((Finset.range m.size).filter (fun x => IsRoot m x)).card

/-- The memories have the same roots and ranks. -/
structure Same (m m' : DMem) : Prop where
  size : m'.size = m.size
  rank : ∀ x, (m'.cell x).rank = (m.cell x).rank
  root : ∀ x, IsRoot m' x ↔ IsRoot m x

theorem Same.rfl' {m : DMem} : Same m m := ⟨rfl, fun _ => rfl, fun _ => Iff.rfl⟩

theorem Same.above {m m' : DMem} (h : Same m m') (x : ℕ) : above m' x = above m x := by
  classical
  unfold DSet.above
  rw [h.size]
  congr 1
  ext y
  rw [Finset.mem_filter, Finset.mem_filter]
  simp only [keyLt, h.rank]

theorem mem_roots {m : DMem} {x : ℕ} : x ∈ (Finset.range m.size).filter (fun x => IsRoot m x) ↔
    x < m.size ∧ (m.cell x).parent = x := by
  rw [Finset.mem_filter, Finset.mem_range, IsRoot]

theorem Same.numRoots {m m' : DMem} (h : Same m m') : numRoots m' = numRoots m := by
  unfold DSet.numRoots
  simp only [h.root, h.size]

/-- Steps left inside `find`. -/
noncomputable def fm (m : DMem) : FindPc → ℕ
  | .f0 i => 4 * above m i + 3
  | .f1 i => 4 * above m i + 2
  | .f2 i _ => 4 * above m i + 1
  | .f3 i _ _ => 4 * above m i

/-- The stage of the work on a bond; stale local variables count as earlier stages. -/
def lvl (m : DMem) : Pc → ℕ
  | .find _ (.same1 _) => 13
  | .find _ (.same2 x) => if IsRoot m x then 12 else 15
  | .sameCheck x _ => if IsRoot m x then 11 else 14
  | .find _ (.unite1 _) => 6
  | .find _ (.unite2 x) => if IsRoot m x then 5 else 10
  | .rank1 x y => if IsRoot m x ∧ IsRoot m y then 4 else 9
  | .rank2 x y r => if IsRoot m x ∧ IsRoot m y ∧ (m.cell x).rank = r then 3 else 8
  | .cas x _ r _ => if IsRoot m x ∧ (m.cell x).rank = r then 2 else 7
  | .bump _ _ => 1

/-- Steps left inside `find`, zero elsewhere. -/
noncomputable def sub (m : DMem) : Pc → ℕ
  | .find f _ => fm m f
  | _ => 0

/-- The local measure. -/
noncomputable def lm (m : DMem) (p : Pc) : ℕ := lvl m p * (4 * (m.size + 1)) + sub m p

theorem sub_lt (m : DMem) (p : Pc) : sub m p < 4 * (m.size + 1) := by
  cases p with
  | find f k =>
    have h := fun x => above_le m x
    cases f with
    | f0 i => simp only [sub, fm]; have := h i; omega
    | f1 i => simp only [sub, fm]; have := h i; omega
    | f2 i v => simp only [sub, fm]; have := h i; omega
    | f3 i v np => simp only [sub, fm]; have := h i; omega
  | _ => simp [sub]

theorem Same.lm {m m' : DMem} (h : Same m m') (p : Pc) : lm m' p = lm m p := by
  have h1 : lvl m' p = lvl m p := by
    cases p with
    | find f k => cases k <;> simp only [lvl, h.root]
    | _ => simp only [lvl, h.root, h.rank]
  have h2 : sub m' p = sub m p := by
    cases p with
    | find f k => cases f <;> simp only [sub, fm, h.above]
    | _ => rfl
  unfold DSet.lm
  rw [h1, h2, h.size]

theorem lm_lt_of_lvl {m : DMem} {p q : Pc} (h : lvl m q < lvl m p) : lm m q < lm m p := by
  have hs := sub_lt m q
  unfold lm
  have : (lvl m q + 1) * (4 * (m.size + 1)) ≤ lvl m p * (4 * (m.size + 1)) :=
    Nat.mul_le_mul_right _ h
  rw [Nat.add_mul] at this
  omega

theorem ret_lvl {m : DMem} {id : ℕ} {k : Cont} {f : FindPc} (hr : IsRoot m id) {q : Pc}
    (hq : ret id k = some q) : lvl m q < lvl m (.find f k) := by
  cases k with
  | same1 y => simp only [ret, Option.some.injEq] at hq; subst hq; simp [lvl, hr]
  | same2 y =>
    simp only [ret] at hq
    split_ifs at hq with h1
    simp only [Option.some.injEq] at hq; subst hq
    by_cases hy : IsRoot m y <;> simp [lvl, hy]
  | unite1 y => simp only [ret, Option.some.injEq] at hq; subst hq; simp [lvl, hr]
  | unite2 y =>
    simp only [ret] at hq
    split_ifs at hq with h1
    simp only [Option.some.injEq] at hq; subst hq
    by_cases hy : IsRoot m y <;> simp [lvl, hy, hr]

/-- Every operation removes a root, or ends the work on a bond without adding a root, or leaves
roots and ranks as they are and lowers the local measure. -/
theorem stepPc_measure (sp : Bool) {m : DMem} {a b : ℕ} (p : Pc) (hp : LInv m a b p) {m' : DMem} {p' : Option Pc}
    (hs : stepPc sp m a b p = some (m', p')) :
    numRoots m' < numRoots m ∨ (p' = none ∧ numRoots m' = numRoots m) ∨
      ∃ q, p' = some q ∧ Same m m' ∧ lm m' q < lm m p := by
  cases p with
  | find f k =>
    obtain ⟨hf, hpair⟩ := hp
    have hi : f.id < m.size := hpair.1
    cases f with
    | f0 i =>
      simp only [FindPc.id] at hi
      simp only [stepPc, load_some hi, Option.map_some, Option.some.injEq, Prod.mk.injEq] at hs
      obtain ⟨rfl, rfl⟩ := hs
      by_cases he : (m.cell i).parent = i
      · rw [if_pos he]
        cases hq : ret i k with
        | none => exact .inr (.inl ⟨rfl, rfl⟩)
        | some q => exact .inr (.inr ⟨q, rfl, Same.rfl', lm_lt_of_lvl (ret_lvl he hq)⟩)
      · rw [if_neg he]
        refine .inr (.inr ⟨_, rfl, Same.rfl', ?_⟩)
        have : lvl m (.find (.f1 i) k) = lvl m (.find (.f0 i) k) := by cases k <;> rfl
        simp only [lm, this, sub, fm]; omega
    | f1 i =>
      simp only [FindPc.id] at hi
      simp only [stepPc, load_some hi, Option.map_some, Option.some.injEq, Prod.mk.injEq] at hs
      obtain ⟨rfl, rfl⟩ := hs
      refine .inr (.inr ⟨_, rfl, Same.rfl', ?_⟩)
      have : lvl m (.find (.f2 i (m.cell i)) k) = lvl m (.find (.f1 i) k) := by cases k <;> rfl
      simp only [lm, this, sub, fm]; omega
    | f2 i v =>
      obtain ⟨h1, h2, h3, h4, h5⟩ := hf
      simp only [FindPc.id] at hi
      simp only [stepPc, load_some h3, Option.map_some, Option.some.injEq, Prod.mk.injEq] at hs
      obtain ⟨rfl, rfl⟩ := hs
      refine .inr (.inr ⟨_, rfl, Same.rfl', ?_⟩)
      by_cases he : (m.cell v.parent).parent = v.parent
      · rw [if_neg (not_not.mpr he)]
        have hl : lvl m (.find (.f0 (m.cell v.parent).parent) k) = lvl m (.find (.f2 i v) k) := by
          cases k <;> rfl
        have := above_lt h4 h3
        rw [he] at hl ⊢
        simp only [lm, hl, sub, fm]; omega
      · rw [if_pos he]
        have hl : lvl m (.find (.f3 i v (m.cell v.parent).parent) k) =
            lvl m (.find (.f2 i v) k) := by cases k <;> rfl
        simp only [lm, hl, sub, fm]; omega
    | f3 i v np =>
      obtain ⟨h1, h2, h3, h4, h5⟩ := hf
      simp only [FindPc.id] at hi
      simp only [stepPc, load_some hi, Option.map_some, Option.some.injEq, Prod.mk.injEq] at hs
      obtain ⟨rfl, rfl⟩ := hs
      have hsame : Same m (if m.cell i = v ∧ sp = false then m.store i ⟨v.rank, np⟩ else m) := by
        split_ifs with hc
        · refine ⟨rfl, fun x => ?_, fun x => ?_⟩
          · rw [store_cell]; split_ifs with hx
            · subst hx; exact h2
            · rfl
          · unfold IsRoot
            rw [store_cell]; split_ifs with hx
            · subst hx; exact ⟨fun h => absurd h h4.ne, fun h => absurd h h1⟩
            · rfl
        · exact Same.rfl'
      refine .inr (.inr ⟨_, rfl, hsame, ?_⟩)
      rw [hsame.lm]
      have hl : lvl m (.find (.f0 np) k) = lvl m (.find (.f3 i v np) k) := by cases k <;> rfl
      have := above_lt h4 h3
      simp only [lm, hl, sub, fm]; omega
  | sameCheck x y =>
    have hx : x < m.size := hp.1
    simp only [stepPc, load_some hx, Option.map_some, Option.some.injEq, Prod.mk.injEq] at hs
    obtain ⟨rfl, rfl⟩ := hs
    refine .inr (.inr ⟨_, rfl, Same.rfl', lm_lt_of_lvl ?_⟩)
    by_cases he : (m.cell x).parent = x
    · rw [if_pos he]; simp [lvl, IsRoot, he]
    · rw [if_neg he]; simp [lvl, IsRoot, he]
  | rank1 x y =>
    have hx : x < m.size := hp.1.1
    simp only [stepPc, load_some hx, Option.map_some, Option.some.injEq, Prod.mk.injEq] at hs
    obtain ⟨rfl, rfl⟩ := hs
    refine .inr (.inr ⟨_, rfl, Same.rfl', lm_lt_of_lvl ?_⟩)
    by_cases h1 : IsRoot m x <;> by_cases h2 : IsRoot m y <;> simp [lvl, h1, h2]
  | rank2 x y r =>
    obtain ⟨hpair, hne, hr⟩ := hp
    have hy : y < m.size := hpair.2.1
    simp only [stepPc, load_some hy, Option.map_some, Option.some.injEq, Prod.mk.injEq] at hs
    obtain ⟨rfl, rfl⟩ := hs
    refine .inr (.inr ⟨_, rfl, Same.rfl', lm_lt_of_lvl ?_⟩)
    by_cases hfr : IsRoot m x ∧ IsRoot m y ∧ (m.cell x).rank = r
    · split_ifs with hc
      · simp [lvl, hfr.1, hfr.2.1, hfr.2.2]
      · simp [lvl, hfr.1, hfr.2.1, hfr.2.2]
    · have h8 : lvl m (.rank2 x y r) = 8 := by simp only [lvl, if_neg hfr]
      rw [h8]
      split_ifs with hc <;> simp only [lvl] <;> split_ifs <;> omega
  | cas x y r1 r2 =>
    obtain ⟨hpair, hr, hk⟩ := hp
    have hx : x < m.size := hpair.1
    by_cases hc : m.cell x = ⟨r1, x⟩
    · simp only [stepPc, load_some hx, Option.map_some, if_pos hc, Option.some.injEq,
        Prod.mk.injEq] at hs
      obtain ⟨rfl, -⟩ := hs
      left
      have hne : y ≠ x := by
        rintro rfl
        have : (m.cell y).rank = r1 := by rw [hc]
        omega
      unfold numRoots
      refine Finset.card_lt_card ⟨fun z hz => ?_, fun hcon => ?_⟩
      · rw [mem_roots] at hz ⊢
        refine ⟨hz.1, ?_⟩
        have h2 := hz.2
        rw [store_cell] at h2
        by_cases hzx : z = x
        · subst hzx; rw [hc]
        · rwa [if_neg hzx] at h2
      · have := hcon (mem_roots.mpr ⟨hx, by rw [hc]⟩)
        rw [mem_roots, store_cell, if_pos rfl] at this
        exact hne this.2
    · simp only [stepPc, load_some hx, Option.map_some, if_neg hc, Option.some.injEq,
        Prod.mk.injEq] at hs
      obtain ⟨rfl, rfl⟩ := hs
      refine .inr (.inr ⟨_, rfl, Same.rfl', lm_lt_of_lvl ?_⟩)
      have hst : ¬ (IsRoot m x ∧ (m.cell x).rank = r1) := by
        rintro ⟨h1, h2⟩
        apply hc
        unfold IsRoot at h1
        cases hcell : m.cell x with
        | mk r p => rw [hcell] at h1 h2; simp only at h1 h2; rw [h1, h2]
      simp only [lvl, if_neg hst]; omega
  | bump x r =>
    have hx : x < m.size := hp.1
    simp only [stepPc, load_some hx, Option.map_some, Option.some.injEq, Prod.mk.injEq] at hs
    obtain ⟨rfl, rfl⟩ := hs
    refine .inr (.inl ⟨rfl, ?_⟩)
    split_ifs with hc
    · unfold numRoots
      congr 1
      ext z
      rw [mem_roots, mem_roots, store_cell]
      split_ifs with hz
      · subst hz; rw [hc.1]; rfl
      · rfl
    · rfl

end DSet
end Freud
