import Verif.Model.BondLoop
import Verif.Props.NeighborList

/-!
# What the bond loop computes
-/

namespace Freud

/-- Specification: the blocks `(begin, end)` cover the indices below `N`, each exactly once. -/
def Spec.Blocks (N : ℕ) (blocks : List (ℕ × ℕ)) : Prop :=
  (blocks.flatMap (fun be => List.range' be.1 (be.2 - be.1))).Perm (List.range N)

/-- Specification: `split N` divides every loop of `N` iterations into blocks. -/
def Spec.Splits (split : ℕ → List (ℕ × ℕ)) : Prop := ∀ N, Blocks N (split N)

open Spec

/-- A loop executed in one block. -/
theorem splits_one : Splits (fun N => [(0, N)]) := by
  intro N
  unfold Blocks
  simp [List.range_eq_range']

/-- A loop executed from the end, one iteration per block. -/
theorem splits_reverse : Splits (fun N => ((List.range N).map (fun i => (i, i + 1))).reverse) := by
  intro N
  unfold Blocks
  beta_reduce
  rw [← List.map_reverse, List.flatMap_map]
  simp only [Nat.add_sub_cancel_left, List.range'_one]
  rw [List.flatMap_singleton']
  exact List.reverse_perm _

namespace BondLoop
variable {K : Type*} {V : Type*}

theorem inner_spec (n : NList K) (hn : GoodList n) (f : ℕ → Bond K → Option V) (g : Bond K → V)
    (i bond : ℕ) (arr : ℕ → V)
    (hb : bond ≤ n.bonds.length)
    (hge : ∀ k b, n.bonds[k]? = some b → bond ≤ k → i ≤ b.q)
    (hlt : ∀ k b, n.bonds[k]? = some b → k < bond → b.q ≤ i)
    (hf : ∀ b ∈ n.bonds, b.q = i → f i b = some (g b)) :
    ∃ c arr', inner n f i bond arr = some (c, arr') ∧ bond ≤ c ∧ c ≤ n.bonds.length ∧
      (∀ k b, n.bonds[k]? = some b → (k < c ↔ b.q ≤ i)) ∧
      ∀ k b, n.bonds[k]? = some b → arr' k = if bond ≤ k ∧ b.q = i then g b else arr k := by
  obtain ⟨m, hm⟩ : ∃ m, m = n.bonds.length - bond := ⟨_, rfl⟩
  induction m using Nat.strong_induction_on generalizing bond arr with
  | _ m ih =>
    rw [inner]
    by_cases h : bond < n.bonds.length
    · rw [dif_pos h]
      have hget : n.bonds[bond]? = some n.bonds[bond] := List.getElem?_eq_getElem h
      by_cases hq : n.bonds[bond].q = i
      · rw [if_pos hq, hf _ (List.getElem_mem h) hq, Option.bind_some]
        obtain ⟨c, arr', e, h1, h2, h3, h4⟩ := ih (n.bonds.length - (bond + 1)) (by omega) (bond + 1)
          (Function.update arr bond (g n.bonds[bond])) (by omega)
          (fun k b hk hle => hge k b hk (by omega))
          (fun k b hk hle => by
            rcases Nat.lt_succ_iff_lt_or_eq.1 hle with h' | rfl
            · exact hlt k b hk h'
            · rw [hget] at hk; cases hk; exact hq.le) rfl
        refine ⟨c, arr', e, by omega, h2, h3, fun k b hk => ?_⟩
        rw [h4 k b hk]
        by_cases hkb : k = bond
        · subst hkb
          rw [hget] at hk; cases hk
          simp [hq]
        · rw [Function.update_of_ne hkb]
          have : (bond + 1 ≤ k ↔ bond ≤ k) := by omega
          simp only [this]
      · rw [if_neg hq]
        have hgt : ∀ k b, n.bonds[k]? = some b → bond ≤ k → i < b.q := by
          intro k b hk hle
          have h0 := hge bond _ hget le_rfl
          have h1 : n.bonds[bond].q ≤ b.q := by
            rcases Nat.lt_or_ge bond k with hlt' | hge'
            · obtain ⟨hk', rfl⟩ := List.getElem?_eq_some_iff.mp hk
              have := List.pairwise_iff_getElem.mp hn.sorted bond k (by simpa using h)
                (by simpa using hk') hlt'
              simpa using this
            · have : k = bond := by omega
              subst this
              rw [hget] at hk; cases hk; exact le_rfl
          omega
        refine ⟨bond, arr, rfl, le_rfl, hb, fun k b hk => ?_, fun k b hk => ?_⟩
        · constructor
          · exact fun h' => hlt k b hk h'
          · intro h'
            by_contra hc
            have := hgt k b hk (by omega)
            omega
        · rw [if_neg]
          rintro ⟨h1, h2⟩
          have := hgt k b hk h1
          omega
    · rw [dif_neg h]
      refine ⟨bond, arr, rfl, le_rfl, hb, fun k b hk => ?_, fun k b hk => ?_⟩
      · obtain ⟨hk', -⟩ := List.getElem?_eq_some_iff.mp hk
        exact ⟨fun h' => hlt k b hk h', fun _ => by omega⟩
      · obtain ⟨hk', -⟩ := List.getElem?_eq_some_iff.mp hk
        rw [if_neg]
        rintro ⟨h1, -⟩
        omega

theorem points_spec (n : NList K) (hn : GoodList n) (f : ℕ → Bond K → Option V) (g : Bond K → V)
    (len : ℕ) (i bond : ℕ) (arr : ℕ → V) (hb : bond ≤ n.bonds.length)
    (hcur : ∀ k b, n.bonds[k]? = some b → (bond ≤ k ↔ i ≤ b.q))
    (hf : ∀ b ∈ n.bonds, i ≤ b.q → b.q < i + len → f b.q b = some (g b)) :
    ∃ c arr', points n f (List.range' i len) bond arr = some (c, arr') ∧
      ∀ k b, n.bonds[k]? = some b → arr' k = if i ≤ b.q ∧ b.q < i + len then g b else arr k := by
  induction len generalizing i bond arr with
  | zero =>
    refine ⟨bond, arr, rfl, fun k b _ => ?_⟩
    rw [if_neg]; omega
  | succ len ih =>
    obtain ⟨c, arr1, e1, -, h2, h3, h4⟩ := inner_spec n hn f g i bond arr hb
      (fun k b hk hle => (hcur k b hk).1 hle)
      (fun k b hk hlt => by
        by_contra hc
        have := (hcur k b hk).2 (by omega)
        omega)
      (fun b hb' hq => by have := hf b hb' (by omega) (by omega); rwa [hq] at this)
    obtain ⟨c', arr2, e2, h5⟩ := ih (i + 1) c arr1 h2
      (fun k b hk => by
        have := h3 k b hk
        omega)
      (fun b hb' h1 h2 => hf b hb' (by omega) (by omega))
    refine ⟨c', arr2, ?_, fun k b hk => ?_⟩
    · rw [List.range'_succ, points, e1, Option.bind_some]
      exact e2
    · rw [h5 k b hk, h4 k b hk]
      by_cases hq : b.q = i
      · have hk' : bond ≤ k := (hcur k b hk).2 (by omega)
        rw [if_neg (by omega), if_pos ⟨hk', hq⟩, if_pos (by omega)]
      · rw [if_neg (c := bond ≤ k ∧ b.q = i) (fun h => hq h.2)]
        by_cases h6 : i + 1 ≤ b.q ∧ b.q < i + 1 + len
        · rw [if_pos h6, if_pos (by omega)]
        · rw [if_neg h6, if_neg (by omega)]

/-- Whatever the blocks and their order, every bond whose query index is below `N` gets its value, and no
other bond is touched. -/
theorem run_spec (n : NList K) (hn : GoodList n) (f : ℕ → Bond K → Option V) (g : Bond K → V)
    (N : ℕ) (blocks : List (ℕ × ℕ)) (hbl : Blocks N blocks) (arr : ℕ → V)
    (hf : ∀ b ∈ n.bonds, b.q < N → f b.q b = some (g b)) :
    ∃ arr', run n f blocks arr = some arr' ∧
      ∀ k b, n.bonds[k]? = some b → arr' k = if b.q < N then g b else arr k := by
  have hmem : ∀ be ∈ blocks, ∀ i, be.1 ≤ i → i < be.2 → i < N := by
    intro be hbe i h1 h2
    have : i ∈ List.range N := hbl.mem_iff.1 (List.mem_flatMap.2 ⟨be, hbe, by
      rw [List.mem_range'_1]; omega⟩)
    exact List.mem_range.1 this
  have key : ∀ (bs : List (ℕ × ℕ)) (arr : ℕ → V), (∀ be ∈ bs, be ∈ blocks) →
      ∃ arr', run n f bs arr = some arr' ∧
        ∀ k b, n.bonds[k]? = some b →
          arr' k = if b.q ∈ bs.flatMap (fun be => List.range' be.1 (be.2 - be.1)) then g b else arr k := by
    intro bs
    induction bs with
    | nil => intro arr _; exact ⟨arr, rfl, fun k b _ => by simp⟩
    | cons be bs ih =>
      intro arr hsub
      obtain ⟨hfi, hcur⟩ := C15_find_first_index n hn be.1
      obtain ⟨c, arr1, e1, h1⟩ := points_spec n hn f g (be.2 - be.1) be.1 (n.findFirstIndex be.1) arr hfi
        hcur (fun b hb h1 h2 => hf b hb (hmem be (hsub _ (List.mem_cons_self ..)) b.q h1 (by omega)))
      obtain ⟨arr2, e2, h2⟩ := ih arr1 (fun x hx => hsub x (List.mem_cons_of_mem _ hx))
      refine ⟨arr2, ?_, fun k b hk => ?_⟩
      · rw [run, block, e1, Option.map_some, Option.bind_some]; exact e2
      · rw [h2 k b hk, h1 k b hk]
        simp only [List.flatMap_cons, List.mem_append, List.mem_range'_1]
        by_cases h3 : b.q ∈ bs.flatMap (fun be => List.range' be.1 (be.2 - be.1))
        · rw [if_pos h3, if_pos (Or.inr h3)]
        · rw [if_neg h3]
          by_cases h4 : be.1 ≤ b.q ∧ b.q < be.1 + (be.2 - be.1)
          · rw [if_pos h4, if_pos (Or.inl h4)]
          · rw [if_neg h4, if_neg (by tauto)]
  obtain ⟨arr', e, h⟩ := key blocks arr (fun _ h => h)
  refine ⟨arr', e, fun k b hk => ?_⟩
  rw [h k b hk]
  have : b.q ∈ blocks.flatMap (fun be => List.range' be.1 (be.2 - be.1)) ↔ b.q < N := by
    rw [hbl.mem_iff, List.mem_range]
  simp only [this]

end BondLoop
end Freud
