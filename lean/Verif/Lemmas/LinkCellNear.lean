import Verif.Lemmas.LinkCell

/-!
# Lemmas on the nearest-neighbor search of cell lists
-/

namespace Freud
namespace LinkCell
open Spec

theorem advance_spec {lc : LinkCell} {q : Vec3 ℝ} {T : ℕ}
    (hT : CellShell.at' lc.box.is2D T = CellShell.reset lc.box.is2D lc.maxRange)
    (hne : ∀ u, u < T → CellShell.at' lc.box.is2D u ≠ CellShell.reset lc.box.is2D lc.maxRange) :
    ∀ (fuel t : ℕ) (S : Finset ℕ) (a : CellShell × Finset ℕ × ℕ), t < T →
    lc.advance q fuel (CellShell.at' lc.box.is2D t) S = some a →
    ∃ t', t < t' ∧ t' ≤ T ∧ a.1 = CellShell.at' lc.box.is2D t' ∧
      (∀ u, t < u → u < t' → lc.seq q u ∈ S) ∧
      ((t' = T ∧ a.2.1 = S) ∨
        (t' < T ∧ a.2.2 = lc.seq q t' ∧ lc.seq q t' ∉ S ∧ a.2.1 = insert (lc.seq q t') S)) := by
  intro fuel
  induction fuel with
  | zero => intro t S a _ h; cases h
  | succ fuel ih =>
    intro t S a htT h
    rw [advance] at h
    simp only [at_step] at h
    by_cases he : CellShell.at' lc.box.is2D (t + 1) = CellShell.reset lc.box.is2D lc.maxRange
    · rw [if_pos he] at h
      cases h
      have : t + 1 = T := by
        by_contra hn
        exact hne (t + 1) (by omega) he
      exact ⟨t + 1, by omega, by omega, rfl, fun u h1 h2 => by omega, Or.inl ⟨this, rfl⟩⟩
    · rw [if_neg he] at h
      have htT' : t + 1 < T := by
        rcases Nat.lt_or_ge (t + 1) T with hl | hl
        · exact hl
        · obtain e : t + 1 = T := by omega
          rw [e] at he
          exact absurd hT he
      change (if lc.seq q (t + 1) ∈ S then _ else
        some (CellShell.at' lc.box.is2D (t + 1), insert (lc.seq q (t + 1)) S, lc.seq q (t + 1))) =
          some a at h
      by_cases hc : lc.seq q (t + 1) ∈ S
      · rw [if_pos hc] at h
        obtain ⟨t', h1, h2, h3, h4, h5⟩ := ih _ _ _ htT' h
        refine ⟨t', by omega, h2, h3, fun u g1 g2 => ?_, h5⟩
        rcases Nat.lt_or_ge (t + 1) u with hl | hl
        · exact h4 u hl g2
        · obtain rfl : u = t + 1 := by omega
          exact hc
      · rw [if_neg hc] at h
        cases h
        exact ⟨t + 1, by omega, by omega, rfl, fun u h1 h2 => by omega,
          Or.inr ⟨htT', rfl, hc, rfl⟩⟩

theorem advance_isSome {lc : LinkCell} {q : Vec3 ℝ} {T : ℕ}
    (hT : CellShell.at' lc.box.is2D T = CellShell.reset lc.box.is2D lc.maxRange) :
    ∀ (fuel t : ℕ) (S : Finset ℕ), t < T → T ≤ fuel + t →
    ∃ a, lc.advance q fuel (CellShell.at' lc.box.is2D t) S = some a := by
  intro fuel
  induction fuel with
  | zero => intro t S h1 h2; omega
  | succ fuel ih =>
    intro t S htT hf
    rw [advance]
    simp only [at_step]
    by_cases he : CellShell.at' lc.box.is2D (t + 1) = CellShell.reset lc.box.is2D lc.maxRange
    · rw [if_pos he]; exact ⟨_, rfl⟩
    · rw [if_neg he]
      split
      · refine ih _ _ ?_ (by omega)
        rcases Nat.lt_or_ge (t + 1) T with hl | hl
        · exact hl
        · obtain e : t + 1 = T := by omega
          rw [e] at he
          exact absurd hT he
      · exact ⟨_, rfl⟩

/-- The state of the outer loop: the cells searched so far, and the set of all cells met. -/
structure NearInv (lc : LinkCell) (q : Vec3 ℝ) (t : ℕ) (S : Finset ℕ) (cells : List ℕ) (c : ℕ) :
    Prop where
  nodup : cells.Nodup
  cell : c = lc.seq q t
  new : c ∉ cells
  mem : ∀ x, x ∈ S ↔ x ∈ cells ∨ x = c
  walked : ∀ x, x ∈ S ↔ ∃ u ≤ t, lc.seq q u = x

theorem nearLoop_spec {lc : LinkCell} (hg : Good lc) (q : Vec3 ℝ) (qi k : ℕ) (rMax : WithTop ℝ)
    (rMin : ℝ) (excl : Bool) {T : ℕ}
    (hT : CellShell.at' lc.box.is2D T = CellShell.reset lc.box.is2D lc.maxRange)
    (hne : ∀ u, u < T → CellShell.at' lc.box.is2D u ≠ CellShell.reset lc.box.is2D lc.maxRange) :
    ∀ (fuel t : ℕ) (S : Finset ℕ) (cells : List ℕ) (c : ℕ) (out : List (Bond ℝ)),
    t < T → NearInv lc q t S cells c →
    lc.nearLoop q qi k rMax rMin excl fuel (CellShell.at' lc.box.is2D t) S c
      (cells.flatMap (lc.found q qi rMax rMin excl)) = some out →
    ∃ cells' : List ℕ, cells'.Nodup ∧ out = cells'.flatMap (lc.found q qi rMax rMin excl) ∧
      ∃ t' ≤ T, (∀ x, x ∈ cells' ↔ ∃ u < t', lc.seq q u = x) ∧
        (t' = T ∨ (k ≤ out.length ∧ ∃ d, kthDist k out = some d ∧
          d < (((CellShell.at' lc.box.is2D t').range - 1 : ℤ) : ℝ) * lc.width)) := by
  intro fuel
  induction fuel with
  | zero => intro t S cells c out _ _ h; cases h
  | succ fuel ih =>
    intro t S cells c out htT inv h
    have hclt : c < lc.dim.x * lc.dim.y * lc.dim.z := by rw [inv.cell]; exact seq_lt hg q t
    rw [nearLoop, if_neg (hne t htT), cellBonds_eq hg _ _ _ _ _ hclt, Option.bind_some,
      Option.bind_eq_some_iff] at h
    obtain ⟨a, ha, h⟩ := h
    obtain ⟨t', h1, h2, h3, h4, h5⟩ := advance_spec hT hne fuel t S a htT ha
    simp only at h
    have hfm : cells.flatMap (lc.found q qi rMax rMin excl) ++ lc.found q qi rMax rMin excl c =
        (cells ++ [c]).flatMap (lc.found q qi rMax rMin excl) := by simp
    rw [hfm, h3] at h
    have hnd : (cells ++ [c]).Nodup := by
      rw [List.nodup_append]
      refine ⟨inv.nodup, by simp, ?_⟩
      intro x hx y hy
      rw [List.mem_singleton] at hy
      subst hy
      intro he
      subst he
      exact inv.new hx
    have hmem : ∀ x, x ∈ cells ++ [c] ↔ ∃ u < t', lc.seq q u = x := by
      intro x
      rw [List.mem_append, List.mem_singleton, ← inv.mem, inv.walked]
      constructor
      · rintro ⟨u, hu, e⟩; exact ⟨u, by omega, e⟩
      · rintro ⟨u, hu, rfl⟩
        rcases Nat.lt_or_ge t u with hl | hl
        · exact (inv.walked _).mp (h4 u hl hu)
        · exact ⟨u, hl, rfl⟩
    by_cases hstop : k ≤ ((cells ++ [c]).flatMap (lc.found q qi rMax rMin excl)).length ∧
        ((kthDist k ((cells ++ [c]).flatMap (lc.found q qi rMax rMin excl))).any fun d =>
          decide (d < (((CellShell.at' lc.box.is2D t').range - 1 : ℤ) : ℝ) * lc.width)) = true
    · rw [if_pos hstop] at h
      cases h
      refine ⟨_, hnd, rfl, t', h2, hmem, Or.inr ⟨hstop.1, ?_⟩⟩
      obtain ⟨-, hany⟩ := hstop
      cases hkd : kthDist k ((cells ++ [c]).flatMap (lc.found q qi rMax rMin excl)) with
      | none => rw [hkd] at hany; cases hany
      | some d =>
        rw [hkd, Option.any_some, decide_eq_true_eq] at hany
        exact ⟨d, rfl, hany⟩
    · rw [if_neg hstop] at h
      rcases h5 with ⟨rfl, h6⟩ | ⟨h6, h7, h8, h9⟩
      · cases fuel with
        | zero => cases h
        | succ fuel =>
          rw [nearLoop, if_pos hT] at h
          cases h
          exact ⟨_, hnd, rfl, t', le_rfl, hmem, Or.inl rfl⟩
      · rw [h7, h9] at h
        refine ih t' _ (cells ++ [c]) _ out h6 ⟨hnd, rfl, ?_, fun x => ?_, fun x => ?_⟩ h
        · intro hx
          rw [List.mem_append, List.mem_singleton, ← inv.mem] at hx
          exact h8 hx
        · rw [Finset.mem_insert, inv.mem, List.mem_append, List.mem_singleton]
          exact or_comm
        · rw [Finset.mem_insert]
          constructor
          · rintro (rfl | hx)
            · exact ⟨t', le_rfl, rfl⟩
            · obtain ⟨u, hu, e⟩ := (inv.walked x).mp hx
              exact ⟨u, by omega, e⟩
          · rintro ⟨u, hu, rfl⟩
            rcases Nat.lt_or_ge u t' with hl | hl
            · right
              rcases Nat.lt_or_ge t u with hl' | hl'
              · exact h4 u hl' hl
              · exact (inv.walked _).mpr ⟨u, hl', rfl⟩
            · obtain rfl : u = t' := by omega
              exact Or.inl rfl

theorem nearLoop_isSome {lc : LinkCell} (hg : Good lc) (q : Vec3 ℝ) (qi k : ℕ) (rMax : WithTop ℝ)
    (rMin : ℝ) (excl : Bool) {T : ℕ}
    (hT : CellShell.at' lc.box.is2D T = CellShell.reset lc.box.is2D lc.maxRange)
    (hne : ∀ u, u < T → CellShell.at' lc.box.is2D u ≠ CellShell.reset lc.box.is2D lc.maxRange) :
    ∀ (fuel t : ℕ) (S : Finset ℕ) (c : ℕ) (cur : List (Bond ℝ)), t ≤ T → T + 1 ≤ fuel + t →
    (t < T → c = lc.seq q t) →
    ∃ out, lc.nearLoop q qi k rMax rMin excl fuel (CellShell.at' lc.box.is2D t) S c cur =
      some out := by
  intro fuel
  induction fuel with
  | zero => intro t S c cur h1 h2; omega
  | succ fuel ih =>
    intro t S c cur htT hf hc
    rcases Nat.lt_or_ge t T with hlt | hge
    · have hclt : c < lc.dim.x * lc.dim.y * lc.dim.z := by rw [hc hlt]; exact seq_lt hg q t
      obtain ⟨a, ha⟩ := advance_isSome (q := q) hT fuel t S hlt (by omega)
      rw [nearLoop, if_neg (hne t hlt), cellBonds_eq hg _ _ _ _ _ hclt, Option.bind_some, ha,
        Option.bind_some]
      simp only
      split
      · exact ⟨_, rfl⟩
      · obtain ⟨t', h1, h2, h3, h4, h5⟩ := advance_spec hT hne fuel t S a hlt ha
        rw [h3]
        refine ih t' _ _ _ h2 (by omega) fun hl => ?_
        rcases h5 with ⟨rfl, -⟩ | ⟨-, h7, -⟩
        · omega
        · exact h7
    · obtain rfl : t = T := by omega
      rw [nearLoop, if_pos hT]
      exact ⟨_, rfl⟩

/-- The end of the walk of a nearest-neighbor query. -/
theorem near_limit {lc : LinkCell} (hg : Good lc) :
    ∃ T, 0 < T ∧ CellShell.at' lc.box.is2D T = CellShell.reset lc.box.is2D lc.maxRange ∧
      (∀ u, u < T → CellShell.at' lc.box.is2D u ≠ CellShell.reset lc.box.is2D lc.maxRange) ∧
      ∀ u, T ≤ u → minPlane lc.box / 2 ≤
        ((chebyshev (CellShell.at' lc.box.is2D u).offset : ℝ) - 1) * lc.width := by
  have hw := hg.wpos
  obtain ⟨T, hT, hlt⟩ := CellShell.C24_shell_start lc.box.is2D lc.maxRange
  have hT' := fun u => (CellShell.C24_outwards lc.box.is2D u).1
  have e0 : ∀ u, T ≤ u → lc.maxRange ≤ chebyshev (CellShell.at' lc.box.is2D u).offset := by
    intro u hu
    have := (hlt u).not.mp (by omega)
    omega
  refine ⟨T, ?_, hT, fun u hu he => ?_, fun u hu => ?_⟩
  · rw [hlt 0]
    have e : (CellShell.at' lc.box.is2D 0).offset = ⟨0, 0, 0⟩ := rfl
    rw [e]
    unfold maxRange
    simp [chebyshev]
  · have h1 := (hlt u).mp hu
    have h2 := e0 T le_rfl
    rw [he, ← hT] at h1
    omega
  · have h1 := e0 u hu
    have h2 : ((lc.maxRange : ℕ) : ℝ) ≤ chebyshev (CellShell.at' lc.box.is2D u).offset := by
      exact_mod_cast h1
    have h3 := Nat.le_ceil (minPlane lc.box / (2 * lc.width))
    unfold maxRange at h2
    push_cast at h2
    have h4 : minPlane lc.box / (2 * lc.width) ≤
        (chebyshev (CellShell.at' lc.box.is2D u).offset : ℝ) - 1 := by linarith
    rw [div_le_iff₀ (by positivity)] at h4
    linarith

/-- At least `k` entries are no farther than the `k`-th distance. -/
theorem kthDist_spec {cur sorted : List (Bond ℝ)} {k : ℕ} (hk : 0 < k) {d : ℝ}
    (hs : sorted.Perm cur) (ho : (sorted.map Bond.dist).Pairwise (· ≤ ·))
    (h : kthDist k cur = some d) : ∀ bd ∈ sorted.take k, bd.dist ≤ d := by
  have e : (cur.map Bond.dist).mergeSort (fun a b => decide (a ≤ b)) = sorted.map Bond.dist := by
    refine List.Perm.eq_of_pairwise (le := (· ≤ ·)) ?_ ?_ ho ?_
    · intro a b _ _ h1 h2; exact le_antisymm h1 h2
    · have := List.pairwise_mergeSort (le := fun a b : ℝ => decide (a ≤ b)) (by
        intro a b c hab hbc
        simp only [decide_eq_true_eq] at *
        exact hab.trans hbc) (by
        intro a b
        simp only [Bool.or_eq_true, decide_eq_true_eq]
        exact le_total _ _) (cur.map Bond.dist)
      exact this.imp (fun h => by simpa using h)
    · exact (List.mergeSort_perm _ _).trans (hs.map _).symm
  unfold kthDist at h
  rw [e, List.getElem?_map, Option.map_eq_some_iff] at h
  obtain ⟨bk, hbk, rfl⟩ := h
  intro bd hbd
  obtain ⟨i, hi, rfl⟩ := List.mem_iff_getElem.mp hbd
  rw [List.length_take] at hi
  obtain ⟨hk1, rfl⟩ := List.getElem?_eq_some_iff.mp hbk
  rw [List.getElem_take]
  rcases Nat.lt_or_ge i (k - 1) with hl | hl
  · rw [List.pairwise_map] at ho
    exact List.pairwise_iff_getElem.mp ho i (k - 1) (by omega) hk1 hl
  · obtain rfl : i = k - 1 := by omega
    exact le_rfl

end LinkCell
end Freud
