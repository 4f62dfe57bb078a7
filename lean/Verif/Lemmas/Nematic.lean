import Verif.Model.Nematic
import Verif.Lemmas.Storage
import Mathlib.Tactic.LinearCombination
import Mathlib.Tactic.FieldSimp
import Mathlib.Tactic.Positivity
import Mathlib.Tactic.IntervalCases
import Mathlib.Analysis.Matrix.Spectrum
import Mathlib.Data.Fin.Tuple.Sort

/-!
# Helper lemmas for the nematic order parameter
-/

namespace Freud
open Spec
namespace Nematic

theorem qab_length (o : Vec3 ℝ) : (qab o).length = 9 := rfl

/-- The particle tensor after all iterations of the loop. -/
theorem particle_fold (n : ℕ) (q : ℕ → List ℝ) (hq : ∀ i, (q i).length = 9) (ev : List (ℕ × ℕ))
    (hev : ∀ e ∈ ev, e.2 < n) (a : MArray ℝ) (ha : a.data.length = 9 * n) :
    ∃ a', ev.foldlM (fun a e => writeRow (e.2 * 9) (q e.2) a) a = some a' ∧ a'.shape = a.shape ∧
      a'.data.length = 9 * n ∧ ∀ i k, k < 9 → a'.data.getD (9 * i + k) 0 =
        if i ∈ ev.map (·.2) then (q i).getD k 0 else a.data.getD (9 * i + k) 0 := by
  induction ev generalizing a with
  | nil => exact ⟨a, rfl, rfl, ha, fun i k _ => by simp⟩
  | cons e es ih =>
    have hlt := hev e List.mem_cons_self
    obtain ⟨a1, e1, s1, l1, v1⟩ := writeCells_spec (q e.2) (e.2 * 9) 0 a (by rw [hq]; omega)
    obtain ⟨a2, e2, s2, l2, v2⟩ := ih (fun e h => hev e (List.mem_cons_of_mem _ h)) a1 (by omega)
    refine ⟨a2, ?_, s2.trans s1, l2, fun i k hk => ?_⟩
    · rw [List.foldlM_cons]
      have : writeRow (e.2 * 9) (q e.2) a = some a1 := e1
      simp [this, e2]
    · rw [v2 i k hk, v1 (9 * i + k), hq]
      by_cases hm : i ∈ es.map (·.2)
      · rw [if_pos hm, if_pos (by simp only [List.map_cons, List.mem_cons]; exact Or.inr hm)]
      · rw [if_neg hm]
        by_cases hi : i = e.2
        · subst hi
          rw [if_pos (by omega), if_pos (by simp)]
          congr 1
          omega
        · rw [if_neg (by omega), if_neg (by simp only [List.map_cons, List.mem_cons, not_or]; exact ⟨hi, hm⟩)]

/-- The total added to cell `c` of the nematic tensor. -/
theorem cellTotal_qab (n : ℕ) (q : ℕ → List ℝ) (hq : ∀ i, (q i).length = 9) (c : ℕ) (hc : c < 9) :
    cellTotal n (fun i => (q i).zipIdx.map (fun p => (p.2, p.1))) c =
      ((List.range n).map (fun i => (q i).getD c 0)).sum := by
  unfold cellTotal
  rw [sum_flatMap_filter]
  congr 1
  apply List.map_congr_left
  intro i _
  obtain ⟨a0, a1, a2, a3, a4, a5, a6, a7, a8, e⟩ : ∃ a0 a1 a2 a3 a4 a5 a6 a7 a8,
      q i = [a0, a1, a2, a3, a4, a5, a6, a7, a8] := by
    have h := hq i
    rcases hqi : q i with _ | ⟨a0, _ | ⟨a1, _ | ⟨a2, _ | ⟨a3, _ | ⟨a4, _ | ⟨a5, _ | ⟨a6, _ | ⟨a7, _ | ⟨a8, _ | ⟨a9, l⟩⟩⟩⟩⟩⟩⟩⟩⟩⟩ <;>
      rw [hqi] at h <;> simp at h
    exact ⟨_, _, _, _, _, _, _, _, _, rfl⟩
  rw [e]
  interval_cases c <;> simp [List.filter_cons]

end Nematic
end Freud
