import Verif.Model.LocalDensity
import Verif.Props.NeighborLoop
import Mathlib.Algebra.Order.BigOperators.Group.List
import Mathlib.Data.Rat.Floor
import Mathlib.Tactic.Linarith

/-!
# C39: local density
-/

namespace Freud
open Spec MArray
variable {K : Type*} [Field K] [LinearOrder K] [IsStrictOrderedRing K] [FloorRing K]

set_option linter.unusedSectionVars false

/-- The share of a sphere of the given diameter at distance `d` that is counted: 1 when it is
fully inside radius `r`, 0 when it is fully outside, and linear in between. -/
def Spec.overlap (r diameter d : K) : K :=
  if d + diameter / 2 ≤ r then 1
  else if r ≤ d - diameter / 2 then 0
  else (r + diameter / 2 - d) / diameter

/-- The area or volume of the sphere of radius `r`. -/
def Spec.ballVolume (pi : K) (is2D : Bool) (r : K) : K :=
  if is2D then pi * r ^ 2 else 4 / 3 * pi * r ^ 3

theorem contribution_eq (s : LocalDensity K) (d : K) (hD : 0 ≤ s.diameter)
    (hd : d < s.defaultRMax) : s.contribution d = overlap s.rMax s.diameter d := by
  unfold LocalDensity.contribution overlap
  unfold LocalDensity.defaultRMax at hd
  by_cases h1 : d < s.rMax - s.diameter / 2
  · rw [if_pos h1, if_pos (by linarith)]
  · rw [if_neg h1]
    push Not at h1
    have hpos : 0 < s.diameter := by
      rcases hD.lt_or_eq with h | h
      · exact h
      · rw [← h] at h1 hd
        linarith
    by_cases h2 : d + s.diameter / 2 ≤ s.rMax
    · rw [if_pos h2]
      have : s.rMax - (d + s.diameter / 2) = 0 := by linarith
      rw [this]; simp
    · rw [if_neg h2, if_neg (by push Not; linarith)]
      rw [eq_div_iff hpos.ne', add_mul, div_mul_cancel₀ _ hpos.ne']
      linarith

theorem point_spec (pi : K) (b : Box K) (s : LocalDensity K) (bonds : List (Bond K)) (num : K)
    (hne : bonds ≠ []) (x : K × K) :
    s.point pi b bonds num x = (num + (bonds.map (fun nb => s.contribution nb.dist)).sum,
      (num + (bonds.map (fun nb => s.contribution nb.dist)).sum) /
        ballVolume pi b.is2D s.rMax) := by
  induction bonds generalizing num x with
  | nil => exact absurd rfl hne
  | cons nb bonds ih =>
    unfold LocalDensity.point
    cases bonds with
    | nil =>
      simp only [LocalDensity.point, List.map_cons, List.map_nil, List.sum_cons, List.sum_nil,
        add_zero, ballVolume]
      congr 1
      split_ifs <;> ring
    | cons nb' bonds =>
      rw [ih _ (by simp)]
      simp [add_assoc]

/-- **C39**: with neighbors from the default query (all closer than `r_max + diameter / 2`), the
number of neighbors of query point `i` is the sum of the overlaps of its neighbors, and the density
is that number over the area or volume of the sphere; for every list and schedule. A query point
without neighbors has 0 in both. -/
theorem C39_local_density (pi : K) (s : LocalDensity K) (hD : 0 ≤ s.diameter) (b : Box K)
    (nQuery : ℕ) (nlist : NList K) (h : GoodList nlist)
    (hdist : ∀ nb ∈ nlist.bonds, nb.dist < s.defaultRMax) (order : List ℕ)
    (hord : order.Perm (List.range nQuery)) :
    ∃ s', s.compute pi b nQuery nlist order = some s' ∧ s'.results.data.length = nQuery ∧
      ∀ i < nQuery,
        s'.results.data[i]? = some
          (((nlist.bonds.filter (fun nb => nb.q = i)).map
              (fun nb => overlap s.rMax s.diameter nb.dist)).sum,
           ((nlist.bonds.filter (fun nb => nb.q = i)).map
              (fun nb => overlap s.rMax s.diameter nb.dist)).sum /
                ballVolume pi b.is2D s.rMax) := by
  obtain ⟨a, e, hs, hdata⟩ := C66_schedule_independent nlist h nQuery order hord
    (⟨[nQuery], List.replicate nQuery (0, 0)⟩ : MArray (K × K)) (by simp)
    (fun _ bonds x => some (s.point pi b bonds 0 x))
    (fun i => (((nlist.bonds.filter (fun nb => nb.q = i)).map
              (fun nb => overlap s.rMax s.diameter nb.dist)).sum,
           ((nlist.bonds.filter (fun nb => nb.q = i)).map
              (fun nb => overlap s.rMax s.diameter nb.dist)).sum /
                ballVolume pi b.is2D s.rMax))
    (by
      intro i x hx
      have hx0 : x = (0, 0) := by
        obtain ⟨_, e⟩ := List.getElem?_eq_some_iff.mp hx
        rw [← e]; simp
      have hmap : (nlist.bonds.filter (fun nb => decide (nb.q = i))).map
            (fun nb => s.contribution nb.dist) =
          (nlist.bonds.filter (fun nb => decide (nb.q = i))).map
            (fun nb => overlap s.rMax s.diameter nb.dist) :=
        List.map_congr_left fun nb hnb =>
          contribution_eq s _ hD (hdist nb (List.mem_filter.mp hnb).1)
      congr 1
      by_cases hne : nlist.bonds.filter (fun nb => decide (nb.q = i)) = []
      · rw [hne, hx0]; simp [LocalDensity.point]
      · rw [point_spec pi b s _ 0 hne, hmap, zero_add])
  refine ⟨{ s with results := a }, by unfold LocalDensity.compute; rw [e]; rfl, by simp [hdata], ?_⟩
  intro i hi
  show a.data[i]? = _
  rw [hdata, List.getElem?_map, List.getElem?_range hi]
  rfl

/-- **C39**: the overlap is between 0 and 1, is 1 for a neighbor fully inside and 0 for one that does
not reach in, and does not increase with the distance. -/
theorem C39_overlap (r diameter : K) (hD : 0 ≤ diameter) :
    (∀ d, 0 ≤ overlap r diameter d ∧ overlap r diameter d ≤ 1) ∧
    (∀ d, d + diameter / 2 ≤ r → overlap r diameter d = 1) ∧
    (∀ d, r < d - diameter / 2 → overlap r diameter d = 0) ∧
    (0 < diameter → overlap r diameter r = 1 / 2) ∧
    ∀ d d', d ≤ d' → overlap r diameter d' ≤ overlap r diameter d := by
  have h01 : ∀ d, 0 ≤ overlap r diameter d ∧ overlap r diameter d ≤ 1 := by
    intro d
    unfold overlap
    split_ifs with h1 h2
    · exact ⟨zero_le_one, le_refl _⟩
    · exact ⟨le_refl _, zero_le_one⟩
    · push Not at h1 h2
      have hpos : 0 < diameter := by
        rcases hD.lt_or_eq with h | h
        · exact h
        · rw [← h] at h1 h2; linarith
      exact ⟨div_nonneg (by linarith) hD, (div_le_one hpos).mpr (by linarith)⟩
  refine ⟨h01, fun d h => ?_, fun d h => ?_, fun h => ?_, fun d d' hdd => ?_⟩
  · unfold overlap; rw [if_pos h]
  · unfold overlap; rw [if_neg (by push Not; linarith), if_pos h.le]
  · unfold overlap
    rw [if_neg (by push Not; linarith), if_neg (by push Not; linarith), add_sub_cancel_left]
    rw [div_div, mul_comm, ← div_div, div_self h.ne']
  · by_cases h1 : d + diameter / 2 ≤ r
    · have : overlap r diameter d = 1 := by unfold overlap; rw [if_pos h1]
      rw [this]; exact (h01 d').2
    · by_cases h2 : r ≤ d' - diameter / 2
      · have : overlap r diameter d' = 0 := by
          unfold overlap; rw [if_neg (by push Not at h1 ⊢; linarith), if_pos h2]
        rw [this]; exact (h01 d).1
      · unfold overlap
        rw [if_neg (by push Not at h1 ⊢; linarith), if_neg h2, if_neg h1,
          if_neg (by push Not at h2 ⊢; linarith)]
        exact div_le_div_of_nonneg_right (by linarith) hD

/-- **C39**: the sum of the overlaps is at least the number of neighbors fully inside the sphere, and
at most the number of neighbors that reach into it. -/
theorem C39_bounds (r diameter : K) (hD : 0 ≤ diameter) (ds : List K) :
    ((ds.filter (fun d => d + diameter / 2 ≤ r)).length : K) ≤ (ds.map (overlap r diameter)).sum ∧
    (ds.map (overlap r diameter)).sum ≤
      ((ds.filter (fun d => d - diameter / 2 ≤ r)).length : K) := by
  obtain ⟨h01, h1, h0, -, -⟩ := C39_overlap r diameter hD
  induction ds with
  | nil => simp
  | cons d ds ih =>
    rw [List.map_cons, List.sum_cons, List.filter_cons, List.filter_cons]
    constructor
    · by_cases h : d + diameter / 2 ≤ r
      · rw [if_pos (decide_eq_true h), h1 d h, List.length_cons]
        push_cast
        linarith [ih.1]
      · rw [if_neg (by simpa using h)]
        linarith [ih.1, (h01 d).1]
    · by_cases h : d - diameter / 2 ≤ r
      · rw [if_pos (decide_eq_true h), List.length_cons]
        push_cast
        linarith [ih.2, (h01 d).2]
      · rw [if_neg (by simpa using h), h0 d (by push Not at h; linarith)]
        linarith [ih.2]

/-- **C39**: the default query asks for exactly the points whose spheres reach into the sphere. -/
theorem C39_default_query (s : LocalDensity K) (d : K) :
    d < s.defaultRMax ↔ d - s.diameter / 2 < s.rMax := by
  unfold LocalDensity.defaultRMax
  constructor <;> intro h <;> linarith

/-- **C39**: the constructor accepts exactly positive radii and non-negative diameters. -/
theorem C39_constructor (r d : K) :
    (∃ s, LocalDensity.new r d = some s) ↔ 0 < r ∧ 0 ≤ d := by
  unfold LocalDensity.new
  split_ifs with h1 h2
  · simp; intro h; exact absurd h (not_lt.mpr h1)
  · simp; intro _; exact h2
  · push Not at h1 h2; simp [h1, h2]

/-- **C39**: with neighbors that are not from the default query the claim fails: a neighbor at
distance 5 of a query point with `r_max = 1` and `diameter = 1` counts as `-7/2` neighbors. -/
theorem C39_far_neighbor_counterexample :
    ∃ (s : LocalDensity ℚ) (s' : LocalDensity ℚ) (nlist : NList ℚ), LocalDensity.new 1 1 = some s ∧
      GoodList nlist ∧ s.compute 3 (Box.mk' 20 20 0 0 0 0 true) 1 nlist [0] = some s' ∧
      (s'.results.data[0]?).map (fun x => x.1) = some (-7 / 2 : ℚ) := by
  have hg : GoodList (⟨1, 2, [⟨0, 1, 5, 1, ⟨5, 0, 0⟩⟩], false, [], []⟩ : NList ℚ) :=
    ⟨by decide, by decide, by decide, by decide⟩
  obtain ⟨a, e, hs, hdata⟩ := C66_schedule_independent _ hg 1 [0] (by decide)
    (⟨[1], List.replicate 1 (0, 0)⟩ : MArray (ℚ × ℚ)) rfl
    (fun _ bonds x => some ((⟨1, 1, ⟨[], []⟩⟩ : LocalDensity ℚ).point 3
      (Box.mk' 20 20 0 0 0 0 true) bonds 0 x)) (fun _ => (-7 / 2, -7 / 2 / (3 * 1 * 1)))
    (by
      intro i x hx
      have hi : i = 0 := by
        obtain ⟨h, _⟩ := List.getElem?_eq_some_iff.mp hx
        simp at h; exact h
      subst hi
      simp at hx
      subst hx
      decide +kernel)
  refine ⟨⟨1, 1, ⟨[], []⟩⟩, ⟨1, 1, a⟩, _, by norm_num [LocalDensity.new], hg, ?_, ?_⟩
  · unfold LocalDensity.compute
    rw [e]; rfl
  · show (a.data[0]?).map _ = _
    rw [hdata]; rfl

/-- The hypotheses of `C39_local_density` are met by a list with a full and a partial neighbor. -/
example : let s : LocalDensity ℚ := ⟨2, 1, ⟨[], []⟩⟩
    let n : NList ℚ := ⟨2, 3, [⟨0, 1, 1, 1, ⟨1, 0, 0⟩⟩, ⟨0, 2, 2, 1, ⟨2, 0, 0⟩⟩], false, [], []⟩
    LocalDensity.new 2 1 = some s ∧ 0 ≤ s.diameter ∧ GoodList n ∧
      (∀ nb ∈ n.bonds, nb.dist < s.defaultRMax) ∧
      ((n.bonds.filter (fun nb => nb.q = 0)).map
        (fun nb => overlap s.rMax s.diameter nb.dist)).sum = 3 / 2 := by
  refine ⟨by norm_num [LocalDensity.new], by decide +kernel, ⟨by decide, by decide, by decide, by decide⟩,
    by decide +kernel, by decide +kernel⟩

end Freud
