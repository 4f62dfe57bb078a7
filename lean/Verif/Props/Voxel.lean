import Verif.Lemmas.Voxel
import Verif.Props.MArray
import Verif.Props.Schedule
import Mathlib.Data.Rat.Floor

/-!
# C37, C38: what the voxel grids contain
-/

namespace Freud
open Spec MArray
variable {K : Type*} [Field K] [LinearOrder K] [IsStrictOrderedRing K] [FloorRing K]

set_option linter.unusedSectionVars false

theorem validIndex3 (w n : Vec3 ℕ) (h : IsVoxel w n) :
    ValidIndex [n.x, n.y, n.z] [w.x, w.y, w.z] :=
  .cons h.1 (.cons h.2.1 (.cons h.2.2 .nil))

theorem mark_spec (cells : List (List ℕ × K)) (a : MArray ℕ) (ha : WellFormed a)
    (hv : ∀ c ∈ cells, ValidIndex c.1 a.shape) :
    ∃ a', SphereVoxelization.mark a cells = some a' ∧ WellFormed a' ∧ a'.shape = a.shape ∧
      ∀ idx, ValidIndex idx a.shape →
        a'.at? idx = if idx ∈ cells.map (·.1) then some 1 else a.at? idx := by
  induction cells generalizing a with
  | nil => exact ⟨a, rfl, ha, rfl, fun idx _ => by simp⟩
  | cons c cells ih =>
    obtain ⟨-, a1, e1, hw1, hs1, hr1, ho1⟩ :=
      C09_read_write a ha c.1 (hv c List.mem_cons_self) 1
    obtain ⟨a2, e2, hw2, hs2, hr2⟩ := ih a1 hw1 (fun c' hc' => by
      rw [hs1]; exact hv c' (List.mem_cons_of_mem _ hc'))
    refine ⟨a2, ?_, hw2, hs2.trans hs1, fun idx hidx => ?_⟩
    · unfold SphereVoxelization.mark at e2 ⊢
      rw [List.foldlM_cons, e1]
      exact e2
    · rw [hr2 idx (by rw [hs1]; exact hidx)]
      by_cases h1 : idx ∈ cells.map (·.1)
      · rw [if_pos h1, if_pos (by rw [List.map_cons]; exact List.mem_cons_of_mem _ h1)]
      · rw [if_neg h1]
        by_cases h2 : idx = c.1
        · subst h2
          rw [hr1, if_pos (by simp)]
        · rw [ho1 idx hidx h2, if_neg (by
            rw [List.map_cons, List.mem_cons]; push Not; exact ⟨h2, h1⟩)]

/-- The dimensionality does not change between two calls: nothing was computed before, or the
earlier box had the same number of dimensions. -/
def Spec.SameDim (old : Option (Box K)) (b : Box K) : Prop :=
  ∀ b', old = some b' → b.is2D = b'.is2D

theorem sameDim_iff (old : Option (Box K)) (b : Box K) :
    old.all (fun b' => decide (b.is2D = b'.is2D)) = true ↔ SameDim old b := by
  cases old <;> simp [SameDim]

/-- What a voxel holds after `compute`: 1 if one of the points reached it and 0 otherwise. -/
theorem compute_hits_of (s : SphereVoxelization K) (b : Box K) (points : List (Vec3 K))
    (order : List ℕ) (hdim : SameDim s.box b) (w : Vec3 ℕ) (hw : w = Voxel.effWidth b s.width)
    (hvalid : ∀ p ∈ points, ∀ c ∈ Voxel.hits b w s.rMax p, ValidIndex c.1 [w.x, w.y, w.z])
    (hord : order.Perm (List.range points.length)) :
    ∃ s', s.compute b points order = some s' ∧
      s'.width = w ∧ s'.rMax = s.rMax ∧ s'.box = some b ∧
      s'.voxels.shape = [s'.width.x, s'.width.y, s'.width.z] ∧ WellFormed s'.voxels ∧
      ∀ n, IsVoxel s'.width n → ∃ v, s'.voxels.at? [n.x, n.y, n.z] = some v ∧ (v = 0 ∨ v = 1) ∧
        (v = 1 ↔ ∃ p ∈ points, [n.x, n.y, n.z] ∈ (Voxel.hits b s'.width s.rMax p).map (·.1)) := by
  have key : ∀ (order : List ℕ) (a : MArray ℕ), (∀ i ∈ order, i < points.length) →
      WellFormed a → a.shape = [w.x, w.y, w.z] →
      ∃ a', order.foldlM (fun a idx => points[idx]?.bind (fun p =>
        SphereVoxelization.mark a (Voxel.hits b w s.rMax p))) a = some a' ∧ WellFormed a' ∧
        a'.shape = a.shape ∧ ∀ idx, ValidIndex idx a.shape →
          a'.at? idx = if ∃ i ∈ order, ∃ p, points[i]? = some p ∧
            idx ∈ (Voxel.hits b w s.rMax p).map (·.1) then some 1 else a.at? idx := by
    intro order
    induction order with
    | nil => intro a _ ha _; exact ⟨a, rfl, ha, rfl, fun idx _ => by simp⟩
    | cons i order ih =>
      intro a hlt ha hs
      have hi : i < points.length := hlt i List.mem_cons_self
      obtain ⟨a1, e1, hw1, hs1, hr1⟩ := mark_spec (Voxel.hits b w s.rMax points[i]) a ha
        (fun c hc => by rw [hs]; exact hvalid _ (List.getElem_mem hi) c hc)
      obtain ⟨a2, e2, hw2, hs2, hr2⟩ := ih a1 (fun j hj => hlt j (List.mem_cons_of_mem _ hj)) hw1
        (hs1.trans hs)
      refine ⟨a2, ?_, hw2, hs2.trans hs1, fun idx hidx => ?_⟩
      · rw [List.foldlM_cons, List.getElem?_eq_getElem hi, Option.bind_some, e1]
        exact e2
      · rw [hr2 idx (by rw [hs1]; exact hidx), hr1 idx hidx]
        by_cases h1 : ∃ j ∈ order, ∃ p, points[j]? = some p ∧
            idx ∈ (Voxel.hits b w s.rMax p).map (·.1)
        · rw [if_pos h1, if_pos]
          obtain ⟨j, hj, h⟩ := h1
          exact ⟨j, List.mem_cons_of_mem _ hj, h⟩
        · rw [if_neg h1]
          by_cases h2 : idx ∈ (Voxel.hits b w s.rMax points[i]).map (·.1)
          · rw [if_pos h2, if_pos]
            exact ⟨i, List.mem_cons_self, _, List.getElem?_eq_getElem hi, h2⟩
          · rw [if_neg h2, if_neg]
            rintro ⟨j, hj, p, hjp, hmem⟩
            rcases List.mem_cons.mp hj with rfl | hj
            · rw [List.getElem?_eq_getElem hi, Option.some.injEq] at hjp
              subst hjp; exact h2 hmem
            · exact h1 ⟨j, hj, p, hjp, hmem⟩
  obtain ⟨hwf0, h0⟩ := C09_new_array (α := ℕ) [w.x, w.y, w.z]
  obtain ⟨a, e, hwf, hsh, hr⟩ := key order (MArray.mk' [w.x, w.y, w.z])
    (fun i hi => List.mem_range.mp (hord.subset hi)) hwf0 rfl
  refine ⟨{ s with
    width := w
    box := some b
    voxels := a }, ?_, rfl, rfl, rfl, hsh, hwf, fun n hn => ?_⟩
  · unfold SphereVoxelization.compute
    rw [if_pos ((sameDim_iff _ _).mpr hdim)]
    simp only [← hw, e]
    rfl
  · have hn' := validIndex3 w n hn
    have hiff : (∃ i ∈ order, ∃ p, points[i]? = some p ∧
        [n.x, n.y, n.z] ∈ (Voxel.hits b w s.rMax p).map (·.1)) ↔
        ∃ p ∈ points, [n.x, n.y, n.z] ∈ (Voxel.hits b w s.rMax p).map (·.1) := by
      constructor
      · rintro ⟨i, -, p, hi, h⟩; exact ⟨p, List.mem_of_getElem? hi, h⟩
      · rintro ⟨p, hpm, h⟩
        obtain ⟨i, hi, rfl⟩ := List.getElem_of_mem hpm
        exact ⟨i, hord.symm.subset (List.mem_range.mpr hi), _, List.getElem?_eq_getElem hi, h⟩
    have := hr [n.x, n.y, n.z] hn'
    rw [h0 _ hn'] at this
    by_cases hc : ∃ i ∈ order, ∃ p, points[i]? = some p ∧
        [n.x, n.y, n.z] ∈ (Voxel.hits b w s.rMax p).map (·.1)
    · rw [if_pos hc] at this
      exact ⟨1, this, Or.inr rfl, fun _ => hiff.mp hc, fun _ => rfl⟩
    · rw [if_neg hc] at this
      exact ⟨0, this, Or.inl rfl, fun h => by simp at h, fun h => absurd (hiff.mpr h) hc⟩

theorem compute_hits (s : SphereVoxelization K) (b : Box K) (points : List (Vec3 K))
    (order : List ℕ) (hdim : SameDim s.box b)
    (hg : GridOK b (Voxel.effWidth b s.width) s.rMax) (hp : ∀ p ∈ points, InGridBox b p)
    (hord : order.Perm (List.range points.length)) :
    ∃ s', s.compute b points order = some s' ∧
      s'.width = Voxel.effWidth b s.width ∧ s'.rMax = s.rMax ∧ s'.box = some b ∧
      s'.voxels.shape = [s'.width.x, s'.width.y, s'.width.z] ∧ WellFormed s'.voxels ∧
      ∀ n, IsVoxel s'.width n → ∃ v, s'.voxels.at? [n.x, n.y, n.z] = some v ∧ (v = 0 ∨ v = 1) ∧
        (v = 1 ↔ ∃ p ∈ points, [n.x, n.y, n.z] ∈ (Voxel.hits b s'.width s.rMax p).map (·.1)) := by
  refine compute_hits_of s b points order hdim _ rfl (fun p hpm c hc => ?_) hord
  obtain ⟨n, hn, e, -⟩ := hits_sound hg (hp p hpm) c.1 c.2 hc
  rw [e]
  exact validIndex3 _ n hn

/-- **C37**, one direction, for every radius up to the box size: every voxel is 0 or 1, and a voxel
that is 1 has its center less than `r_max` from some point (minimum image). The result has one
voxel per cell of the grid (one layer in 2D), for every order in which the threads process the
points. -/
theorem C37_marked_is_covered (s : SphereVoxelization K) (b : Box K) (points : List (Vec3 K))
    (order : List ℕ) (hdim : SameDim s.box b)
    (hg : GridOK b (Voxel.effWidth b s.width) s.rMax) (hp : ∀ p ∈ points, InGridBox b p)
    (hord : order.Perm (List.range points.length)) :
    ∃ s', s.compute b points order = some s' ∧ s'.width = Voxel.effWidth b s.width ∧
      s'.voxels.shape = [s'.width.x, s'.width.y, s'.width.z] ∧
      ∀ n, IsVoxel s'.width n → ∃ v, s'.voxels.at? [n.x, n.y, n.z] = some v ∧ (v = 0 ∨ v = 1) ∧
        (v = 1 → ∃ p ∈ points, Covers b s'.width n s.rMax p) := by
  obtain ⟨s', e, hw, -, -, hs, -, h⟩ := compute_hits s b points order hdim hg hp hord
  refine ⟨s', e, hw, hs, fun n hn => ?_⟩
  obtain ⟨v, hv, h01, hiff⟩ := h n hn
  refine ⟨v, hv, h01, fun h1 => ?_⟩
  obtain ⟨p, hpm, hmem⟩ := hiff.mp h1
  obtain ⟨⟨idx, d⟩, hc, he⟩ := List.mem_map.mp hmem
  rw [hw] at hc
  obtain ⟨n', hn', e', hd, hlt⟩ := hits_sound hg (hp p hpm) idx d hc
  refine ⟨p, hpm, d, ?_, hlt⟩
  have : n = n' := by
    simp only [e', List.cons.injEq] at he
    ext
    exacts [he.1.symm, he.2.1.symm, he.2.2.1.symm]
  rw [this, hw]; exact hd

/-- **C37**, both directions, when `r_max` is a whole number of voxels plus at most half a voxel in
every direction: a voxel is 1 exactly if its center is less than `r_max` from some point. Without
this condition the claim is false of the code, see `C37_missed_voxel_counterexample`. -/
theorem C37_marked_iff_covered_partial (s : SphereVoxelization K) (b : Box K)
    (points : List (Vec3 K)) (order : List ℕ) (hdim : SameDim s.box b)
    (hg : GridOK b (Voxel.effWidth b s.width) s.rMax)
    (hfit : RadiusFits b (Voxel.effWidth b s.width) s.rMax) (hp : ∀ p ∈ points, InGridBox b p)
    (hord : order.Perm (List.range points.length)) :
    ∃ s', s.compute b points order = some s' ∧ s'.width = Voxel.effWidth b s.width ∧
      s'.voxels.shape = [s'.width.x, s'.width.y, s'.width.z] ∧
      ∀ n, IsVoxel s'.width n → ∃ v, s'.voxels.at? [n.x, n.y, n.z] = some v ∧ (v = 0 ∨ v = 1) ∧
        (v = 1 ↔ ∃ p ∈ points, Covers b s'.width n s.rMax p) := by
  obtain ⟨s', e, hw, -, -, hs, -, h⟩ := compute_hits s b points order hdim hg hp hord
  obtain ⟨s'', e'', -, -, h'⟩ := C37_marked_is_covered s b points order hdim hg hp hord
  rw [e, Option.some.injEq] at e''
  subst e''
  refine ⟨s', e, hw, hs, fun n hn => ?_⟩
  obtain ⟨v, hv, h01, hiff⟩ := h n hn
  obtain ⟨v', hv', -, himp⟩ := h' n hn
  rw [hv, Option.some.injEq] at hv'
  subst hv'
  refine ⟨v, hv, h01, himp, ?_⟩
  rintro ⟨p, hpm, d, hd, hlt⟩
  refine hiff.mpr ⟨p, hpm, List.mem_map.mpr ⟨([n.x, n.y, n.z], d), ?_, rfl⟩⟩
  rw [hw] at hd hn ⊢
  exact hits_complete hg hfit (hp p hpm) n hn d hd hlt

/-- **C37**: a box with another number of dimensions than in the previous call is an error. -/
theorem C37_dimension_change_raises (s : SphereVoxelization K) (b : Box K)
    (points : List (Vec3 K)) (order : List ℕ) (h : ¬ SameDim s.box b) :
    s.compute b points order = none := by
  unfold SphereVoxelization.compute
  rw [if_neg (fun h' => h ((sameDim_iff _ _).mp h'))]

theorem effWidth_eq (b : Box K) (w : Vec3 ℕ) :
    Voxel.effWidth b w = ⟨w.x, w.y, if b.is2D then 1 else w.z⟩ := by
  unfold Voxel.effWidth
  split_ifs <;> rfl

/-- **C37**: every call that returns leaves a grid with the widths in x and y the object had, and in z too if the box is
three-dimensional; in a two-dimensional box there is one layer. The radius stays, and the box is that of the call. -/
theorem C37_grid (s s' : SphereVoxelization K) (b : Box K) (points : List (Vec3 K)) (order : List ℕ)
    (h : s.compute b points order = some s') :
    s'.width.x = s.width.x ∧ s'.width.y = s.width.y ∧ (b.is2D = true → s'.width.z = 1) ∧
      (b.is2D = false → s'.width.z = s.width.z) ∧ s'.rMax = s.rMax ∧ s'.box = some b := by
  unfold SphereVoxelization.compute at h
  split_ifs at h
  obtain ⟨a, -, rfl⟩ := Option.map_eq_some_iff.mp h
  simp only [effWidth_eq]
  exact ⟨trivial, trivial, fun e => by rw [if_pos e], fun e => by simp [e], trivial, trivial⟩

/-- **C38**: the same for `GaussianDensity`. -/
theorem C38_grid (gauss : ℕ → K → K) (s s' : GaussianDensity K) (b : Box K) (points : List (Vec3 K))
    (values : Option (List K)) (ev : List (ℕ × ℕ)) (order : List ℕ)
    (h : s.compute gauss b points values ev order = some s') :
    s'.width.x = s.width.x ∧ s'.width.y = s.width.y ∧ (b.is2D = true → s'.width.z = 1) ∧
      (b.is2D = false → s'.width.z = s.width.z) ∧ s'.rMax = s.rMax ∧ s'.box = some b := by
  unfold GaussianDensity.compute at h
  split_ifs at h
  obtain ⟨t, -, h⟩ := Option.bind_eq_some_iff.mp h
  obtain ⟨a, -, rfl⟩ := Option.map_eq_some_iff.mp h
  simp only [effWidth_eq]
  exact ⟨trivial, trivial, fun e => by rw [if_pos e], fun e => by simp [e], trivial, trivial⟩

-- calls that return, in two and in three dimensions
example : ((⟨⟨10, 8, 6⟩, 1, none, ⟨[], []⟩⟩ : SphereVoxelization ℚ).compute (Box.mk' 10 10 0 0 0 0 true)
      [⟨0, 0, 0⟩] [0]).isSome = true ∧
    ((⟨⟨2, 3, 4⟩, 1, none, ⟨[], []⟩⟩ : SphereVoxelization ℚ).compute (Box.mk' 10 10 10 0 0 0 false)
      [⟨0, 0, 0⟩] [0]).isSome = true ∧
    ((⟨⟨2, 3, 4⟩, 1, none, ⟨[], []⟩⟩ : GaussianDensity ℚ).compute (fun _ d => 1 - d) (Box.mk' 10 10 10 0 0 0 false)
      [⟨0, 0, 0⟩] none [(0, 0)] (List.range 24)).isSome = true := by
  decide +kernel

/-- **C37**: the constructor accepts exactly the positive radii. -/
theorem C37_constructor (w : Vec3 ℕ) (r : K) :
    SphereVoxelization.new w r = none ↔ r ≤ 0 := by
  unfold SphereVoxelization.new
  split_ifs with h <;> simp [h]

/-- The box, grid and radius of the examples below. -/
def vxBox : Box ℚ := Box.mk' 10 10 0 0 0 0 true

theorem vxBox_valid : Valid vxBox := by constructor <;> simp [vxBox, Box.mk', Box.setL]

theorem vxGrid (r : ℚ) (h : 0 < r) (h' : r ≤ 10) : GridOK vxBox ⟨10, 10, 1⟩ r := by
  refine ⟨vxBox_valid, by decide +kernel, by decide +kernel, by decide +kernel, by decide +kernel,
    by decide, by decide, by decide, fun _ => rfl, by decide, h, ?_, ?_, ?_⟩
  · simpa [vxBox, Box.mk', Box.setL] using h'
  · simpa [vxBox, Box.mk', Box.setL] using h'
  · simp [vxBox, Box.mk', Box.setL]

theorem vxPoint : InGridBox vxBox ⟨-401 / 100, -9 / 2, 0⟩ := by
  refine ⟨by decide +kernel, by decide +kernel, by decide +kernel, fun _ => rfl⟩

/-- **C37**: the claim is false of the code when the fractional part of `r_max` over the voxel size
exceeds a half: in a box of 10 x 10 voxels of size 1, with `r_max = 0.6`, the point at
`(-4.01, -4.5)` is `0.51` from the center of voxel `(1, 0)`, which stays 0. -/
theorem C37_missed_voxel_counterexample :
    ∃ (s s' : SphereVoxelization ℚ) (b : Box ℚ) (p : Vec3 ℚ) (n : Vec3 ℕ),
      SphereVoxelization.new ⟨10, 10, 10⟩ (3 / 5) = some s ∧
      GridOK b (Voxel.effWidth b s.width) s.rMax ∧ InGridBox b p ∧
      s.compute b [p] [0] = some s' ∧ IsVoxel s'.width n ∧ Covers b s'.width n s.rMax p ∧
      s'.voxels.at? [n.x, n.y, n.z] = some 0 := by
  have hg := vxGrid (3 / 5) (by norm_num) (by norm_num)
  obtain ⟨s', e, hw, -⟩ := C37_marked_is_covered
    (⟨⟨10, 10, 10⟩, 3 / 5, none, ⟨[], []⟩⟩ : SphereVoxelization ℚ) vxBox
    [⟨-401 / 100, -9 / 2, 0⟩] [0] (by intro b' h; cases h) hg
    (by simpa using vxPoint) (by decide)
  have hw' : s'.width = ⟨10, 10, 1⟩ := hw
  refine ⟨⟨⟨10, 10, 10⟩, 3 / 5, none, ⟨[], []⟩⟩, s', vxBox, ⟨-401 / 100, -9 / 2, 0⟩, ⟨1, 0, 0⟩,
    if_neg (by norm_num), hg, vxPoint, e, ?_, ?_, ?_⟩
  · rw [hw']; exact ⟨by decide, by decide, by decide⟩
  · rw [hw']
    refine ⟨_, wrap_isMinDistSq hg vxPoint ⟨1, 0, 0⟩ ⟨0, 0, 0⟩ ⟨fun _ => rfl, fun _ => rfl,
      fun _ => rfl⟩, by decide +kernel⟩
  · have : ((⟨⟨10, 10, 10⟩, 3 / 5, none, ⟨[], []⟩⟩ : SphereVoxelization ℚ).compute vxBox
        [⟨-401 / 100, -9 / 2, 0⟩] [0]).bind (fun s => s.voxels.at? [1, 0, 0]) = some 0 := by
      decide +kernel
    rw [e] at this
    exact this

/-- The hypotheses of `C37_marked_iff_covered_partial` are met: `r_max = 1.25` on voxels of size 1,
two points in a 2D box; one voxel that is marked and one that is not. -/
example : let s : SphereVoxelization ℚ := ⟨⟨10, 10, 10⟩, 5 / 4, none, ⟨[], []⟩⟩
    let pts : List (Vec3 ℚ) := [⟨-401 / 100, -9 / 2, 0⟩, ⟨3, 3, 0⟩]
    SameDim s.box vxBox ∧ GridOK vxBox (Voxel.effWidth vxBox s.width) s.rMax ∧
      RadiusFits vxBox (Voxel.effWidth vxBox s.width) s.rMax ∧ (∀ p ∈ pts, InGridBox vxBox p) ∧
      (s.compute vxBox pts [1, 0]).bind (fun s => s.voxels.at? [1, 0, 0]) = some 1 ∧
      (s.compute vxBox pts [1, 0]).bind (fun s => s.voxels.at? [4, 4, 0]) = some 0 := by
  refine ⟨(by intro b' h; cases h), vxGrid _ (by norm_num) (by norm_num), ?_, ?_, ?_, ?_⟩
  · exact ⟨by decide +kernel, by decide +kernel, by decide +kernel⟩
  · intro p hp
    simp only [List.mem_cons, List.not_mem_nil, or_false] at hp
    rcases hp with rfl | rfl
    · exact vxPoint
    · exact ⟨by decide +kernel, by decide +kernel, by decide +kernel, fun _ => rfl⟩
  · decide +kernel
  · decide +kernel

/-! ### C38 -/

/-- The value of point `i`: 1 unless values are given. -/
def Spec.pointValue (values : Option (List K)) (i : ℕ) : K :=
  match values with
  | none => 1
  | some v => v.getD i 0

/-- The radius is below half of the box in every direction. -/
def Spec.BelowHalfBox (b : Box K) (r : K) : Prop :=
  2 * r < b.L.x ∧ 2 * r < b.L.y ∧ (b.is2D = false → 2 * r < b.L.z)

/-- The sum of what one point adds to one voxel. -/
theorem point_sum (gauss : ℕ → K → K) {b : Box K} {w : Vec3 ℕ} {r : K} (points : List (Vec3 K))
    (values : Option (List K)) (i : ℕ) (p : Vec3 K) (hi : points[i]? = some p)
    (hg : GridOK b w r) (hp : InGridBox b p) (hhalf : BelowHalfBox b r) (n : Vec3 ℕ)
    (hn : IsVoxel w n) (d : K) (hd : IsMinDistSq b (voxelCenter b w n) p d) :
    (((GaussianDensity.contributions gauss b w r points values i).filter
        (fun q => q.1 = linIndex [w.x, w.y, w.z] [n.x, n.y, n.z])).map (·.2)).sum =
      if ([n.x, n.y, n.z], d) ∈ Voxel.hits b w r p then
        pointValue values i * gauss (if b.is2D then 2 else 3) d else 0 := by
  have hget : points.getD i ⟨0, 0, 0⟩ = p := by
    rw [List.getD_eq_getElem?_getD, hi]; rfl
  unfold GaussianDensity.contributions
  rw [hget]
  have hnd := hits_nodup hg hp hhalf.1 hhalf.2.1 hhalf.2.2
  have hsound : ∀ c ∈ Voxel.hits b w r p,
      (linIndex [w.x, w.y, w.z] c.1 = linIndex [w.x, w.y, w.z] [n.x, n.y, n.z] ↔
        c = ([n.x, n.y, n.z], d)) := by
    intro c hc
    obtain ⟨n', hn', e', hd', -⟩ := hits_sound hg hp c.1 c.2 hc
    constructor
    · intro h
      have h1 := ((C09_index_bijection [w.x, w.y, w.z]).1 c.1
        (by rw [e']; exact validIndex3 w n' hn')).2.2
      have h2 := ((C09_index_bijection [w.x, w.y, w.z]).1 _ (validIndex3 w n hn)).2.2
      rw [h, h2] at h1
      have : n' = n := by
        rw [e', List.cons.injEq, List.cons.injEq, List.cons.injEq] at h1
        ext
        exacts [h1.1.symm, h1.2.1.symm, h1.2.2.1.symm]
      subst this
      exact Prod.ext h1.symm (isMinDistSq_unique _ _ _ hd' hd)
    · rintro rfl; rfl
  generalize Voxel.hits b w r p = l at hnd hsound
  generalize (if b.is2D = true then 2 else 3) = dim
  induction l with
  | nil => simp
  | cons c l ih =>
    rw [List.map_cons, List.nodup_cons] at hnd
    have ih' := ih hnd.2 (fun c hc => hsound c (List.mem_cons_of_mem _ hc))
    have hc := hsound c List.mem_cons_self
    rw [List.map_cons, List.filter_cons]
    by_cases h : c = ([n.x, n.y, n.z], d)
    · have hnot : ([n.x, n.y, n.z], d) ∉ l := by
        intro hm
        exact hnd.1 (List.mem_map.mpr ⟨_, hm, by rw [h]⟩)
      rw [if_neg hnot] at ih'
      rw [if_pos (decide_eq_true (hc.mpr h)), if_pos (by rw [h]; exact List.mem_cons_self),
        List.map_cons, List.sum_cons, ih', add_zero, h]
      rfl
    · rw [if_neg (by simpa using fun h' => h (hc.mp h')), ih']
      refine if_congr ?_ rfl rfl
      rw [List.mem_cons]
      exact ⟨Or.inr, fun h' => h'.resolve_left (fun h'' => h h''.symm)⟩

/-- What a voxel holds after `compute`. -/
theorem density_hits (gauss : ℕ → K → K) (s : GaussianDensity K) (b : Box K)
    (points : List (Vec3 K)) (values : Option (List K)) (ev : List (ℕ × ℕ)) (order : List ℕ)
    (hdim : SameDim s.box b) (hg : GridOK b (Voxel.effWidth b s.width) s.rMax)
    (hhalf : BelowHalfBox b s.rMax) (hp : ∀ p ∈ points, InGridBox b p)
    (hev : IsExecution points.length ev)
    (hord : let w := Voxel.effWidth b s.width; order.Perm (List.range (w.x * w.y * w.z))) :
    ∃ s', s.compute gauss b points values ev order = some s' ∧
      s'.width = Voxel.effWidth b s.width ∧
      s'.density.shape = [s'.width.x, s'.width.y, s'.width.z] ∧
      ∀ n, IsVoxel s'.width n → ∀ D : ℕ → K,
        (∀ i p, points[i]? = some p → IsMinDistSq b (voxelCenter b s'.width n) p (D i)) →
        s'.density.at? [n.x, n.y, n.z] = some ((List.range points.length).map (fun i =>
          if ∃ p, points[i]? = some p ∧ ([n.x, n.y, n.z], D i) ∈ Voxel.hits b s'.width s.rMax p then
            pointValue values i * gauss (if b.is2D then 2 else 3) (D i) else 0)).sum := by
  classical
  set w := Voxel.effWidth b s.width with hw
  have hprod : [w.x, w.y, w.z].prod = w.x * w.y * w.z := by simp [mul_assoc]
  have hcells : ∀ i < points.length,
      ∀ q ∈ GaussianDensity.contributions gauss b w s.rMax points values i,
      q.1 < [w.x, w.y, w.z].prod := by
    intro i hi q hq
    obtain ⟨c, hc, rfl⟩ := List.mem_map.mp hq
    rw [List.getD_eq_getElem?_getD, List.getElem?_eq_getElem hi, Option.getD_some] at hc
    obtain ⟨n', hn', e', -⟩ := hits_sound hg (hp _ (List.getElem_mem hi)) c.1 c.2 hc
    exact ((C09_index_bijection [w.x, w.y, w.z]).1 c.1
        (by rw [e']; exact validIndex3 w n' hn')).2.1
  obtain ⟨t, a, e1, e2, hsh, hdata⟩ := C12_thread_storage [w.x, w.y, w.z] points.length
    (GaussianDensity.contributions gauss b w s.rMax points values) hcells ev hev order
    (by rw [hprod]; exact hord)
  refine ⟨{ s with
    width := w
    box := some b
    density := a }, ?_, rfl, hsh, fun n hn D hD => ?_⟩
  · unfold GaussianDensity.compute
    rw [if_pos ((sameDim_iff _ _).mpr hdim)]
    simp only [← hw, e1, Option.bind_some, e2]
    rfl
  · have hidx := (C09_index_bijection [w.x, w.y, w.z]).1 _ (validIndex3 w n hn)
    show a.at? [n.x, n.y, n.z] = _
    unfold MArray.at? MArray.get?
    rw [hsh, if_neg (by rw [MArray.size, hdata]; simpa using hidx.2.1), hdata, List.getElem?_map,
      List.getElem?_range hidx.2.1, Option.map_some]
    congr 1
    unfold cellTotal
    rw [sum_flatMap_filter]
    congr 1
    refine List.map_congr_left fun i hi => ?_
    have hi' : i < points.length := List.mem_range.mp hi
    have hget : points[i]? = some points[i] := List.getElem?_eq_getElem hi'
    rw [point_sum gauss points values i points[i] hget hg (hp _ (List.getElem_mem hi')) hhalf n hn
      (D i) (hD i _ hget)]
    refine if_congr ?_ rfl rfl
    rw [hget]; simp

/-- **C38**: with `r_max` below half of the box and a whole number of voxels plus at most half a
voxel, the density of a voxel is the sum over all points of value times Gaussian of the
minimum-image distance to the center of the voxel, over the points nearer than `r_max`, each point
counted once; for every schedule. `D i` is the squared minimum-image distance of point `i` (it is
determined by the hypothesis). Without the two conditions the claim is false of the code, see
`C38_missed_voxel_counterexample` and `C38_double_count_counterexample`. -/
theorem C38_density_partial (gauss : ℕ → K → K) (s : GaussianDensity K) (b : Box K)
    (points : List (Vec3 K)) (values : Option (List K)) (ev : List (ℕ × ℕ)) (order : List ℕ)
    (hdim : SameDim s.box b) (hg : GridOK b (Voxel.effWidth b s.width) s.rMax)
    (hhalf : BelowHalfBox b s.rMax) (hfit : RadiusFits b (Voxel.effWidth b s.width) s.rMax)
    (hp : ∀ p ∈ points, InGridBox b p) (hev : IsExecution points.length ev)
    (hord : let w := Voxel.effWidth b s.width; order.Perm (List.range (w.x * w.y * w.z))) :
    ∃ s', s.compute gauss b points values ev order = some s' ∧
      s'.width = Voxel.effWidth b s.width ∧
      s'.density.shape = [s'.width.x, s'.width.y, s'.width.z] ∧
      ∀ n, IsVoxel s'.width n → ∀ D : ℕ → K,
        (∀ i p, points[i]? = some p → IsMinDistSq b (voxelCenter b s'.width n) p (D i)) →
        s'.density.at? [n.x, n.y, n.z] = some ((List.range points.length).map (fun i =>
          if D i < s.rMax ^ 2 then
            pointValue values i * gauss (if b.is2D then 2 else 3) (D i) else 0)).sum := by
  obtain ⟨s', e, hw, hs, h⟩ := density_hits gauss s b points values ev order hdim hg hhalf hp hev
    hord
  refine ⟨s', e, hw, hs, fun n hn D hD => ?_⟩
  rw [h n hn D hD]
  congr 2
  refine List.map_congr_left fun i hi => ?_
  have hi' : i < points.length := List.mem_range.mp hi
  have hget : points[i]? = some points[i] := List.getElem?_eq_getElem hi'
  have hpi := hp _ (List.getElem_mem hi')
  rw [hw] at hD hn ⊢
  refine if_congr ⟨?_, fun hlt => ⟨_, hget, ?_⟩⟩ rfl rfl
  · rintro ⟨p, hp', hm⟩
    rw [hget, Option.some.injEq] at hp'
    subst hp'
    obtain ⟨n', -, -, -, hlt⟩ := hits_sound hg hpi _ _ hm
    exact hlt
  · exact hits_complete hg hfit hpi n hn _ (hD i _ hget) hlt

/-- **C38**: without the condition on the fractional part, but with `r_max` below half of the box,
the density of a voxel is a sum over some of the points nearer than `r_max`, each at most once: a
point's Gaussian is never added twice, and never by a point out of range. -/
theorem C38_density_at_most_once (gauss : ℕ → K → K) (s : GaussianDensity K) (b : Box K)
    (points : List (Vec3 K)) (values : Option (List K)) (ev : List (ℕ × ℕ)) (order : List ℕ)
    (hdim : SameDim s.box b) (hg : GridOK b (Voxel.effWidth b s.width) s.rMax)
    (hhalf : BelowHalfBox b s.rMax)
    (hp : ∀ p ∈ points, InGridBox b p) (hev : IsExecution points.length ev)
    (hord : let w := Voxel.effWidth b s.width; order.Perm (List.range (w.x * w.y * w.z))) :
    ∃ s', s.compute gauss b points values ev order = some s' ∧
      s'.width = Voxel.effWidth b s.width ∧
      s'.density.shape = [s'.width.x, s'.width.y, s'.width.z] ∧
      ∀ n, IsVoxel s'.width n → ∀ D : ℕ → K,
        (∀ i p, points[i]? = some p → IsMinDistSq b (voxelCenter b s'.width n) p (D i)) →
        ∃ counted : ℕ → Prop, ∃ _ : DecidablePred counted,
          (∀ i < points.length, counted i → D i < s.rMax ^ 2) ∧
        s'.density.at? [n.x, n.y, n.z] = some ((List.range points.length).map (fun i =>
          if counted i then
            pointValue values i * gauss (if b.is2D then 2 else 3) (D i) else 0)).sum := by
  obtain ⟨s', e, hw, hs, h⟩ := density_hits gauss s b points values ev order hdim hg hhalf hp hev
    hord
  refine ⟨s', e, hw, hs, fun n hn D hD => ⟨fun i => ∃ p, points[i]? = some p ∧
    ([n.x, n.y, n.z], D i) ∈ Voxel.hits b s'.width s.rMax p, _, ?_, h n hn D hD⟩⟩
  rintro i hi ⟨p, hp', hm⟩
  rw [hw] at hm
  obtain ⟨n', -, -, -, hlt⟩ := hits_sound hg (hp p (List.mem_of_getElem? hp')) _ _ hm
  exact hlt

/-- **C38**: the distances `D` that the theorems speak about exist. -/
theorem C38_distance_exists (b : Box K) (w : Vec3 ℕ) (r : K) (hg : GridOK b w r) (n : Vec3 ℕ)
    (p : Vec3 K) (hp : InGridBox b p) : ∃! d, IsMinDistSq b (voxelCenter b w n) p d :=
  ⟨_, wrap_isMinDistSq hg hp n ⟨0, 0, 0⟩ ⟨fun _ => rfl, fun _ => rfl, fun _ => rfl⟩,
    fun _ h => isMinDistSq_unique _ _ _ h (wrap_isMinDistSq hg hp n ⟨0, 0, 0⟩
      ⟨fun _ => rfl, fun _ => rfl, fun _ => rfl⟩)⟩

/-- **C38**: a box with another number of dimensions than in the previous call is an error. -/
theorem C38_dimension_change_raises (gauss : ℕ → K → K) (s : GaussianDensity K) (b : Box K)
    (points : List (Vec3 K)) (values : Option (List K)) (ev : List (ℕ × ℕ)) (order : List ℕ)
    (h : ¬ SameDim s.box b) : s.compute gauss b points values ev order = none := by
  unfold GaussianDensity.compute
  rw [if_neg (fun h' => h ((sameDim_iff _ _).mp h'))]

/-- **C38**: a voxel in range is missed when the fractional part of `r_max` over the voxel size
exceeds a half, in the same configuration as `C37_missed_voxel_counterexample`. -/
theorem C38_missed_voxel_counterexample :
    ∃ (s s' : GaussianDensity ℚ) (b : Box ℚ) (p : Vec3 ℚ) (n : Vec3 ℕ) (d : ℚ),
      GaussianDensity.new ⟨10, 10, 10⟩ (3 / 5) = some s ∧
      GridOK b (Voxel.effWidth b s.width) s.rMax ∧ BelowHalfBox b s.rMax ∧ InGridBox b p ∧
      s.compute (fun _ _ => 1) b [p] none [(0, 0)] (List.range 100) = some s' ∧
      IsVoxel s'.width n ∧
      IsMinDistSq b (voxelCenter b s'.width n) p d ∧ d < s.rMax ^ 2 ∧
      s'.density.at? [n.x, n.y, n.z] = some 0 := by
  have hg := vxGrid (3 / 5) (by norm_num) (by norm_num)
  have hhalf : BelowHalfBox vxBox (3 / 5) := ⟨by decide +kernel, by decide +kernel, by decide +kernel⟩
  obtain ⟨s', e, hw, -⟩ := C38_density_at_most_once (fun _ _ => 1)
    (⟨⟨10, 10, 10⟩, 3 / 5, none, ⟨[], []⟩⟩ : GaussianDensity ℚ) vxBox
    [⟨-401 / 100, -9 / 2, 0⟩] none [(0, 0)] (List.range 100) (by intro b' h; cases h) hg hhalf
    (by simpa using vxPoint) (by simp [IsExecution]) (List.Perm.refl _)
  have hw' : s'.width = ⟨10, 10, 1⟩ := hw
  have hd := wrap_isMinDistSq hg vxPoint ⟨1, 0, 0⟩ ⟨0, 0, 0⟩
    ⟨fun _ => rfl, fun _ => rfl, fun _ => rfl⟩
  rw [← hw'] at hd
  refine ⟨⟨⟨10, 10, 10⟩, 3 / 5, none, ⟨[], []⟩⟩, s', vxBox, ⟨-401 / 100, -9 / 2, 0⟩, ⟨1, 0, 0⟩, _,
    if_neg (by norm_num), hg, hhalf, vxPoint, e, ?_, hd, by rw [hw']; decide +kernel, ?_⟩
  · rw [hw']; exact ⟨by decide, by decide, by decide⟩
  · have : ((⟨⟨10, 10, 10⟩, 3 / 5, none, ⟨[], []⟩⟩ : GaussianDensity ℚ).compute (fun _ _ => 1)
        vxBox [⟨-401 / 100, -9 / 2, 0⟩] none [(0, 0)] (List.range 100)).bind
        (fun s => s.density.at? [1, 0, 0]) = some 0 := by
      decide +kernel
    rw [e] at this
    exact this

/-- A box of 2 x 2. -/
def vxBox2 : Box ℚ := Box.mk' 2 2 0 0 0 0 true

theorem vxGrid2 : GridOK vxBox2 ⟨2, 2, 1⟩ 1 := by
  refine ⟨by constructor <;> simp [vxBox2, Box.mk', Box.setL], by decide +kernel,
    by decide +kernel, by decide +kernel, by decide +kernel,
    by decide, by decide, by decide, fun _ => rfl, by decide, by decide +kernel,
    by decide +kernel, by decide +kernel, by decide +kernel⟩

/-- **C38**: at `r_max` equal to half of the box a point is counted twice: in a box of 2 x 2 with two
voxels per direction and `r_max = 1`, the point at `(-0.9, -0.5)` is `0.6` from the center of voxel
`(1, 0)`. With the constant 1 in place of the Gaussian that voxel gets 2. -/
theorem C38_double_count_counterexample :
    ∃ (s s' : GaussianDensity ℚ) (b : Box ℚ) (p : Vec3 ℚ) (n : Vec3 ℕ) (d : ℚ),
      GaussianDensity.new ⟨2, 2, 2⟩ 1 = some s ∧
      GridOK b (Voxel.effWidth b s.width) s.rMax ∧ InGridBox b p ∧
      RadiusFits b (Voxel.effWidth b s.width) s.rMax ∧ 2 * s.rMax = b.L.x ∧
      s.compute (fun _ _ => 1) b [p] none [(0, 0)] (List.range 4) = some s' ∧
      IsVoxel s'.width n ∧
      IsMinDistSq b (voxelCenter b s'.width n) p d ∧ d < s.rMax ^ 2 ∧
      s'.density.at? [n.x, n.y, n.z] = some 2 := by
  have hp : InGridBox vxBox2 ⟨-9 / 10, -1 / 2, 0⟩ :=
    ⟨by decide +kernel, by decide +kernel, by decide +kernel, fun _ => rfl⟩
  have h2 : ((⟨⟨2, 2, 2⟩, 1, none, ⟨[], []⟩⟩ : GaussianDensity ℚ).compute (fun _ _ => 1)
        vxBox2 [⟨-9 / 10, -1 / 2, 0⟩] none [(0, 0)] (List.range 4)).map
        (fun s => (s.width.x, s.width.y, s.width.z, s.density.at? [1, 0, 0])) =
          some (2, 2, 1, some 2) := by
    decide +kernel
  obtain ⟨s', e, h⟩ := Option.map_eq_some_iff.mp h2
  simp only [Prod.mk.injEq] at h
  have hw' : s'.width = ⟨2, 2, 1⟩ := by ext; exacts [h.1, h.2.1, h.2.2.1]
  have hd := wrap_isMinDistSq vxGrid2 hp ⟨1, 0, 0⟩ ⟨0, 0, 0⟩
    ⟨fun _ => rfl, fun _ => rfl, fun _ => rfl⟩
  rw [← hw'] at hd
  refine ⟨⟨⟨2, 2, 2⟩, 1, none, ⟨[], []⟩⟩, s', vxBox2, ⟨-9 / 10, -1 / 2, 0⟩, ⟨1, 0, 0⟩, _,
    if_neg (by norm_num), vxGrid2, hp, ⟨by decide +kernel, by decide +kernel, by decide +kernel⟩,
    by decide +kernel, e, ?_, hd, by rw [hw']; decide +kernel, h.2.2.2⟩
  · rw [hw']; exact ⟨by decide, by decide, by decide⟩

/-- The hypotheses of `C38_density_partial` are met, by two points with values 3 and 5 on two
threads; the voxel `(1, 0)` is in range of the first point only. -/
example : let s : GaussianDensity ℚ := ⟨⟨10, 10, 10⟩, 5 / 4, none, ⟨[], []⟩⟩
    let pts : List (Vec3 ℚ) := [⟨-401 / 100, -9 / 2, 0⟩, ⟨3, 3, 0⟩]
    SameDim s.box vxBox ∧ GridOK vxBox (Voxel.effWidth vxBox s.width) s.rMax ∧
      RadiusFits vxBox (Voxel.effWidth vxBox s.width) s.rMax ∧ BelowHalfBox vxBox s.rMax ∧
      (∀ p ∈ pts, InGridBox vxBox p) ∧ IsExecution pts.length [(1, 1), (0, 0)] ∧
      (s.compute (fun dim d => (dim : ℚ) - d) vxBox pts (some [3, 5]) [(1, 1), (0, 0)]
        (List.range 100)).bind (fun s => s.density.at? [1, 0, 0]) =
          some (3 * (2 - (51 / 100) ^ 2)) := by
  refine ⟨(by intro b' h; cases h), vxGrid _ (by norm_num) (by norm_num), ?_, ?_, ?_, ?_, ?_⟩
  · exact ⟨by decide +kernel, by decide +kernel, by decide +kernel⟩
  · exact ⟨by decide +kernel, by decide +kernel, by decide +kernel⟩
  · intro p hp
    simp only [List.mem_cons, List.not_mem_nil, or_false] at hp
    rcases hp with rfl | rfl
    · exact vxPoint
    · exact ⟨by decide +kernel, by decide +kernel, by decide +kernel, fun _ => rfl⟩
  · unfold IsExecution; decide
  · decide +kernel

end Freud
