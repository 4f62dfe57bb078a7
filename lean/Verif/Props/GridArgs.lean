import Verif.Model.GridArgs
import Verif.Props.Voxel
import Mathlib.Tactic.NormNum

/-!
# C103: the grids of SphereVoxelization and GaussianDensity for every width and every box
-/

set_option linter.unusedSectionVars false

namespace Freud
open Spec MArray Voxel

/-- What a width argument asks for: the number of voxels along each axis, in 2D one layer. -/
def Spec.asksFor (is2D : Bool) : WidthArg → Option (Vec3 ℤ)
  | .int n => some ⟨n, n, if is2D then 1 else n⟩
  | .seq [a, b] => some ⟨a, b, 1⟩
  | .seq [a, b, c] => some ⟨a, b, if is2D then 1 else c⟩
  | _ => none

/-- A number of voxels that the C++ side can hold. -/
def Spec.IsCount (n : ℤ) : Prop := 0 ≤ n ∧ n < 2 ^ 32

/-- Every number in the argument is a number of voxels. -/
def Spec.AllCounts : WidthArg → Prop
  | .int n => IsCount n
  | .seq l => ∀ n ∈ l, IsCount n
  | .other => True

theorem asUInt_eq {n : ℤ} (h : IsCount n) : asUInt n = some n.toNat := if_pos h

theorem asUInt_none {n : ℤ} (h : ¬ IsCount n) : asUInt n = none := if_neg h

section
variable {K : Type*} [Field K] [LinearOrder K] [IsStrictOrderedRing K] [FloorRing K]

theorem gridWidth_cases (a : WidthArg) (is2D : Bool) :
    (gridWidth a = none ↔ asksFor is2D a = none ∨ ¬ AllCounts a) ∧
    ∀ w, gridWidth a = some w → ∃ v, asksFor is2D a = some v ∧ v.x = w.x ∧ v.y = w.y ∧
      v.z = if is2D then 1 else (w.z : ℤ) := by
  have one : IsCount 1 := ⟨by norm_num, by norm_num⟩
  have cast : ∀ {n : ℤ}, IsCount n → ((n.toNat : ℕ) : ℤ) = n := fun h => Int.toNat_of_nonneg h.1
  match a with
  | .other => simp [gridWidth, widthVector, asksFor]
  | .int n =>
    by_cases h : IsCount n
    · simp only [gridWidth, widthVector, asksFor, AllCounts, Option.bind_some, asUInt_eq h]
      refine ⟨by simp [h], fun w e => ?_⟩
      cases e
      refine ⟨_, rfl, (cast h).symm, (cast h).symm, ?_⟩
      simp [cast h]
    · simp [gridWidth, widthVector, asksFor, AllCounts, asUInt_none h, h]
  | .seq [] => simp [gridWidth, widthVector, asksFor]
  | .seq [_] => simp [gridWidth, widthVector, asksFor]
  | .seq (_ :: _ :: _ :: _ :: _) => simp [gridWidth, widthVector, asksFor]
  | .seq [n, m] =>
    by_cases h : IsCount n
    · by_cases h' : IsCount m
      · simp only [gridWidth, widthVector, asksFor, AllCounts, Option.bind_some, asUInt_eq h, asUInt_eq h',
          asUInt_eq one]
        refine ⟨by simp [h, h'], fun w e => ?_⟩
        cases e
        refine ⟨_, rfl, (cast h).symm, (cast h').symm, ?_⟩
        simp
      · simp [gridWidth, widthVector, asksFor, AllCounts, asUInt_eq h, asUInt_none h', h']
    · simp [gridWidth, widthVector, asksFor, AllCounts, asUInt_none h, h]
  | .seq [n, m, l] =>
    by_cases h : IsCount n
    · by_cases h' : IsCount m
      · by_cases h'' : IsCount l
        · simp only [gridWidth, widthVector, asksFor, AllCounts, Option.bind_some, asUInt_eq h, asUInt_eq h',
            asUInt_eq h'']
          refine ⟨by simp [h, h', h''], fun w e => ?_⟩
          cases e
          refine ⟨_, rfl, (cast h).symm, (cast h').symm, ?_⟩
          simp [cast h'']
        · simp [gridWidth, widthVector, asksFor, AllCounts, asUInt_eq h, asUInt_eq h', asUInt_none h'', h'']
      · simp [gridWidth, widthVector, asksFor, AllCounts, asUInt_eq h, asUInt_none h', h']
    · simp [gridWidth, widthVector, asksFor, AllCounts, asUInt_none h, h]

/-- **C103** (constructor): the constructors raise exactly if the width has none of the three forms, one of its numbers
is not a number of voxels, or the radius is not positive. -/
theorem C103_constructor (a : WidthArg) (r : K) :
    (pySphereVoxelization a r = none ↔ asksFor false a = none ∨ ¬ AllCounts a ∨ r ≤ 0) ∧
    (pyGaussianDensity a r = none ↔ asksFor false a = none ∨ ¬ AllCounts a ∨ r ≤ 0) := by
  have h := (gridWidth_cases a false).1
  rw [← or_assoc, ← h]
  constructor
  · cases hw : gridWidth a with
    | none => simp [pySphereVoxelization, hw]
    | some w => simp [pySphereVoxelization, hw, C37_constructor]
  · cases hw : gridWidth a with
    | none => simp [pyGaussianDensity, hw]
    | some w =>
      by_cases hr : r ≤ 0 <;> simp [pyGaussianDensity, hw, GaussianDensity.new, hr]

theorem squeeze_grid {α : Type*} (a : MArray α) (x y : ℕ) (hx : x ≠ 1) (hy : y ≠ 1) (hs : a.shape = [x, y, 1]) :
    (squeezeArray a).shape = [x, y] ∧ ∀ i j, (squeezeArray a).at? [i, j] = a.at? [i, j, 0] := by
  constructor
  · simp [squeezeArray, hs, hx, hy]
  · intro i j
    simp [squeezeArray, hs, hx, hy, MArray.at?, MArray.linIndex, MArray.get?, MArray.size]

theorem foldlM_invariant {α β : Type*} (f : β → α → Option β) (P : β → Prop)
    (hf : ∀ b a b', P b → f b a = some b' → P b') (l : List α) (b b' : β) (hb : P b)
    (h : l.foldlM f b = some b') : P b' := by
  induction l generalizing b with
  | nil =>
    simp only [List.foldlM_nil] at h
    cases h
    exact hb
  | cons a l ih =>
    rw [List.foldlM_cons] at h
    cases e : f b a with
    | none => rw [e] at h; cases h
    | some c =>
      rw [e] at h
      exact ih c (hf b a c hb e) h

theorem set_shape {α : Type*} (a a' : MArray α) (i : ℕ) (v : α) (h : a.set? i v = some a') : a'.shape = a.shape := by
  unfold MArray.set? at h
  split_ifs at h
  cases h
  rfl

/-- What computing does to the width and the box, and the shape of the result. -/
theorem voxel_compute (s s' : SphereVoxelization K) (b : Box K) (pts : List (Vec3 K)) (order : List ℕ)
    (h : s.compute b pts order = some s') : SameDim s.box b ∧ s'.width = Voxel.effWidth b s.width ∧
      s'.box = some b ∧ s'.voxels.shape = [s'.width.x, s'.width.y, s'.width.z] := by
  unfold SphereVoxelization.compute at h
  split_ifs at h with hd
  simp only [Option.map_eq_some_iff] at h
  obtain ⟨v, hv, rfl⟩ := h
  refine ⟨(sameDim_iff _ _).mp hd, rfl, rfl, ?_⟩
  refine foldlM_invariant _ (fun a : MArray ℕ => a.shape = _) ?_ order _ v rfl hv
  intro a i a' ha e
  cases hp : pts[i]? with
  | none => rw [hp] at e; cases e
  | some p =>
    rw [hp, Option.bind_some] at e
    exact foldlM_invariant _ (fun a : MArray ℕ => a.shape = _) (fun a c a' ha e => (set_shape _ _ _ _ e).trans ha)
      _ a a' ha e

theorem density_compute (gauss : ℕ → K → K) (s s' : GaussianDensity K) (b : Box K) (pts : List (Vec3 K))
    (values : Option (List K)) (ev : List (ℕ × ℕ)) (order : List ℕ)
    (h : s.compute gauss b pts values ev order = some s') : SameDim s.box b ∧
      s'.width = Voxel.effWidth b s.width ∧ s'.box = some b ∧
      s'.density.shape = [s'.width.x, s'.width.y, s'.width.z] := by
  unfold GaussianDensity.compute at h
  split_ifs at h with hd
  simp only [Option.bind_eq_some_iff, Option.map_eq_some_iff] at h
  obtain ⟨t, -, v, hv, rfl⟩ := h
  refine ⟨(sameDim_iff _ _).mp hd, rfl, rfl, ?_⟩
  unfold storageReduceInto at hv
  split_ifs at hv
  · cases hv
    rfl
  · refine foldlM_invariant _ (fun a : MArray K => a.shape = _) ?_ order _ v rfl hv
    intro a i a' ha e
    unfold addLocals at e
    refine foldlM_invariant _ (fun a : MArray K => a.shape = _) ?_ _ a a' ha e
    intro a l a' ha e
    simp only [Option.bind_eq_some_iff] at e
    obtain ⟨_, -, _, -, e⟩ := e
    exact (set_shape _ _ _ _ e).trans ha

/-- A call of `compute` that raises leaves the object as it was. -/
def Spec.voxelCalls (s : SphereVoxelization K) (calls : List (Box K × List (Vec3 K) × List ℕ)) :
    SphereVoxelization K :=
  calls.foldl (fun s c => (s.compute c.1 c.2.1 c.2.2).getD s) s

/-- The same for `GaussianDensity`. -/
def Spec.densityCalls (gauss : ℕ → K → K) (s : GaussianDensity K)
    (calls : List (Box K × List (Vec3 K) × Option (List K) × List (ℕ × ℕ) × List ℕ)) : GaussianDensity K :=
  calls.foldl (fun s c => (s.compute gauss c.1 c.2.1 c.2.2.1 c.2.2.2.1 c.2.2.2.2).getD s) s

theorem effWidth_again (b b' : Box K) (w : Vec3 ℕ) (h : b.is2D = b'.is2D) :
    Voxel.effWidth b (Voxel.effWidth b' w) = Voxel.effWidth b w := by
  unfold Voxel.effWidth
  rw [h]
  cases b'.is2D <;> simp

theorem voxel_history (s : SphereVoxelization K) (calls : List (Box K × List (Vec3 K) × List ℕ)) (w : Vec3 ℕ)
    (h : s.width = w ∨ ∃ b', s.box = some b' ∧ s.width = Voxel.effWidth b' w) :
    (voxelCalls s calls).width = w ∨
      ∃ b', (voxelCalls s calls).box = some b' ∧ (voxelCalls s calls).width = Voxel.effWidth b' w := by
  induction calls generalizing s with
  | nil => exact h
  | cons c calls ih =>
    refine ih _ ?_
    beta_reduce
    cases e : s.compute c.1 c.2.1 c.2.2 with
    | none => simpa using h
    | some s' =>
      obtain ⟨h1, h2, h3, -⟩ := voxel_compute s s' _ _ _ e
      refine Or.inr ⟨_, h3, ?_⟩
      rw [Option.getD_some, h2]
      rcases h with h | ⟨b', e1, e2⟩
      · rw [h]
      · rw [e2, effWidth_again _ _ _ (h1 b' e1)]

theorem density_history (gauss : ℕ → K → K) (s : GaussianDensity K)
    (calls : List (Box K × List (Vec3 K) × Option (List K) × List (ℕ × ℕ) × List ℕ)) (w : Vec3 ℕ)
    (h : s.width = w ∨ ∃ b', s.box = some b' ∧ s.width = Voxel.effWidth b' w) :
    (densityCalls gauss s calls).width = w ∨ ∃ b', (densityCalls gauss s calls).box = some b' ∧
      (densityCalls gauss s calls).width = Voxel.effWidth b' w := by
  induction calls generalizing s with
  | nil => exact h
  | cons c calls ih =>
    refine ih _ ?_
    beta_reduce
    cases e : s.compute gauss c.1 c.2.1 c.2.2.1 c.2.2.2.1 c.2.2.2.2 with
    | none => simpa using h
    | some s' =>
      obtain ⟨h1, h2, h3, -⟩ := density_compute gauss s s' _ _ _ _ _ e
      refine Or.inr ⟨_, h3, ?_⟩
      rw [Option.getD_some, h2]
      rcases h with h | ⟨b', e1, e2⟩
      · rw [h]
      · rw [e2, effWidth_again _ _ _ (h1 b' e1)]

/-- The array `arr` shown to the user is the grid that `a` asks for, with the entries of `full`: in 3D the same array, in
2D without the third index. -/
def Spec.ShownAs {α : Type*} (is2D : Bool) (v : Vec3 ℤ) (full arr : MArray α) : Prop :=
  if is2D then arr.shape.map (fun (n : ℕ) => (n : ℤ)) = [v.x, v.y] ∧ ∀ i j, arr.at? [i, j] = full.at? [i, j, 0]
  else arr.shape.map (fun (n : ℕ) => (n : ℤ)) = [v.x, v.y, v.z] ∧ arr = full

theorem shown {α : Type*} (a : WidthArg) (b : Box K) (w₀ w : Vec3 ℕ) (full : MArray α) (hg : gridWidth a = some w₀)
    (hw : w = Voxel.effWidth b w₀) (hs : full.shape = [w.x, w.y, w.z]) (v : Vec3 ℤ)
    (hv : asksFor b.is2D a = some v) (h2 : b.is2D = true → v.x ≠ 1 ∧ v.y ≠ 1) :
    ShownAs b.is2D v full (if b.is2D then squeezeArray full else full) := by
  obtain ⟨v', hv', e1, e2, e3⟩ := (gridWidth_cases a b.is2D).2 w₀ hg
  rw [hv, Option.some.injEq] at hv'
  subst hv'
  subst hw
  cases hd : b.is2D with
  | true =>
    simp only [Voxel.effWidth, hd, if_true] at hs
    obtain ⟨h3, h4⟩ := h2 hd
    obtain ⟨q1, q2⟩ := squeeze_grid full w₀.x w₀.y (by omega) (by omega) hs
    simp only [ShownAs, if_true, q1]
    exact ⟨by simp [e1, e2], q2⟩
  | false =>
    simp only [Voxel.effWidth, hd] at hs
    simp only [hd] at e3
    simp only [ShownAs, Bool.false_eq_true, if_false]
    exact ⟨by rw [hs]; simp [e1, e2, e3], trivial⟩

/-- **C103** (shape): after any history of calls, with boxes of any shape and calls that raise among them, a call that
returns leaves `voxels` with the shape that the width asks for with the box of that call, and `at? [i, j, k]` of the
computed grid at place `(i, j, k)`, in 2D at `(i, j)`. This needs more than one voxel along `x` and `y` in 2D, see
`C103_shape_counterexample`. -/
theorem C103_shape_partial (a : WidthArg) (r : K) (s₀ s' : SphereVoxelization K)
    (calls : List (Box K × List (Vec3 K) × List ℕ)) (b : Box K) (pts : List (Vec3 K)) (order : List ℕ)
    (h₀ : pySphereVoxelization a r = some s₀) (h : (voxelCalls s₀ calls).compute b pts order = some s') :
    ∃ v, asksFor b.is2D a = some v ∧ [(s'.width.x : ℤ), s'.width.y, s'.width.z] = [v.x, v.y, v.z] ∧
      ((b.is2D = true → v.x ≠ 1 ∧ v.y ≠ 1) → ∃ arr, pyVoxels s' = some arr ∧ ShownAs b.is2D v s'.voxels arr) := by
  obtain ⟨w₀, hg, hn⟩ : ∃ w, gridWidth a = some w ∧ SphereVoxelization.new w r = some s₀ := by
    simpa [pySphereVoxelization, Option.bind_eq_some_iff] using h₀
  have hw0 : s₀.width = w₀ := by
    unfold SphereVoxelization.new at hn
    split_ifs at hn
    cases hn
    rfl
  obtain ⟨h1, h2, h3, h4⟩ := voxel_compute _ _ _ _ _ h
  have hw : s'.width = Voxel.effWidth b w₀ := by
    rcases voxel_history s₀ calls w₀ (Or.inl hw0) with e | ⟨b', e, e'⟩
    · rw [h2, e]
    · rw [h2, e', effWidth_again _ _ _ (h1 b' e)]
  obtain ⟨v, hv, e1, e2, e3⟩ := (gridWidth_cases a b.is2D).2 w₀ hg
  refine ⟨v, hv, ?_, fun hne => ⟨_, by rw [pyVoxels, h3]; rfl, shown a b w₀ s'.width s'.voxels hg hw h4 v hv hne⟩⟩
  rw [hw, Voxel.effWidth]
  cases hd : b.is2D <;> simp [e1, e2, e3, hd]

/-- **C103** (shape) for `density`. -/
theorem C103_density_shape_partial (gauss : ℕ → K → K) (a : WidthArg) (r : K) (s₀ s' : GaussianDensity K)
    (calls : List (Box K × List (Vec3 K) × Option (List K) × List (ℕ × ℕ) × List ℕ)) (b : Box K)
    (pts : List (Vec3 K)) (values : Option (List K)) (ev : List (ℕ × ℕ)) (order : List ℕ)
    (h₀ : pyGaussianDensity a r = some s₀)
    (h : (densityCalls gauss s₀ calls).compute gauss b pts values ev order = some s') :
    ∃ v, asksFor b.is2D a = some v ∧ [(s'.width.x : ℤ), s'.width.y, s'.width.z] = [v.x, v.y, v.z] ∧
      ((b.is2D = true → v.x ≠ 1 ∧ v.y ≠ 1) → ∃ arr, pyDensity s' = some arr ∧ ShownAs b.is2D v s'.density arr) := by
  obtain ⟨w₀, hg, hn⟩ : ∃ w, gridWidth a = some w ∧ GaussianDensity.new w r = some s₀ := by
    simpa [pyGaussianDensity, Option.bind_eq_some_iff] using h₀
  have hw0 : s₀.width = w₀ := by
    unfold GaussianDensity.new at hn
    split_ifs at hn
    cases hn
    rfl
  obtain ⟨h1, h2, h3, h4⟩ := density_compute gauss _ _ _ _ _ _ _ h
  have hw : s'.width = Voxel.effWidth b w₀ := by
    rcases density_history gauss s₀ calls w₀ (Or.inl hw0) with e | ⟨b', e, e'⟩
    · rw [h2, e]
    · rw [h2, e', effWidth_again _ _ _ (h1 b' e)]
  obtain ⟨v, hv, e1, e2, e3⟩ := (gridWidth_cases a b.is2D).2 w₀ hg
  refine ⟨v, hv, ?_, fun hne => ⟨_, by rw [pyDensity, h3]; rfl, shown a b w₀ s'.width s'.density hg hw h4 v hv hne⟩⟩
  rw [hw, Voxel.effWidth]
  cases hd : b.is2D <;> simp [e1, e2, e3, hd]

/-- **C103** (shape) is false for a 2D grid of one row: the axis disappears from the array. -/
theorem C103_shape_counterexample : ∃ s s' : SphereVoxelization ℚ, pySphereVoxelization (.seq [1, 10]) 1 = some s ∧
    s.compute vxBox [⟨0, 0, 0⟩] [0] = some s' ∧ (pyVoxels s').map (·.shape) = some [10] := by
  have h : ((pySphereVoxelization (.seq [1, 10]) (1 : ℚ)).bind fun s => (s.compute vxBox [⟨0, 0, 0⟩] [0]).bind
      fun s' => (pyVoxels s').map (·.shape)) = some [10] := by decide +kernel
  simp only [Option.bind_eq_some_iff] at h
  obtain ⟨s, h1, s', h2, h3⟩ := h
  exact ⟨s, s', h1, h2, h3⟩

/-! ### Tilted boxes -/

/-- The box with the same lengths and without tilt: the region that the grid covers. -/
def Spec.untilted (b : Box K) : Box K := { b with xy := 0, xz := 0, yz := 0 }

/-- Some image of `p` is less than `r` from `c`. -/
def Spec.Near (b : Box K) (c p : Vec3 K) (r : K) : Prop :=
  ∃ m, AllowedShift b m ∧ Vec3.dot (c - p + lattice b m) (c - p + lattice b m) < r ^ 2

/-- The point is further than `r` and one voxel from the faces that bound the grid along `y` and `z`. -/
structure Spec.ClearOfFaces (b : Box K) (w : Vec3 ℕ) (r : K) (p : Vec3 K) : Prop where
  y : |p.y| + r + b.L.y / w.y ≤ b.L.y / 2
  z : b.is2D = false → |p.z| + r + b.L.z / w.z ≤ b.L.z / 2

theorem axis_inside (L x r : K) (per : Bool) (w : ℕ) (hL : 0 < L) (hw : 1 ≤ w) (hr : 0 < r) (hrL : r ≤ L)
    (h : |x| + r + L / w ≤ L / 2) (i : ℤ)
    (hi : i ∈ Voxel.axisLoop per w (trunc ((x + L / 2) / (L / (w : K)))) (trunc (r / (L / (w : K))))) :
    0 ≤ i ∧ i < w := by
  have hwp : (0 : K) < w := by exact_mod_cast hw
  obtain ⟨g, hg⟩ : ∃ g, g = L / (w : K) := ⟨_, rfl⟩
  have hg0 : 0 < g := hg ▸ div_pos hL hwp
  have hgw : (w : K) * g = L := by rw [hg]; field_simp
  have a1 := le_abs_self x
  have a2 := neg_abs_le x
  rw [← hg] at h
  obtain ⟨-, -, b1, b2⟩ := bin_spec L x w hL hw (by linarith) (by linarith)
  obtain ⟨c1, c2, -, -⟩ := cut_spec L r w hL hw hr hrL
  simp only [← hg] at b1 b2 c1 c2 hi
  have c3 : ((trunc (r / g) : ℤ) : K) * g ≤ r := by
    rw [c1, ← le_div_iff₀ hg0]
    exact Int.floor_le _
  obtain ⟨⟨i1, i2⟩, -⟩ := (mem_axisLoop per w _ _ i c2).mp hi
  generalize trunc ((x + L / 2) / g) = bin at b1 b2 i1 i2
  generalize trunc (r / g) = cut at c3 i1 i2
  constructor
  · have : ((cut : ℤ) : K) * g < bin * g := by linarith [add_mul (bin : K) 1 g, one_mul g]
    have : (cut : K) < bin := lt_of_mul_lt_mul_right this hg0.le
    have : cut < bin := by exact_mod_cast this
    omega
  · have : ((bin + cut : ℤ) : K) * g < w * g := by
      push_cast
      linarith [add_mul (bin : K) cut g]
    have : ((bin + cut : ℤ) : K) < ((w : ℤ) : K) := by
      have := lt_of_mul_lt_mul_right this hg0.le
      exact_mod_cast this
    have : bin + cut < w := by exact_mod_cast this
    omega

theorem hits_tilted {b : Box K} {w : Vec3 ℕ} {r : K} {p : Vec3 K} (hv : Valid b) (h : GridOK (untilted b) w r)
    (hp : InGridBox b p) (hc : ClearOfFaces b w r p) (idx : List ℕ) (d : K) (hm : (idx, d) ∈ Voxel.hits b w r p) :
    ∃ n : Vec3 ℕ, IsVoxel w n ∧ idx = [n.x, n.y, n.z] ∧ Near b (voxelCenter b w n) p r := by
  obtain ⟨i, hi, j, hj, k, hk, rfl, hd, hlt⟩ := (mem_hits idx d).mp hm
  have hp' : InGridBox (untilted b) p := ⟨hp.x, hp.y, hp.z, hp.plane⟩
  have fx := factsX h hp'
  have fy := factsY h hp'
  have fz := factsZ h hp'
  have ex : (Voxel.store i w.x : ℤ) = i % w.x := fx.store i hi
  have ey : (Voxel.store j w.y : ℤ) = j % w.y := fy.store j hj
  have ez : (Voxel.store k w.z : ℤ) = k % w.z := fz.store k hk
  have hx : (0 : ℤ) < w.x := by have := h.wx; omega
  have hy : (0 : ℤ) < w.y := by have := h.wy; omega
  have hz : (0 : ℤ) < w.z := by have := h.wz; omega
  have jin : 0 ≤ j ∧ j < w.y :=
    axis_inside b.L.y p.y r b.py w.y h.posy h.wy h.rpos h.ry hc.y j hj
  have kin : 0 ≤ k ∧ k < w.z := by
    cases h2 : b.is2D with
    | true =>
      have := (loopZ_2D h h2 k).mp hk
      omega
    | false =>
      refine axis_inside b.L.z p.z r b.pz w.z (h.posz h2) h.wz h.rpos (h.rz h2) (hc.z h2) k ?_
      rw [← pointBin_z_3D h2, ← binCut_z_3D h2]
      exact hk
  rw [Int.emod_eq_of_lt jin.1 jin.2] at ey
  rw [Int.emod_eq_of_lt kin.1 kin.2] at ez
  set n : Vec3 ℕ := ⟨Voxel.store i w.x, Voxel.store j w.y, Voxel.store k w.z⟩ with hn
  have hallow : AllowedShift b ⟨i / w.x, 0, 0⟩ := ⟨fun hpx => fx.shift hpx i hi, fun _ => rfl, fun _ => rfl⟩
  have hn2 : b.is2D = true → n.z = 0 ∧ (0 : ℤ) = 0 := by
    intro h2
    have hk0 := (loopZ_2D h h2 k).mp hk
    refine ⟨?_, rfl⟩
    have : (n.z : ℤ) = 0 := by rw [hn, ez, hk0]
    exact_mod_cast this
  have e1 : (n.x : ℤ) + i / w.x * w.x = i := by rw [hn, ex]; exact Int.emod_add_ediv_mul i w.x
  have e2 : (n.y : ℤ) + 0 * w.y = j := by rw [hn, ey]; ring
  have e3 : (n.z : ℤ) + 0 * w.z = k := by rw [hn, ez]; ring
  have hde := delta_eq h hp' n ⟨i / w.x, 0, 0⟩ hn2
  rw [e1, e2, e3] at hde
  have hlat : lattice (untilted b) ⟨i / w.x, 0, 0⟩ = lattice b ⟨i / w.x, 0, 0⟩ := by
    ext <;> simp [lattice, comb, a1, a2, a3, untilted]
  rw [hlat] at hde
  have hde : delta b w p i j k = voxelCenter b w n - p + lattice b ⟨i / w.x, 0, 0⟩ := hde
  have hpl : Planar b (voxelCenter b w n - p) := planar_center h hp' n
  refine ⟨n, ⟨?_, ?_, ?_⟩, rfl, ?_⟩
  · have : (n.x : ℤ) < w.x := by rw [hn, ex]; exact Int.emod_lt_of_pos _ hx
    exact_mod_cast this
  · have : (n.y : ℤ) < w.y := by rw [hn, ey]; exact jin.2
    exact_mod_cast this
  · have : (n.z : ℤ) < w.z := by rw [hn, ez]; exact kin.2
    exact_mod_cast this
  · rw [hde, wrap_add_lattice hv _ hpl _ hallow] at hd
    obtain ⟨⟨m, hm', e⟩, -⟩ := C01_wrap_in_box b hv _ hpl
    refine ⟨m, hm', ?_⟩
    rw [← e, ← hd, pow_two]
    exact hlt

/-- **C103** (tilted boxes): with any tilt, a voxel is marked only if its center is less than `r_max` from some image of
some point, provided that no point is within `r_max` and one voxel of the faces of the grid along `y` and `z`. Without
this condition it is false, see `C103_tilted_counterexample`. -/
theorem C103_tilted_partial (s : SphereVoxelization K) (b : Box K) (points : List (Vec3 K)) (order : List ℕ)
    (hdim : SameDim s.box b) (hb : Valid b) (hg : GridOK (untilted b) (Voxel.effWidth b s.width) s.rMax)
    (hp : ∀ p ∈ points, InGridBox b p) (hc : ∀ p ∈ points, ClearOfFaces b (Voxel.effWidth b s.width) s.rMax p)
    (hord : order.Perm (List.range points.length)) :
    ∃ s', s.compute b points order = some s' ∧ s'.width = Voxel.effWidth b s.width ∧
      ∀ n, IsVoxel s'.width n → ∃ v, s'.voxels.at? [n.x, n.y, n.z] = some v ∧ (v = 0 ∨ v = 1) ∧
        (v = 1 → ∃ p ∈ points, Near b (voxelCenter b s'.width n) p s.rMax) := by
  obtain ⟨s', e, hw, -, -, -, -, h⟩ := compute_hits_of s b points order hdim _ rfl (fun p hpm c hcm => by
    obtain ⟨n, hn, e, -⟩ := hits_tilted hb hg (hp p hpm) (hc p hpm) c.1 c.2 hcm
    rw [e]
    exact validIndex3 _ n hn) hord
  refine ⟨s', e, hw, fun n hn => ?_⟩
  obtain ⟨v, hv, h01, hiff⟩ := h n hn
  refine ⟨v, hv, h01, fun h1 => ?_⟩
  obtain ⟨p, hpm, hmem⟩ := hiff.mp h1
  obtain ⟨⟨idx, d⟩, hcm, he⟩ := List.mem_map.mp hmem
  rw [hw] at hcm
  obtain ⟨n', hn', e', hnear⟩ := hits_tilted hb hg (hp p hpm) (hc p hpm) idx d hcm
  have : n' = n := by
    simp only [e', List.cons.injEq, and_true] at he
    exact Vec3.ext he.1 he.2.1 he.2.2
  refine ⟨p, hpm, ?_⟩
  rw [hw, ← this]
  exact hnear

end

/-- A tilted box in the plane. -/
def tiltedBox : Box ℚ := Box.mk' 10 10 0 (1 / 2) 0 0 true

theorem tiltedBox_valid : Valid tiltedBox := by constructor <;> simp [tiltedBox, Box.mk', Box.setL]

theorem tiltedGrid : GridOK (untilted tiltedBox) ⟨10, 10, 1⟩ 1 := by
  have := vxGrid 1 (by norm_num) (by norm_num)
  have e : untilted tiltedBox = vxBox := by simp [untilted, tiltedBox, vxBox, Box.mk', Box.setL]
  rw [e]
  exact this

theorem tilted_far : ¬ Near tiltedBox (voxelCenter tiltedBox ⟨10, 10, 1⟩ ⟨7, 0, 0⟩) ⟨2, 49 / 10, 0⟩ 1 := by
  rintro ⟨m, -, h⟩
  have ex : (voxelCenter tiltedBox ⟨10, 10, 1⟩ ⟨7, 0, 0⟩ - ⟨2, 49 / 10, 0⟩ + lattice tiltedBox m).x =
      1 / 2 + 10 * m.x + 5 * m.y := by
    simp [voxelCenter, tiltedBox, Box.mk', Box.setL, lattice, comb, a1, a2, a3]
    ring
  have ey : (voxelCenter tiltedBox ⟨10, 10, 1⟩ ⟨7, 0, 0⟩ - ⟨2, 49 / 10, 0⟩ + lattice tiltedBox m).y =
      -47 / 5 + 10 * m.y := by
    simp [voxelCenter, tiltedBox, Box.mk', Box.setL, lattice, comb, a1, a2, a3]
    ring
  have hd := dot_component _ _ h
  rw [ex, ey] at hd
  obtain ⟨h1, h2, -⟩ := hd
  have h3 := abs_lt.mp (abs_lt_of_sq_lt_sq h2 (by norm_num))
  have h4 := abs_lt.mp (abs_lt_of_sq_lt_sq h1 (by norm_num))
  have y1 : m.y = 1 := by
    have a : (m.y : ℚ) < 2 := by linarith
    have b : (0 : ℚ) < m.y := by linarith
    have a' : m.y < 2 := by exact_mod_cast a
    have b' : 0 < m.y := by exact_mod_cast b
    omega
  rw [y1] at h4
  push_cast at h4
  have a : (m.x : ℚ) < 0 := by linarith
  have b : (-1 : ℚ) < m.x := by linarith
  have a' : m.x < 0 := by exact_mod_cast a
  have b' : -1 < m.x := by exact_mod_cast b
  omega

/-- **C103** (tilted boxes) is false near the faces: the grid is continued without the tilt. In a box of 10 x 10 with
tilt 1/2 and voxels of size 1, the point `(2, 4.9)` with `r_max = 1` marks the voxel at `(2.5, -4.5)`, which is more than
4 from all images of the point; and it adds to the density there. -/
theorem C103_tilted_counterexample :
    Valid tiltedBox ∧ InGridBox tiltedBox ⟨2, 49 / 10, 0⟩ ∧
    ¬ Near tiltedBox (voxelCenter tiltedBox ⟨10, 10, 1⟩ ⟨7, 0, 0⟩) ⟨2, 49 / 10, 0⟩ 1 ∧
    ((pySphereVoxelization (.int 10) (1 : ℚ)).bind fun s => (s.compute tiltedBox [⟨2, 49 / 10, 0⟩] [0]).bind
      fun s' => (pyVoxels s').bind fun v => v.at? [7, 0]) = some 1 ∧
    ((pyGaussianDensity (.int 10) (1 : ℚ)).bind fun s => (s.compute (fun _ _ => 1) tiltedBox [⟨2, 49 / 10, 0⟩] none
      [(0, 0)] (List.range 100)).bind fun s' => (pyDensity s').bind fun v => v.at? [7, 0]) = some 1 :=
  ⟨tiltedBox_valid, ⟨by decide +kernel, by decide +kernel, by decide +kernel, fun _ => rfl⟩, tilted_far,
    by decide +kernel, by decide +kernel⟩

/-- The hypotheses of `C103_tilted_partial` are met, with a voxel that is marked. -/
example : ClearOfFaces tiltedBox ⟨10, 10, 1⟩ 1 ⟨2, 1, 0⟩ ∧ InGridBox tiltedBox ⟨2, 1, 0⟩ ∧
    ((pySphereVoxelization (.int 10) (1 : ℚ)).bind fun s => (s.compute tiltedBox [⟨2, 1, 0⟩] [0]).bind
      fun s' => (pyVoxels s').bind fun v => v.at? [7, 6]) = some 1 := by
  refine ⟨⟨?_, ?_⟩, ⟨by decide +kernel, by decide +kernel, by decide +kernel, fun _ => rfl⟩, by decide +kernel⟩
  · simp [tiltedBox, Box.mk', Box.setL]
    norm_num
  · simp [tiltedBox, Box.mk', Box.setL]

end Freud
