import Verif.Model.BoxForms
import Verif.Props.BoxOps
import Verif.Spec.Periodic

/-!
# C102: equal boxes are the same, and a box survives being written out
-/

set_option linter.unusedSectionVars false

namespace Freud
open Spec

section
variable {K : Type*} [Field K] [LinearOrder K] [IsStrictOrderedRing K] [FloorRing K]

theorem pyEq_iff (b c : Box K) : pyEq b c = true ↔ b.L = c.L ∧ b.xy = c.xy ∧ b.xz = c.xz ∧ b.yz = c.yz ∧
    b.is2D = c.is2D ∧ b.px = c.px ∧ b.py = c.py ∧ b.pz = c.pz := by
  simp only [pyEq, Bool.and_eq_true, decide_eq_true_eq, Vec3.ext_iff]
  tauto

/-- **C102** (comparison): `==` of boxes is reflexive, symmetric and transitive. -/
theorem C102_equivalence (b c d : Box K) : pyEq b b = true ∧ (pyEq b c = true → pyEq c b = true) ∧
    (pyEq b c = true → pyEq c d = true → pyEq b d = true) := by
  simp only [pyEq_iff]
  refine ⟨by simp, fun h => ?_, fun h h' => ?_⟩
  · obtain ⟨h1, h2, h3, h4, h5, h6, h7, h8⟩ := h
    exact ⟨h1.symm, h2.symm, h3.symm, h4.symm, h5.symm, h6.symm, h7.symm, h8.symm⟩
  · obtain ⟨h1, h2, h3, h4, h5, h6, h7, h8⟩ := h
    obtain ⟨k1, k2, k3, k4, k5, k6, k7, k8⟩ := h'
    exact ⟨h1.trans k1, h2.trans k2, h3.trans k3, h4.trans k4, h5.trans k5, h6.trans k6, h7.trans k7, h8.trans k8⟩

/-- **C102** (comparison): take two boxes, each made by the constructor and then changed by any sequence of
assignments to attributes other than `dimensions`. They compare equal exactly if they are in the same state, so that no
method can tell them apart. With assignments to `dimensions` this is false, see `C102_equal_counterexample`. -/
theorem C102_equal_means_same_partial (b₀ c₀ : Box K) (hb : Constructed b₀) (hc : Constructed c₀)
    (ops ops' : List (BoxOp K)) (h : ∀ o ∈ ops, isDimensions o = false) (h' : ∀ o ∈ ops', isDimensions o = false) :
    pyEq (BoxOp.run b₀ ops) (BoxOp.run c₀ ops') = true ↔ BoxOp.run b₀ ops = BoxOp.run c₀ ops' := by
  have key : ∀ (b : Box K), Constructed b → ∀ ops : List (BoxOp K), (∀ o ∈ ops, isDimensions o = false) →
      rebuilt (BoxOp.run b ops) = BoxOp.run b ops := by
    intro b hb ops h
    cases ops with
    | nil => exact C61_constructed b hb
    | cons o l =>
      exact C61_assignments_consistent_partial b [] l o (fun x hx => h x (List.mem_cons_of_mem _ hx))
        (Or.inr ⟨rfl, h o List.mem_cons_self, C61_constructed b hb⟩)
  rw [pyEq_iff]
  constructor
  · rintro ⟨h1, h2, h3, h4, h5, h6, h7, h8⟩
    rw [← key b₀ hb ops h, ← key c₀ hc ops' h', rebuilt, rebuilt, h1, h2, h3, h4, h5, h6, h7, h8]
  · intro e
    rw [e]
    simp

/-- **C102** is false with assignments to `dimensions`: a 3D box made 2D compares equal to a 2D box made as such, but
wraps a point of the plane to another place. -/
theorem C102_equal_counterexample : ∃ (b c : Box ℚ) (v : Vec3 ℚ), Constructed b ∧ Constructed c ∧ v.z = 0 ∧
    pyEq (BoxOp.run b [.dimensions true]) c = true ∧ (BoxOp.run b [.dimensions true]).wrap v ≠ c.wrap v :=
  ⟨Box.mk' 2 2 2 0 1 0 false, Box.mk' 2 2 0 0 1 0 true, ⟨0, 0, 0⟩,
    ⟨2, 2, 2, 0, 1, 0, false, Box.mk' 2 2 2 0 1 0 false, true, true, true, by simp [pyBox], rfl⟩,
    ⟨2, 2, 0, 0, 1, 0, true, Box.mk' 2 2 0 0 1 0 true, true, true, true, by simp [pyBox], rfl⟩, rfl,
    by decide +kernel, by decide +kernel⟩

/-- **C102** (scaling): scaling twice is scaling by the product; scaling by 1 gives an equal box exactly if it is
periodic along all axes; the volume is scaled by the third power, in 2D the area by the second. -/
theorem C102_scale (b : Box K) (hb : Constructed b) (s t : K) (hs : 0 < s) (ht : 0 < t) :
    (mulBox b s).bind (fun c => mulBox c t) = mulBox b (s * t) ∧
    (∃ c, mulBox b 1 = some c ∧ (pyEq c b = true ↔ b.px = true ∧ b.py = true ∧ b.pz = true)) ∧
    ∃ c, mulBox b s = some c ∧ c.getVolume = s ^ (if b.is2D then 2 else 3) * b.getVolume := by
  have ht' : 0 < s * t := mul_pos hs ht
  obtain ⟨Lx, Ly, Lz, xy, xz, yz, is2D, px, py, pz, ⟨h1, h2, h3⟩, rfl⟩ := constructed_cases hb
  cases is2D
  · have h3 := h3 rfl
    refine ⟨?_, ⟨Box.mk' Lx Ly Lz xy xz yz false, by simp [mulBox, pyBox, Box.mk', Box.setL, Box.setPeriodic, h1, h2, h3], ?_⟩,
      ⟨Box.mk' (Lx * s) (Ly * s) (Lz * s) xy xz yz false,
        by simp [mulBox, pyBox, Box.mk', Box.setL, Box.setPeriodic, h1, h2, h3, hs, hs.ne'], ?_⟩⟩
    · simp [mulBox, pyBox, Box.mk', Box.setL, Box.setPeriodic, h1, h2, h3, hs, hs.ne', ht, ht.ne', mul_assoc]
    · cases px <;> cases py <;> cases pz <;> simp [pyEq, Box.setPeriodic, Box.mk', Box.setL]
    · simp [Box.getVolume, Box.mk', Box.setL, Box.setPeriodic]
      ring
  · refine ⟨?_, ⟨Box.mk' Lx Ly Lz xy xz yz true, by simp [mulBox, pyBox, Box.mk', Box.setL, Box.setPeriodic, h1, h2], ?_⟩,
      ⟨Box.mk' (Lx * s) (Ly * s) (Lz * s) xy xz yz true,
        by simp [mulBox, pyBox, Box.mk', Box.setL, Box.setPeriodic, h1, h2, hs, hs.ne'], ?_⟩⟩
    · simp [mulBox, pyBox, Box.mk', Box.setL, Box.setPeriodic, h1, h2, hs, hs.ne', ht, ht.ne', mul_assoc]
    · cases px <;> cases py <;> cases pz <;> simp [pyEq, Box.setPeriodic, Box.mk', Box.setL]
    · simp [Box.getVolume, Box.mk', Box.setL, Box.setPeriodic]
      ring

end

/-- **C102** (writing out): what `to_dict`, `to_box_params` and the printed form of a box describe is that box with all
axes periodic. So reading them back gives an equal box exactly if the box is periodic along all axes, see
`C102_written_counterexample`. -/
theorem C102_written_partial (b : Box ℝ) (hb : Constructed b) :
    fromBoxLike (.dict (toDict b)) none = some (b.setPeriodic true true true) ∧
    fromBoxLike (.list (toBoxParams b)) none = some (b.setPeriodic true true true) ∧
    evalRepr b = some (b.setPeriodic true true true) ∧
    (pyEq (b.setPeriodic true true true) b = true ↔ b.px = true ∧ b.py = true ∧ b.pz = true) := by
  obtain ⟨Lx, Ly, Lz, xy, xz, yz, is2D, px, py, pz, ⟨h1, h2, h3⟩, rfl⟩ := constructed_cases hb
  refine ⟨?_, ?_, ?_, ?_⟩
  · cases is2D
    · simp [fromBoxLike, fromNamed, boxOf, toDict, pyBox, Box.mk', Box.setL, Box.setPeriodic, h1, h2, h3]
    · simp [fromBoxLike, fromNamed, boxOf, toDict, pyBox, Box.mk', Box.setL, Box.setPeriodic, h1, h2]
  · cases is2D
    · simp [fromBoxLike, fromList, boxOf, toBoxParams, pyBox, Box.mk', Box.setL, Box.setPeriodic, h1, h2, h3]
    · simp [fromBoxLike, fromList, boxOf, toBoxParams, pyBox, Box.mk', Box.setL, Box.setPeriodic, h1, h2]
  · cases is2D
    · simp [evalRepr, pyBox, Box.mk', Box.setL, Box.setPeriodic, h1, h2, h3]
    · simp [evalRepr, pyBox, Box.mk', Box.setL, Box.setPeriodic, h1, h2]
  · cases px <;> cases py <;> cases pz <;> simp [pyEq, Box.setPeriodic]

/-- **C102** (writing out) is false for other boxes: the axis comes back periodic. -/
theorem C102_written_counterexample : ∃ b : Box ℝ, Constructed b ∧ ∃ c,
    fromBoxLike (.dict (toDict b)) none = some c ∧ pyEq c b = false := by
  refine ⟨(Box.mk' 2 2 2 0 0 0 false).setPeriodic true true false,
    ⟨2, 2, 2, 0, 0, 0, false, _, true, true, false, by simp [pyBox], rfl⟩, _, (C102_written_partial _
    ⟨2, 2, 2, 0, 0, 0, false, _, true, true, false, by simp [pyBox], rfl⟩).1, ?_⟩
  simp [pyEq, Box.mk', Box.setL, Box.setPeriodic]

/-- **C102** (writing out): the matrix of a box with positive lengths is read back as that box with all axes periodic;
for a 2D box the tilts out of the plane, which have no effect, are cleared. -/
theorem C102_matrix (b : Box ℝ) (hb : Constructed b) (hx : 0 < b.L.x) (hy : 0 < b.L.y)
    (hz : b.is2D = false → 0 < b.L.z) :
    fromBoxLike (.matrix (matrixOf b)) none = some (if b.is2D then
      { b.setPeriodic true true true with xz := 0, yz := 0 } else b.setPeriodic true true true) := by
  obtain ⟨Lx, Ly, Lz, xy, xz, yz, is2D, px, py, pz, -, rfl⟩ := constructed_cases hb
  cases is2D
  · have hx : 0 < Lx := hx
    have hy : 0 < Ly := hy
    have hz : 0 < Lz := hz rfl
    have := C07_matrix_roundtrip Lx Ly Lz xy xz yz hx hy hz
    simpa [fromBoxLike, matrixOf, CellMat.col, toMatrix, Box.mk', Box.setL, Box.setPeriodic] using this
  · have hx : 0 < Lx := hx
    have hy : 0 < Ly := hy
    have := C07_matrix_roundtrip_2D Lx Ly xy hx hy
    simpa [fromBoxLike, matrixOf, CellMat.col, toMatrix, Box.mk', Box.setL, Box.setPeriodic] using this

/-- **C102** (cubes and squares): `Box.cube(L)` is `Box(L, L, L)`, what `[L, L, L]` describes and, for positive `L`, what
the diagonal matrix describes; `Box.square(L)` is `Box(L, L)` and what `[L, L]` describes. Only `L = 0` raises. -/
theorem C102_cube (L : ℝ) :
    (Box.cube L = none ↔ L = 0) ∧ (Box.square L = none ↔ L = 0) ∧
    Box.cube L = (if L = 0 then none else fromBoxLike (.list [L, L, L]) none) ∧
    Box.square L = fromBoxLike (.list [L, L]) none ∧
    (0 < L → Box.cube L = fromBoxLike (.matrix ![![L, 0, 0], ![0, L, 0], ![0, 0, L]]) none) ∧
    (∀ b, Box.cube L = some b → FullyPeriodic b ∧ b.is2D = false ∧ b.getVolume = L ^ 3) ∧
    (∀ b, Box.square L = some b → FullyPeriodic b ∧ b.is2D = true ∧ b.getVolume = L ^ 2) := by
  refine ⟨?_, ?_, ?_, ?_, fun hL => ?_, fun b hb => ?_, fun b hb => ?_⟩
  · by_cases h : L = 0 <;> simp [Box.cube, pyBox, h]
  · by_cases h : L = 0 <;> simp [Box.square, pyBox, h]
  · by_cases h : L = 0 <;> simp [Box.cube, pyBox, h, fromBoxLike, fromList, boxOf]
  · simp [Box.square, fromBoxLike, fromList, boxOf]
  · have := C07_matrix_roundtrip L L L 0 0 0 hL hL hL
    simp [Box.cube, pyBox, hL.ne', fromBoxLike, CellMat.col, toMatrix, Box.mk', Box.setL] at this ⊢
    exact this.symm
  · by_cases h : L = 0
    · simp [Box.cube, pyBox, h] at hb
    · simp [Box.cube, pyBox, h] at hb
      subst hb
      refine ⟨⟨rfl, rfl, rfl⟩, rfl, ?_⟩
      simp [Box.getVolume, Box.mk', Box.setL]
      ring
  · by_cases h : L = 0
    · simp [Box.square, pyBox, h] at hb
    · simp [Box.square, pyBox, h] at hb
      subst hb
      refine ⟨⟨rfl, rfl, rfl⟩, rfl, ?_⟩
      simp [Box.getVolume, Box.mk', Box.setL]
      ring

example : pyEq (BoxOp.run exBox [.xy 1, .Lz 4]) (BoxOp.run exBox [.Lz 4, .xy 1]) = true := by decide +kernel

end Freud
