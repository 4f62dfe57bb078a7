import Verif.Props.BoxConvert
import Verif.Model.BoxOps

/-!
# Property C61: attribute assignments keep a box consistent
-/

set_option linter.unusedSectionVars false

namespace Freud
open Spec

section
variable {K : Type*} [Field K] [LinearOrder K] [IsStrictOrderedRing K] [FloorRing K]

/-- The box a user would build from scratch with the attribute values now visible on `b`. -/
def Spec.rebuilt (b : Box K) : Box K :=
  (Box.mk' b.L.x b.L.y b.L.z b.xy b.xz b.yz b.is2D).setPeriodic b.px b.py b.pz

/-- The assignment changes the dimension of the box. -/
def Spec.isDimensions : BoxOp K → Bool
  | .dimensions _ => true
  | _ => false

/-- The assignment sets lengths (`L`, `Lx`, `Ly` or `Lz`). -/
def Spec.isLength : BoxOp K → Bool
  | .L .. | .Lx _ | .Ly _ | .Lz _ => true
  | _ => false

theorem rebuilt_setL (b : Box K) (x y z : K) : rebuilt (b.setL x y z) = b.setL x y z := by
  cases h : b.is2D <;> simp [rebuilt, Box.mk', Box.setL, Box.setPeriodic, h]

theorem rebuilt_apply {b : Box K} (h : rebuilt b = b) (op : BoxOp K)
    (hop : isDimensions op = false) : rebuilt (op.apply b) = op.apply b := by
  have hh : (b.lo = (rebuilt b).lo ∧ b.L = (rebuilt b).L ∧ b.Linv = (rebuilt b).Linv) := by
    rw [h]; exact ⟨rfl, rfl, rfl⟩
  obtain ⟨h1, h2, h3⟩ := hh
  cases op <;> simp only [BoxOp.apply] <;> first
    | exact rebuilt_setL _ _ _ _
    | exact Bool.noConfusion (hop : true = false)
    | (cases hd : b.is2D <;>
        simp [rebuilt, Box.mk', Box.setL, Box.setPeriodic, hd] at h1 h2 h3 <;>
        simp [rebuilt, Box.mk', Box.setL, Box.setPeriodic, Box.setTilts, hd, Box.ext_iff] <;>
        (try constructorm* _ ∧ _) <;>
        first | exact h1.symm | exact h2.symm | exact h3.symm)

/-- **C61**: take any box and any sequence of attribute assignments. If the sequence is free
of `dimensions` assignments, or if some length was assigned after the last of them, then the
resulting object is exactly the box one would build from scratch with the attribute values it
now shows. (Without the last condition this is false, see `C61_dimensions_counterexample`.) -/
theorem C61_assignments_consistent_partial (b : Box K) (pre post : List (BoxOp K)) (op : BoxOp K)
    (hpost : ∀ o ∈ post, isDimensions o = false)
    (hop : isLength op = true ∨ (pre = [] ∧ isDimensions op = false ∧ rebuilt b = b)) :
    rebuilt (BoxOp.run b (pre ++ op :: post)) = BoxOp.run b (pre ++ op :: post) := by
  have step : ∀ (post : List (BoxOp K)) (c : Box K), (∀ o ∈ post, isDimensions o = false) →
      rebuilt c = c → rebuilt (BoxOp.run c post) = BoxOp.run c post := by
    intro post
    induction post with
    | nil => intro c _ hc; exact hc
    | cons o l ih =>
      intro c hl hc
      exact ih (o.apply c) (fun o' ho' => hl o' (List.mem_cons_of_mem _ ho'))
        (rebuilt_apply hc o (hl o List.mem_cons_self))
  have e : BoxOp.run b (pre ++ op :: post) = BoxOp.run (op.apply (BoxOp.run b pre)) post := by
    simp [BoxOp.run]
  rw [e]
  apply step post _ hpost
  rcases hop with hop | ⟨rfl, hop, hb⟩
  · cases op <;> simp [isLength] at hop <;> exact rebuilt_setL _ _ _ _
  · exact rebuilt_apply hb op hop

/-- **C61**: the boxes made by the constructor satisfy the starting condition. -/
theorem C61_constructed (b : Box K) (hb : Constructed b) : rebuilt b = b := by
  obtain ⟨Lx, Ly, Lz, xy, xz, yz, is2D, px, py, pz, -, rfl⟩ := constructed_cases hb
  cases is2D <;> simp [rebuilt, Box.mk', Box.setL, Box.setPeriodic]

/-- **C61**: each assignment shows up in the attribute it names and in no other. -/
theorem C61_assignment_visible (b : Box K) (x : K) (hz : b.is2D = true → b.L.z = 0) :
    ((BoxOp.Lx x).apply b).L = ⟨x, b.L.y, b.L.z⟩ ∧
    ((BoxOp.Ly x).apply b).L = ⟨b.L.x, x, b.L.z⟩ ∧
    ((BoxOp.Lz x).apply b).L = ⟨b.L.x, b.L.y, if b.is2D then 0 else x⟩ ∧
    (∀ op ∈ [BoxOp.Lx x, BoxOp.Ly x, BoxOp.Lz x],
      (op.apply b).xy = b.xy ∧ (op.apply b).xz = b.xz ∧ (op.apply b).yz = b.yz ∧
      (op.apply b).is2D = b.is2D ∧ (op.apply b).px = b.px ∧ (op.apply b).py = b.py ∧
      (op.apply b).pz = b.pz) ∧
    ((BoxOp.xy x).apply b = { b with xy := x }) ∧ ((BoxOp.xz x).apply b = { b with xz := x }) ∧
    ((BoxOp.yz x).apply b = { b with yz := x }) := by
  cases h : b.is2D
  · simp [BoxOp.apply, Box.setL, Box.setTilts, h]
  · simp [BoxOp.apply, Box.setL, Box.setTilts, h, hz h]

end

/-- **C61** is false for `dimensions` assignments. Setting `dimensions = 2` on a tilted 3D box
gives an object that compares equal, attribute by attribute, to a fresh 2D box but wraps points
of the plane to different places. Setting `dimensions = 3` on a box that is already
3-dimensional destroys its `Lz`. -/
theorem C61_dimensions_counterexample :
    (∃ (b : Box ℚ) (v : Vec3 ℚ), Constructed b ∧ v.z = 0 ∧
      (rebuilt ((BoxOp.dimensions true).apply b)).L = ((BoxOp.dimensions true).apply b).L ∧
      (rebuilt ((BoxOp.dimensions true).apply b)).wrap v ≠
        ((BoxOp.dimensions true).apply b).wrap v) ∧
    (∃ b : Box ℚ, Constructed b ∧ b.is2D = false ∧ b.L.z = 2 ∧
      ((BoxOp.dimensions false).apply b).L.z = 0) := by
  refine ⟨⟨Box.mk' 2 2 2 0 1 0 false, ⟨0, 0, 0⟩, ?_, rfl, by decide +kernel,
    by decide +kernel⟩, ⟨Box.mk' 2 2 2 0 0 0 false, ?_, rfl, by decide +kernel,
    by decide +kernel⟩⟩
  · exact ⟨2, 2, 2, 0, 1, 0, false, Box.mk' 2 2 2 0 1 0 false, true, true, true, by simp [pyBox], rfl⟩
  · exact ⟨2, 2, 2, 0, 0, 0, false, Box.mk' 2 2 2 0 0 0 false, true, true, true, by simp [pyBox], rfl⟩

example : rebuilt (BoxOp.run exBox [.dimensions true, .dimensions false, .Lz 3, .xy 1,
    .periodicZ true]) = BoxOp.run exBox [.dimensions true, .dimensions false, .Lz 3, .xy 1,
    .periodicZ true] :=
  C61_assignments_consistent_partial exBox [.dimensions true, .dimensions false]
    [.xy 1, .periodicZ true] (.Lz 3) (by simp [isDimensions]) (Or.inl rfl)

end Freud
