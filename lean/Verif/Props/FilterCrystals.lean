import Verif.Lemmas.FilterShells
import Verif.Props.NearestCrystals

/-!
# Property C125: the neighbor filters find the coordination shells of crystals
-/

namespace Freud
open Spec NList Bond

/-! ### SANN -/

/-- **C125**: `FilterSANN` keeps the 12 nearest neighbors in fcc. -/
theorem C125_fcc_sann : SannKeeps UnitCell.fcc 12 1 := by
  have h := (inUnits_3D ⟨1 / 2, 1 / 2, 1 / 2⟩ ⟨2, 2, 2⟩ (by norm_num) (by norm_num)
    [⟨1, 1, 0⟩, ⟨1, 0, 1⟩, ⟨0, 1, 1⟩, ⟨0, 0, 0⟩]).shells_int ⟨1, 1, 1⟩ 4 2 2 4 1 2 12 0 (by norm_num) (by norm_num)
    (by norm_num) (by norm_num) (by norm_num) (by decide +kernel) (by simp) (by decide +kernel) (by decide +kernel)
  have h2 : Real.sqrt 2 < 1.5 := (Real.sqrt_lt' (by norm_num)).mpr (by norm_num)
  have := h.sann (cell := UnitCell.fcc) (by simp) le_rfl (by norm_num) (by simp)
    (by push_cast; rw [sqrt_quarter]; norm_num at h2 ⊢; linarith) (by rw [fcc_cell]; norm_num)
  simpa using this

/-- **C125**: `FilterSANN` keeps the 8 + 6 nearest neighbors in bcc. -/
theorem C125_bcc_sann : SannKeeps UnitCell.bcc 14 (Real.sqrt 2) := by
  have h := (inUnits_3D ⟨1 / 2, 1 / 2, 1 / 2⟩ ⟨2, 2, 2⟩ (by norm_num) (by norm_num)
    [⟨1, 1, 1⟩, ⟨0, 0, 0⟩]).shells_int ⟨1, 1, 1⟩ 4 3 4 8 2 2 8 6 (by norm_num) (by norm_num)
    (by norm_num) (by norm_num) (by norm_num) (by decide +kernel) (by simp) (by decide +kernel) (by decide +kernel)
  have h3 : Real.sqrt 3 < 1.8 := (Real.sqrt_lt' (by norm_num)).mpr (by norm_num)
  have h3' : 1.7 < Real.sqrt 3 := Real.lt_sqrt_of_sq_lt (by norm_num)
  have h2 : 1.4 < Real.sqrt 2 := Real.lt_sqrt_of_sq_lt (by norm_num)
  have e : Real.sqrt ((8 : ℤ) / (4 : ℤ)) = Real.sqrt 2 := by norm_num
  have e4 : Real.sqrt ((4 : ℤ) / (4 : ℤ)) = 1 := by norm_num
  have e3 : Real.sqrt ((3 : ℤ) / (4 : ℤ)) = Real.sqrt 3 / 2 := by push_cast; exact sqrt_quarter 3
  rw [e, e3, e4] at h
  exact h.sann (by simp) (by linarith) (by norm_num) (fun _ => by norm_num at h3' ⊢; linarith)
    (by norm_num at h3 h2 ⊢; linarith) (by rw [bcc_cell]; norm_num)

/-- **C125**: `FilterSANN` keeps 6 + 12 neighbors in a simple cubic crystal. -/
theorem C125_sc_sann : SannKeeps UnitCell.sc 18 (Real.sqrt 3) := by
  have h := (inUnits_3D ⟨1, 1, 1⟩ ⟨1, 1, 1⟩ (by norm_num) (by norm_num) [⟨0, 0, 0⟩]).shells_int ⟨1, 1, 1⟩
    1 1 2 3 1 1 6 12 (by norm_num) (by norm_num) (by norm_num) (by norm_num) (by norm_num) (by decide +kernel)
    (by simp) (by decide +kernel) (by decide +kernel)
  have h3 : 1.7 < Real.sqrt 3 := Real.lt_sqrt_of_sq_lt (by norm_num)
  have h2 : Real.sqrt 2 < 1.42 := (Real.sqrt_lt' (by norm_num)).mpr (by norm_num)
  have h2' : 1 < Real.sqrt 2 := Real.lt_sqrt_of_sq_lt (by norm_num)
  have e : Real.sqrt ((3 : ℤ) / (1 : ℤ)) = Real.sqrt 3 := by norm_num
  have e2 : Real.sqrt ((2 : ℤ) / (1 : ℤ)) = Real.sqrt 2 := by norm_num
  have e1 : Real.sqrt ((1 : ℤ) / (1 : ℤ)) = 1 := by norm_num
  rw [e, e1, e2] at h
  exact h.sann (by norm_num) h2'.le (by norm_num) (fun _ => by norm_num at h2 ⊢; linarith)
    (by norm_num at h2 h3 ⊢; linarith) (by rw [sc_cell]; norm_num)

/-- **C125**: `FilterSANN` keeps the 12 nearest neighbors in hcp. -/
theorem C125_hcp_sann : SannKeeps UnitCell.hcp 12 (Real.sqrt 2) := by
  have h := inUnits_hcp.shells_int ⟨3, 1, 8⟩ 12 12 12 24 4 4 12 0 (by norm_num) (by norm_num)
    (by simp only [div_pow]; rw [Real.sq_sqrt (by norm_num)]; norm_num)
    (by simp only [div_pow]; rw [Real.sq_sqrt (by norm_num)]; norm_num) (by norm_num)
    (by decide +kernel) (by simp) (by decide +kernel) (by decide +kernel)
  have h2 : 1.4 < Real.sqrt 2 := Real.lt_sqrt_of_sq_lt (by norm_num)
  have e : Real.sqrt ((24 : ℤ) / (12 : ℤ)) = Real.sqrt 2 := by norm_num
  have e1 : Real.sqrt ((12 : ℤ) / (12 : ℤ)) = 1 := by norm_num
  rw [e, e1] at h
  exact h.sann (by norm_num) le_rfl (by norm_num) (by simp) (by norm_num at h2 ⊢; linarith) hcp_cell

/-- **C125**: `FilterSANN` keeps 4 + 4 neighbors in a square crystal. -/
theorem C125_square_sann : SannKeeps UnitCell.square 8 2 := by
  have h := square_units.shells_int ⟨1, 1, 1⟩ 1 1 2 4 1 2 4 4 (by norm_num) (by norm_num) (by norm_num) (by norm_num)
    (by norm_num) (by decide +kernel) (by simp) (by decide +kernel) (by decide +kernel)
  have h2 : Real.sqrt 2 < 1.5 := (Real.sqrt_lt' (by norm_num)).mpr (by norm_num)
  have h2' : 1 < Real.sqrt 2 := Real.lt_sqrt_of_sq_lt (by norm_num)
  have e : Real.sqrt ((4 : ℤ) / (1 : ℤ)) = 2 := by
    rw [show ((4 : ℤ) : ℝ) / (1 : ℤ) = 2 ^ 2 by norm_num, Real.sqrt_sq (by norm_num)]
  have e2 : Real.sqrt ((2 : ℤ) / (1 : ℤ)) = Real.sqrt 2 := by norm_num
  have e1 : Real.sqrt ((1 : ℤ) / (1 : ℤ)) = 1 := by norm_num
  rw [e, e1, e2] at h
  exact h.sann (by norm_num) h2'.le (by norm_num) (fun _ => by norm_num at h2 ⊢; linarith)
    (by norm_num at h2 ⊢; linarith) square_cell

theorem hex_sq : (Real.sqrt 3 / 2) ^ 2 = ((3 : ℤ) : ℝ) / (4 : ℤ) := by
  rw [div_pow, Real.sq_sqrt (by norm_num)]
  norm_num

/-- **C125**: `FilterSANN` keeps the 6 nearest neighbors in a hexagonal crystal. -/
theorem C125_hex_sann : SannKeeps UnitCell.hex 6 (Real.sqrt 3) := by
  have h := hex_units.shells_int ⟨1, 3, 3⟩ 4 4 4 12 3 3 6 0 (by norm_num) (by norm_num) hex_sq hex_sq (by norm_num)
    (by decide +kernel) (by simp) (by decide +kernel) (by decide +kernel)
  have h3 : 1.7 < Real.sqrt 3 := Real.lt_sqrt_of_sq_lt (by norm_num)
  have e : Real.sqrt ((12 : ℤ) / (4 : ℤ)) = Real.sqrt 3 := by norm_num
  have e1 : Real.sqrt ((4 : ℤ) / (4 : ℤ)) = 1 := by norm_num
  rw [e, e1] at h
  exact h.sann (by norm_num) le_rfl (by norm_num) (by simp) (by norm_num at h3 ⊢; linarith) hex_cell

theorem graphene_units : InUnits ⟨Box.mk' 1 (Real.sqrt 3) 0 0 0 0 true,
    [⟨0, 0, 0⟩, ⟨0, 1 / 3, 0⟩, ⟨1 / 2, 5 / 6, 0⟩, ⟨1 / 2, 1 / 2, 0⟩]⟩ ⟨1 / 2, Real.sqrt 3 / 6, 1⟩ (lat2 ⟨2, 6, 1⟩)
    [⟨0, 0, 0⟩, ⟨0, 2, 0⟩, ⟨1, 5, 0⟩, ⟨1, 3, 0⟩] := by
  have h := inUnits_2D ⟨1 / 2, Real.sqrt 3 / 6, 1⟩ ⟨2, 6, 1⟩ (by simp) (by norm_num)
    [⟨0, 0, 0⟩, ⟨0, 2, 0⟩, ⟨1, 5, 0⟩, ⟨1, 3, 0⟩] (by simp)
  convert h using 2
  · norm_num
  · norm_num

theorem graphene_sq : (Real.sqrt 3 / 6) ^ 2 = ((1 : ℤ) : ℝ) / (12 : ℤ) := by
  rw [div_pow, Real.sq_sqrt (by norm_num)]
  norm_num

theorem sqrt_third : Real.sqrt ((4 : ℤ) / (12 : ℤ)) = 1 / Real.sqrt 3 := by
  push_cast
  rw [show (4 / 12 : ℝ) = 1 / 3 by norm_num, Real.sqrt_div' _ (by norm_num), Real.sqrt_one]

/-- **C125**: `FilterSANN` keeps 3 + 6 neighbors in graphene. -/
theorem C125_graphene_sann : SannKeeps UnitCell.graphene 9 (2 / Real.sqrt 3) := by
  have h := graphene_units.shells_int ⟨3, 1, 12⟩ 12 4 12 16 3 4 3 6 (by norm_num)
    (by norm_num) graphene_sq (by norm_num) (by norm_num)
    (by decide +kernel) (by simp) (by decide +kernel) (by decide +kernel)
  have q3 : Real.sqrt 3 * Real.sqrt 3 = 3 := Real.mul_self_sqrt (by norm_num)
  have h3 : 1.7 < Real.sqrt 3 := Real.lt_sqrt_of_sq_lt (by norm_num)
  have h3' : Real.sqrt 3 < 1.8 := (Real.sqrt_lt' (by norm_num)).mpr (by norm_num)
  have e : Real.sqrt ((16 : ℤ) / (12 : ℤ)) = 2 / Real.sqrt 3 := by
    push_cast
    rw [show (16 / 12 : ℝ) = 2 ^ 2 / 3 by norm_num, Real.sqrt_div' _ (by norm_num), Real.sqrt_sq (by norm_num)]
  have e1 : Real.sqrt ((12 : ℤ) / (12 : ℤ)) = 1 := by norm_num
  rw [e, e1, sqrt_third] at h
  have h0 : 0 < Real.sqrt 3 := by linarith
  have i3 : 1 / Real.sqrt 3 = Real.sqrt 3 / 3 := by field_simp; linarith
  have j3 : 2 / Real.sqrt 3 = 2 * (Real.sqrt 3 / 3) := by rw [← i3]; ring
  refine h.sann (by positivity) ?_ (by norm_num) (fun _ => ?_) ?_ graphene_cell
  · rw [i3]; linarith
  · rw [i3]; norm_num at h3 ⊢; linarith
  · rw [i3, j3]; norm_num at h3 ⊢; linarith

/-! ### RAD -/

/-- **C125**: `FilterRAD` keeps the 12 nearest neighbors in fcc. -/
theorem C125_fcc_rad : RadKeeps UnitCell.fcc 12 1 := by
  have h := (inUnits_3D ⟨1 / 2, 1 / 2, 1 / 2⟩ ⟨2, 2, 2⟩ (by norm_num) (by norm_num)
    [⟨1, 1, 0⟩, ⟨1, 0, 1⟩, ⟨0, 1, 1⟩, ⟨0, 0, 0⟩]).radShells_int ⟨1, 1, 1⟩ 4 2 2 4 2 1 2 2 12 0 (by norm_num) (by norm_num)
    (by norm_num) (by norm_num) (by norm_num) (by decide +kernel) (by simp) (by decide +kernel) (by decide +kernel)
    (by norm_num) (by norm_num) (by decide +kernel) (by norm_num) (by norm_num) (by norm_num)
    (fun _ => [⟨1, 1, 0⟩, ⟨1, -1, 0⟩, ⟨-1, 1, 0⟩, ⟨-1, -1, 0⟩, ⟨1, 0, 1⟩, ⟨1, 0, -1⟩, ⟨-1, 0, 1⟩, ⟨-1, 0, -1⟩])
    (by decide +kernel)
    (fun A _ x _ hx => by
      simp only [List.forall_mem_cons, List.not_mem_nil, false_imp_iff, implies_true, bil] at hx
      omega) (by decide +kernel)
  have := h.rad (cell := UnitCell.fcc) le_rfl (by rw [fcc_cell]; norm_num)
  simpa using this

/-- **C125**: `FilterRAD` keeps the 8 + 6 nearest neighbors in bcc. -/
theorem C125_bcc_rad : RadKeeps UnitCell.bcc 14 (Real.sqrt 2) := by
  have h := (inUnits_3D ⟨1 / 2, 1 / 2, 1 / 2⟩ ⟨2, 2, 2⟩ (by norm_num) (by norm_num)
    [⟨1, 1, 1⟩, ⟨0, 0, 0⟩]).radShells_int ⟨1, 1, 1⟩ 4 3 4 8 3 2 2 2 8 6 (by norm_num) (by norm_num)
    (by norm_num) (by norm_num) (by norm_num) (by decide +kernel) (by simp) (by decide +kernel) (by decide +kernel)
    (by norm_num) (by norm_num) (by decide +kernel) (by norm_num) (by norm_num) (by norm_num)
    (fun _ => [⟨2, 0, 0⟩, ⟨-2, 0, 0⟩, ⟨0, 2, 0⟩, ⟨0, -2, 0⟩, ⟨0, 0, 2⟩, ⟨0, 0, -2⟩]) (by decide +kernel)
    (fun A _ x _ hx => by
      simp only [List.forall_mem_cons, List.not_mem_nil, false_imp_iff, implies_true, bil] at hx
      omega) (by decide +kernel)
  have := h.rad (cell := UnitCell.bcc) (Real.sqrt_le_sqrt (by norm_num)) (by rw [bcc_cell]; norm_num)
  norm_num at this
  exact this

/-- **C125**: `FilterRAD` keeps the 6 nearest neighbors in a simple cubic crystal. -/
theorem C125_sc_rad : RadKeeps UnitCell.sc 6 (Real.sqrt 2) := by
  have h := (inUnits_3D ⟨1, 1, 1⟩ ⟨1, 1, 1⟩ (by norm_num) (by norm_num) [⟨0, 0, 0⟩]).radShells_int ⟨1, 1, 1⟩
    1 1 1 2 1 1 1 1 6 0 (by norm_num) (by norm_num) (by norm_num) (by norm_num) (by norm_num) (by decide +kernel)
    (by simp) (by decide +kernel) (by decide +kernel)
    (by norm_num) (by norm_num) (by decide +kernel) (by norm_num) (by norm_num) (by norm_num)
    (fun _ => [⟨1, 0, 0⟩, ⟨-1, 0, 0⟩, ⟨0, 1, 0⟩, ⟨0, -1, 0⟩, ⟨0, 0, 1⟩, ⟨0, 0, -1⟩]) (by decide +kernel)
    (fun A _ x _ hx => by
      simp only [List.forall_mem_cons, List.not_mem_nil, false_imp_iff, implies_true, bil] at hx
      omega) (by decide +kernel)
  have := h.rad (cell := UnitCell.sc) le_rfl (by rw [sc_cell]; norm_num)
  norm_num at this
  exact this

/-- **C125**: `FilterRAD` keeps the 12 nearest neighbors in hcp. -/
theorem C125_hcp_rad : RadKeeps UnitCell.hcp 12 (Real.sqrt 2) := by
  have h := inUnits_hcp.radShells_int ⟨3, 1, 8⟩ 12 12 12 24 9 4 4 4 12 0 (by norm_num) (by norm_num)
    (by simp only [div_pow]; rw [Real.sq_sqrt (by norm_num)]; norm_num)
    (by simp only [div_pow]; rw [Real.sq_sqrt (by norm_num)]; norm_num) (by norm_num)
    (by decide +kernel) (by simp) (by decide +kernel) (by decide +kernel)
    (by norm_num) (by norm_num) (by decide +kernel) (by norm_num) (by norm_num) (by norm_num)
    (fun A => if A.z = 0 then [⟨2, 0, 0⟩, ⟨-2, 0, 0⟩, ⟨1, 3, 0⟩, ⟨1, -3, 0⟩, ⟨0, 2, 1⟩, ⟨0, 2, -1⟩]
      else [⟨2, 0, 0⟩, ⟨-2, 0, 0⟩, ⟨1, 3, 0⟩, ⟨1, -3, 0⟩, ⟨0, -2, 1⟩, ⟨0, -2, -1⟩]) (by decide +kernel)
    (fun A _ x _ hx => by
      by_cases hA : A.z = 0
      · simp only [hA, if_true, List.forall_mem_cons, List.not_mem_nil, false_imp_iff, implies_true, bil] at hx
        omega
      · simp only [hA, if_false, List.forall_mem_cons, List.not_mem_nil, false_imp_iff, implies_true, bil] at hx
        omega) (by decide +kernel)
  have := h.rad le_rfl hcp_cell
  norm_num at this
  exact this

theorem flat_site {P A x : Vec3 ℤ} {F : List (Vec3 ℤ)} (hF : ∀ C ∈ F, C.z = 0) (hA : A ∈ F)
    (h : ∃ C ∈ F, lat2 P (x + A - C) = true) : x.z = 0 := by
  obtain ⟨C, hC, hl⟩ := h
  have := (of_decide_eq_true hl).2.2
  simp only [Vec3.add_z, Vec3.sub_z, hF A hA, hF C hC] at this
  omega

/-- **C125**: `FilterRAD` keeps the 4 nearest neighbors in a square crystal. -/
theorem C125_square_rad : RadKeeps UnitCell.square 4 (Real.sqrt 2) := by
  have h := square_units.radShells_int ⟨1, 1, 1⟩ 1 1 1 2 1 1 1 1 4 0 (by norm_num) (by norm_num) (by norm_num) (by norm_num)
    (by norm_num) (by decide +kernel) (by simp) (by decide +kernel) (by decide +kernel)
    (by norm_num) (by norm_num) (by decide +kernel) (by norm_num) (by norm_num) (by norm_num)
    (fun _ => [⟨1, 0, 0⟩, ⟨-1, 0, 0⟩, ⟨0, 1, 0⟩, ⟨0, -1, 0⟩]) (by decide +kernel)
    (fun A hA x hs hx => by
      have hz := flat_site (by decide) hA hs
      simp only [List.forall_mem_cons, List.not_mem_nil, false_imp_iff, implies_true, bil] at hx
      omega) (by decide +kernel)
  have := h.rad le_rfl square_cell
  norm_num at this
  exact this

/-- **C125**: `FilterRAD` keeps the 6 nearest neighbors in a hexagonal crystal. -/
theorem C125_hex_rad : RadKeeps UnitCell.hex 6 (Real.sqrt 3) := by
  have h := hex_units.radShells_int ⟨1, 3, 3⟩ 4 4 4 12 3 3 3 3 6 0 (by norm_num) (by norm_num) hex_sq hex_sq (by norm_num)
    (by decide +kernel) (by simp) (by decide +kernel) (by decide +kernel)
    (by norm_num) (by norm_num) (by decide +kernel) (by norm_num) (by norm_num) (by norm_num)
    (fun _ => [⟨2, 0, 0⟩, ⟨-2, 0, 0⟩, ⟨1, 1, 0⟩, ⟨1, -1, 0⟩]) (by decide +kernel)
    (fun A hA x hs hx => by
      have hz := flat_site (by decide) hA hs
      simp only [List.forall_mem_cons, List.not_mem_nil, false_imp_iff, implies_true, bil] at hx
      omega) (by decide +kernel)
  have := h.rad le_rfl hex_cell
  norm_num at this
  exact this

/-- **C125**: `FilterRAD` keeps the 3 nearest neighbors in graphene. -/
theorem C125_graphene_rad : RadKeeps UnitCell.graphene 3 1 := by
  have h := graphene_units.radShells_int ⟨3, 1, 12⟩ 12 4 4 12 3 3 4 2 3 0 (by norm_num)
    (by norm_num) graphene_sq (by norm_num) (by norm_num)
    (by decide +kernel) (by simp) (by decide +kernel) (by decide +kernel)
    (by norm_num) (by norm_num) (by decide +kernel) (by norm_num) (by norm_num) (by norm_num)
    (fun A => if A.y = 0 ∨ A.y = 3 then [⟨0, 2, 0⟩, ⟨1, -1, 0⟩, ⟨-1, -1, 0⟩] else [⟨0, -2, 0⟩, ⟨1, 1, 0⟩, ⟨-1, 1, 0⟩])
    (by decide +kernel)
    (fun A hA x hs hx => by
      have hz := flat_site (by decide) hA hs
      by_cases hA : A.y = 0 ∨ A.y = 3
      · simp only [hA, if_true, List.forall_mem_cons, List.not_mem_nil, false_imp_iff, implies_true, bil] at hx
        omega
      · simp only [hA, if_false, List.forall_mem_cons, List.not_mem_nil, false_imp_iff, implies_true, bil] at hx
        omega) (by decide +kernel)
  have e1 : Real.sqrt ((12 : ℤ) / (12 : ℤ)) = 1 := by norm_num
  rw [e1] at h
  exact h.rad le_rfl graphene_cell

/-! ### Examples -/

-- an fcc crystal of 27 cells: both filters, with all pairs offered (the default), have a result in every schedule
example : ∃ u, UnitCell.fcc = some u ∧ ∃ box points n, points.length = 108 ∧ Offered u 1 1 box points n ∧
    ∀ allow ev, IsExecution points.length ev →
      (∃ res, FilterSANN.Compute n points.length points.length allow ev res) ∧
      ∀ closed, ∃ res, FilterRAD.Compute box (fun i => points.getD i 0) (fun j => points.getD j 0) (fun _ => 1) closed n
        points.length points.length allow ev res := by
  obtain ⟨box, points, src, h1, h2, h4, -⟩ := query_exists fcc_star.shell (by simp)
    (by simp [Box.mk', Box.setL]) (n := ⟨3, 3, 3⟩) (c := 1) (r := 5 / 4) (by norm_num) (by simp [Box.mk', Box.setL])
    (by norm_num) (by norm_num) (by norm_num [Box.mk', Box.setL]) (by norm_num [Box.mk', Box.setL])
    (fun _ => by norm_num [Box.mk', Box.setL])
  have hlen : points.length = 108 := by
    have : (points.length : ℤ) = 108 := by simpa using h2
    omega
  have hne : points ≠ [] := fun e => by rw [e] at hlen; simp at hlen
  obtain ⟨t, g⟩ := generated fcc_star.shell.cell fcc_star.shell.distinct h1
  obtain ⟨lc, hlc, -⟩ := LinkCell.C25_constructed box points hne
    (fun h2 p hp => by
      rw [inCell_planar g.system.inBox.valid (g.system.inBox.inside p hp) h2]; norm_num) (3 / 4) (by norm_num)
    (by linarith [h4.1 g.system.periodic.1]) (by linarith [h4.2.1 g.system.periodic.2.1])
    (fun h => by linarith [h4.2.2 g.system.periodic.2.2 h])
  have hm : MadeFrom (.linkCell lc) box points := ⟨3 / 4, by norm_num, hlc⟩
  have ho : Offered _ 1 1 box points _ := ⟨by rw [hlen]; norm_num, ⟨_, h1⟩, .linkCell lc, .nothing, 5 / 4, hm,
    by norm_num, h4, Or.inl rfl, List.range _, List.Perm.refl _, rfl⟩
  refine ⟨_, fcc_cell, box, points, _, hlen, ho, fun allow ev hev => ?_⟩
  obtain ⟨r, -, -, hl⟩ := offeredList g.system ho
  rw [← hl.nq] at hev
  refine ⟨?_, fun closed => ?_⟩
  · have := C30_result_exists _ hl.good allow ev hev
    rwa [hl.nq, hl.np] at this
  · have := C31_result_exists box (fun i => points.getD i 0) (fun j => points.getD j 0) (fun _ => 1) closed _ hl.good
      allow ev hev
    rwa [hl.nq, hl.np] at this

end Freud
