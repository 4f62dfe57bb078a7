import Verif.Props.Box
import Verif.Model.BoxOps
import Mathlib.Analysis.SpecialFunctions.Complex.Log

/-!
# Property C62: periodic centres of mass
-/

set_option linter.unusedSectionVars false

namespace Freud
open Spec Complex

/-! ### Helper lemmas -/

theorem phaseSum_perm {l l' : List (ℝ × ℝ)} (h : l.Perm l') : phaseSum l = phaseSum l' :=
  (h.map _).sum_eq

theorem phaseSum_shift (l : List (ℝ × ℝ)) (t : ℝ) :
    phaseSum (l.map (fun p => (p.1 + t, p.2))) =
      phaseSum l * exp (((2 * Real.pi * t : ℝ) : ℂ) * I) := by
  induction l with
  | nil => simp [phaseSum]
  | cons a l ih =>
    simp only [phaseSum, List.map_cons, List.sum_cons] at ih ⊢
    rw [ih, add_mul]
    congr 1
    rw [mul_assoc _ _ (exp _), ← Complex.exp_add]
    congr 2
    push_cast; ring

theorem phaseSum_const (l : List (ℝ × ℝ)) (f : ℝ) (h : ∀ p ∈ l, p.1 = f) :
    phaseSum l = ((l.map Prod.snd).sum : ℝ) * exp (((2 * Real.pi * f : ℝ) : ℂ) * I) := by
  induction l with
  | nil => simp [phaseSum]
  | cons a l ih =>
    have ih := ih (fun p hp => h p (List.mem_cons_of_mem _ hp))
    simp only [phaseSum, List.map_cons, List.sum_cons] at ih ⊢
    rw [ih, h a List.mem_cons_self]
    push_cast; ring

theorem exp_two_pi_add_int (f : ℝ) (n : ℤ) :
    exp (((2 * Real.pi * (f + n) : ℝ) : ℂ) * I) = exp (((2 * Real.pi * f : ℝ) : ℂ) * I) := by
  apply Complex.exp_eq_exp_iff_exists_int.mpr
  exact ⟨n, by push_cast; ring⟩

theorem arg_mul_phase (z : ℂ) (hz : z ≠ 0) (t : ℝ) :
    ∃ k : ℤ, (z * exp (((2 * Real.pi * t : ℝ) : ℂ) * I)).arg / (2 * Real.pi) =
      z.arg / (2 * Real.pi) + t + k := by
  have hz' : 0 < ‖z‖ := norm_pos_iff.mpr hz
  have e : z * exp (((2 * Real.pi * t : ℝ) : ℂ) * I) =
      (‖z‖ : ℂ) * exp (((z.arg + 2 * Real.pi * t : ℝ) : ℂ) * I) := by
    nth_rewrite 1 [← Complex.norm_mul_exp_arg_mul_I z]
    rw [mul_assoc, ← Complex.exp_add]
    congr 2
    push_cast; ring
  rw [e, Complex.arg_real_mul _ hz', Complex.arg_exp_mul_I]
  refine ⟨-toIocDiv Real.two_pi_pos (-Real.pi) (z.arg + 2 * Real.pi * t), ?_⟩
  rw [toIocMod]
  have hpi := Real.pi_ne_zero
  push_cast
  rw [zsmul_eq_mul]
  field_simp
  ring

/-- Wrapping an absolute position does not see integer shifts of the fractions. -/
theorem wrap_makeAbsolute_shift {b : Box ℝ} (hb : Valid b)
    (hp : b.px = true ∧ b.py = true ∧ b.pz = true) (f g : Vec3 ℝ)
    (hf : Planar b f) (hg : Planar b g)
    (hx : ∃ k : ℤ, g.x = f.x + k) (hy : ∃ k : ℤ, g.y = f.y + k)
    (hz : b.is2D = false → ∃ k : ℤ, g.z = f.z + k) :
    b.wrap (b.makeAbsolute g) = b.wrap (b.makeAbsolute f) := by
  obtain ⟨kx, hx⟩ := hx
  obtain ⟨ky, hy⟩ := hy
  obtain ⟨kz, hz, hz2⟩ : ∃ k : ℤ, g.z = f.z + k ∧ (b.is2D = true → k = 0) := by
    cases h2 : b.is2D with
    | true => exact ⟨0, by simp [hf h2, hg h2], fun _ => rfl⟩
    | false => obtain ⟨k, hk⟩ := hz h2; exact ⟨k, hk, fun e => by simp at e⟩
  have e : b.makeAbsolute g = b.makeAbsolute f + lattice b ⟨kx, ky, kz⟩ := by
    rw [makeAbsolute_eq_comb hb, makeAbsolute_eq_comb hb, lattice, comb_add]
    congr 1
    · rw [hx]; ring
    · rw [hy]; ring
    · rw [hz]; ring
  have hpl : Planar b (b.makeAbsolute f) := by
    intro h2
    simp [makeAbsolute_eq_comb hb, comb, a1, a2, a3, hb.Lz_2D h2]
  rw [e, wrap_add_lattice hb _ hpl]
  exact ⟨by simp [hp.1], by simp [hp.2.1], by
    rintro (h | h)
    · simp [hp.2.2] at h
    · exact hz2 h⟩

theorem makeFractional_add {b : Box ℝ} (hb : Valid b) (v t : Vec3 ℝ) (hv : Planar b v)
    (ht : Planar b t) :
    b.makeFractional (v + t) =
      ⟨(b.makeFractional v).x + ((b.makeFractional t).x - 1 / 2),
       (b.makeFractional v).y + ((b.makeFractional t).y - 1 / 2),
       if b.is2D then 0 else (b.makeFractional v).z + ((b.makeFractional t).z - 1 / 2)⟩ := by
  conv_lhs => rw [comb_makeFractional hb v hv, comb_makeFractional hb t ht, comb_add,
    makeFractional_comb hb]
  cases b.is2D <;> ext <;> simp <;> ring

/-- The three phase averages of a configuration. -/
noncomputable def Spec.phases (b : Box ℝ) (l : List (Vec3 ℝ × ℝ)) (c : Vec3 ℝ → ℝ) : ℂ :=
  phaseSum (l.map (fun p => (c (b.makeFractional p.1), p.2)))

theorem centerOfMass_eq (b : Box ℝ) (l : List (Vec3 ℝ × ℝ)) (h : 0 < (l.map Prod.snd).sum) :
    b.centerOfMass l = b.wrap (b.makeAbsolute
      ⟨(phases b l Vec3.x).arg / (2 * Real.pi), (phases b l Vec3.y).arg / (2 * Real.pi),
       (phases b l Vec3.z).arg / (2 * Real.pi)⟩) := by
  have key : ∀ z : ℂ, (z / (((l.map Prod.snd).sum : ℝ) : ℂ)).arg = z.arg := by
    intro z
    rw [div_eq_inv_mul, ← Complex.ofReal_inv, Complex.arg_real_mul _ (by positivity)]
  simp only [Box.centerOfMass, phases, key]

theorem phases_z_2D {b : Box ℝ} (h2 : b.is2D = true) (l : List (Vec3 ℝ × ℝ))
    (h : 0 < (l.map Prod.snd).sum) : (phases b l Vec3.z).arg = 0 := by
  unfold phases
  rw [phaseSum_const _ 0]
  · simp only [List.map_map, Function.comp_def, mul_zero, Complex.ofReal_zero, zero_mul,
      Complex.exp_zero, mul_one]
    exact Complex.arg_ofReal_of_nonneg h.le
  · intro p hp
    simp only [List.mem_map] at hp
    obtain ⟨q, -, rfl⟩ := hp
    exact makeFractional_planar _ h2

/-! ### The property -/

/-- **C62**: replacing every particle by any of its images (a different lattice shift for each
particle) does not change the centre of mass. -/
theorem C62_com_image_invariant (b : Box ℝ) (hb : Valid b) (l : List (Vec3 ℝ × Vec3 ℤ × ℝ))
    (hpl : ∀ p ∈ l, Planar b p.1 ∧ (b.is2D = true → p.2.1.z = 0)) :
    b.centerOfMass (l.map (fun p => (p.1 + lattice b p.2.1, p.2.2))) =
      b.centerOfMass (l.map (fun p => (p.1, p.2.2))) := by
  have key : ∀ c : Vec3 ℝ → ℝ, (c = Vec3.x ∨ c = Vec3.y ∨ c = Vec3.z) →
      phaseSum ((l.map (fun p => (p.1 + lattice b p.2.1, p.2.2))).map
        (fun p => (c (b.makeFractional p.1), p.2))) =
      phaseSum ((l.map (fun p => (p.1, p.2.2))).map
        (fun p => (c (b.makeFractional p.1), p.2))) := by
    intro c hc
    unfold phaseSum
    simp only [List.map_map]
    congr 1
    apply List.map_congr_left
    intro p hp
    obtain ⟨h1, h2⟩ := hpl p hp
    simp only [Function.comp_apply]
    congr 1
    rw [makeFractional_add_lattice hb p.1 h1 p.2.1 h2]
    rcases hc with rfl | rfl | rfl
    · exact exp_two_pi_add_int _ _
    · exact exp_two_pi_add_int _ _
    · exact exp_two_pi_add_int _ _
  have hm : (l.map (fun p => (p.1 + lattice b p.2.1, p.2.2))).map Prod.snd =
      (l.map (fun p => (p.1, p.2.2))).map Prod.snd := by simp [Function.comp_def]
  simp only [Box.centerOfMass]
  rw [hm, key _ (Or.inl rfl), key _ (Or.inr (Or.inl rfl)), key _ (Or.inr (Or.inr rfl))]

/-- **C62**: in a fully periodic box, particles that all sit at `v` have the centre of mass
`wrap v`. -/
theorem C62_com_coincident (b : Box ℝ) (hb : Valid b)
    (hp : b.px = true ∧ b.py = true ∧ b.pz = true) (v : Vec3 ℝ) (hv : Planar b v)
    (ms : List ℝ) (hm : 0 < ms.sum) :
    b.centerOfMass (ms.map (fun m => (v, m))) = b.wrap v := by
  have hs : ((ms.map (fun m => (v, m))).map Prod.snd) = ms := by simp [Function.comp_def]
  have ph : ∀ c : Vec3 ℝ → ℝ, ∃ k : ℤ,
      (phases b (ms.map (fun m => (v, m))) c).arg / (2 * Real.pi) =
        c (b.makeFractional v) + k := by
    intro c
    have e : phases b (ms.map (fun m => (v, m))) c =
        (ms.sum : ℂ) * exp (((2 * Real.pi * c (b.makeFractional v) : ℝ) : ℂ) * I) := by
      unfold phases
      rw [phaseSum_const _ (c (b.makeFractional v))]
      · simp [Function.comp_def]
      · simp
    obtain ⟨k, hk⟩ := arg_mul_phase (ms.sum : ℂ) (by exact_mod_cast hm.ne')
      (c (b.makeFractional v))
    refine ⟨k, ?_⟩
    rw [e, hk, Complex.arg_ofReal_of_nonneg hm.le]
    ring
  rw [centerOfMass_eq b _ (by rw [hs]; exact hm)]
  conv_rhs => rw [← makeAbsolute_makeFractional hb v hv]
  apply wrap_makeAbsolute_shift hb hp
  · exact fun h2 => makeFractional_planar v h2
  · intro h2
    simp only
    rw [phases_z_2D h2 _ (by rw [hs]; exact hm)]; simp
  · exact ph _
  · exact ph _
  · exact fun _ => ph _

/-- **C62**: in a fully periodic box, translating every particle by `t` translates the centre
of mass by `t` (modulo wrapping), provided the centre of mass is well defined, i.e. the phase
average of no axis vanishes. -/
theorem C62_com_translation (b : Box ℝ) (hb : Valid b)
    (hp : b.px = true ∧ b.py = true ∧ b.pz = true) (l : List (Vec3 ℝ × ℝ)) (t : Vec3 ℝ)
    (hl : ∀ p ∈ l, Planar b p.1) (ht : Planar b t) (hm : 0 < (l.map Prod.snd).sum)
    (hnz : phases b l Vec3.x ≠ 0 ∧ phases b l Vec3.y ≠ 0 ∧ phases b l Vec3.z ≠ 0) :
    b.centerOfMass (l.map (fun p => (p.1 + t, p.2))) = b.wrap (b.centerOfMass l + t) := by
  have hs : ((l.map (fun p => (p.1 + t, p.2))).map Prod.snd).sum = (l.map Prod.snd).sum := by
    simp [Function.comp_def]
  rw [centerOfMass_eq b _ (by rw [hs]; exact hm), centerOfMass_eq b l hm]
  set F : Vec3 ℝ := ⟨(phases b l Vec3.x).arg / (2 * Real.pi),
    (phases b l Vec3.y).arg / (2 * Real.pi), (phases b l Vec3.z).arg / (2 * Real.pi)⟩ with hF
  have hFp : Planar b F := by
    intro h2; simp only [hF]; rw [phases_z_2D h2 l hm]; simp
  have hAp : Planar b (b.makeAbsolute F) := by
    intro h2
    simp [makeAbsolute_eq_comb hb, comb, a1, a2, a3, hb.Lz_2D h2]
  -- the right-hand side
  have hr : b.wrap (b.wrap (b.makeAbsolute F) + t) = b.wrap (b.makeAbsolute F + t) := by
    rw [wrap_eq_add_lattice hb _ hAp]
    have : b.makeAbsolute F + lattice b (wrapShift b (b.makeAbsolute F)) + t =
        b.makeAbsolute F + t + lattice b (wrapShift b (b.makeAbsolute F)) := by
      ext <;> simp <;> ring
    rw [this, wrap_add_lattice hb _ (planar_add hAp ht) _ (wrapShift_allowed _ _)]
  rw [hr]
  conv_rhs => rw [← makeAbsolute_makeFractional hb _ (planar_add hAp ht)]
  rw [makeFractional_add hb _ _ hAp ht, makeFractional_makeAbsolute hb F hFp]
  have ph : ∀ (c : Vec3 ℝ → ℝ) (s : ℝ), phases b l c ≠ 0 →
      (∀ p ∈ l, c (b.makeFractional (p.1 + t)) = c (b.makeFractional p.1) + s) →
      ∃ k : ℤ, (phases b (l.map (fun p => (p.1 + t, p.2))) c).arg / (2 * Real.pi) =
        (phases b l c).arg / (2 * Real.pi) + s + k := by
    intro c s hc hsft
    have e : phases b (l.map (fun p => (p.1 + t, p.2))) c =
        phases b l c * exp (((2 * Real.pi * s : ℝ) : ℂ) * I) := by
      unfold phases
      rw [← phaseSum_shift]
      congr 1
      simp only [List.map_map]
      apply List.map_congr_left
      intro p hp
      simp [hsft p hp]
    rw [e]
    exact arg_mul_phase _ hc s
  apply wrap_makeAbsolute_shift hb hp
  · intro h2; simp [h2]
  · intro h2
    simp only
    rw [phases_z_2D h2 _ (by rw [hs]; exact hm)]; simp
  · exact ph _ _ hnz.1 (fun p hp => by rw [makeFractional_add hb _ _ (hl p hp) ht])
  · exact ph _ _ hnz.2.1 (fun p hp => by rw [makeFractional_add hb _ _ (hl p hp) ht])
  · intro h2
    simp only [h2, Bool.false_eq_true, if_false]
    exact ph _ _ hnz.2.2 (fun p hp => by rw [makeFractional_add hb _ _ (hl p hp) ht]; simp [h2])

/-- **C62**: after `Box.center` the centre of mass is the origin. -/
theorem C62_center_at_origin (b : Box ℝ) (hb : Valid b)
    (hp : b.px = true ∧ b.py = true ∧ b.pz = true) (l : List (Vec3 ℝ × ℝ))
    (hl : ∀ p ∈ l, Planar b p.1) (hm : 0 < (l.map Prod.snd).sum)
    (hnz : phases b l Vec3.x ≠ 0 ∧ phases b l Vec3.y ≠ 0 ∧ phases b l Vec3.z ≠ 0) :
    b.centerOfMass (b.center l) = 0 := by
  set c := b.centerOfMass l with hc
  have hcp : Planar b c := by
    intro h2
    rw [hc, centerOfMass_eq b l hm]
    apply wrap_planar hb
    · intro _
      simp [makeAbsolute_eq_comb hb, comb, a1, a2, a3, hb.Lz_2D h2]
    · exact h2
  have hpl : ∀ p ∈ l, Planar b (p.1 + -c) := fun p hp h2 => by simp [hl p hp h2, hcp h2]
  have e : b.center l = (l.map (fun p => (p.1 + -c, wrapShift b (p.1 + -c), p.2))).map
      (fun p => (p.1 + lattice b p.2.1, p.2.2)) := by
    unfold Box.center
    rw [List.map_map]
    apply List.map_congr_left
    intro p hp
    have : p.1 - c = p.1 + -c := by ext <;> simp <;> ring
    simp only [Function.comp_apply, ← hc, this]
    rw [wrap_eq_add_lattice hb _ (hpl p hp)]
  rw [e, C62_com_image_invariant b hb]
  · rw [List.map_map]
    have := C62_com_translation b hb hp l (-c) hl (fun h2 => by simp [hcp h2]) hm hnz
    simp only [Function.comp_def]
    rw [this, ← hc]
    have h0 : c + -c = 0 := by ext <;> simp
    rw [h0]
    have hz : Planar b (0 : Vec3 ℝ) := fun _ => rfl
    have := (C05_distance_zero_iff b hb 0 0 hz hz).mpr
      ⟨⟨0, 0, 0⟩, by simp [AllowedShift], by ext <;> simp [lattice, comb]⟩
    unfold Box.distSq at this
    have h00 : (0 : Vec3 ℝ) - 0 = 0 := by ext <;> simp
    rw [h00] at this
    simp only [Vec3.dot] at this
    have hx := mul_self_nonneg (b.wrap 0).x
    have hy := mul_self_nonneg (b.wrap 0).y
    have hz := mul_self_nonneg (b.wrap 0).z
    ext
    · simpa using mul_self_eq_zero.mp (by linarith : (b.wrap 0).x * _ = 0)
    · simpa using mul_self_eq_zero.mp (by linarith : (b.wrap 0).y * _ = 0)
    · simpa using mul_self_eq_zero.mp (by linarith : (b.wrap 0).z * _ = 0)
  · intro p hp
    simp only [List.mem_map] at hp
    obtain ⟨q, hq, rfl⟩ := hp
    exact ⟨hpl q hq, fun h2 => (wrapShift_allowed b _).2.2 (Or.inr h2)⟩

/-- **C62**: the order in which the particles are listed does not matter. -/
theorem C62_com_perm (b : Box ℝ) (l l' : List (Vec3 ℝ × ℝ)) (h : l.Perm l') :
    b.centerOfMass l = b.centerOfMass l' := by
  simp only [Box.centerOfMass]
  rw [(h.map Prod.snd).sum_eq, phaseSum_perm (h.map _), phaseSum_perm (h.map _),
    phaseSum_perm (h.map _)]

/-- **C62** needs a fully periodic box: in a box without periodic axes a single particle at
fractional coordinate `3/4` has a "centre of mass" at fractional coordinate `-1/4`, outside
the box. -/
theorem C62_aperiodic_counterexample :
    let b := (Box.mk' (2 : ℝ) 2 2 0 0 0 false).setPeriodic false false false
    b.centerOfMass [(⟨1 / 2, 1 / 2, 1 / 2⟩, 1)] = ⟨-3 / 2, -3 / 2, -3 / 2⟩ := by
  intro b
  have hf : b.makeFractional ⟨1 / 2, 1 / 2, 1 / 2⟩ = ⟨3 / 4, 3 / 4, 3 / 4⟩ := by
    ext <;> simp [b, Box.makeFractional, Box.setPeriodic, Box.mk', Box.setL] <;> norm_num
  have harg : (phaseSum [((3 / 4 : ℝ), (1 : ℝ))]).arg / (2 * Real.pi) = -1 / 4 := by
    have e : phaseSum [((3 / 4 : ℝ), (1 : ℝ))] = exp (((-Real.pi / 2 : ℝ) : ℂ) * I) := by
      simp only [phaseSum, List.map_cons, List.map_nil, List.sum_cons, List.sum_nil, add_zero,
        Complex.ofReal_one, one_mul]
      apply Complex.exp_eq_exp_iff_exists_int.mpr
      exact ⟨1, by push_cast; ring⟩
    rw [e, Complex.arg_exp_mul_I, (toIocMod_eq_self Real.two_pi_pos).mpr]
    · have := Real.pi_ne_zero
      field_simp; norm_num
    · constructor <;> [linarith [Real.pi_pos]; linarith [Real.pi_pos]]
  rw [centerOfMass_eq b _ (by simp)]
  simp only [phases, List.map_cons, List.map_nil, hf, harg]
  ext <;> simp [b, Box.wrap, Box.makeAbsolute, Box.setPeriodic, Box.mk', Box.setL, Vec3.cmul] <;>
    norm_num

-- witness for the hypotheses: one particle of mass 2 in a cube
example : let b := Box.mk' (2 : ℝ) 2 2 0 0 0 false
    Valid b ∧ (0 : ℝ) < (([(⟨0, 0, 0⟩, 2)] : List (Vec3 ℝ × ℝ)).map Prod.snd).sum ∧
    phases b [(⟨0, 0, 0⟩, 2)] Vec3.x ≠ 0 := by
  refine ⟨?_, by simp, ?_⟩
  · constructor <;> simp [Box.mk', Box.setL]
  · simp [phases, phaseSum, Complex.exp_ne_zero]

end Freud
