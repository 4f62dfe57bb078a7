import Verif.Lemmas.SphericalHarmonics

/-!
# Lemmas: the third order invariant is the invariant of three forms
-/

namespace Freud.Harm
open Finset Spec Forms

/-! ### Isometries are made of mirrors -/

theorem mirror_fix (w v : Vec3 ℝ) (h : Vec3.dot w v = 0) : mirror w v = v := by
  unfold mirror
  rw [h]
  ext <;> simp

/-- One step: an isometry that keeps some vectors is, followed by a mirror that keeps them, one that keeps one
more. -/
theorem mirror_step (R : Vec3 ℝ → Vec3 ℝ) (hR : Isometry3 R) (e : Vec3 ℝ) :
    ∃ S : Vec3 ℝ → Vec3 ℝ, (S = id ∨ ∃ w, Vec3.dot w w = 1 ∧ S = mirror w) ∧ S (R e) = e ∧
      ∀ f, R f = f → S f = f := by
  by_cases h : R e = e
  · exact ⟨id, Or.inl rfl, h, fun _ _ => rfl⟩
  · obtain ⟨c, hc, he⟩ := exists_mirror (R e) e (hR e e) h
    refine ⟨_, Or.inr ⟨_, hc, rfl⟩, he, fun f hf => mirror_fix _ _ ?_⟩
    have h1 := hR e f
    rw [hf] at h1
    simp only [Vec3.dot, Vec3.smul_x, Vec3.smul_y, Vec3.smul_z, Vec3.sub_x, Vec3.sub_y, Vec3.sub_z] at h1 ⊢
    linear_combination c * h1

theorem isometry_mirror {w : Vec3 ℝ} (hw : Vec3.dot w w = 1) : Isometry3 (mirror w) :=
  fun u v => dot_mirror w u v hw

theorem mirror_mirror (w v : Vec3 ℝ) (hw : Vec3.dot w w = 1) : mirror w (mirror w v) = v := by
  simp only [Vec3.dot] at hw
  ext <;> simp only [mirror, Vec3.dot, Vec3.sub_x, Vec3.sub_y, Vec3.sub_z, Vec3.smul_x, Vec3.smul_y, Vec3.smul_z]
  · linear_combination (4 * (w.x * v.x + w.y * v.y + w.z * v.z) * w.x) * hw
  · linear_combination (4 * (w.x * v.x + w.y * v.y + w.z * v.z) * w.y) * hw
  · linear_combination (4 * (w.x * v.x + w.y * v.y + w.z * v.z) * w.z) * hw

/-- What does not change in mirrors does not change in isometries. -/
theorem isometry_induction {A : Type*} (F : List (ℝ × Vec3 ℝ) → A)
    (hF : ∀ w, Vec3.dot w w = 1 → ∀ L, F (turnedBy (mirror w) L) = F L) (R : Vec3 ℝ → Vec3 ℝ) (hR : Isometry3 R)
    (L : List (ℝ × Vec3 ℝ)) : F (turnedBy R L) = F L := by
  have hS : ∀ S : Vec3 ℝ → Vec3 ℝ, (S = id ∨ ∃ w, Vec3.dot w w = 1 ∧ S = mirror w) →
      Isometry3 S ∧ ∀ L, F (turnedBy S L) = F L := by
    rintro S (rfl | ⟨w, hw, rfl⟩)
    · exact ⟨fun _ _ => rfl, fun L => by simp [turnedBy]⟩
    · exact ⟨isometry_mirror hw, hF w hw⟩
  have tt : ∀ (S T : Vec3 ℝ → Vec3 ℝ) L, turnedBy S (turnedBy T L) = turnedBy (S ∘ T) L := fun S T L => by
    simp [turnedBy]
  obtain ⟨S1, a1, b1, c1⟩ := mirror_step R hR ⟨1, 0, 0⟩
  obtain ⟨i1, k1⟩ := hS S1 a1
  have hR1 : Isometry3 (S1 ∘ R) := fun u v => (i1 _ _).trans (hR u v)
  obtain ⟨S2, a2, b2, c2⟩ := mirror_step (S1 ∘ R) hR1 ⟨0, 1, 0⟩
  obtain ⟨i2, k2⟩ := hS S2 a2
  have hR2 : Isometry3 (S2 ∘ S1 ∘ R) := fun u v => (i2 _ _).trans (hR1 u v)
  obtain ⟨S3, a3, b3, c3⟩ := mirror_step (S2 ∘ S1 ∘ R) hR2 ⟨0, 0, 1⟩
  obtain ⟨i3, k3⟩ := hS S3 a3
  have hR3 : Isometry3 (S3 ∘ S2 ∘ S1 ∘ R) := fun u v => (i3 _ _).trans (hR2 u v)
  have e1 : (S2 ∘ S1 ∘ R) ⟨1, 0, 0⟩ = ⟨1, 0, 0⟩ := by
    simp only [Function.comp_apply, b1]
    exact c2 _ b1
  have f1 : (S3 ∘ S2 ∘ S1 ∘ R) ⟨1, 0, 0⟩ = ⟨1, 0, 0⟩ := by
    have := c3 _ e1
    simp only [Function.comp_apply] at e1 ⊢
    rw [e1, this]
  have f2 : (S3 ∘ S2 ∘ S1 ∘ R) ⟨0, 1, 0⟩ = ⟨0, 1, 0⟩ := by
    have := c3 _ b2
    simp only [Function.comp_apply] at b2 ⊢
    rw [b2, this]
  have f3 : (S3 ∘ S2 ∘ S1 ∘ R) ⟨0, 0, 1⟩ = ⟨0, 0, 1⟩ := b3
  have hid : S3 ∘ S2 ∘ S1 ∘ R = id := by
    funext v
    have g1 := hR3 v ⟨1, 0, 0⟩
    have g2 := hR3 v ⟨0, 1, 0⟩
    have g3 := hR3 v ⟨0, 0, 1⟩
    rw [f1] at g1
    rw [f2] at g2
    rw [f3] at g3
    simp only [Vec3.dot, mul_one, mul_zero, add_zero, zero_add] at g1 g2 g3
    ext
    · exact g1
    · exact g2
    · exact g3
  rw [← k1, ← k2, ← k3, tt, tt, tt, Function.comp_assoc, Function.comp_assoc, hid]
  simp [turnedBy]

/-! ### Sums over `m` -/

theorem sum_shift {A : Type*} [AddCommMonoid A] (l a : ℕ) (ha : a ≤ l) (g : ℤ → A) :
    ∑ b ∈ range (l + 1), g ((b : ℤ) - a) =
      ∑ m ∈ Icc (-l : ℤ) l, if 0 ≤ m + a ∧ m + a ≤ l then g m else 0 := by
  rw [← sum_filter]
  refine sum_bij' (fun b _ => (b : ℤ) - a) (fun m _ => (m + a).toNat) ?_ ?_ ?_ ?_ ?_
  · intro b hb
    rw [mem_range] at hb
    rw [mem_filter, mem_Icc]
    omega
  · intro m hm
    rw [mem_filter, mem_Icc] at hm
    rw [mem_range]
    omega
  · intro b hb
    simp
  · intro m hm
    rw [mem_filter, mem_Icc] at hm
    omega
  · intro b _
    rfl

theorem sum_shift' {A : Type*} [AddCommMonoid A] (l a : ℕ) (ha : a ≤ l) (g : ℤ → A) :
    ∑ c ∈ range (l + 1), g ((a : ℤ) - c) =
      ∑ m ∈ Icc (-l : ℤ) l, if 0 ≤ a - m ∧ a - m ≤ l then g m else 0 := by
  rw [← sum_filter]
  refine sum_bij' (fun c _ => (a : ℤ) - c) (fun m _ => (a - m).toNat) ?_ ?_ ?_ ?_ ?_
  · intro b hb
    rw [mem_range] at hb
    rw [mem_filter, mem_Icc]
    omega
  · intro m hm
    rw [mem_filter, mem_Icc] at hm
    rw [mem_range]
    omega
  · intro b hb
    simp
  · intro m hm
    rw [mem_filter, mem_Icc] at hm
    omega
  · intro b _
    rfl

/-- The place of `m` among the coefficients. -/
def at' (l : ℕ) (m : ℤ) : ℕ := (l + m).toNat

/-- The invariant as a sum over `m1`, `m2`. -/
theorem triple_ints (l : ℕ) (f : ℕ → ℂ) :
    triple l f f f = ((l.factorial : ℂ) ^ 3) * ∑ m1 ∈ Icc (-l : ℤ) l, ∑ m2 ∈ Icc (-l : ℤ) l,
      if |m1 + m2| ≤ l then (-1) ^ (-m1 - m2) *
        ((((List.range (l + 1)).map (racahTerm l m1 m2)).sum : ℚ) : ℂ) *
        scaled (2 * l) f (at' l m1) * scaled (2 * l) f (at' l m2) * scaled (2 * l) f (at' l (-m1 - m2)) else 0 := by
  have hs : ∀ m1 m2 : ℤ, ((((List.range (l + 1)).map (racahTerm l m1 m2)).sum : ℚ) : ℂ) =
      ∑ a ∈ range (l + 1), (racahTerm l m1 m2 a : ℂ) := by
    intro m1 m2
    rw [← List.sum_toFinset _ (List.nodup_range), List.toFinset_range]
    push_cast
    rfl
  set S := fun m : ℤ => scaled (2 * l) f (at' l m) with hS
  have h1 : ∀ a ∈ range (l + 1), (∑ b ∈ range (l + 1), ∑ c ∈ range (l + 1),
      (-1) ^ (a + b + c) * ((l.choose a : ℂ) * (l.choose b : ℂ) * (l.choose c : ℂ)) *
        scaled (2 * l) f (l + b - a) * scaled (2 * l) f (l + a - c) * scaled (2 * l) f (l + c - b)) =
      ∑ m1 ∈ Icc (-l : ℤ) l, ∑ m2 ∈ Icc (-l : ℤ) l, if |m1 + m2| ≤ l then
        (l.factorial : ℂ) ^ 3 * ((-1) ^ (-m1 - m2) * (racahTerm l m1 m2 a : ℂ) * S m1 * S m2 * S (-m1 - m2)) else 0 := by
    intro a ha
    have ha : a ≤ l := by have := mem_range.mp ha; omega
    set G : ℤ → ℤ → ℂ := fun m1 m2 => (-1) ^ (a + (m1 + a).toNat + (a - m2).toNat) *
      ((l.choose a : ℂ) * (l.choose (m1 + a).toNat : ℂ) * (l.choose (a - m2).toNat : ℂ)) *
        S m1 * S m2 * S (-m1 - m2) with hG
    have h2 : ∀ b ∈ range (l + 1), (∑ c ∈ range (l + 1),
        (-1) ^ (a + b + c) * ((l.choose a : ℂ) * (l.choose b : ℂ) * (l.choose c : ℂ)) *
        scaled (2 * l) f (l + b - a) * scaled (2 * l) f (l + a - c) * scaled (2 * l) f (l + c - b)) =
        ∑ c ∈ range (l + 1), G ((b : ℤ) - a) ((a : ℤ) - c) := by
      intro b hb
      refine sum_congr rfl fun c hc => ?_
      rw [mem_range] at hb hc
      simp only [hG, hS, at']
      have k1 : ((b : ℤ) - a + a).toNat = b := by omega
      have k2 : ((a : ℤ) - (a - c)).toNat = c := by omega
      have k3 : ((l : ℤ) + (b - a)).toNat = l + b - a := by omega
      have k4 : ((l : ℤ) + (a - c)).toNat = l + a - c := by omega
      have k5 : ((l : ℤ) + (-(b - a) - (a - c))).toNat = l + c - b := by omega
      rw [k1, k2, k3, k4, k5]
    rw [sum_congr rfl h2, sum_shift l a ha fun m => ∑ c ∈ range (l + 1), G m ((a : ℤ) - c)]
    refine sum_congr rfl fun m1 hm1 => ?_
    rw [sum_shift' l a ha (G m1)]
    by_cases h3 : 0 ≤ m1 + a ∧ m1 + a ≤ l
    · rw [if_pos h3]
      refine sum_congr rfl fun m2 hm2 => ?_
      by_cases h4 : 0 ≤ (a : ℤ) - m2 ∧ (a : ℤ) - m2 ≤ l
      · rw [if_pos h4, if_pos (by rw [abs_le]; omega)]
        obtain ⟨b, hb⟩ : ∃ b : ℕ, m1 = b - a := ⟨(m1 + a).toNat, by omega⟩
        obtain ⟨c, hc⟩ : ∃ c : ℕ, m2 = a - c := ⟨(a - m2).toNat, by omega⟩
        have hr : (l.factorial : ℂ) ^ 3 * (racahTerm l m1 m2 a : ℂ) =
            (-1) ^ a * ((l.choose a : ℂ) * (l.choose b : ℂ) * (l.choose c : ℂ)) := by
          unfold racahTerm
          rw [if_pos (by omega)]
          unfold ifact
          have j1 : ((l : ℤ) - a).toNat = l - a := by omega
          have j2 : ((l : ℤ) - m1 - a).toNat = l - b := by omega
          have j3 : ((l : ℤ) + m2 - a).toNat = l - c := by omega
          have j4 : (m1 + a).toNat = b := by omega
          have j5 : (-m2 + a).toNat = c := by omega
          rw [j1, j2, j3, j4, j5, Int.toNat_natCast]
          have c1 := choose_mul (show a ≤ l by omega)
          have c2 := choose_mul (show b ≤ l by omega)
          have c3 := choose_mul (show c ≤ l by omega)
          have n : ∀ k : ℕ, (k.factorial : ℂ) ≠ 0 := fun k => by exact_mod_cast k.factorial_ne_zero
          have n1 := n a
          have n2 := n (l - a)
          have n3 := n b
          have n4 := n (l - b)
          have n5 := n c
          have n6 := n (l - c)
          have e : (l.factorial : ℂ) ^ 3 = ((a.factorial : ℂ) * ((l - a).factorial : ℂ) * (l.choose a : ℂ)) *
              ((b.factorial : ℂ) * ((l - b).factorial : ℂ) * (l.choose b : ℂ)) *
              ((c.factorial : ℂ) * ((l - c).factorial : ℂ) * (l.choose c : ℂ)) := by rw [c1, c2, c3]; ring
          rw [e]
          push_cast
          field_simp
        have hsign : ((-1 : ℂ)) ^ (-m1 - m2) = (-1) ^ b * (-1) ^ c := by
          rw [show -m1 - m2 = (c : ℤ) - b by omega, zpow_sub₀ (by norm_num), zpow_natCast, zpow_natCast,
            div_eq_mul_inv, ← inv_pow]
          norm_num
          ring
        have j4 : (m1 + a).toNat = b := by omega
        have j5 : (a - m2).toNat = c := by omega
        simp only [hG]
        rw [j4, j5, hsign]
        linear_combination (-(((-1 : ℂ) ^ b * (-1) ^ c) * S m1 * S m2 * S (-m1 - m2))) * hr
      · rw [if_neg h4]
        have : racahTerm l m1 m2 a = 0 := by
          unfold racahTerm
          rw [if_neg (by omega)]
        rw [this]
        simp
    · rw [if_neg h3]
      symm
      refine sum_eq_zero fun m2 _ => ?_
      have : racahTerm l m1 m2 a = 0 := by
        unfold racahTerm
        rw [if_neg (by omega)]
      rw [this]
      simp
  rw [triple, sum_congr rfl h1, sum_comm, mul_sum]
  refine sum_congr rfl fun m1 _ => ?_
  rw [sum_comm, mul_sum]
  refine sum_congr rfl fun m2 _ => ?_
  by_cases h : |m1 + m2| ≤ l
  · simp only [if_pos h]
    rw [hs, mul_sum, sum_mul, sum_mul, sum_mul, mul_sum]
  · simp only [if_neg h]
    simp

/-! ### `w_l` -/

/-- The coefficients of the form of a distribution. -/
noncomputable def total (l : ℕ) (L : List (ℝ × Vec3 ℝ)) (k : ℕ) : ℂ := (L.map fun d => (d.1 : ℂ) * co l d.2 k).sum

theorem form_total (l : ℕ) (L : List (ℝ × Vec3 ℝ)) (s t : ℂ) :
    form (2 * l) (total l L) s t = (L.map fun d => (d.1 : ℂ) * form (2 * l) (co l d.2) s t).sum := by
  induction L with
  | nil => simp [form, total]
  | cons d L ih =>
    rw [List.map_cons, List.sum_cons, ← ih]
    unfold form total
    rw [mul_sum, ← sum_add_distrib]
    refine sum_congr rfl fun k _ => ?_
    rw [List.map_cons, List.sum_cons]
    ring

theorem triple_mirror (l : ℕ) (w : Vec3 ℝ) (hw : Vec3.dot w w = 1) (L : List (ℝ × Vec3 ℝ)) :
    triple l (total l (turnedBy (mirror w) L)) (total l (turnedBy (mirror w) L)) (total l (turnedBy (mirror w) L)) =
      (-1) ^ l * triple l (total l L) (total l L) (total l L) := by
  rw [triple_substituted (f := total l L) w.z (w.x - w.y * Complex.I) (w.x + w.y * Complex.I) (-w.z) (fun s t => by
    rw [form_total, form_total, turnedBy, List.map_map]
    congr 1
    refine List.map_congr_left fun d _ => ?_
    simp only [Function.comp_apply]
    rw [form_co, form_co, quad_mirror w _ hw]), mirror_det w hw, pow_mul]
  norm_num

theorem coefficient_eq (l : ℕ) (m : ℤ) (hm : |m| ≤ l) (L : List (ℝ × Vec3 ℝ)) :
    coefficient (sphericalHarmonic l) L m =
      (Real.sqrt ((2 * l + 1) / (4 * Real.pi) * (ifact (l + m) * ifact (l - m))) : ℂ) * total l L (at' l m) := by
  unfold coefficient total
  rw [← List.sum_map_mul_left]
  congr 1
  refine List.map_congr_left fun d _ => ?_
  rw [harmonic_eq l m hm, at']
  ring

/-- `w_l` is the invariant, up to a factor. -/
theorem wExact_eq (l : ℕ) : ∃ κ : ℂ, ∀ L, wExact l (sphericalHarmonic l) L =
    κ * triple l (total l L) (total l L) (total l L) := by
  set N : ℝ := (2 * l + 1) / (4 * Real.pi) with hN
  have hN0 : 0 ≤ N := by have := Real.pi_pos; positivity
  set c : ℝ := (((l.factorial ^ 3 : ℕ) / ((3 * l + 1).factorial : ℕ) : ℚ) : ℝ) with hc
  have hc0 : 0 ≤ c := by rw [hc]; positivity
  have nl : (l.factorial : ℂ) ≠ 0 := by exact_mod_cast l.factorial_ne_zero
  refine ⟨(Real.sqrt N : ℂ) ^ 3 * (Real.sqrt c : ℂ) / (l.factorial : ℂ) ^ 3, fun L => ?_⟩
  rw [triple_ints, ← mul_assoc, div_mul_cancel₀ _ (pow_ne_zero 3 nl)]
  unfold wExact overTriples
  rw [mul_sum]
  refine sum_congr rfl fun m1 h1 => ?_
  rw [mul_sum]
  refine sum_congr rfl fun m2 h2 => ?_
  rw [mem_Icc] at h1 h2
  by_cases h : |m1 + m2| ≤ l
  · rw [if_pos h, if_pos h]
    have h3 := abs_le.mp h
    simp only
    rw [coefficient_eq l m1 (by rw [abs_le]; omega), coefficient_eq l m2 (by rw [abs_le]; omega),
      coefficient_eq l (-m1 - m2) (by rw [abs_le]; omega)]
    have hprod : Real.sqrt (racahProduct l m1 m2 (-m1 - m2) : ℚ) = Real.sqrt c *
        (Real.sqrt (ifact (l + m1) * ifact (l - m1)) * Real.sqrt (ifact (l + m2) * ifact (l - m2)) *
          Real.sqrt (ifact (l + (-m1 - m2)) * ifact (l - (-m1 - m2)))) := by
      rw [← Real.sqrt_mul (by positivity), ← Real.sqrt_mul (by positivity), ← Real.sqrt_mul hc0]
      congr 1
      rw [racahProduct, hc]
      push_cast
      ring
    have hsplit : ∀ m : ℤ, Real.sqrt (N * (ifact (l + m) * ifact (l - m))) =
        Real.sqrt N * Real.sqrt (ifact (l + m) * ifact (l - m)) := fun m => Real.sqrt_mul hN0 _
    have hsq : ∀ m : ℤ, |m| ≤ l → (Real.sqrt (ifact (l + m) * ifact (l - m)) : ℂ) *
        (Real.sqrt (ifact (l + m) * ifact (l - m)) : ℂ) * total l L (at' l m) =
        scaled (2 * l) (total l L) (at' l m) := by
      intro m hm
      rw [← Complex.ofReal_mul, Real.mul_self_sqrt (by positivity), scaled]
      have := abs_le.mp hm
      have e1 : at' l m = (l + m).toNat := rfl
      have e2 : 2 * l - at' l m = ((l : ℤ) - m).toNat := by rw [at']; omega
      rw [e2, e1]
      push_cast
      rfl
    unfold wigner3j
    rw [hprod, hsplit, hsplit, hsplit, ← hsq m1 (by rw [abs_le]; omega), ← hsq m2 (by rw [abs_le]; omega),
      ← hsq (-m1 - m2) (by rw [abs_le]; omega)]
    generalize ((List.range (l + 1)).map (racahTerm l m1 m2)).sum = r
    push_cast
    ring
  · rw [if_neg h, if_neg h, mul_zero]

end Freud.Harm
