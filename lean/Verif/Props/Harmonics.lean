import Verif.Props.Steinhardt
import Verif.Lemmas.SteinhardtTurn
import Verif.Lemmas.WignerNorm

/-!
# C101: the spherical harmonics exist for every degree, and `w_l` does not depend on the orientation
-/

namespace Freud
open Spec Harm Forms

/-- **C101** (harmonics): for every degree `l` the explicit polynomials `sphericalHarmonic l` have the properties
that the theorems on `q_l` and `w_l` ask for: the addition theorem and the symmetry in `m`. -/
theorem C101_harmonics (l : ℕ) : Harmonics l (sphericalHarmonic l) := by
  refine ⟨fun u v hu hv => ?_, harmonic_conj l⟩
  have hN0 : (0 : ℝ) ≤ (2 * l + 1) / (4 * Real.pi) := by have := Real.pi_pos; positivity
  have h1 : ∑ m ∈ Finset.Icc (-l : ℤ) l, sphericalHarmonic l m u * (starRingEnd ℂ) (sphericalHarmonic l m v) =
      ∑ m ∈ Finset.Icc (-l : ℤ) l, (((2 * l + 1) / (4 * Real.pi) : ℝ) : ℂ) * ((-1) ^ l *
        ((-1) ^ (l + m).toNat * (((l + m).toNat.factorial : ℂ) * ((2 * l - (l + m).toNat).factorial : ℂ)) *
          co l u (l + m).toNat * co l v (2 * l - (l + m).toNat))) := by
    refine Finset.sum_congr rfl fun m hm => ?_
    rw [Finset.mem_Icc] at hm
    have hc : (starRingEnd ℂ) (sphericalHarmonic l m v) = (-1) ^ m * sphericalHarmonic l (-m) v := by
      rw [harmonic_conj, ← mul_assoc, ← mul_zpow]
      norm_num
    rw [hc, harmonic_eq l m (by rw [abs_le]; omega), harmonic_eq l (-m) (by rw [abs_le]; omega)]
    have e1 : (l + -m).toNat = 2 * l - (l + m).toNat := by omega
    have e2 : (ifact (l + -m) * ifact (l - -m) : ℝ) = ifact (l + m) * ifact (l - m) := by
      rw [sub_neg_eq_add, ← sub_eq_add_neg, mul_comm]
    have e3 : (((-1 : ℂ)) ^ m) = (-1) ^ l * (-1) ^ (l + m).toNat := by
      rw [← zpow_natCast, ← zpow_natCast, ← zpow_add₀ (by norm_num)]
      rw [show ((l : ℤ) + ((l + m).toNat : ℤ)) = m + 2 * l by omega, zpow_add₀ (by norm_num), zpow_mul]
      norm_num
    have e4 : ((l : ℤ) - m).toNat = 2 * l - (l + m).toNat := by omega
    have hsq : (Real.sqrt ((2 * l + 1) / (4 * Real.pi) * (ifact (l + m) * ifact (l - m))) : ℂ) *
        (Real.sqrt ((2 * l + 1) / (4 * Real.pi) * (ifact (l + m) * ifact (l - m))) : ℂ) =
        (((2 * l + 1) / (4 * Real.pi) : ℝ) : ℂ) *
          (((l + m).toNat.factorial : ℂ) * ((2 * l - (l + m).toNat).factorial : ℂ)) := by
      rw [← Complex.ofReal_mul, Real.mul_self_sqrt (by positivity), ← e4]
      unfold ifact
      push_cast
      ring
    rw [e2, e3, e1]
    linear_combination ((-1) ^ l * (-1) ^ (l + m).toNat * co l u (l + m).toNat * co l v (2 * l - (l + m).toNat)) * hsq
  have h2 : ∀ g : ℕ → ℂ, ∑ m ∈ Finset.Icc (-l : ℤ) l, g (l + m).toNat = ∑ k ∈ Finset.range (2 * l + 1), g k := by
    intro g
    refine Finset.sum_bij' (fun m _ => (l + m).toNat) (fun k _ => (k : ℤ) - l) ?_ ?_ ?_ ?_ ?_
    · intro m hm
      rw [Finset.mem_Icc] at hm
      rw [Finset.mem_range]; omega
    · intro k hk
      rw [Finset.mem_range] at hk
      rw [Finset.mem_Icc]; omega
    · intro m hm
      rw [Finset.mem_Icc] at hm
      omega
    · intro k hk
      omega
    · intro m _
      rfl
  rw [h1, ← Finset.mul_sum, ← Finset.mul_sum, h2 fun k => (-1) ^ k * ((k.factorial : ℂ) *
    ((2 * l - k).factorial : ℂ)) * co l u k * co l v (2 * l - k)]
  have := pair_value l u v hu hv
  rw [pair] at this
  rw [this]
  push_cast
  ring

/-- What fsph returns, by the explicit polynomials. -/
noncomputable def Steinhardt.fsph (l : ℕ) (theta phi : ℝ) (k : ℕ) : ℂ :=
  if k ≤ l then (-1) ^ k * sphericalHarmonic l k (sphericalPoint theta phi)
  else sphericalHarmonic l (-((k - l : ℕ) : ℤ)) (sphericalPoint theta phi)

/-- **C101**: such a library exists. -/
theorem C101_fsph (l : ℕ) : FsphOK Steinhardt.fsph l (sphericalHarmonic l) := by
  refine ⟨fun theta phi m hm => ?_, fun theta phi m h1 hm => ?_⟩
  · unfold Steinhardt.fsph
    rw [if_pos hm]
  · unfold Steinhardt.fsph
    rw [if_neg (by omega)]
    congr 2
    omega

/-- **C101** (`w_l`): the third order invariant of a distribution of directions does not change when all
directions are turned by one rotation, with or without a mirror image. -/
theorem C101_w_invariant (l : ℕ) (R : Vec3 ℝ → Vec3 ℝ) (hR : Isometry3 R) (L : List (ℝ × Vec3 ℝ)) :
    wExact l (sphericalHarmonic l) (turnedBy R L) = wExact l (sphericalHarmonic l) L := by
  rcases Nat.mod_two_eq_zero_or_one l with h | h
  · obtain ⟨κ, hκ⟩ := wExact_eq l
    refine isometry_induction (fun L => wExact l (sphericalHarmonic l) L) (fun w hw L => ?_) R hR L
    simp only [hκ]
    rw [triple_mirror l w hw, Even.neg_one_pow (Nat.even_iff.mpr h), one_mul]
  · rw [Steinhardt.wExact_odd h, Steinhardt.wExact_odd h]

/-- The largest possible size of `w_l`: 1 with `wl_normalize`, else the power `3 / 2` of `(2l+1)/4π`. -/
noncomputable def Spec.wUnit (normalize : Bool) (l : ℕ) : ℝ :=
  if normalize then 1 else Real.sqrt ((2 * l + 1) / (4 * Real.pi)) ^ 3

/-- `w_l` of a distribution with spherical harmonics, with `normalize` divided by the power `3 / 2` of the sum of the
squares of the absolute values of the coefficients. -/
noncomputable def Spec.wReference (normalize : Bool) (l : ℕ) (L : List (ℝ × Vec3 ℝ)) : ℂ :=
  wExact l (sphericalHarmonic l) L / (if normalize then (Real.sqrt (power l (sphericalHarmonic l) L) : ℂ) ^ 3 else 1)

/-- `x` is `w_l` of the distribution up to one part in `10 ^ 15` of its largest possible size; not a number without
distribution, and with `normalize` if `q_l = 0`. -/
def Spec.IsWl (normalize : Bool) (l : ℕ) : Option (List (ℝ × Vec3 ℝ)) → Option ℝ → Prop
  | none, x => x = none
  | some L, x => if normalize = true ∧ qValue l L = 0 then x = none
    else ∃ a : ℝ, x = some a ∧ ‖(a : ℂ) - wReference normalize l L‖ ≤ 1 / 10 ^ 15 * wUnit normalize l

/-- Both are not a number, or they differ by at most `ε`. -/
def Spec.Agree (ε : ℝ) : Option ℝ → Option ℝ → Prop
  | none, none => True
  | some a, some b => |b - a| ≤ ε
  | _, _ => False

namespace Steinhardt

theorem wScale_le (l : ℕ) (hl : l ≤ 20) (Y : ℤ → Vec3 ℝ → ℂ) (L : List (ℝ × Vec3 ℝ)) :
    wScale l Y L ≤ Real.sqrt (power l Y L) ^ 3 :=
  Wigner.scale_le l hl (fun m => ‖coefficient Y L m‖) fun _ => norm_nonneg _

theorem sqrt_power {l : ℕ} {Y : ℤ → Vec3 ℝ → ℂ} (hY : Harmonics l Y) (L : List (ℝ × Vec3 ℝ)) (hL : Units L) :
    Real.sqrt (power l Y L) = Real.sqrt ((2 * l + 1) / (4 * Real.pi)) * qValue l L := by
  have hpi := Real.pi_pos
  have h := double_eq hY L hL
  unfold qValue
  rw [← Real.sqrt_mul (by positivity)]
  congr 1
  rw [double] at h
  rw [← h, Spec.power]
  simp only [Complex.normSq_eq_norm_sq]
  push_cast
  field_simp

theorem isWl_of {normalize : Bool} {l : ℕ} (hl : l ≤ 20) {L : Option (List (ℝ × Vec3 ℝ))}
    (hL : ∀ M, L = some M → Sub M) {x : Option ℝ} (h : IsW normalize l (sphericalHarmonic l) L x) :
    IsWl normalize l L x := by
  cases L with
  | none => exact h
  | some L =>
    have hsub := hL L rfl
    have hq := sqrt_power (C101_harmonics l) L hsub.1
    have hr := qValue_range (C101_harmonics l) L hsub
    have hpi := Real.pi_pos
    have hN : 0 < Real.sqrt ((2 * l + 1) / (4 * Real.pi)) := Real.sqrt_pos.mpr (by positivity)
    have hz : power l (sphericalHarmonic l) L = 0 ↔ qValue l L = 0 := by
      rw [← Real.sqrt_eq_zero (power_nonneg _ _ _), hq, mul_eq_zero, or_iff_right hN.ne']
    have hs := wScale_le l hl (sphericalHarmonic l) L
    unfold IsW at h
    unfold IsWl
    simp only at h ⊢
    by_cases h0 : normalize = true ∧ qValue l L = 0
    · rw [if_pos ⟨h0.1, hz.mpr h0.2⟩] at h
      rw [if_pos h0]
      exact h
    · rw [if_neg fun hc => h0 ⟨hc.1, hz.mp hc.2⟩] at h
      rw [if_neg h0]
      obtain ⟨w, e, hw⟩ := h
      refine ⟨_, e, ?_⟩
      unfold wReference wUnit
      cases normalize with
      | false =>
        simp only [Bool.false_eq_true, if_false, div_one]
        refine hw.trans (mul_le_mul_of_nonneg_left (hs.trans ?_) (by norm_num))
        rw [hq, mul_pow]
        exact mul_le_of_le_one_right (by positivity) (pow_le_one₀ hr.1 hr.2)
      | true =>
        simp only [if_true, mul_one]
        have hp : 0 < Real.sqrt (power l (sphericalHarmonic l) L) := by
          rw [hq]
          exact mul_pos hN (lt_of_le_of_ne hr.1 fun h => h0 ⟨rfl, h.symm⟩)
        push_cast
        rw [← sub_div, norm_div, norm_pow, Complex.norm_real, Real.norm_eq_abs, abs_of_pos hp,
          div_le_iff₀ (by positivity)]
        exact hw.trans (mul_le_mul_of_nonneg_left hs (by norm_num))

/-- A map that keeps scalar products is linear. -/
theorem isometry_smul {R : Vec3 ℝ → Vec3 ℝ} (hR : Isometry3 R) (a : ℝ) (v : Vec3 ℝ) :
    R (Vec3.smul a v) = Vec3.smul a (R v) := by
  have key : ∀ u w : Vec3 ℝ, Vec3.dot u u - 2 * a * Vec3.dot u w + a * a * Vec3.dot w w = 0 → u = Vec3.smul a w := by
    intro u w h
    simp only [Vec3.dot] at h
    have e : (u.x - a * w.x) ^ 2 + (u.y - a * w.y) ^ 2 + (u.z - a * w.z) ^ 2 = 0 := by linear_combination h
    have h1 := sq_nonneg (u.x - a * w.x)
    have h2 := sq_nonneg (u.y - a * w.y)
    have h3 := sq_nonneg (u.z - a * w.z)
    ext
    · have := pow_eq_zero_iff (two_ne_zero) |>.mp (by linarith : (u.x - a * w.x) ^ 2 = 0)
      simp only [Vec3.smul]; linarith
    · have := pow_eq_zero_iff (two_ne_zero) |>.mp (by linarith : (u.y - a * w.y) ^ 2 = 0)
      simp only [Vec3.smul]; linarith
    · have := pow_eq_zero_iff (two_ne_zero) |>.mp (by linarith : (u.z - a * w.z) ^ 2 = 0)
      simp only [Vec3.smul]; linarith
  apply key
  rw [hR, hR, hR]
  simp only [Vec3.dot, Vec3.smul]
  ring

theorem turned_eq {R : Vec3 ℝ → Vec3 ℝ} (hR : Isometry3 R) {L L' : List (ℝ × Vec3 ℝ)}
    (h : List.Forall₂ (Turned R) L L') : L' = turnedBy R L := by
  induction h with
  | nil => rfl
  | @cons d d' L L' hd _ ih =>
    obtain ⟨h1, v, hv, e1, e2⟩ := hd
    have hv' : R v ≠ ⟨0, 0, 0⟩ := by
      intro h0
      refine hv (dot_self_eq_zero v ?_)
      rw [← hR, h0]
      simp [Vec3.dot]
    rw [ih]
    change _ = (d.1, R d.2) :: turnedBy R L
    congr 1
    refine Prod.ext h1 ?_
    simp only
    rw [e1, e2]
    unfold unit
    rw [if_neg hv, if_neg hv', hR, isometry_smul hR]

theorem agree_turned {normalize : Bool} {l : ℕ} {R : Vec3 ℝ → Vec3 ℝ} (hR : Isometry3 R)
    {L L' : Option (List (ℝ × Vec3 ℝ))} (hu : ∀ M, L = some M → Units M) (h : OptTurned R L L') {x x' : Option ℝ}
    (hx : IsWl normalize l L x) (hx' : IsWl normalize l L' x') :
    Agree (2 / 10 ^ 15 * wUnit normalize l) x x' := by
  match L, L', h with
  | none, none, _ =>
    rw [show x = none from hx, show x' = none from hx']
    trivial
  | some L, some L', h =>
    have hq := qValue_turned hR l h
    have e := turned_eq hR h
    have hu' : Units L' := by
      rw [e]
      intro d hd
      obtain ⟨d, hd', rfl⟩ := List.mem_map.mp hd
      exact (hR _ _).trans (hu L rfl d hd')
    have hp : Real.sqrt (power l (sphericalHarmonic l) L') = Real.sqrt (power l (sphericalHarmonic l) L) := by
      rw [sqrt_power (C101_harmonics l) L' hu', sqrt_power (C101_harmonics l) L (hu L rfl), hq]
    have hw : wReference normalize l L' = wReference normalize l L := by
      unfold wReference
      rw [hp, e, C101_w_invariant l R hR L]
    unfold IsWl at hx hx'
    simp only at hx hx'
    rw [hq, hw] at hx'
    by_cases h0 : normalize = true ∧ qValue l L = 0
    · rw [if_pos h0] at hx hx'
      rw [hx, hx']
      trivial
    · rw [if_neg h0] at hx hx'
      obtain ⟨a, rfl, ha⟩ := hx
      obtain ⟨b, rfl, hb⟩ := hx'
      change |b - a| ≤ _
      have : |b - a| = ‖((b : ℂ) - wReference normalize l L) - ((a : ℂ) - wReference normalize l L)‖ := by
        rw [sub_sub_sub_cancel_right, ← Complex.ofReal_sub, Complex.norm_real, Real.norm_eq_abs]
      rw [this]
      refine (norm_sub_le _ _).trans ?_
      linarith

end Steinhardt

/-- **C101** (value): with `wl` the result of every particle and of the system is the third order invariant of its
distribution with the spherical harmonics, up to one part in `10 ^ 15` of its largest possible size. The weights must
not be negative (all are 1 without `weighted`). -/
theorem C101_value (sph : Steinhardt.Sph) (p : Steinhardt.Params) (hf : FsphOK sph p.l (sphericalHarmonic p.l))
    (hw : p.wl = true) (hl : p.l ≤ 20) (history : List Steinhardt.Call) (hh : ∀ c ∈ history, LegalSteinhardt p.l c)
    (c : Steinhardt.Call) (hc : LegalSteinhardt p.l c)
    (hwt : p.weighted = true → ∀ nb ∈ c.nlist.bonds, 0 ≤ nb.weight) :
    ∃ r, Steinhardt.resultAfter sph p history c = some r ∧
      List.Forall₂ (IsWl p.wlNormalize p.l)
        ((List.range c.points.length).map
          (distribution c.box c.points p.weighted p.average c.nlist.bonds)) (r.particleOrder p) ∧
      IsWl p.wlNormalize p.l (mix ((List.range c.points.length).map
          (distribution c.box c.points p.weighted p.average c.nlist.bonds))) r.order := by
  obtain ⟨r, e, h1, h2⟩ := C77_value sph p _ (C101_harmonics p.l) hf hw hl history hh c hc
  refine ⟨r, e, ?_, Steinhardt.isWl_of hl (fun M hM => Steinhardt.sub_mix _ (fun N hN => ?_) M hM) h2⟩
  · rw [List.forall₂_map_left_iff] at h1 ⊢
    exact h1.imp fun i x hx => Steinhardt.isWl_of hl (fun M hM => Steinhardt.sub_dist p c p.average hwt i M hM) hx
  · obtain ⟨i, -, hi⟩ := List.mem_map.mp hN
    exact Steinhardt.sub_dist p c p.average hwt i N hi

/-- **C101** (rotations): if all bond vectors are turned by one map `R` that keeps scalar products (a rotation, or a
rotation with a mirror image), the values of `w_l` of the particles and of the system are not numbers in the same
places, and change by no more than two parts in `10 ^ 15` of their largest possible size, which comes from the digits of
the table of Wigner 3j symbols. -/
theorem C101_rotation (sph : Steinhardt.Sph) (p : Steinhardt.Params) (hf : FsphOK sph p.l (sphericalHarmonic p.l))
    (hw : p.wl = true) (hl : p.l ≤ 20) (c c' : Steinhardt.Call) (hc : LegalSteinhardt p.l c)
    (hc' : LegalSteinhardt p.l c') (hwt : p.weighted = true → ∀ nb ∈ c.nlist.bonds, 0 ≤ nb.weight)
    (R : Vec3 ℝ → Vec3 ℝ) (hR : Isometry3 R)
    (hrel : BondwiseRelated (fun v v' => v' = R v ∧ v ≠ ⟨0, 0, 0⟩) c.box c'.box c.points c'.points
      c.nlist c'.nlist) :
    ∃ r r', Steinhardt.resultAfter sph p [] c = some r ∧ Steinhardt.resultAfter sph p [] c' = some r' ∧
      List.Forall₂ (Agree (2 / 10 ^ 15 * wUnit p.wlNormalize p.l)) (r.particleOrder p) (r'.particleOrder p) ∧
      Agree (2 / 10 ^ 15 * wUnit p.wlNormalize p.l) r.order r'.order := by
  have hwt' : p.weighted = true → ∀ nb ∈ c'.nlist.bonds, 0 ≤ nb.weight := by
    intro h nb hnb
    have hb := hrel.bonds
    have h1 := hwt h
    revert hb h1 hnb
    generalize c.nlist.bonds = l
    generalize c'.nlist.bonds = l'
    intro hnb hb h1
    induction hb with
    | nil => cases hnb
    | @cons b b' _ _ hc _ ih =>
      rcases List.mem_cons.mp hnb with rfl | hnb
      · rw [hc.2.2.1]
        exact h1 b List.mem_cons_self
      · exact ih hnb fun x hx => h1 x (List.mem_cons_of_mem _ hx)
  obtain ⟨r, e, h1, h2⟩ := C101_value sph p hf hw hl [] (by simp) c hc hwt
  obtain ⟨r', e', h1', h2'⟩ := C101_value sph p hf hw hl [] (by simp) c' hc' hwt'
  refine ⟨r, r', e, e', ?_, ?_⟩
  · rw [List.forall₂_map_left_iff] at h1 h1'
    rw [hrel.same_size] at h1'
    have : ∀ (I : List ℕ) (xs xs' : List (Option ℝ)),
        List.Forall₂ (fun i x => IsWl p.wlNormalize p.l
          (distribution c.box c.points p.weighted p.average c.nlist.bonds i) x) I xs →
        List.Forall₂ (fun i x => IsWl p.wlNormalize p.l
          (distribution c'.box c'.points p.weighted p.average c'.nlist.bonds i) x) I xs' →
        List.Forall₂ (Agree (2 / 10 ^ 15 * wUnit p.wlNormalize p.l)) xs xs' := by
      intro I
      induction I with
      | nil =>
        intro xs xs' h h'
        cases h
        cases h'
        exact .nil
      | cons i I ih =>
        intro xs xs' h h'
        cases h with
        | cons a b =>
          cases h' with
          | cons a' b' =>
            exact .cons (Steinhardt.agree_turned hR (fun M hM => (Steinhardt.sub_dist p c p.average hwt i M hM).1)
              (Steinhardt.dist_turned p c c' hrel p.average i) a a') (ih _ _ b b')
    exact this _ _ _ h1 h1'
  · rw [hrel.same_size] at h2'
    refine Steinhardt.agree_turned hR (fun M hM => (Steinhardt.sub_mix _ (fun N hN => ?_) M hM).1)
      (Steinhardt.mix_turned ?_) h2 h2'
    · obtain ⟨i, -, hi⟩ := List.mem_map.mp hN
      exact Steinhardt.sub_dist p c p.average hwt i N hi
    · rw [List.forall₂_map_left_iff, List.forall₂_map_right_iff]
      exact List.forall₂_same.mpr fun i _ => Steinhardt.dist_turned p c c' hrel p.average i

/-! ### Concrete cases -/

/-- The harmonic with `l = 2`, `m = 0` along the third axis is `sqrt (5 / 4π)`. -/
example : sphericalHarmonic 2 0 ⟨0, 0, 1⟩ = (Real.sqrt (5 / (4 * Real.pi)) : ℂ) := by
  have h := harmonic_eq 2 0 (by norm_num) ⟨0, 0, 1⟩
  rw [show ((2 : ℕ) + (0 : ℤ)).toNat = 2 from rfl, co_pole, if_pos rfl] at h
  rw [h]
  have e : (2 * ((2 : ℕ) : ℝ) + 1) / (4 * Real.pi) * (ifact ((2 : ℕ) + 0) * ifact ((2 : ℕ) - 0)) =
      5 / (4 * Real.pi) * 2 ^ 2 := by
    simp [ifact, Nat.factorial]
    ring
  rw [e, Real.sqrt_mul (by have := Real.pi_pos; positivity), Real.sqrt_sq (by norm_num)]
  simp [Nat.factorial]

/-- The harmonics of degree 1 of the earlier example are these. -/
example : sphericalHarmonic 1 0 ⟨0, 0, 1⟩ = (Real.sqrt (3 / (4 * Real.pi)) : ℂ) := by
  have h := harmonic_eq 1 0 (by norm_num) ⟨0, 0, 1⟩
  rw [show ((1 : ℕ) + (0 : ℤ)).toNat = 1 from rfl, co_pole, if_pos rfl] at h
  rw [h]
  have e : (2 * ((1 : ℕ) : ℝ) + 1) / (4 * Real.pi) * (ifact ((1 : ℕ) + 0) * ifact ((1 : ℕ) - 0)) =
      3 / (4 * Real.pi) := by
    simp [ifact]
    ring
  rw [e]
  simp

/-- The pair of particles is a legal call for every degree. -/
theorem Steinhardt.pair_legal (l : ℕ) : LegalSteinhardt l
    { Steinhardt.pair with reduceOrder := List.range (2 * l + 1) } :=
  ⟨Steinhardt.pair_ok.list, Steinhardt.pair_ok.lengths, Steinhardt.pair_ok.ev, Steinhardt.pair_ok.evAve,
    List.Perm.refl _⟩

/-- The hypotheses of `C101_rotation` are met for every degree up to 20. -/
example (l : ℕ) (hl : l ≤ 20) (av n : Bool) : ∃ r r',
    Steinhardt.resultAfter Steinhardt.fsph ⟨l, av, true, false, n⟩ []
      { Steinhardt.pair with reduceOrder := List.range (2 * l + 1) } = some r ∧
    Steinhardt.resultAfter Steinhardt.fsph ⟨l, av, true, false, n⟩ []
      { Steinhardt.turnedPair with reduceOrder := List.range (2 * l + 1) } = some r' ∧
      List.Forall₂ (Agree (2 / 10 ^ 15 * wUnit n l)) (r.particleOrder ⟨l, av, true, false, n⟩)
        (r'.particleOrder ⟨l, av, true, false, n⟩) ∧ Agree (2 / 10 ^ 15 * wUnit n l) r.order r'.order := by
  refine C101_rotation Steinhardt.fsph ⟨l, av, true, false, n⟩ (C101_fsph l) rfl hl _ _ (Steinhardt.pair_legal l)
    ⟨Steinhardt.pair_ok.list, ?_, Steinhardt.pair_ok.ev, Steinhardt.pair_ok.evAve, List.Perm.refl _⟩ (by simp)
    (fun v => ⟨-v.y, v.x, v.z⟩) ?_ ⟨rfl, rfl, ?_⟩
  · intro nb hnb _
    simp only [Steinhardt.turnedPair, Steinhardt.pair, List.mem_cons, List.not_mem_nil, or_false] at hnb
    rcases hnb with rfl | rfl <;> simp [bondVector, Steinhardt.turnedPair, Steinhardt.pair, Box.wrap, Vec3.dot]
  · intro u v
    simp only [Vec3.dot]; ring
  · refine .cons ⟨rfl, rfl, rfl, ?_⟩ (.cons ⟨rfl, rfl, rfl, ?_⟩ .nil) <;>
      simp [separation, Steinhardt.turnedPair, Steinhardt.pair, Box.wrap, Vec3.ext_iff]

end Freud
