import Verif.Model.Steinhardt
import Verif.Spec.Steinhardt
import Verif.Lemmas.Wigner
import Verif.Lemmas.Storage
import Verif.Props.Hexatic

/-!
# Lemmas on the Steinhardt order parameters
-/

namespace Freud.Steinhardt
open Spec

/-! ### Legendre polynomials, harmonics and sums over distributions -/

theorem legendre_one (l : ℕ) : legendre l 1 = 1 := by
  induction l using Nat.twoStepInduction with
  | zero => rfl
  | one => rfl
  | more n h1 h2 =>
    rw [legendre, h1, h2]
    have : ((n + 2 : ℕ) : ℝ) ≠ 0 := by positivity
    rw [div_eq_one_iff_eq this]
    push_cast; ring

/-- The double sum in `qValue`. -/
noncomputable def double (l : ℕ) (L L' : List (ℝ × Vec3 ℝ)) : ℝ :=
  (L.map fun d => (L'.map fun e => d.1 * e.1 * legendre l (Vec3.dot d.2 e.2)).sum).sum

def Units (L : List (ℝ × Vec3 ℝ)) : Prop := ∀ d ∈ L, Vec3.dot d.2 d.2 = 1

theorem coefficient_cons (Y : ℤ → Vec3 ℝ → ℂ) (d : ℝ × Vec3 ℝ) (L : List (ℝ × Vec3 ℝ)) (m : ℤ) :
    coefficient Y (d :: L) m = d.1 * Y m d.2 + coefficient Y L m := by
  simp [coefficient]

theorem sum_conj {l : ℕ} {Y : ℤ → Vec3 ℝ → ℂ} (hY : Harmonics l Y) (L L' : List (ℝ × Vec3 ℝ))
    (hL : Units L) (hL' : Units L') :
    ∑ m ∈ Finset.Icc (-l : ℤ) l, coefficient Y L m * (starRingEnd ℂ) (coefficient Y L' m) =
      (((2 * l + 1 : ℕ) / (4 * Real.pi) * double l L L' : ℝ) : ℂ) := by
  induction L with
  | nil => simp [coefficient, double]
  | cons d L ih =>
    have h1 : ∑ m ∈ Finset.Icc (-l : ℤ) l, (d.1 : ℂ) * Y m d.2 * (starRingEnd ℂ) (coefficient Y L' m) =
        (((2 * l + 1 : ℕ) / (4 * Real.pi) *
          (L'.map fun e => d.1 * e.1 * legendre l (Vec3.dot d.2 e.2)).sum : ℝ) : ℂ) := by
      clear ih
      induction L' with
      | nil => simp [coefficient]
      | cons e L' ih' =>
        have h2 := hY.addition d.2 e.2 (hL d List.mem_cons_self) (hL' e List.mem_cons_self)
        have h3 := ih' fun e he => hL' e (List.mem_cons_of_mem _ he)
        simp only [coefficient_cons, map_add, mul_add, Finset.sum_add_distrib, List.map_cons,
          List.sum_cons]
        rw [h3]
        have h4 : ∑ m ∈ Finset.Icc (-l : ℤ) l, (d.1 : ℂ) * Y m d.2 * (starRingEnd ℂ) (e.1 * Y m e.2) =
            (d.1 * e.1 : ℝ) * ∑ m ∈ Finset.Icc (-l : ℤ) l, Y m d.2 * (starRingEnd ℂ) (Y m e.2) := by
          rw [Finset.mul_sum]
          refine Finset.sum_congr rfl fun m _ => ?_
          rw [map_mul, Complex.conj_ofReal]; push_cast; ring
        rw [h4, h2]
        push_cast; ring
    have h2 := ih fun d hd => hL d (List.mem_cons_of_mem _ hd)
    simp only [coefficient_cons, add_mul, Finset.sum_add_distrib]
    rw [h1, h2]
    simp only [double, List.map_cons, List.sum_cons]
    push_cast; ring

theorem double_eq {l : ℕ} {Y : ℤ → Vec3 ℝ → ℂ} (hY : Harmonics l Y) (L : List (ℝ × Vec3 ℝ))
    (hL : Units L) :
    (∑ m ∈ Finset.Icc (-l : ℤ) l, Complex.normSq (coefficient Y L m)) * (4 * Real.pi / (2 * l + 1 : ℕ)) =
      double l L L := by
  have h := sum_conj hY L L hL hL
  simp only [Complex.mul_conj] at h
  rw [← Complex.ofReal_sum] at h
  rw [Complex.ofReal_injective h]
  have h1 : ((2 * l + 1 : ℕ) : ℝ) ≠ 0 := by positivity
  have h2 := Real.pi_ne_zero
  field_simp

theorem double_nonneg {l : ℕ} {Y : ℤ → Vec3 ℝ → ℂ} (hY : Harmonics l Y) (L : List (ℝ × Vec3 ℝ))
    (hL : Units L) : 0 ≤ double l L L := by
  rw [← double_eq hY L hL]
  have := Real.pi_pos
  exact mul_nonneg (Finset.sum_nonneg fun _ _ => Complex.normSq_nonneg _) (by positivity)

/-- The Legendre polynomials are at most 1 on `[-1, 1]`. -/
theorem legendre_abs_le {l : ℕ} {Y : ℤ → Vec3 ℝ → ℂ} (hY : Harmonics l Y) (u v : Vec3 ℝ)
    (hu : Vec3.dot u u = 1) (hv : Vec3.dot v v = 1) : |legendre l (Vec3.dot u v)| ≤ 1 := by
  have hc : Vec3.dot v u = Vec3.dot u v := by unfold Vec3.dot; ring
  have h1 := double_nonneg hY [(1, u), (1, v)] (by intro d hd; simp at hd; rcases hd with rfl | rfl <;> assumption)
  have h2 := double_nonneg hY [(1, u), (-1, v)] (by intro d hd; simp at hd; rcases hd with rfl | rfl <;> assumption)
  simp only [double, List.map_cons, List.map_nil, List.sum_cons, List.sum_nil, hu, hv, hc,
    legendre_one] at h1 h2
  rw [abs_le]
  constructor <;> linarith

theorem double_le {l : ℕ} {Y : ℤ → Vec3 ℝ → ℂ} (hY : Harmonics l Y) (L L' : List (ℝ × Vec3 ℝ))
    (hL : Units L) (hL' : Units L') (h0 : ∀ d ∈ L, 0 ≤ d.1) (h0' : ∀ d ∈ L', 0 ≤ d.1) :
    double l L L' ≤ (L.map (·.1)).sum * (L'.map (·.1)).sum := by
  induction L with
  | nil => simp [double]
  | cons d L ih =>
    have h1 : (L'.map fun e => d.1 * e.1 * legendre l (Vec3.dot d.2 e.2)).sum ≤ d.1 * (L'.map (·.1)).sum := by
      clear ih
      induction L' with
      | nil => simp
      | cons e L' ih' =>
        have h2 := ih' (fun e he => hL' e (List.mem_cons_of_mem _ he)) fun e he => h0' e (List.mem_cons_of_mem _ he)
        simp only [List.map_cons, List.sum_cons]
        have h3 := (abs_le.mp (legendre_abs_le hY d.2 e.2 (hL d List.mem_cons_self) (hL' e List.mem_cons_self))).2
        have h4 : d.1 * e.1 * legendre l (Vec3.dot d.2 e.2) ≤ d.1 * e.1 * 1 :=
          mul_le_mul_of_nonneg_left h3 (mul_nonneg (h0 d List.mem_cons_self) (h0' e List.mem_cons_self))
        linarith
    have h2 := ih (fun d hd => hL d (List.mem_cons_of_mem _ hd)) fun d hd => h0 d (List.mem_cons_of_mem _ hd)
    simp only [double, List.map_cons, List.sum_cons] at h2 ⊢
    linarith

/-! ### The order of the numbers in a row -/

theorem slot_eq (l : ℕ) (m : ℤ) : lmIndex l m = slot l m := by
  unfold lmIndex slot
  split_ifs <;> omega

theorem slot_lt (l : ℕ) (m : ℤ) (h1 : -l ≤ m) (h2 : m ≤ l) : slot l m < 2 * l + 1 := by
  unfold slot; split_ifs <;> omega

/-- A sum over the places is a sum over `m`. -/
theorem sum_slots {A : Type*} [AddCommMonoid A] (l : ℕ) (f : ℕ → A) :
    ∑ k ∈ Finset.range (2 * l + 1), f k = ∑ m ∈ Finset.Icc (-l : ℤ) l, f (slot l m) := by
  symm
  refine Finset.sum_bij (fun m _ => slot l m) ?_ ?_ ?_ (fun _ _ => rfl)
  · intro m hm
    rw [Finset.mem_Icc] at hm
    exact Finset.mem_range.mpr (slot_lt l m hm.1 hm.2)
  · intro a ha b hb h
    rw [Finset.mem_Icc] at ha hb
    unfold slot at h
    split_ifs at h <;> omega
  · intro k hk
    rw [Finset.mem_range] at hk
    by_cases h : k ≤ l
    · exact ⟨k, Finset.mem_Icc.mpr ⟨by omega, by omega⟩, by unfold slot; rw [if_pos (by omega)]; simp⟩
    · refine ⟨-((k - l : ℕ) : ℤ), Finset.mem_Icc.mpr ⟨by omega, by omega⟩, ?_⟩
      unfold slot
      rw [if_neg (by omega)]
      omega

/-! ### Rows and distributions -/

/-- A row holds the coefficients of a distribution. -/
def Holds (Y : ℤ → Vec3 ℝ → ℂ) (l : ℕ) : Row → Option (List (ℝ × Vec3 ℝ)) → Prop
  | none, none => True
  | some r, some L => Units L ∧ ∀ m : ℤ, -l ≤ m → m ≤ l → r (slot l m) = coefficient Y L m
  | _, _ => False

theorem ql_eq {l : ℕ} {Y : ℤ → Vec3 ℝ → ℂ} (hY : Harmonics l Y) {row : Row}
    {L : Option (List (ℝ × Vec3 ℝ))} (h : Holds Y l row L) : row.map (ql l) = L.map (qValue l) := by
  match row, L, h with
  | none, none, _ => rfl
  | some r, some L, ⟨hL, h⟩ =>
    rw [Option.map_some, Option.map_some]
    congr 1
    unfold ql qValue
    congr 1
    have e : ((List.range (2 * l + 1)).map fun k => Complex.normSq (r k)).sum =
        ∑ k ∈ Finset.range (2 * l + 1), Complex.normSq (r k) := rfl
    rw [e, sum_slots]
    have := double_eq hY L hL
    rw [double] at this
    rw [← this]
    congr 1
    refine Finset.sum_congr rfl fun m hm => ?_
    rw [Finset.mem_Icc] at hm
    rw [h m hm.1 hm.2]

/-! ### The direction of a bond -/

theorem dot_self_eq_zero (v : Vec3 ℝ) (h : Vec3.dot v v = 0) : v = ⟨0, 0, 0⟩ := by
  unfold Vec3.dot at h
  ext <;> dsimp only <;> nlinarith [mul_self_nonneg v.x, mul_self_nonneg v.y, mul_self_nonneg v.z]

theorem dot_self_nonneg (v : Vec3 ℝ) : 0 ≤ Vec3.dot v v := by
  unfold Vec3.dot; nlinarith [mul_self_nonneg v.x, mul_self_nonneg v.y, mul_self_nonneg v.z]

theorem unit_unit (v : Vec3 ℝ) : Vec3.dot (unit v) (unit v) = 1 := by
  unfold unit
  split_ifs with h
  · simp [Vec3.dot]
  · have h0 : 0 < Vec3.dot v v := lt_of_le_of_ne (dot_self_nonneg v) fun h' => h (dot_self_eq_zero v h'.symm)
    have e : Vec3.dot (Vec3.smul (1 / Real.sqrt (Vec3.dot v v)) v) (Vec3.smul (1 / Real.sqrt (Vec3.dot v v)) v) =
        (1 / Real.sqrt (Vec3.dot v v)) ^ 2 * Vec3.dot v v := by
      simp only [Vec3.dot, Vec3.smul]; ring
    rw [e, div_pow, Real.sq_sqrt h0.le]
    field_simp

theorem direction_eq (v : Vec3 ℝ) :
    sphericalPoint (theta v (Real.sqrt (Vec3.dot v v))) (phi v) = unit v := by
  unfold theta unit
  by_cases h : v = ⟨0, 0, 0⟩
  · rw [if_pos h, if_pos (by rw [h]; simp [Vec3.dot])]
    simp [sphericalPoint]
  · have h0 : 0 < Vec3.dot v v := lt_of_le_of_ne (dot_self_nonneg v) fun h' => h (dot_self_eq_zero v h'.symm)
    have hr := Real.sqrt_pos.mpr h0
    set r := Real.sqrt (Vec3.dot v v) with hrd
    have hr2 : r ^ 2 = v.x * v.x + v.y * v.y + v.z * v.z := by
      rw [hrd, Real.sq_sqrt h0.le]; rfl
    rw [if_neg h, if_neg hr.ne']
    have hz : |v.z / r| ≤ 1 := by
      rw [abs_div, abs_of_pos hr, div_le_one hr]
      apply abs_le_of_sq_le_sq _ hr.le
      nlinarith [mul_self_nonneg v.x, mul_self_nonneg v.y]
    obtain ⟨hz1, hz2⟩ := abs_le.mp hz
    rw [min_eq_left hz2, max_eq_right hz1]
    unfold sphericalPoint
    rw [Real.cos_arccos hz1 hz2, Real.sin_arccos]
    have hrho : Real.sqrt (1 - (v.z / r) ^ 2) = ‖(⟨v.x, v.y⟩ : ℂ)‖ / r := by
      rw [Complex.norm_def, Complex.normSq_mk]
      rw [show 1 - (v.z / r) ^ 2 = (v.x * v.x + v.y * v.y) / r ^ 2 by
        field_simp; rw [hr2]; ring]
      rw [Real.sqrt_div (by nlinarith [mul_self_nonneg v.x, mul_self_nonneg v.y]), Real.sqrt_sq hr.le]
    rw [hrho]
    have hx := Complex.norm_mul_cos_arg (⟨v.x, v.y⟩ : ℂ)
    have hy := Complex.norm_mul_sin_arg (⟨v.x, v.y⟩ : ℂ)
    unfold phi
    ext
    · simp only [Vec3.smul]; rw [div_mul_eq_mul_div, hx]; ring
    · simp only [Vec3.smul]; rw [div_mul_eq_mul_div, hy]; ring
    · simp only [Vec3.smul]; ring

theorem ylm_eq {sph : Sph} {l : ℕ} {Y : ℤ → Vec3 ℝ → ℂ} (hf : FsphOK sph l Y) (th ph : ℝ) (m : ℤ)
    (h1 : -l ≤ m) (h2 : m ≤ l) : ylm sph l th ph (slot l m) = Y m (sphericalPoint th ph) := by
  unfold slot ylm
  split_ifs with h h' h'
  · obtain ⟨k, rfl⟩ := Int.eq_ofNat_of_zero_le h
    simp only [Int.ofNat_eq_natCast, Int.toNat_natCast] at h' ⊢
    rw [hf.nonneg th ph k h'.1, Odd.neg_one_pow (Nat.odd_iff.mpr h'.2)]
    ring
  · obtain ⟨k, rfl⟩ := Int.eq_ofNat_of_zero_le h
    simp only [Int.ofNat_eq_natCast, Int.toNat_natCast] at h' ⊢
    have hk : k ≤ l := by omega
    rw [hf.nonneg th ph k hk, Even.neg_one_pow (Nat.even_iff.mpr (by omega))]
    ring
  · omega
  · rw [hf.neg th ph _ (by omega) (by omega), one_mul]
    congr 1
    omega

/-! ### The rows of the points -/

theorem sumBonds_spec (sph : Sph) (p : Params) (b : Box ℝ) (points : List (Vec3 ℝ)) (ref : Vec3 ℝ)
    (bonds : List (Bond ℝ)) (h : ∀ nb ∈ bonds, nb.p < points.length) (acc : (ℕ → ℂ) × ℝ) :
    sumBonds sph p b points ref bonds acc = some
      (fun k => acc.1 k + (bonds.map fun nb => ((if p.weighted then nb.weight else 1 : ℝ) : ℂ) *
          ylm sph p.l (theta (b.wrap (points.getD nb.p ⟨0, 0, 0⟩ - ref)) nb.dist)
            (phi (b.wrap (points.getD nb.p ⟨0, 0, 0⟩ - ref))) k).sum,
        acc.2 + (bonds.map fun nb => (if p.weighted then nb.weight else 1 : ℝ)).sum) := by
  induction bonds generalizing acc with
  | nil => simp [sumBonds]
  | cons nb bonds ih =>
    have hp := h nb List.mem_cons_self
    rw [sumBonds, List.getElem?_eq_getElem hp, Option.bind_some]
    dsimp only
    rw [ih (fun nb hnb => h nb (List.mem_cons_of_mem _ hnb))]
    have hg : points.getD nb.p ⟨0, 0, 0⟩ = points[nb.p] := by
      rw [List.getD_eq_getElem?_getD, List.getElem?_eq_getElem hp]; rfl
    simp only [List.map_cons, List.sum_cons, hg, add_assoc]

/-- The row of a point. -/
noncomputable def rowOf (sph : Sph) (p : Params) (b : Box ℝ) (points : List (Vec3 ℝ))
    (bonds : List (Bond ℝ)) (i : ℕ) : Row :=
  let bs := bonds.filter (fun nb => nb.q = i)
  let w := (bs.map fun nb => (if p.weighted then nb.weight else 1 : ℝ)).sum
  if w = 0 then none
  else some fun k => (bs.map fun nb => ((if p.weighted then nb.weight else 1 : ℝ) : ℂ) *
    ylm sph p.l (theta (bondVector b points nb) nb.dist) (phi (bondVector b points nb)) k).sum / (w : ℂ)

theorem basePoint_spec (sph : Sph) (p : Params) (b : Box ℝ) (points : List (Vec3 ℝ))
    (bonds : List (Bond ℝ)) (i : ℕ) (hi : i < points.length)
    (h : ∀ nb ∈ bonds, nb.q < points.length → nb.p < points.length) :
    basePoint sph p b points i (bonds.filter (fun nb => nb.q = i)) =
      some (rowOf sph p b points bonds i) := by
  unfold basePoint rowOf
  have hg : points.getD i ⟨0, 0, 0⟩ = points[i] := by
    rw [List.getD_eq_getElem?_getD, List.getElem?_eq_getElem hi]; rfl
  rw [List.getElem?_eq_getElem hi, Option.bind_some, sumBonds_spec]
  · simp only [Option.map_some, zero_add]
    congr 1
    by_cases h0 : ((bonds.filter (fun nb => nb.q = i)).map fun nb =>
        (if p.weighted then nb.weight else 1 : ℝ)).sum = 0
    · rw [if_pos h0, if_pos h0]
    · rw [if_neg h0, if_neg h0]
      congr 1
      funext k
      congr 2
      refine List.map_congr_left fun nb hnb => ?_
      have hq : nb.q = i := of_decide_eq_true (List.mem_filter.mp hnb).2
      unfold bondVector
      rw [hq, hg]
  · intro nb hnb
    obtain ⟨h1, h2⟩ := List.mem_filter.mp hnb
    exact h nb h1 (by rw [of_decide_eq_true h2]; exact hi)

theorem rowOf_holds {sph : Sph} {p : Params} {Y : ℤ → Vec3 ℝ → ℂ} (hf : FsphOK sph p.l Y) (b : Box ℝ)
    (points : List (Vec3 ℝ)) (bonds : List (Bond ℝ)) (hd : TrueLengths b points bonds) (i : ℕ)
    (hi : i < points.length) :
    Holds Y p.l (rowOf sph p b points bonds i) (normalized (directions b points p.weighted bonds i)) := by
  unfold rowOf normalized
  have hw : ((directions b points p.weighted bonds i).map (·.1)).sum =
      ((bonds.filter (fun nb => nb.q = i)).map fun nb => (if p.weighted then nb.weight else 1 : ℝ)).sum := by
    unfold directions; rw [List.map_map]; rfl
  rw [hw]
  set w := ((bonds.filter (fun nb => nb.q = i)).map fun nb => (if p.weighted then nb.weight else 1 : ℝ)).sum
  dsimp only
  by_cases h0 : w = 0
  · rw [if_pos h0, if_pos h0]; trivial
  · rw [if_neg h0, if_neg h0]
    refine ⟨?_, fun m h1 h2 => ?_⟩
    · intro d hd
      obtain ⟨e, he, rfl⟩ := List.mem_map.mp hd
      obtain ⟨nb, -, rfl⟩ := List.mem_map.mp he
      exact unit_unit _
    · unfold coefficient directions
      beta_reduce
      rw [List.map_map, List.map_map, div_eq_mul_inv, ← List.sum_map_mul_right]
      congr 1
      refine List.map_congr_left fun nb hnb => ?_
      obtain ⟨h3, h4⟩ := List.mem_filter.mp hnb
      simp only [Function.comp_def]
      rw [hd nb h3 (by rw [of_decide_eq_true h4]; exact hi), ylm_eq hf _ _ m h1 h2, direction_eq]
      push_cast
      ring

/-! ### Means of rows -/

open Classical in
/-- The mean of rows. -/
noncomputable def meanRow (rs : List Row) : Row :=
  if none ∈ rs then none
  else some fun k => (rs.map fun r : Row => (r.getD fun _ => 0) k).sum / (rs.length : ℂ)

theorem coefficient_append (Y : ℤ → Vec3 ℝ → ℂ) (L L' : List (ℝ × Vec3 ℝ)) (m : ℤ) :
    coefficient Y (L ++ L') m = coefficient Y L m + coefficient Y L' m := by
  simp [coefficient]

theorem coefficient_div (Y : ℤ → Vec3 ℝ → ℂ) (L : List (ℝ × Vec3 ℝ)) (c : ℝ) (m : ℤ) :
    coefficient Y (L.map fun d => (d.1 / c, d.2)) m = coefficient Y L m / (c : ℂ) := by
  unfold coefficient
  rw [List.map_map, div_eq_mul_inv, ← List.sum_map_mul_right]
  congr 1
  refine List.map_congr_left fun d _ => ?_
  simp only [Function.comp_def]
  push_cast
  ring

theorem meanRow_holds {l : ℕ} {Y : ℤ → Vec3 ℝ → ℂ} {ι : Type*} (js : List ι) (r : ι → Row)
    (L : ι → Option (List (ℝ × Vec3 ℝ))) (h : ∀ j ∈ js, Holds Y l (r j) (L j)) :
    Holds Y l (meanRow (js.map r)) (mix (js.map L)) := by
  have hnone : none ∈ js.map r ↔ none ∈ js.map L := by
    simp only [List.mem_map]
    constructor
    · rintro ⟨j, hj, e⟩
      refine ⟨j, hj, ?_⟩
      have := h j hj
      rw [e] at this
      match L j, this with
      | none, _ => rfl
    · rintro ⟨j, hj, e⟩
      refine ⟨j, hj, ?_⟩
      have := h j hj
      rw [e] at this
      match r j, this with
      | none, _ => rfl
  unfold meanRow mix
  by_cases h0 : none ∈ js.map L
  · rw [if_pos h0, if_pos (hnone.mpr h0)]; trivial
  · rw [if_neg h0, if_neg (fun h' => h0 (hnone.mp h'))]
    have hsome : ∀ j ∈ js, ∃ x y, r j = some x ∧ L j = some y ∧ Units y ∧
        ∀ m : ℤ, -l ≤ m → m ≤ l → x (slot l m) = coefficient Y y m := by
      intro j hj
      have h1 := h j hj
      match hr : r j, hl : L j, h1 with
      | none, none, _ => exact absurd (List.mem_map.mpr ⟨j, hj, hl⟩) h0
      | some x, some y, ⟨h2, h3⟩ => exact ⟨x, y, rfl, rfl, h2, h3⟩
    rw [List.length_map, List.length_map]
    generalize (js.length) = n
    refine ⟨?_, fun m h1 h2 => ?_⟩
    · intro d hd
      obtain ⟨o, ho, hd⟩ := List.mem_flatMap.mp hd
      obtain ⟨j, hj, rfl⟩ := List.mem_map.mp ho
      obtain ⟨e, he, rfl⟩ := List.mem_map.mp hd
      obtain ⟨x, y, -, hy, hu, -⟩ := hsome j hj
      rw [hy] at he
      exact hu e he
    · clear h0 hnone h
      induction js with
      | nil => simp [coefficient]
      | cons j js ih =>
        obtain ⟨x, y, hx, hy, -, hxy⟩ := hsome j List.mem_cons_self
        have := ih fun j hj => hsome j (List.mem_cons_of_mem _ hj)
        simp only [List.map_cons, List.sum_cons, List.flatMap_cons, coefficient_append, hx, hy,
          Option.getD_some, add_div] at this ⊢
        rw [this, coefficient_div, hxy m h1 h2]
        push_cast
        rfl

open Classical in
theorem aveSum_spec (rows : List Row) (bonds : List (Bond ℝ)) (h : ∀ nb ∈ bonds, nb.p < rows.length)
    (acc : Row × ℕ) :
    aveSum rows bonds acc = some
      (if none ∈ bonds.map (fun nb => rows.getD nb.p none) then none
        else acc.1.map fun a k => a k +
          (bonds.map fun nb => ((rows.getD nb.p none).getD fun _ => 0) k).sum,
        acc.2 + bonds.length) := by
  induction bonds generalizing acc with
  | nil => obtain ⟨a, n⟩ := acc; cases a <;> simp [aveSum]
  | cons nb bonds ih =>
    have hp := h nb List.mem_cons_self
    rw [aveSum, List.getElem?_eq_getElem hp, Option.bind_some,
      ih (fun nb hnb => h nb (List.mem_cons_of_mem _ hnb))]
    have hg : rows.getD nb.p none = rows[nb.p] := by
      rw [List.getD_eq_getElem?_getD, List.getElem?_eq_getElem hp]; rfl
    simp only [List.map_cons, List.sum_cons, List.mem_cons, hg, List.length_cons]
    congr 1
    rw [Prod.mk.injEq]
    refine ⟨?_, by omega⟩
    cases hr : rows[nb.p] with
    | none => simp
    | some r =>
      have : (none : Row) ≠ some r := by simp
      simp only [this, false_or]
      split_ifs with h1
      · rfl
      · cases acc.1 with
        | none => rfl
        | some a =>
          simp only [Option.bind_some, Option.map_some, Option.getD_some, Option.some.injEq]
          funext k
          ring

open Classical in
theorem avePoint_spec (rows : List Row) (i : ℕ) (hi : i < rows.length) (bonds : List (Bond ℝ))
    (h : ∀ nb ∈ bonds, nb.p < rows.length) :
    avePoint rows i bonds = some (meanRow ((bonds.map (·.p) ++ [i]).map fun j => rows.getD j none)) := by
  unfold avePoint
  rw [aveSum_spec rows bonds h, Option.bind_some, List.getElem?_eq_getElem hi, Option.map_some]
  have hg : rows.getD i none = rows[i] := by
    rw [List.getD_eq_getElem?_getD, List.getElem?_eq_getElem hi]; rfl
  congr 1
  unfold meanRow
  rw [List.map_append, List.map_map]
  simp only [List.mem_append, List.map_cons, List.map_nil, List.mem_singleton, hg, Function.comp_def,
    Option.map_some, List.length_append, List.length_map, List.length_cons, List.length_nil, zero_add,
    List.map_append, List.sum_append, List.sum_cons, List.sum_nil, add_zero, List.map_map]
  cases hr : rows[i] with
  | none => simp
  | some r =>
    have : (none : Row) ≠ some r := by simp
    simp only [this, or_false]
    split_ifs with h1
    · rfl
    · simp only [Option.bind_some, Option.map_some, Option.getD_some, Option.some.injEq]
      funext k
      rw [Nat.add_comm]

/-! ### The reduced array -/

open Classical in
theorem cells_total (l n : ℕ) (rows : List Row) (hn : rows.length = n) (k : ℕ) (hk : k < 2 * l + 1) :
    cellTotal n (fun i => cells l n (rows.getD i none)) k =
      if none ∈ rows then ⊤
      else (((rows.map fun r : Row => (r.getD fun _ => 0) k).sum / (n : ℂ) : ℂ) : WithTop ℂ) := by
  have h1 : ∀ row : Row, (((cells l n row).filter (fun p => p.1 = k)).map (·.2)).sum =
      match row with | none => ⊤ | some r => ((r k / (n : ℂ) : ℂ) : WithTop ℂ) := by
    intro row
    unfold cells
    have h2 : ∀ (f : ℕ → WithTop ℂ) (L : List ℕ), L.Nodup → k ∈ L →
        (((L.map fun k' => (k', f k')).filter (fun p => decide (p.1 = k))).map (·.2)).sum = f k := by
      intro f L hnd hmem
      rw [List.filter_map, List.map_map]
      have : L.filter ((fun p : ℕ × WithTop ℂ => decide (p.1 = k)) ∘ fun k' => (k', f k')) = [k] := by
        have hc : ((fun p : ℕ × WithTop ℂ => decide (p.1 = k)) ∘ fun k' => (k', f k')) = fun a => a == k := by
          funext a; simp [beq_eq_decide]
        rw [hc, List.filter_beq, List.count_eq_one_of_mem hnd hmem]
        rfl
      rw [this]
      simp
    exact h2 (fun k => match row with | none => ⊤ | some r => ((r k / (n : ℂ) : ℂ) : WithTop ℂ)) _
      List.nodup_range (List.mem_range.mpr hk)
  unfold cellTotal
  rw [sum_flatMap_filter]
  have h3 : (List.range n).map (fun i => (((cells l n (rows.getD i none)).filter (fun p => p.1 = k)).map (·.2)).sum) =
      rows.map fun row => match row with | none => ⊤ | some r => ((r k / (n : ℂ) : ℂ) : WithTop ℂ) := by
    apply List.ext_getElem
    · simp [hn]
    · intro i h4 h5
      rw [List.getElem_map, List.getElem_map, h1, List.getElem_range]
      simp only [List.length_map] at h5
      rw [List.getD_eq_getElem?_getD, List.getElem?_eq_getElem h5]
      rfl
  rw [h3]
  clear h3 hn h1
  induction rows with
  | nil => simp
  | cons r rows ih =>
    simp only [List.map_cons, List.sum_cons, List.mem_cons, ih]
    cases r with
    | none => simp
    | some r =>
      have : (none : Row) ≠ some r := by simp
      simp only [this, false_or]
      split_ifs with h1
      · simp
      · rw [← WithTop.coe_add, Option.getD_some, add_div]

open Classical in
/-- The reduced array holds the mean of the rows. -/
theorem toRow_mean (l n : ℕ) (rows : List Row) (hn : rows.length = n) (a : MArray (WithTop ℂ))
    (ha : a.data = (List.range (2 * l + 1)).map (cellTotal n fun i => cells l n (rows.getD i none))) :
    (none ∈ rows → toRow a = none) ∧ (none ∉ rows → ∃ r, toRow a = some r ∧ ∀ k < 2 * l + 1,
      r k = (rows.map fun r : Row => (r.getD fun _ => 0) k).sum / (n : ℂ)) := by
  have hmem : ∀ x, x ∈ a.data ↔ ∃ k < 2 * l + 1, x = if none ∈ rows then ⊤
      else (((rows.map fun r : Row => (r.getD fun _ => 0) k).sum / (n : ℂ) : ℂ) : WithTop ℂ) := by
    intro x
    rw [ha, List.mem_map]
    constructor
    · rintro ⟨k, hk, rfl⟩
      rw [List.mem_range] at hk
      exact ⟨k, hk, cells_total l n rows hn k hk⟩
    · rintro ⟨k, hk, rfl⟩
      exact ⟨k, List.mem_range.mpr hk, cells_total l n rows hn k hk⟩
  constructor
  · intro h
    unfold toRow
    rw [if_pos]
    exact ⟨⊤, (hmem ⊤).mpr ⟨0, by omega, by rw [if_pos h]⟩, rfl⟩
  · intro h
    unfold toRow
    rw [if_neg]
    · refine ⟨_, rfl, fun k hk => ?_⟩
      rw [ha, List.getD_eq_getElem?_getD, List.getElem?_map, List.getElem?_range hk, Option.map_some,
        Option.getD_some, cells_total l n rows hn k hk, if_neg h]
      rfl
    · rintro ⟨x, hx, rfl⟩
      obtain ⟨k, -, e⟩ := (hmem _).mp hx
      rw [if_neg h] at e
      exact WithTop.coe_ne_top e.symm

theorem toRow_holds {l : ℕ} {Y : ℤ → Vec3 ℝ → ℂ} (n : ℕ) (rows : List Row) (hn : rows.length = n)
    (a : MArray (WithTop ℂ))
    (ha : a.data = (List.range (2 * l + 1)).map (cellTotal n fun i => cells l n (rows.getD i none)))
    (L : Option (List (ℝ × Vec3 ℝ))) (h : Holds Y l (meanRow rows) L) : Holds Y l (toRow a) L := by
  obtain ⟨h1, h2⟩ := toRow_mean l n rows hn a ha
  unfold meanRow at h
  by_cases h0 : none ∈ rows
  · rw [if_pos h0] at h
    rw [h1 h0]; exact h
  · rw [if_neg h0] at h
    obtain ⟨r, e, hr⟩ := h2 h0
    rw [e]
    match L, h with
    | some L, ⟨hu, h⟩ =>
      refine ⟨hu, fun m hm1 hm2 => ?_⟩
      rw [← h m hm1 hm2, hr _ (slot_lt l m hm1 hm2), hn]

end Freud.Steinhardt
