import Verif.Spec.PMFTArgs
import Verif.Props.Cells
import Mathlib.Analysis.SpecialFunctions.Trigonometric.Bounds
import Mathlib.Analysis.Real.Pi.Bounds

/-!
# Property C97: the arguments of the PMFT classes
-/

namespace Freud
open Spec PMFT

/-! ### Angles and quaternions -/

theorem rows4_entries (l : List (Quat ℝ)) : rows4 (quatEntries l) = l := by
  induction l with
  | nil => rfl
  | cons q l ih =>
    simp only [quatEntries, List.flatMap_cons, List.cons_append, List.nil_append, rows4]
    exact congrArg _ ih

theorem entries_rows4 (k : ℕ) (d : List ℝ) (h : d.length = 4 * k) :
    quatEntries (rows4 d) = d ∧ (rows4 d).length = k := by
  induction k generalizing d with
  | zero =>
    have e : d = [] := List.length_eq_zero_iff.mp (by simpa using h)
    subst e
    exact ⟨rfl, rfl⟩
  | succ k ih =>
    match d, h with
    | a :: b :: c :: e :: r, h =>
      obtain ⟨h1, h2⟩ := ih r (by simp at h; omega)
      simp only [rows4, quatEntries, List.flatMap_cons, List.cons_append, List.nil_append,
        List.length_cons, h2, and_true]
      exact congrArg _ (congrArg _ (congrArg _ (congrArg _ h1)))
    | [], h => simp at h
    | [_], h => simp at h; omega
    | [_, _], h => simp at h; omega
    | [_, _, _], h => simp at h; omega

theorem close_zero (a : ℝ) : close a 0 = true ↔ |a| ≤ 1 / 10 ^ 8 := by
  simp [close]

/-- What `to_axis_angle` gives. -/
theorem toAxisAngle_some {q : Quat ℝ} {r : Vec3 ℝ × ℝ} (h : toAxisAngle q = some r) :
    |q.s| ≤ 1 ∧ r.2 = 2 * Real.arccos q.s := by
  unfold toAxisAngle at h
  split at h
  · cases h
  split at h
  · cases h
  · rename_i h1
    cases h
    exact ⟨not_lt.mp h1, rfl⟩

theorem sin_arccos_z {q : Quat ℝ} (hq : AboutZ q) : Real.sin (Real.arccos q.s) = |q.v.z| := by
  obtain ⟨h, hx, hy⟩ := hq
  rw [Real.sin_arccos, ← Real.sqrt_sq_eq_abs]
  congr 1
  simp only [Quat.norm2, Vec3.dot, hx, hy] at h
  linear_combination -h

theorem abs_s_le {q : Quat ℝ} (hq : AboutZ q) : |q.s| ≤ 1 := by
  obtain ⟨h, hx, hy⟩ := hq
  simp only [Quat.norm2, Vec3.dot, hx, hy] at h
  rw [abs_le_one_iff_mul_self_le_one]
  nlinarith [mul_self_nonneg q.v.z]

/-- The axis and angle of a rotation about the z axis. -/
theorem toAxisAngle_z {q : Quat ℝ} (hq : AboutZ q) :
    ∃ a, toAxisAngle q = some (a, 2 * Real.arccos q.s) ∧ a.x = 0 ∧ a.y = 0 ∧
      a.z = if 0 < q.v.z then 1 else if q.v.z < 0 then -1 else 0 := by
  have hs := abs_s_le hq
  have hn : close (Real.sqrt (Quat.norm2 q)) 1 = true := by
    rw [hq.1]; simp [close]; norm_num
  unfold toAxisAngle
  rw [if_neg (by rw [hn]; simp), if_neg (not_lt.mpr hs)]
  refine ⟨_, rfl, ?_⟩
  have e : 2 * Real.arccos q.s / 2 = Real.arccos q.s := by ring
  have key := sin_arccos_z hq
  by_cases h0 : 2 * Real.arccos q.s ≠ 0
  · rw [if_pos h0]
    simp only [e, key, hq.2.1, hq.2.2, zero_div, true_and]
    rcases lt_trichotomy q.v.z 0 with hz | hz | hz
    · rw [if_neg (by simp [hz.ne]), abs_of_neg hz, if_neg (not_lt.mpr hz.le), if_pos hz, div_neg,
        div_self hz.ne]
    · simp [hz]
    · rw [if_neg (by simp [hz.ne']), abs_of_pos hz, if_pos hz, div_self hz.ne']
  · rw [if_neg h0]
    have h1 : Real.arccos q.s = 0 := by
      by_contra hc
      exact h0 (by simpa using hc)
    rw [h1, Real.sin_zero] at key
    have : q.v.z = 0 := abs_eq_zero.mp key.symm
    simp [this]

theorem rotatesBy_z {q : Quat ℝ} (hq : AboutZ q) (hz : 0 ≤ q.v.z) :
    RotatesBy q (2 * Real.arccos q.s) := by
  intro v
  have hs := abs_le.mp (abs_s_le hq)
  have h1 := sin_arccos_z hq
  rw [abs_of_nonneg hz] at h1
  have h2 := Real.cos_arccos hs.1 hs.2
  have hn := hq.1
  simp only [Quat.norm2, Vec3.dot, hq.2.1, hq.2.2] at hn
  rw [Real.cos_two_mul, Real.sin_two_mul, h1, h2]
  ext
  · simp only [Quat.rotate, Vec3.dot, Vec3.cross, Vec3.smul, Vec3.add_x, hq.2.1, hq.2.2]
    linear_combination (-v.x) * hn
  · simp only [Quat.rotate, Vec3.dot, Vec3.cross, Vec3.smul, Vec3.add_y, hq.2.1, hq.2.2]
    linear_combination (-v.y) * hn
  · simp only [Quat.rotate, Vec3.dot, Vec3.cross, Vec3.smul, Vec3.add_z, hq.2.1, hq.2.2]
    linear_combination (v.z) * hn

/-- What an accepted array is. -/
theorem quat_case {a : OriArray} {n k : ℕ} (hs : a.shape = [k, 4] ∨ (a.shape = [4] ∧ n ≠ 4 ∧ k = 1))
    (hd : a.data.length = 4 * k) :
    quatToZAngle a n = ((rows4 a.data).mapM toAxisAngle).bind fun aa =>
      if ((aa.map Prod.snd).all fun t => close t 0) ||
          (aa.all fun r => close r.1.x 0 && close r.1.y 0 && close r.1.z 1) then
        some ⟨[k], aa.map Prod.snd⟩
      else none := by
  unfold quatToZAngle
  rcases hs with hs | ⟨hs, hn, rfl⟩
  · rw [if_pos (by right; simp [hs])]
    simp [hs]
  · rw [if_pos (by left; simp [hs, hn])]
    simp [hs]

theorem mapM_length {α β : Type*} {f : α → Option β} {l : List α} {r : List β} (h : l.mapM f = some r) :
    List.Forall₂ (fun a b => f a = some b) l r := by
  induction l generalizing r with
  | nil => simp at h; subst h; exact .nil
  | cons a l ih =>
    rw [List.mapM_cons] at h
    cases ha : f a with
    | none => rw [ha] at h; simp at h
    | some b =>
      cases hl : l.mapM f with
      | none => rw [ha, hl] at h; simp at h
      | some r' =>
        rw [ha, hl] at h
        simp at h
        subst h
        exact .cons ha (ih hl)

theorem mapM_exists {α β : Type*} {f : α → Option β} {l : List α} (h : ∀ a ∈ l, ∃ b, f a = some b) :
    ∃ r, l.mapM f = some r := by
  induction l with
  | nil => exact ⟨[], by simp⟩
  | cons a l ih =>
    obtain ⟨b, hb⟩ := h a (by simp)
    obtain ⟨r, hr⟩ := ih fun x hx => h x (by simp [hx])
    exact ⟨b :: r, by rw [List.mapM_cons, hb, hr]; simp⟩

/-- `(N, 4)` arrays are read as quaternions. -/
theorem gen_quatArray (l : List (Quat ℝ)) :
    genAngleArray (quatArray l) l.length = (l.mapM toAxisAngle).bind fun aa =>
      if ((aa.map Prod.snd).all fun t => close t 0) ||
          (aa.all fun r => close r.1.x 0 && close r.1.y 0 && close r.1.z 1) then
        some (aa.map Prod.snd)
      else none := by
  have hlen : (quatEntries l).length = 4 * l.length := by
    simp [quatEntries, List.length_flatMap, mul_comm]
  have hsq : (squeeze (quatArray l)).shape = [l.length, 4] ∨
      ((squeeze (quatArray l)).shape = [4] ∧ l.length ≠ 4 ∧ l.length = 1) := by
    by_cases h : l.length = 1
    · right
      simp [squeeze, quatArray, h]
    · left
      simp [squeeze, quatArray, h]
  unfold genAngleArray
  rw [quat_case hsq (by simpa [squeeze, quatArray] using hlen)]
  have : (squeeze (quatArray l)).data = quatEntries l := rfl
  rw [this, rows4_entries]
  cases l.mapM toAxisAngle with
  | none => rfl
  | some aa =>
    simp only [Option.bind_some]
    split
    · simp [atleast1d]
    · rfl

/-- **C97**: angles are used as they are, for every number of particles. -/
theorem C97_angles (l : List ℝ) : genAngleArray ⟨[l.length], l⟩ l.length = some l := by
  unfold genAngleArray
  by_cases h : l.length = 1
  · simp [squeeze, h, quatToZAngle, atleast1d]
  · have e : quatToZAngle (squeeze ⟨[l.length], l⟩) l.length = some ⟨[l.length], l⟩ := by
      unfold quatToZAngle
      rw [if_neg (by simp [squeeze, h])]
      simp [squeeze, h]
    rw [e]
    simp [atleast1d]

theorem rotatesBy_neg {q : Quat ℝ} (hq : AboutZ q) (hz : q.v.z ≤ 0) :
    RotatesBy q (-(2 * Real.arccos q.s)) := by
  intro v
  have hs := abs_le.mp (abs_s_le hq)
  have h1 := sin_arccos_z hq
  rw [abs_of_nonpos hz] at h1
  have h2 := Real.cos_arccos hs.1 hs.2
  have hn := hq.1
  simp only [Quat.norm2, Vec3.dot, hq.2.1, hq.2.2] at hn
  rw [Real.cos_neg, Real.sin_neg, Real.cos_two_mul, Real.sin_two_mul, h1, h2]
  ext
  · simp only [Quat.rotate, Vec3.dot, Vec3.cross, Vec3.smul, Vec3.add_x, hq.2.1, hq.2.2]
    linear_combination (-v.x) * hn
  · simp only [Quat.rotate, Vec3.dot, Vec3.cross, Vec3.smul, Vec3.add_y, hq.2.1, hq.2.2]
    linear_combination (-v.y) * hn
  · simp only [Quat.rotate, Vec3.dot, Vec3.cross, Vec3.smul, Vec3.add_z, hq.2.1, hq.2.2]
    linear_combination (v.z) * hn

/-- The test of `_quat_to_z_angle` for one rotation about the z axis. -/
theorem close_axis {q : Quat ℝ} (hq : AboutZ q) {r : Vec3 ℝ × ℝ} (h : toAxisAngle q = some r) :
    ((close r.1.x 0 && close r.1.y 0 && close r.1.z 1) = true ↔ 0 < q.v.z) ∧
    (close r.2 0 = true ↔ 2 * Real.arccos q.s ≤ 1 / 10 ^ 8) := by
  obtain ⟨a, ha, hx, hy, hz⟩ := toAxisAngle_z hq
  rw [ha] at h
  cases h
  constructor
  · have h0 : close 0 0 = true := by rw [close_zero]; norm_num
    simp only [hx, hy, hz, h0, Bool.true_and]
    constructor
    · intro h
      by_contra hc
      rw [if_neg hc] at h
      split at h
      · simp only [close, decide_eq_true_eq] at h
        norm_num [abs_of_nonneg] at h
      · simp only [close, decide_eq_true_eq] at h
        norm_num at h
    · intro h
      rw [if_pos h]
      simp only [close, decide_eq_true_eq]
      norm_num
  · rw [close_zero, abs_of_nonneg (by have := Real.arccos_nonneg q.s; linarith)]

/-- **C97**: accepted quaternions of rotations about the z axis become the angles by which they
rotate; if no particle is rotated by more than `10⁻⁸`, the sense of rotation may be lost. -/
theorem C97_quaternions (l : List (Quat ℝ)) (hl : ∀ q ∈ l, AboutZ q) (out : List ℝ)
    (h : genAngleArray (quatArray l) l.length = some out) :
    List.Forall₂ (fun q t => RotatesBy q t ∨
      (RotatesBy q (-t) ∧ ∀ t' ∈ out, 0 ≤ t' ∧ t' ≤ 1 / 10 ^ 8)) l out := by
  rw [gen_quatArray] at h
  obtain ⟨aa, haa, h⟩ := Option.bind_eq_some_iff.mp h
  split at h
  · rename_i hc
    cases h
    have hf := mapM_length haa
    clear haa
    have hsmall : (((aa.map Prod.snd).all fun t => close t 0) = true →
        ∀ t' ∈ aa.map Prod.snd, 0 ≤ t' ∧ t' ≤ 1 / 10 ^ 8) := by
      intro h0 t' ht'
      rw [List.all_eq_true] at h0
      have h1 := h0 t' ht'
      rw [close_zero] at h1
      obtain ⟨r, hr, rfl⟩ := List.mem_map.mp ht'
      obtain ⟨i, hi, rfl⟩ := List.mem_iff_getElem.mp hr
      have e := hf.get (hf.length_eq ▸ hi) hi
      have e2 := (toAxisAngle_some e).2
      simp only [List.get_eq_getElem] at e2
      refine ⟨?_, le_of_abs_le h1⟩
      rw [e2]
      have := Real.arccos_nonneg (l[i]'(hf.length_eq ▸ hi)).s
      linarith
    rw [List.forall₂_map_right_iff]
    refine List.forall₂_iff_get.mpr ⟨hf.length_eq, fun i h1 h2 => ?_⟩
    have e := hf.get h1 h2
    have hq := hl _ (List.get_mem l ⟨i, h1⟩)
    have e2 := (toAxisAngle_some e).2
    rw [e2]
    rcases Bool.or_eq_true_iff.mp hc with h0 | h0
    · rcases le_total 0 (l.get ⟨i, h1⟩).v.z with hz | hz
      · exact Or.inl (rotatesBy_z hq hz)
      · exact Or.inr ⟨rotatesBy_neg hq hz, hsmall h0⟩
    · left
      rw [List.all_eq_true] at h0
      exact rotatesBy_z hq ((close_axis hq e).1.mp (h0 _ (List.get_mem aa ⟨i, h2⟩))).le
  · cases h

/-- **C97**, which quaternions of rotations about the z axis are accepted: those with a positive z
component for every particle, or rotations by at most `10⁻⁸` for every particle. -/
theorem C97_quaternions_accepted_iff (l : List (Quat ℝ)) (hl : ∀ q ∈ l, AboutZ q) :
    (∃ out, genAngleArray (quatArray l) l.length = some out) ↔
      (∀ q ∈ l, 0 < q.v.z) ∨ ∀ q ∈ l, 2 * Real.arccos q.s ≤ 1 / 10 ^ 8 := by
  rw [gen_quatArray]
  obtain ⟨aa, haa⟩ := mapM_exists (f := toAxisAngle) (l := l) fun q hq => by
    obtain ⟨a, ha, -⟩ := toAxisAngle_z (hl q hq)
    exact ⟨_, ha⟩
  have hf := mapM_length haa
  rw [haa, Option.bind_some]
  have h1 : (aa.all fun r => close r.1.x 0 && close r.1.y 0 && close r.1.z 1) = true ↔
      ∀ q ∈ l, 0 < q.v.z := by
    clear haa
    induction hf with
    | nil => simp
    | cons e _ ih =>
      rw [List.all_cons, Bool.and_eq_true_iff, (close_axis (hl _ (by simp)) e).1,
        ih fun q hq => hl q (by simp [hq])]
      simp
  have h2 : ((aa.map Prod.snd).all fun t => close t 0) = true ↔
      ∀ q ∈ l, 2 * Real.arccos q.s ≤ 1 / 10 ^ 8 := by
    clear haa h1
    induction hf with
    | nil => simp
    | cons e _ ih =>
      rw [List.map_cons, List.all_cons, Bool.and_eq_true_iff, (close_axis (hl _ (by simp)) e).2,
        ih fun q hq => hl q (by simp [hq])]
      simp
  rw [or_comm, ← h1, ← h2, ← Bool.or_eq_true_iff]
  constructor
  · rintro ⟨out, h⟩
    split at h
    · assumption
    · cases h
  · intro h
    exact ⟨_, if_pos h⟩

theorem aboutZ_of {s z : ℝ} (h : s * s + z * z = 1) : AboutZ ⟨s, ⟨0, 0, z⟩⟩ := by
  refine ⟨?_, rfl, rfl⟩
  simp only [Quat.norm2, Vec3.dot]
  linarith

theorem arccos_big {s : ℝ} (h : s ≤ 4 / 5) : ¬ (2 * Real.arccos s ≤ 1 / 10 ^ 8) := by
  intro hc
  have h1 : Real.cos (Real.arccos s) ≤ 4 / 5 ∨ s < -1 := by
    rcases le_or_gt (-1) s with h2 | h2
    · left; rw [Real.cos_arccos h2 (by linarith)]; exact h
    · exact Or.inr h2
  have hnn := Real.arccos_nonneg s
  have hle : Real.arccos s ≤ 1 / 10 := by norm_num at hc ⊢; linarith
  rcases h1 with h1 | h1
  · have := Real.one_sub_sq_div_two_le_cos (x := Real.arccos s)
    nlinarith
  · rw [Real.arccos_of_le_neg_one h1.le] at hle
    have := Real.pi_gt_three
    linarith

/-- **C97**, what goes wrong: quaternions of rotations about the z axis are refused, namely a particle
that is not rotated together with one that is, although each alone is accepted; and a quaternion with
negative z component, although the quaternion with opposite sign, which is the same rotation, is
accepted. -/
theorem C97_quaternions_counterexample :
    (∃ q r : Quat ℝ, AboutZ q ∧ AboutZ r ∧ genAngleArray (quatArray [q, r]) 2 = none ∧
      (genAngleArray (quatArray [q]) 1).isSome ∧ (genAngleArray (quatArray [r]) 1).isSome) ∧
    ∃ q r : Quat ℝ, AboutZ q ∧ AboutZ r ∧ (∀ v, Quat.rotate q v = Quat.rotate r v) ∧
      genAngleArray (quatArray [q]) 1 = none ∧ (genAngleArray (quatArray [r]) 1).isSome := by
  have a1 : AboutZ Quat.one := aboutZ_of (by norm_num)
  have a2 : AboutZ ⟨3 / 5, ⟨0, 0, 4 / 5⟩⟩ := aboutZ_of (by norm_num)
  have a3 : AboutZ ⟨3 / 5, ⟨0, 0, -(4 / 5)⟩⟩ := aboutZ_of (by norm_num)
  have a4 : AboutZ ⟨-(3 / 5), ⟨0, 0, 4 / 5⟩⟩ := aboutZ_of (by norm_num)
  have some_iff : ∀ l : List (Quat ℝ), (genAngleArray (quatArray l) l.length).isSome = true ↔
      ∃ out, genAngleArray (quatArray l) l.length = some out := fun l => Option.isSome_iff_exists
  have none_iff : ∀ l : List (Quat ℝ), genAngleArray (quatArray l) l.length = none ↔
      ¬ ∃ out, genAngleArray (quatArray l) l.length = some out := fun l => by
    rw [← Option.isSome_iff_exists]; simp
  refine ⟨⟨Quat.one, ⟨3 / 5, ⟨0, 0, 4 / 5⟩⟩, a1, a2, (none_iff [_, _]).mpr ?_, (some_iff [_]).mpr ?_,
    (some_iff [_]).mpr ?_⟩, ⟨3 / 5, ⟨0, 0, -(4 / 5)⟩⟩, ⟨-(3 / 5), ⟨0, 0, 4 / 5⟩⟩, a3, a4, ?_,
    (none_iff [_]).mpr ?_, (some_iff [_]).mpr ?_⟩
  · rw [C97_quaternions_accepted_iff _ (by simp [a1, a2])]
    rintro (h | h)
    · have := h Quat.one (by simp)
      simp [Quat.one] at this
    · exact arccos_big (by norm_num) (h ⟨3 / 5, ⟨0, 0, 4 / 5⟩⟩ (by simp))
  · rw [C97_quaternions_accepted_iff _ (by simp [a1])]
    right
    simp [Quat.one]
  · rw [C97_quaternions_accepted_iff _ (by simp [a2])]
    left
    simp
  · intro v
    ext <;> simp only [Quat.rotate, Vec3.dot, Vec3.cross, Vec3.smul, Vec3.add_x, Vec3.add_y, Vec3.add_z] <;>
      ring
  · rw [C97_quaternions_accepted_iff _ (by simp [a3])]
    rintro (h | h)
    · have := h _ (List.mem_singleton.mpr rfl)
      norm_num at this
    · exact arccos_big (by norm_num) (h _ (List.mem_singleton.mpr rfl))
  · rw [C97_quaternions_accepted_iff _ (by simp [a4])]
    left
    simp

/-- **C97**: an accepted array is not misread. Its entries are one angle per particle, used as it is,
or the entries of one quaternion per particle, all of them rotations about the z axis up to the
tolerance of the test, whose angles are used. -/
theorem C97_not_misread (a : OriArray) (ha : a.data.length = a.shape.prod) (n : ℕ) (out : List ℝ)
    (h : genAngleArray a n = some out) :
    (a.data.length = n ∧ out = a.data) ∨
    ∃ l : List (Quat ℝ), l.length = n ∧ a.data = quatEntries l ∧
      List.Forall₂ (fun q t => t = 2 * Real.arccos q.s) l out ∧
      ((∀ t ∈ out, t ≤ 1 / 10 ^ 8) ∨
        ∀ q ∈ l, |q.v.x| ≤ 1 / 10 ^ 8 ∧ |q.v.y| ≤ 1 / 10 ^ 8 ∧ 0 < q.v.z) := by
  have hprod : (squeeze a).shape.prod = a.shape.prod := by
    simp only [squeeze]
    induction a.shape with
    | nil => rfl
    | cons k r ih =>
      by_cases hk : k = 1
      · simpa [hk] using ih
      · simp only [ne_eq, decide_not] at ih
        simp [hk, ih]
  have hdata : (squeeze a).data = a.data := rfl
  unfold genAngleArray at h
  obtain ⟨c, hc, h⟩ := Option.bind_eq_some_iff.mp h
  dsimp only at h
  split at h
  · rename_i hsh
    cases h
    have hcase : ((squeeze a).shape.length = 1 ∧ (squeeze a).shape.getD 0 0 = 4 ∧ n ≠ 4) ∨
        ((squeeze a).shape.length = 2 ∧ (squeeze a).shape.getD 1 0 = 4) ∨
        ¬ (((squeeze a).shape.length = 1 ∧ (squeeze a).shape.getD 0 0 = 4 ∧ n ≠ 4) ∨
        ((squeeze a).shape.length = 2 ∧ (squeeze a).shape.getD 1 0 = 4)) := by tauto
    have hquat : ∀ k, ((squeeze a).shape = [k, 4] ∨ ((squeeze a).shape = [4] ∧ n ≠ 4 ∧ k = 1)) →
        a.data.length = 4 * k → ∃ l : List (Quat ℝ), l.length = n ∧ a.data = quatEntries l ∧
      List.Forall₂ (fun q t => t = 2 * Real.arccos q.s) l (atleast1d c).data ∧
      ((∀ t ∈ (atleast1d c).data, t ≤ 1 / 10 ^ 8) ∨
        ∀ q ∈ l, |q.v.x| ≤ 1 / 10 ^ 8 ∧ |q.v.y| ≤ 1 / 10 ^ 8 ∧ 0 < q.v.z) := by
      intro k hk hlen
      rw [quat_case hk hlen, hdata] at hc
      obtain ⟨aa, haa, hc⟩ := Option.bind_eq_some_iff.mp hc
      obtain ⟨e1, e2⟩ := entries_rows4 k a.data hlen
      have hf := mapM_length haa
      split at hc
      · rename_i htest
        cases hc
        have : k = n := by simpa [atleast1d] using hsh
        subst this
        have hd : (atleast1d ⟨[k], aa.map Prod.snd⟩).data = aa.map Prod.snd := by simp [atleast1d]
        rw [hd]
        refine ⟨rows4 a.data, e2, e1.symm, ?_, ?_⟩
        · rw [List.forall₂_map_right_iff]
          exact hf.imp fun q r hqr => (toAxisAngle_some hqr).2
        · rcases Bool.or_eq_true_iff.mp htest with h0 | h0
          · left
            intro t ht
            rw [List.all_eq_true] at h0
            exact le_of_abs_le ((close_zero t).mp (h0 t ht))
          · right
            intro q hq
            obtain ⟨i, hi, rfl⟩ := List.mem_iff_getElem.mp hq
            have hi' : i < aa.length := hf.length_eq ▸ hi
            have e := hf.get hi hi'
            simp only [List.get_eq_getElem] at e
            rw [List.all_eq_true] at h0
            have ht := h0 aa[i] (List.getElem_mem hi')
            revert e ht
            generalize (rows4 a.data)[i] = q
            generalize aa[i] = r
            intro e ht
            simp only [Bool.and_eq_true_iff, close_zero] at ht
            unfold toAxisAngle at e
            split at e
            · cases e
            split at e
            · cases e
            dsimp only at e
            split at e
            · rename_i hne
              set hh := if Real.sin (2 * Real.arccos q.s / 2) = 0 then (1 : ℝ)
                else Real.sin (2 * Real.arccos q.s / 2) with hhdef
              have hpos : 0 < hh := by
                rw [hhdef]
                split
                · norm_num
                · rename_i h0
                  refine lt_of_le_of_ne ?_ (Ne.symm h0)
                  rw [show 2 * Real.arccos q.s / 2 = Real.arccos q.s by ring]
                  exact Real.sin_nonneg_of_nonneg_of_le_pi (Real.arccos_nonneg _) (Real.arccos_le_pi _)
              have hle1 : hh ≤ 1 := by
                rw [hhdef]
                split
                · norm_num
                · exact Real.sin_le_one _
              cases e
              obtain ⟨⟨tx, ty⟩, tz⟩ := ht
              simp only [abs_div, abs_of_pos hpos, div_le_iff₀ hpos] at tx ty
              refine ⟨tx.trans ?_, ty.trans ?_, ?_⟩
              · nlinarith
              · nlinarith
              · simp only [close, decide_eq_true_eq] at tz
                have h1 := (abs_le.mp tz).1
                norm_num at h1
                have : 0 < q.v.z / hh := by linarith
                exact (div_pos_iff_of_pos_right hpos).mp this
            · cases e
              obtain ⟨-, tz⟩ := ht
              simp only [close, decide_eq_true_eq] at tz
              norm_num at tz
      · cases hc
    rcases hcase with ⟨h1, h2, h3⟩ | ⟨h1, h2⟩ | hno
    · right
      have e : (squeeze a).shape = [4] := by
        match hs : (squeeze a).shape, h1 with
        | [x], _ => rw [hs] at h2; simpa using h2
      exact hquat 1 (Or.inr ⟨e, h3, rfl⟩) (by rw [ha, ← hprod, e]; rfl)
    · right
      have e : ∃ k, (squeeze a).shape = [k, 4] := by
        match hs : (squeeze a).shape, h1 with
        | [x, y], _ => rw [hs] at h2; exact ⟨x, by simpa using h2⟩
      obtain ⟨k, e⟩ := e
      exact hquat k (Or.inl e) (by rw [ha, ← hprod, e]; simp [mul_comm])
    · left
      unfold quatToZAngle at hc
      rw [if_neg hno] at hc
      cases hc
      have hd : (atleast1d (squeeze a)).data = a.data := by
        unfold atleast1d; split <;> rfl
      refine ⟨?_, hd⟩
      rw [ha, ← hprod]
      unfold atleast1d at hsh
      split at hsh
      · rename_i h0
        rw [h0]
        simpa using hsh
      · rw [hsh]; simp
  · cases h

-- one particle, given as a `(1, 4)` array
example : ∃ t, genAngleArray ⟨[1, 4], [3 / 5, 0, 0, 4 / 5]⟩ 1 = some [t] ∧
    RotatesBy ⟨3 / 5, ⟨0, 0, 4 / 5⟩⟩ t := by
  have a2 : AboutZ ⟨3 / 5, ⟨0, 0, 4 / 5⟩⟩ := aboutZ_of (by norm_num)
  obtain ⟨out, h⟩ := (C97_quaternions_accepted_iff [⟨3 / 5, ⟨0, 0, 4 / 5⟩⟩] (by simp [a2])).mpr
    (Or.inl (by simp))
  have h' := C97_quaternions _ (by simp [a2]) out h
  obtain ⟨t, ht⟩ : ∃ t, out = [t] := List.length_eq_one_iff.mp h'.length_eq.symm
  subst ht
  refine ⟨t, h, ?_⟩
  cases h' with
  | cons h1 _ =>
    rcases h1 with h1 | ⟨-, h1⟩
    · exact h1
    · exfalso
      obtain ⟨aa, e1, e2⟩ := Option.bind_eq_some_iff.mp ((gen_quatArray _).symm.trans h)
      split at e2
      · cases hm : mapM_length e1 with
        | cons hb hn =>
          cases hn
          simp only [List.map_cons, List.map_nil, Option.some.injEq, List.cons.injEq, and_true] at e2
          have := (toAxisAngle_some hb).2
          rw [e2] at this
          exact arccos_big (by norm_num) (this ▸ (h1 t (by simp)).2)
      · cases e2

/-! ### The default range of the neighbors -/

theorem norm_lt_of_sq {v : Vec3 ℝ} {s : ℝ} (hs : 0 ≤ s) (h : Vec3.dot v v < s) :
    Vec3.norm v < Real.sqrt s := by
  rw [norm_lt_iff _ _ (Real.sqrt_nonneg _), Real.mul_self_sqrt hs]
  exact h

/-- A number in `[-m, m)` has a square at most `m²`, with equality only for `-m`. -/
theorem sq_le_of_range {x m : ℝ} (h1 : -m ≤ x) (h2 : x < m) :
    x * x ≤ m ^ 2 ∧ (x ≠ -m → x * x < m ^ 2) := by
  constructor
  · nlinarith
  · intro hne
    have : -m < x := lt_of_le_of_ne h1 (Ne.symm hne)
    nlinarith

theorem mem_allBonds {b : Box ℝ} {pts qpts : List (Vec3 ℝ)} (hs : PeriodicSystem b pts qpts)
    {rMax rMin : ℝ} (hmin : 0 ≤ rMin) (hhalf : BelowHalf b rMax) {excl : Bool} {src : Source}
    (h : IsSource b pts qpts rMax rMin excl src) (bd : Bond ℝ) :
    bd ∈ allBonds src ↔ IsQueryBond b pts qpts rMax rMin excl bd := by
  obtain ⟨-, all, hp, hall, -⟩ := source_perm hs hmin hhalf h
  rw [← hall, allBonds, hp.mem_iff]

/-- **C97**: without `neighbors`, `PMFTXY` (and `PMFTXYT`, which bins the same `x` and `y`) is given
every pair whose separation, seen from the query point, is in the range of the histogram, except one
exactly at the corner `(-x_max, -y_max)`, for every form of the system. -/
theorem C97_default_range_xy_partial (b : Box ℝ) (h2 : b.is2D = true) (pts qpts : List (Vec3 ℝ))
    (hs : PeriodicSystem b pts qpts) (xMax yMax : ℝ) (hhalf : BelowHalf b (rMaxXY xMax yMax))
    (excl : Bool) (src : Source) (hsrc : IsSource b pts qpts (rMaxXY xMax yMax) 0 excl src)
    (angles : ℕ → ℝ) (i j : ℕ) (q p v : Vec3 ℝ) (hq : qpts[i]? = some q) (hp : pts[j]? = some p)
    (hne : excl = true → j ≠ i) (hv : IsImage b (p - q) v) (x y : ℝ)
    (hxy : sampleXY realTrig angles ⟨i, j, Vec3.norm v, 1, v⟩ = [x, y])
    (hx : -xMax ≤ x ∧ x < xMax) (hy : -yMax ≤ y ∧ y < yMax) (hcorner : (x, y) ≠ (-xMax, -yMax)) :
    (⟨i, j, Vec3.norm v, 1, v⟩ : Bond ℝ) ∈ allBonds src := by
  rw [mem_allBonds hs le_rfl hhalf hsrc]
  have hvz : v.z = 0 := by
    obtain ⟨m, hm, rfl⟩ := hv
    have h1 := inCell_planar hs.inBox.valid (hs.query q (List.mem_of_getElem? hq)) h2
    have h3 := inCell_planar hs.inBox.valid (hs.inBox.inside p (List.mem_of_getElem? hp)) h2
    have h4 := hs.inBox.valid.Lz_2D h2
    simp [lattice, comb, a1, a2, a3, h1, h3, h4]
  simp only [sampleXY, Mat2.fromAngle, Mat2.mulVec, realTrig, List.cons.injEq, and_true, Real.cos_neg,
    Real.sin_neg, neg_neg] at hxy
  obtain ⟨rfl, rfl⟩ := hxy
  have hcs := Real.sin_sq_add_cos_sq (angles i)
  refine ⟨q, hq, rfl, rfl, rfl, hne, norm_nonneg' _, norm_lt_of_sq (by positivity) ?_, p, hp, hv⟩
  have hdot : Vec3.dot v v = (Real.cos (angles i) * v.x + Real.sin (angles i) * v.y) *
        (Real.cos (angles i) * v.x + Real.sin (angles i) * v.y) +
      (-Real.sin (angles i) * v.x + Real.cos (angles i) * v.y) *
        (-Real.sin (angles i) * v.x + Real.cos (angles i) * v.y) := by
    simp only [Vec3.dot, hvz]
    linear_combination (-(v.x * v.x) - v.y * v.y) * hcs
  obtain ⟨a1, a2⟩ := sq_le_of_range hx.1 hx.2
  obtain ⟨b1, b2⟩ := sq_le_of_range hy.1 hy.2
  rw [hdot]
  by_cases e : Real.cos (angles i) * v.x + Real.sin (angles i) * v.y = -xMax
  · have : -Real.sin (angles i) * v.x + Real.cos (angles i) * v.y ≠ -yMax := fun e' =>
      hcorner (by rw [e, e'])
    exact add_lt_add_of_le_of_lt a1 (b2 this)
  · exact add_lt_add_of_lt_of_le (a2 e) b1

/-- **C97**: the same for `PMFTXYZ`, with equivalent orientations. -/
theorem C97_default_range_xyz_partial (b : Box ℝ) (pts qpts : List (Vec3 ℝ))
    (hs : PeriodicSystem b pts qpts) (xMax yMax zMax : ℝ) (hhalf : BelowHalf b (rMaxXYZ xMax yMax zMax))
    (excl : Bool) (src : Source) (hsrc : IsSource b pts qpts (rMaxXYZ xMax yMax zMax) 0 excl src)
    (ori : ℕ → Quat ℝ) (hori : ∀ i, Quat.norm2 (ori i) = 1) (equiv : List (Quat ℝ))
    (hequiv : ∀ e ∈ equiv, Quat.norm2 e = 1) (i j : ℕ) (q p v : Vec3 ℝ) (hq : qpts[i]? = some q)
    (hp : pts[j]? = some p) (hne : excl = true → j ≠ i) (hv : IsImage b (p - q) v) (x y z : ℝ)
    (hxyz : [x, y, z] ∈ samplesXYZ ori equiv ⟨i, j, Vec3.norm v, 1, v⟩)
    (hx : -xMax ≤ x ∧ x < xMax) (hy : -yMax ≤ y ∧ y < yMax) (hz : -zMax ≤ z ∧ z < zMax)
    (hcorner : (x, y, z) ≠ (-xMax, -yMax, -zMax)) :
    (⟨i, j, Vec3.norm v, 1, v⟩ : Bond ℝ) ∈ allBonds src := by
  rw [mem_allBonds hs le_rfl hhalf hsrc]
  refine ⟨q, hq, rfl, rfl, rfl, hne, norm_nonneg' _, norm_lt_of_sq (by positivity) ?_, p, hp, hv⟩
  obtain ⟨e, he, hxyz⟩ := List.mem_map.mp hxyz
  simp only [List.cons.injEq, and_true] at hxyz
  obtain ⟨rfl, rfl, rfl⟩ := hxyz
  have hdot : Vec3.dot v v = Vec3.dot (Quat.rotate e (Quat.rotate (Quat.conj (ori i)) v))
      (Quat.rotate e (Quat.rotate (Quat.conj (ori i)) v)) := by
    rw [Quat.dot_rotate, Quat.dot_rotate, Quat.norm2_conj, hori, hequiv e he]; ring
  simp only [] at *
  rw [hdot, Vec3.dot]
  generalize Quat.rotate e (Quat.rotate (Quat.conj (ori i)) v) = w at *
  obtain ⟨a1, a2⟩ := sq_le_of_range hx.1 hx.2
  obtain ⟨b1, b2⟩ := sq_le_of_range hy.1 hy.2
  obtain ⟨c1, c2⟩ := sq_le_of_range hz.1 hz.2
  by_cases e1 : w.x = -xMax
  · by_cases e2 : w.y = -yMax
    · have : w.z ≠ -zMax := fun e3 => hcorner (by rw [e1, e2, e3])
      have := c2 this
      linarith
    · have := b2 e2
      linarith
  · have := a2 e1
    linarith

/-- **C97**: `PMFTR12` is given every pair at a distance in the range of its histogram. -/
theorem C97_default_range_r12 (b : Box ℝ) (pts qpts : List (Vec3 ℝ)) (hs : PeriodicSystem b pts qpts)
    (rMax : ℝ) (hhalf : BelowHalf b rMax) (excl : Bool) (src : Source)
    (hsrc : IsSource b pts qpts rMax 0 excl src) (i j : ℕ) (q p v : Vec3 ℝ) (hq : qpts[i]? = some q)
    (hp : pts[j]? = some p) (hne : excl = true → j ≠ i) (hv : IsImage b (p - q) v)
    (ori queryOri : ℕ → ℝ) (r t1 t2 : ℝ)
    (hr : sampleR12 realTrig ori queryOri ⟨i, j, Vec3.norm v, 1, v⟩ = [r, t1, t2]) (hlt : r < rMax) :
    (⟨i, j, Vec3.norm v, 1, v⟩ : Bond ℝ) ∈ allBonds src := by
  rw [mem_allBonds hs le_rfl hhalf hsrc]
  simp only [sampleR12, List.cons.injEq] at hr
  exact ⟨q, hq, rfl, rfl, rfl, hne, norm_nonneg' _, by rw [hr.1]; exact hlt, p, hp, hv⟩

/-! ### Witnesses, and what goes wrong -/

/-- Points along the diagonal of a cube. -/
noncomputable def diagonalPair : List (Vec3 ℝ) := [⟨0, 0, 0⟩, ⟨-1, -1, -1⟩]

theorem cube_system (pts qpts : List (Vec3 ℝ)) (h : ∀ p ∈ pts ++ qpts, |p.x| ≤ 5 ∧ |p.y| ≤ 5 ∧ |p.z| ≤ 5) :
    PeriodicSystem (Box.mk' 10 10 10 0 0 0 false) pts qpts :=
  ⟨⟨cube_valid, cube_positive, fun p hp => cube_inCell (h p (by simp [hp])).1 (h p (by simp [hp])).2.1
    (h p (by simp [hp])).2.2⟩, ⟨rfl, rfl, rfl⟩, fun p hp => cube_inCell (h p (by simp [hp])).1
      (h p (by simp [hp])).2.1 (h p (by simp [hp])).2.2⟩

theorem cube_query (pts qpts : List (Vec3 ℝ)) (hp : pts ≠ []) (hq : qpts ≠ [])
    (h : ∀ p ∈ pts ++ qpts, |p.x| ≤ 5 ∧ |p.y| ≤ 5 ∧ |p.z| ≤ 5) (r : ℝ) (h0 : 0 < r) (h5 : r < 5)
    (excl : Bool) : ∃ aq found, MadeFrom (.aabb aq) (Box.mk' 10 10 10 0 0 0 false) pts ∧
      System.Finds (.aabb aq) qpts r 0 excl found := by
  obtain ⟨aq, h1⟩ := cube_new pts hp
  obtain ⟨found, hf⟩ := (C85_accepted_iff (.aabb aq) _ _ _ h1 (cube_system pts qpts h) hq r 0 excl).mpr
    ⟨h0, h0, Or.inr (cube_half h5)⟩
  exact ⟨aq, found, h1, hf⟩

theorem diagonal_small : ∀ p ∈ diagonalPair ++ diagonalPair, |p.x| ≤ 5 ∧ |p.y| ≤ 5 ∧ |p.z| ≤ 5 := by
  simp [diagonalPair]

theorem rMaxXYZ_one : rMaxXYZ 1 1 1 = Real.sqrt 3 := by
  unfold rMaxXYZ; norm_num

theorem sqrt3_lt : Real.sqrt 3 < 5 := by
  rw [Real.sqrt_lt' (by norm_num)]; norm_num

/-- **C97**, what goes wrong: a pair exactly at the corner of the histogram's range belongs to its
first bin, but is not among the neighbors that `PMFTXYZ` uses by default. -/
theorem C97_default_range_counterexample :
    ∃ (b : Box ℝ) (pts : List (Vec3 ℝ)) (src : Source) (p q v : Vec3 ℝ), PeriodicSystem b pts pts ∧
      BelowHalf b (rMaxXYZ 1 1 1) ∧ IsSource b pts pts (rMaxXYZ 1 1 1) 0 true src ∧
      pts[0]? = some q ∧ pts[1]? = some p ∧ IsImage b (p - q) v ∧
      samplesXYZ (fun _ => Quat.one) [Quat.one] ⟨0, 1, Vec3.norm v, 1, v⟩ = [[-1, -1, -1]] ∧
      RegularAxis.bin (⟨10, -1, 1⟩ : RegularAxis ℝ) (-1) = 0 ∧
      (⟨0, 1, Vec3.norm v, 1, v⟩ : Bond ℝ) ∉ allBonds src := by
  obtain ⟨aq, found, h1, hf⟩ := cube_query diagonalPair diagonalPair (by simp [diagonalPair])
    (by simp [diagonalPair]) diagonal_small (rMaxXYZ 1 1 1) (by rw [rMaxXYZ_one]; positivity)
    (by rw [rMaxXYZ_one]; exact sqrt3_lt) true
  have hsys := cube_system _ _ diagonal_small
  have hhalf : BelowHalf (Box.mk' 10 10 10 0 0 0 false : Box ℝ) (rMaxXYZ 1 1 1) :=
    cube_half (by rw [rMaxXYZ_one]; exact sqrt3_lt)
  have hsrc : IsSource (Box.mk' 10 10 10 0 0 0 false) diagonalPair diagonalPair (rMaxXYZ 1 1 1) 0 true
      (.query found diagonalPair.length) := ⟨_, found, h1, hf, Or.inl rfl⟩
  refine ⟨_, diagonalPair, _, ⟨-1, -1, -1⟩, ⟨0, 0, 0⟩, ⟨-1, -1, -1⟩, hsys, hhalf, hsrc, rfl, rfl,
    ⟨⟨0, 0, 0⟩, ⟨by simp, by simp, by simp⟩, ?_⟩, ?_, ?_, ?_⟩
  · rw [cube_lattice]
    ext <;> simp
  · simp [samplesXYZ, Quat.conj, Quat.one, Quat.rotate, Vec3.dot, Vec3.cross, Vec3.smul]
  · simp [RegularAxis.bin, trunc]
  · rw [mem_allBonds hsys le_rfl hhalf hsrc]
    rintro ⟨q, -, -, -, -, -, -, hlt, -⟩
    rw [rMaxXYZ_one, norm_lt_iff _ _ (Real.sqrt_nonneg _), Real.mul_self_sqrt (by norm_num)] at hlt
    norm_num [Vec3.dot] at hlt

/-! ### `shiftvec` -/

/-- **C97**: with query arguments, the vectors that `PMFTXYZ` bins are the periodic images, within the
range of the query, of the separations moved by `shiftvec`. -/
theorem C97_shift_args (s : System) (b : Box ℝ) (pts qpts : List (Vec3 ℝ)) (shift : Vec3 ℝ)
    (hm : MadeFrom s b pts) (hs : PeriodicSystem b pts (qpts.map fun q => q - shift)) (rMax rMin : ℝ)
    (hmin : 0 ≤ rMin) (hhalf : BelowHalf b rMax) (excl : Bool) (src : Source)
    (h : ShiftedSource s qpts shift (.args rMax rMin excl) src) (i j : ℕ) (v : Vec3 ℝ) :
    (⟨i, j, Vec3.norm v, 1, v⟩ : Bond ℝ) ∈ allBonds src ↔
      (excl = true → j ≠ i) ∧ rMin ≤ Vec3.norm v ∧ Vec3.norm v < rMax ∧
      ∃ q p, qpts[i]? = some q ∧ pts[j]? = some p ∧ IsImage b (p - q + shift) v := by
  obtain ⟨found, hf, rfl⟩ := h
  have e : ∀ p q : Vec3 ℝ, p - (q - shift) = p - q + shift := fun p q => by
    ext <;> simp <;> ring
  rw [mem_allBonds hs hmin hhalf ⟨s, found, hm, hf, Or.inl rfl⟩]
  constructor
  · rintro ⟨q', hq', -, -, -, h1, h2, h3, p, hp, h4⟩
    simp only [List.getElem?_map, Option.map_eq_some_iff] at hq'
    obtain ⟨q, hq, rfl⟩ := hq'
    exact ⟨h1, h2, h3, q, p, hq, hp, by rwa [e] at h4⟩
  · rintro ⟨h1, h2, h3, q, p, hq, hp, h4⟩
    exact ⟨q - shift, by simp [hq], rfl, rfl, rfl, h1, h2, h3, p, hp, by rwa [e]⟩

/-- Two points of a cube. -/
noncomputable def rowPair : List (Vec3 ℝ) := [⟨0, 0, 0⟩, ⟨1, 0, 0⟩]

theorem row_small (s : ℝ) (hs : |s| ≤ 1) : ∀ p ∈ rowPair ++ rowPair.map (fun q => q - ⟨s, 0, 0⟩),
    |p.x| ≤ 5 ∧ |p.y| ≤ 5 ∧ |p.z| ≤ 5 := by
  have := abs_le.mp hs
  simp only [rowPair, List.map_cons, List.map_nil, List.cons_append, List.nil_append, List.mem_cons,
    List.not_mem_nil, or_false]
  rintro p (rfl | rfl | rfl | rfl) <;> simp [abs_le] <;> constructor <;> linarith

theorem binned_one (src : Source) :
    binned (fun _ => Quat.one) [Quat.one] src = (allBonds src).map fun b => [b.vec.x, b.vec.y, b.vec.z] := by
  have e : ∀ v : Vec3 ℝ, Quat.rotate (Quat.conj Quat.one) v = v := fun v => by
    ext <;> simp [Quat.conj, Quat.one, Quat.rotate, Vec3.dot, Vec3.cross, Vec3.smul]
  unfold binned allBonds
  rw [List.map_flatMap]
  refine List.flatMap_congr fun i _ => ?_
  rw [List.map_eq_flatMap]
  refine List.flatMap_congr fun b _ => ?_
  simp [samplesXYZ, e, Quat.rotate_one]

/-- **C97**, what goes wrong: `shiftvec` has no effect on a neighbor list, so that query arguments and
the list of the same neighbors give different results. -/
theorem C97_shift_list_counterexample :
    ∃ (b : Box ℝ) (pts : List (Vec3 ℝ)) (shift : Vec3 ℝ) (s : System) (nl : NList ℝ) (src src' : Source),
      PeriodicSystem b pts pts ∧ PeriodicSystem b pts (pts.map fun q => q - shift) ∧ MadeFrom s b pts ∧
      BelowHalf b 2 ∧ IsSource b pts pts 2 0 true (.list nl) ∧
      ShiftedSource s pts shift (.args 2 0 true) src ∧ ShiftedSource s pts shift (.list nl) src' ∧
      ¬ (binned (fun _ => Quat.one) [Quat.one] src).Perm (binned (fun _ => Quat.one) [Quat.one] src') := by
  have hsm := row_small (1 / 2) (by norm_num [abs_le])
  have hsm0 : ∀ p ∈ rowPair ++ rowPair, |p.x| ≤ 5 ∧ |p.y| ≤ 5 ∧ |p.z| ≤ 5 := fun p hp =>
    hsm p (by simp only [List.mem_append, or_self] at hp ⊢; exact Or.inl hp)
  obtain ⟨aq, found, h1, hf⟩ := cube_query rowPair (rowPair.map fun q => q - ⟨1 / 2, 0, 0⟩)
    (by simp [rowPair]) (by simp [rowPair]) hsm 2 (by norm_num) (by norm_num) true
  have hs0 := cube_system _ _ hsm0
  have hs1 := cube_system _ _ hsm
  obtain ⟨found0, hf0⟩ := (C85_accepted_iff (.aabb aq) _ _ _ h1 hs0 (by simp [rowPair]) 2 0 true).mpr
    ⟨by norm_num, by norm_num, Or.inr (cube_half (by norm_num))⟩
  obtain ⟨nl, hnl⟩ := C20_result_exists found0 2 2 false [(0, 0), (0, 1)]
  have hhalf : BelowHalf (Box.mk' 10 10 10 0 0 0 false : Box ℝ) 2 := cube_half (by norm_num)
  have hsrc : IsSource (Box.mk' 10 10 10 0 0 0 false) rowPair rowPair 2 0 true (.list nl) :=
    ⟨_, found0, h1, hf0, Or.inr ⟨false, [(0, 0), (0, 1)], nl, by
      simp [IsExecution, rowPair, List.range_succ], hnl, rfl⟩⟩
  refine ⟨_, rowPair, ⟨1 / 2, 0, 0⟩, .aabb aq, nl, _, _, hs0, hs1, h1, hhalf, hsrc, ⟨found, hf, rfl⟩, rfl, ?_⟩
  intro hperm
  rw [binned_one, binned_one] at hperm
  have hin : (⟨0, 1, Vec3.norm ⟨3 / 2, 0, 0⟩, 1, ⟨3 / 2, 0, 0⟩⟩ : Bond ℝ) ∈
      allBonds (.query found (rowPair.map fun q => q - ⟨1 / 2, 0, 0⟩).length) := by
    rw [C97_shift_args (.aabb aq) _ rowPair rowPair ⟨1 / 2, 0, 0⟩ h1 hs1 2 0 le_rfl hhalf true _
      ⟨found, hf, rfl⟩]
    refine ⟨by simp, norm_nonneg' _, ?_, ⟨0, 0, 0⟩, ⟨1, 0, 0⟩, rfl, rfl, ⟨0, 0, 0⟩,
      ⟨by simp, by simp, by simp⟩, ?_⟩
    · rw [norm_lt_iff _ _ (by norm_num)]; norm_num [Vec3.dot]
    · rw [cube_lattice]
      ext <;> simp <;> norm_num
  have hmem := (hperm.mem_iff (a := [3 / 2, 0, 0])).mp (List.mem_map.mpr ⟨_, hin, rfl⟩)
  obtain ⟨bd, hbd, e⟩ := List.mem_map.mp hmem
  simp only [List.cons.injEq, and_true] at e
  rw [mem_allBonds hs0 le_rfl hhalf hsrc] at hbd
  obtain ⟨q, hq, -, -, -, -, -, -, p, hp, m, -, him⟩ := hbd
  have hx := congrArg Vec3.x him
  rw [cube_lattice, e.1] at hx
  have hq' := List.mem_of_getElem? hq
  have hp' := List.mem_of_getElem? hp
  simp only [rowPair, List.mem_cons, List.not_mem_nil, or_false] at hq' hp'
  have key : ∀ d : ℤ, (3 / 2 : ℝ) ≠ (d : ℝ) + (m.x : ℝ) * 10 := by
    intro d h
    have : ((3 : ℤ) : ℝ) = ((2 * d + 20 * m.x : ℤ) : ℝ) := by push_cast; linarith
    have := Int.cast_injective this
    omega
  rcases hp' with rfl | rfl <;> rcases hq' with rfl | rfl
  · exact key 0 (by simpa using hx)
  · exact key (-1) (by simpa using hx)
  · exact key 1 (by simpa using hx)
  · exact key 0 (by simpa using hx)

/-- One point at `(x, 0, 0)` seen from the origin of a cube with `shiftvec = [1, 0, 0]`. -/
theorem one_neighbor (x : ℝ) (hx : |x| ≤ 1) : ∃ (s : System) (src : Source),
    PeriodicSystem (Box.mk' 10 10 10 0 0 0 false : Box ℝ) [⟨x, 0, 0⟩] ([⟨0, 0, 0⟩].map fun q => q - ⟨1, 0, 0⟩) ∧
    MadeFrom s (Box.mk' 10 10 10 0 0 0 false) [⟨x, 0, 0⟩] ∧
    ShiftedSource s [⟨0, 0, 0⟩] ⟨1, 0, 0⟩ (.args 3 0 false) src ∧
    (∃ bd ∈ allBonds src, bd.vec = ⟨x + 1, 0, 0⟩) ∧ ∀ bd ∈ allBonds src, bd.vec = ⟨x + 1, 0, 0⟩ := by
  have hx' := abs_le.mp hx
  have hsm : ∀ p ∈ ([⟨x, 0, 0⟩] : List (Vec3 ℝ)) ++ ([⟨0, 0, 0⟩] : List (Vec3 ℝ)).map (fun q => q - ⟨1, 0, 0⟩),
      |p.x| ≤ 5 ∧ |p.y| ≤ 5 ∧ |p.z| ≤ 5 := by
    simp only [List.map_cons, List.map_nil, List.cons_append, List.nil_append, List.mem_cons, List.not_mem_nil, or_false]
    rintro p (rfl | rfl)
    · simp [abs_le]; constructor <;> linarith
    · norm_num [abs_le]
  obtain ⟨aq, found, h1, hf⟩ := cube_query [⟨x, 0, 0⟩] (([⟨0, 0, 0⟩] : List (Vec3 ℝ)).map fun q => q - ⟨1, 0, 0⟩)
    (by simp) (by simp) hsm 3 (by norm_num) (by norm_num) false
  have hs := cube_system _ _ hsm
  have hhalf : BelowHalf (Box.mk' 10 10 10 0 0 0 false : Box ℝ) 3 := cube_half (by norm_num)
  have hsh : ShiftedSource (.aabb aq) [⟨0, 0, 0⟩] ⟨1, 0, 0⟩ (.args 3 0 false) (.query found
      (([⟨0, 0, 0⟩] : List (Vec3 ℝ)).map fun q => q - ⟨1, 0, 0⟩).length) := ⟨found, hf, rfl⟩
  refine ⟨.aabb aq, _, hs, h1, hsh, ⟨⟨0, 0, Vec3.norm ⟨x + 1, 0, 0⟩, 1, ⟨x + 1, 0, 0⟩⟩, ?_, rfl⟩, fun bd hbd => ?_⟩
  · rw [C97_shift_args (.aabb aq) _ _ _ ⟨1, 0, 0⟩ h1 hs 3 0 le_rfl hhalf false _ hsh]
    refine ⟨by simp, norm_nonneg' _, ?_, ⟨0, 0, 0⟩, ⟨x, 0, 0⟩, rfl, rfl, ⟨0, 0, 0⟩, ⟨by simp, by simp, by simp⟩, ?_⟩
    · rw [norm_lt_iff _ _ (by norm_num)]; simp only [Vec3.dot]; nlinarith
    · rw [cube_lattice]
      ext <;> simp
  · rw [mem_allBonds hs le_rfl hhalf ⟨.aabb aq, found, h1, hf, Or.inl rfl⟩] at hbd
    obtain ⟨q, hq, -, -, -, -, -, hlt, p, hp, m, -, him⟩ := hbd
    have hq' := List.mem_of_getElem? hq
    have hp' := List.mem_of_getElem? hp
    simp only [List.map_cons, List.map_nil, List.mem_cons, List.not_mem_nil, or_false] at hq' hp'
    subst hq' hp'
    rw [norm_lt_iff _ _ (by norm_num)] at hlt
    rw [cube_lattice] at him
    have ex := congrArg Vec3.x him
    have ey := congrArg Vec3.y him
    have ez := congrArg Vec3.z him
    simp at ex ey ez
    simp only [Vec3.dot] at hlt
    have small : ∀ (k : ℤ) (t d : ℝ), t = d + k * 10 → 0 ≤ d → d ≤ 2 → t * t < 9 → k = 0 := by
      intro k t d e h0 h2 h9
      have h3 : t < 3 := by nlinarith
      have h4 : -3 < t := by nlinarith
      have h5 : k < 1 := by
        by_contra h
        have : (1 : ℝ) ≤ k := by exact_mod_cast not_lt.mp h
        linarith
      have h6 : -1 < k := by
        by_contra h
        have : (k : ℝ) ≤ -1 := by exact_mod_cast not_lt.mp h
        linarith
      omega
    have kx := small m.x bd.vec.x (x + 1) (by linarith) (by linarith) (by linarith)
      (by nlinarith [mul_self_nonneg bd.vec.y, mul_self_nonneg bd.vec.z])
    have ky := small m.y bd.vec.y 0 (by linarith) le_rfl (by norm_num)
      (by nlinarith [mul_self_nonneg bd.vec.x, mul_self_nonneg bd.vec.z])
    have kz := small m.z bd.vec.z 0 (by linarith) le_rfl (by norm_num)
      (by nlinarith [mul_self_nonneg bd.vec.x, mul_self_nonneg bd.vec.y])
    rw [kx, Int.cast_zero, zero_mul, add_zero] at ex
    rw [ky, Int.cast_zero, zero_mul] at ey
    rw [kz, Int.cast_zero, zero_mul] at ez
    exact Vec3.ext ex ey ez

theorem binned_same {src : Source} {v : Vec3 ℝ} (h : (∃ bd ∈ allBonds src, bd.vec = v) ∧ ∀ bd ∈ allBonds src, bd.vec = v)
    (r : Quat ℝ) (w : Vec3 ℝ) (hw : Quat.rotate Quat.one (Quat.rotate (Quat.conj r) v) = w) (t : List ℝ) :
    t ∈ binned (fun _ => r) [Quat.one] src ↔ t = [w.x, w.y, w.z] := by
  have e : binned (fun _ => r) [Quat.one] src = (allBonds src).flatMap (samplesXYZ (fun _ => r) [Quat.one]) := by
    unfold binned allBonds
    rw [List.flatMap_assoc]
  rw [e, List.mem_flatMap]
  constructor
  · rintro ⟨bd, hbd, ht⟩
    simpa [samplesXYZ, h.2 bd hbd, hw] using ht
  · rintro rfl
    obtain ⟨bd, hbd, hv⟩ := h.1
    exact ⟨bd, hbd, by simp [samplesXYZ, hv, hw]⟩

/-- **C97**, what goes wrong: `shiftvec` is documented as the vector to the center of the PMFT, but the neighbor that is
at `shiftvec` from its query particle is not counted at the center of the histogram but at twice `shiftvec`. -/
theorem C97_shift_center_counterexample :
    ∃ (b : Box ℝ) (pts : List (Vec3 ℝ)) (shift : Vec3 ℝ) (s : System) (src : Source),
      pts = [shift] ∧ PeriodicSystem b pts ([⟨0, 0, 0⟩].map fun q => q - shift) ∧ MadeFrom s b pts ∧ BelowHalf b 3 ∧
      ShiftedSource s [⟨0, 0, 0⟩] shift (.args 3 0 false) src ∧
      [2 * shift.x, 2 * shift.y, 2 * shift.z] ∈ binned (fun _ => Quat.one) [Quat.one] src ∧
      [0, 0, 0] ∉ binned (fun _ => Quat.one) [Quat.one] src := by
  obtain ⟨s, src, h1, h2, h3, h4⟩ := one_neighbor 1 (by norm_num)
  have key := binned_same h4 Quat.one ⟨2, 0, 0⟩ (by
    ext <;> simp [Quat.conj, Quat.one, Quat.rotate, Vec3.dot, Vec3.cross, Vec3.smul] <;> norm_num)
  refine ⟨_, _, ⟨1, 0, 0⟩, s, src, rfl, h1, h2, cube_half (by norm_num), h3, (key _).mpr (by norm_num), fun h => ?_⟩
  have := (key _).mp h
  norm_num at this

/-- **C97**, what goes wrong: `shiftvec` is added in the frame of the box, not in that of the query particle. Turning
the query particle and its neighbor together by half a turn about the z axis, so that the particle sees the neighbor
where it saw it before, changes the PMFT. -/
theorem C97_shift_frame_counterexample :
    ∃ (b : Box ℝ) (p : Vec3 ℝ) (turn : Quat ℝ) (shift : Vec3 ℝ) (s s' : System) (src src' : Source),
      turn = ⟨0, ⟨0, 0, 1⟩⟩ ∧ MadeFrom s b [p] ∧ MadeFrom s' b [Quat.rotate turn p] ∧ BelowHalf b 3 ∧
      PeriodicSystem b [p] ([⟨0, 0, 0⟩].map fun q => q - shift) ∧
      PeriodicSystem b [Quat.rotate turn p] ([⟨0, 0, 0⟩].map fun q => q - shift) ∧
      ShiftedSource s [⟨0, 0, 0⟩] shift (.args 3 0 false) src ∧
      ShiftedSource s' [⟨0, 0, 0⟩] shift (.args 3 0 false) src' ∧
      ¬ (binned (fun _ => Quat.one) [Quat.one] src).Perm (binned (fun _ => turn) [Quat.one] src') := by
  obtain ⟨s, src, h1, h2, h3, h4⟩ := one_neighbor 1 (by norm_num)
  obtain ⟨s', src', h1', h2', h3', h4'⟩ := one_neighbor (-1) (by norm_num)
  have e : Quat.rotate (⟨0, ⟨0, 0, 1⟩⟩ : Quat ℝ) ⟨1, 0, 0⟩ = ⟨-1, 0, 0⟩ := by
    ext <;> simp [Quat.rotate, Vec3.dot, Vec3.cross, Vec3.smul]
  have key := binned_same h4 Quat.one ⟨2, 0, 0⟩ (by
    ext <;> simp [Quat.conj, Quat.one, Quat.rotate, Vec3.dot, Vec3.cross, Vec3.smul] <;> norm_num)
  have key' := binned_same h4' ⟨0, ⟨0, 0, 1⟩⟩ ⟨0, 0, 0⟩ (by
    ext <;> simp [Quat.conj, Quat.one, Quat.rotate, Vec3.dot, Vec3.cross, Vec3.smul])
  refine ⟨_, ⟨1, 0, 0⟩, _, ⟨1, 0, 0⟩, s, s', src, src', rfl, h2, by rw [e]; exact h2', cube_half (by norm_num), h1,
    by rw [e]; exact h1', h3, h3', fun h => ?_⟩
  have := (key' _).mp (h.mem_iff.mp ((key _).mpr rfl))
  norm_num at this

-- the hypotheses of `C97_default_range_xyz_partial` and `C97_default_range_r12` hold for a pair inside
-- the range
example : ∃ src, IsSource (Box.mk' 10 10 10 0 0 0 false) rowPair rowPair (rMaxXYZ 2 1 1) 0 true src ∧
    (⟨0, 1, Vec3.norm ⟨1, 0, 0⟩, 1, ⟨1, 0, 0⟩⟩ : Bond ℝ) ∈ allBonds src := by
  have hsm : ∀ p ∈ rowPair ++ rowPair, |p.x| ≤ 5 ∧ |p.y| ≤ 5 ∧ |p.z| ≤ 5 := by simp [rowPair]
  have hr : rMaxXYZ 2 1 1 < 5 := by
    unfold rMaxXYZ
    rw [Real.sqrt_lt' (by norm_num)]; norm_num
  obtain ⟨aq, found, h1, hf⟩ := cube_query rowPair rowPair (by simp [rowPair]) (by simp [rowPair]) hsm
    (rMaxXYZ 2 1 1) (by unfold rMaxXYZ; positivity) hr true
  have hsrc : IsSource (Box.mk' 10 10 10 0 0 0 false) rowPair rowPair (rMaxXYZ 2 1 1) 0 true
      (.query found rowPair.length) := ⟨_, found, h1, hf, Or.inl rfl⟩
  refine ⟨_, hsrc, C97_default_range_xyz_partial _ rowPair rowPair (cube_system _ _ hsm) 2 1 1
    (cube_half hr) true _ hsrc (fun _ => Quat.one) (fun _ => by simp [Quat.norm2, Quat.one, Vec3.dot])
    [Quat.one] (by simp [Quat.norm2, Quat.one, Vec3.dot]) 0 1 ⟨0, 0, 0⟩ ⟨1, 0, 0⟩ _ rfl rfl (by simp)
    ⟨⟨0, 0, 0⟩, ⟨by simp, by simp, by simp⟩, by rw [cube_lattice]; ext <;> simp⟩ 1 0 0 ?_ (by norm_num)
    (by norm_num) (by norm_num) (by norm_num)⟩
  simp [samplesXYZ, Quat.conj, Quat.one, Quat.rotate, Vec3.dot, Vec3.cross, Vec3.smul]

-- the hypotheses of `C97_default_range_xy_partial` hold for a pair next to opposite faces of a square
-- and particles turned by a right angle
example : ∃ src, IsSource (Box.mk' 10 10 0 0 0 0 true) facePair facePair (rMaxXY 1 1) 0 true src ∧
    (⟨1, 0, Vec3.norm ⟨1 / 5, 0, 0⟩, 1, ⟨1 / 5, 0, 0⟩⟩ : Bond ℝ) ∈ allBonds src := by
  have hr : rMaxXY 1 1 < 5 := by
    unfold rMaxXY
    rw [Real.sqrt_lt' (by norm_num)]; norm_num
  have hv : Valid (Box.mk' 10 10 0 0 0 0 true : Box ℝ) := by
    constructor <;> simp [Box.mk', Box.setL]
  have hpos : PositiveLengths (Box.mk' 10 10 0 0 0 0 true : Box ℝ) := by
    refine ⟨?_, ?_, ?_⟩ <;> simp [Box.mk', Box.setL]
  have hcell : ∀ a : ℝ, |a| ≤ 5 → InCell (Box.mk' 10 10 0 0 0 0 true : Box ℝ) ⟨a, 0, 0⟩ := by
    intro a ha
    rw [abs_le] at ha
    refine ⟨⟨a / 10 + 1 / 2, 1 / 2, 0⟩, ⟨?_, fun _ => rfl⟩, ⟨?_, ?_⟩, ⟨?_, ?_⟩, ⟨?_, ?_⟩⟩
    · ext <;> simp [comb, a1, a2, a3, Box.mk', Box.setL]
    all_goals simp only; linarith [ha.1, ha.2]
  have hhalf : BelowHalf (Box.mk' 10 10 0 0 0 0 true : Box ℝ) (rMaxXY 1 1) := by
    refine ⟨fun _ => ?_, fun _ => ?_, fun _ h => by cases h⟩ <;>
      simp [Box.mk', Box.setL, Box.getNearestPlaneDistance] <;> linarith
  have hs : PeriodicSystem (Box.mk' 10 10 0 0 0 0 true) facePair facePair := by
    have h : ∀ p ∈ facePair, InCell (Box.mk' 10 10 0 0 0 0 true : Box ℝ) p := by
      intro p hp
      simp only [facePair, List.mem_cons, List.not_mem_nil, or_false] at hp
      rcases hp with rfl | rfl <;> apply hcell <;> norm_num [abs_le]
    exact ⟨⟨hv, hpos, h⟩, ⟨rfl, rfl, rfl⟩, h⟩
  obtain ⟨src, ev, h⟩ := exists_frame hs (by simp [facePair]) (by simp [facePair]) le_rfl
    (show (0 : ℝ) < rMaxXY 1 1 by unfold rMaxXY; positivity) hhalf true (fun _ => ()) (fun _ => ())
  refine ⟨src, h.source, C97_default_range_xy_partial _ rfl facePair facePair hs 1 1 hhalf true src h.source
    (fun _ => Real.pi / 2) 1 0 ⟨49 / 10, 0, 0⟩ ⟨-49 / 10, 0, 0⟩ _ rfl rfl (by simp)
    ⟨⟨1, 0, 0⟩, ⟨by simp [Box.mk', Box.setL], by simp, by simp⟩, ?_⟩ 0 (-(1 / 5)) ?_ (by norm_num) (by norm_num)
    (by norm_num)⟩
  · ext <;> simp [lattice, comb, a1, a2, a3, Box.mk', Box.setL]
    norm_num
  · simp [sampleXY, Mat2.fromAngle, Mat2.mulVec, realTrig]

end Freud
