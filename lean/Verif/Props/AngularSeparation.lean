import Verif.Model.AngularSeparation
import Verif.Lemmas.BondLoop
import Verif.Lemmas.Quat
import Mathlib.Order.Bounds.Basic
import Mathlib.Tactic.Positivity
import Mathlib.Tactic.FieldSimp

/-!
# C46, C47: angular separation

Specification: the angle of the rotation between two orientations is `2 arccos` of the dot product of the
unit quaternions as four-component vectors; with symmetry it is the least such angle over the group.
-/

namespace Freud

/-- Specification: the rotation angle between two unit quaternions (between 0 and `2 pi`). -/
noncomputable def Spec.rotAngle (a b : Quat ℝ) : ℝ :=
  2 * Real.arccos (a.s * b.s + a.v.x * b.v.x + a.v.y * b.v.y + a.v.z * b.v.z)

/-- Specification: the quaternion with all signs changed; it is the same rotation. -/
def Spec.flip (a : Quat ℝ) : Quat ℝ := ⟨-a.s, -a.v⟩

/-- Specification: `G` lists the elements of a group of unit quaternions. -/
structure Spec.SymmetryGroup (G : List (Quat ℝ)) : Prop where
  unit : ∀ g ∈ G, Quat.norm2 g = 1
  one : Quat.one ∈ G
  mul : ∀ g ∈ G, ∀ h ∈ G, Quat.mul g h ∈ G
  inv : ∀ g ∈ G, Quat.conj g ∈ G

/-- Specification: `E` lists the orientations equivalent to the orientation `c` (with `c` the identity,
the group itself). -/
def Spec.Equivalents (G E : List (Quat ℝ)) (c : Quat ℝ) : Prop :=
  Quat.norm2 c = 1 ∧ ∀ e, e ∈ E ↔ ∃ g ∈ G, e = Quat.mul c g

open Spec Quat

namespace AngSep

theorem arccos_clamp (x : ℝ) : Real.arccos (max (-1) (min x 1)) = Real.arccos x := by
  rcases le_total x 1 with h1 | h1
  · rw [min_eq_left h1]
    rcases le_total (-1) x with h2 | h2
    · rw [max_eq_right h2]
    · rw [max_eq_left h2, Real.arccos_neg_one, Real.arccos_of_le_neg_one h2]
  · rw [min_eq_right h1, max_eq_right (by norm_num), Real.arccos_one, Real.arccos_of_one_le h1]

theorem sepAngle_eq (ref q : Quat ℝ) : sepAngle ref q = rotAngle ref q := by
  unfold sepAngle rotAngle
  rw [arccos_clamp]
  congr 2
  quat_simp
  ring

theorem foldMin_spec {α : Type*} (f : α → ℝ) (l : List α) (m0 : ℝ) :
    IsLeast ({m0} ∪ {a | ∃ x ∈ l, a = f x}) (l.foldl (fun m x => if f x < m then f x else m) m0) := by
  induction l generalizing m0 with
  | nil =>
    refine ⟨Or.inl rfl, ?_⟩
    rintro a (rfl | ⟨x, hx, -⟩)
    · exact le_rfl
    · cases hx
  | cons x l ih =>
    rw [List.foldl_cons]
    have h := ih (if f x < m0 then f x else m0)
    refine ⟨?_, ?_⟩
    · rcases h.1 with h1 | ⟨y, hy, h1⟩
      · rw [Set.mem_singleton_iff] at h1
        rw [h1]
        split_ifs
        · exact Or.inr ⟨x, List.mem_cons_self .., rfl⟩
        · exact Or.inl rfl
      · exact Or.inr ⟨y, List.mem_cons_of_mem _ hy, h1⟩
    · have hm := h.2 (Or.inl rfl : (if f x < m0 then f x else m0) ∈ _)
      rintro a (ha | ⟨y, hy, rfl⟩)
      · rw [Set.mem_singleton_iff] at ha
        subst ha
        refine hm.trans ?_
        split_ifs with hlt
        · exact hlt.le
        · exact le_rfl
      · rcases List.mem_cons.1 hy with rfl | hy
        · refine hm.trans ?_
          split_ifs with hlt
          · exact le_rfl
          · exact not_lt.1 hlt
        · exact h.2 (Or.inr ⟨y, hy, rfl⟩)

theorem cancel_right (a g : Quat ℝ) (h : norm2 g = 1) : mul (mul a g) (conj g) = a := by
  rw [mul_assoc', mul_conj_self g h, mul_one']

theorem cancel_left (a g : Quat ℝ) (h : norm2 g = 1) : mul (conj g) (mul g a) = a := by
  rw [← mul_assoc', conj_mul_self g h, one_mul']

/-- **C46**: the reported angle is the least rotation angle between the reference and the orientations
equivalent to `q` under the symmetry group. -/
theorem C46_min_angle (G E : List (Quat ℝ)) (hG : SymmetryGroup G) (c : Quat ℝ) (hE : Equivalents G E c)
    (ref q : Quat ℝ) :
    ∃ m, minSep ref q E = some m ∧ IsLeast {a | ∃ g ∈ G, a = rotAngle ref (mul q g)} m := by
  have hne : E ≠ [] := by
    have := (hE.2 (mul c one)).2 ⟨one, hG.one, rfl⟩
    exact List.ne_nil_of_mem this
  obtain ⟨e0, E', rfl⟩ := List.exists_cons_of_ne_nil hne
  obtain ⟨g0, hg0, he0⟩ := (hE.2 e0).1 (List.mem_cons_self ..)
  refine ⟨_, rfl, ?_⟩
  have h := foldMin_spec (fun qe => sepAngle ref (mul (mul q (conj e0)) qe)) (e0 :: E') (sepAngle ref q)
  have hset : ({sepAngle ref q} ∪ {a | ∃ x ∈ e0 :: E', a = sepAngle ref (mul (mul q (conj e0)) x)} : Set ℝ) =
      {a | ∃ g ∈ G, a = rotAngle ref (mul q g)} := by
    ext a
    constructor
    · rintro (ha | ⟨x, hx, rfl⟩)
      · rw [Set.mem_singleton_iff] at ha
        exact ⟨one, hG.one, by rw [ha, mul_one', sepAngle_eq]⟩
      · obtain ⟨g, hg, rfl⟩ := (hE.2 x).1 hx
        refine ⟨mul (conj g0) g, hG.mul _ (hG.inv _ hg0) _ hg, ?_⟩
        rw [sepAngle_eq, he0, Quat.conj_mul]
        congr 1
        rw [mul_assoc', mul_assoc' (conj g0), ← mul_assoc' (conj c), conj_mul_self c hE.1, one_mul']
    · rintro ⟨g, hg, rfl⟩
      refine Or.inr ⟨mul c (mul g0 g), (hE.2 _).2 ⟨_, hG.mul _ hg0 _ hg, rfl⟩, ?_⟩
      rw [sepAngle_eq, he0, Quat.conj_mul]
      congr 1
      rw [mul_assoc', mul_assoc' (conj g0), ← mul_assoc' (conj c), conj_mul_self c hE.1, one_mul',
        cancel_left _ _ (hG.unit _ hg0)]
  rw [hset] at h
  exact h

theorem rotAngle_right (a b g : Quat ℝ) (h : norm2 g = 1) :
    rotAngle (mul a g) (mul b g) = rotAngle a b := by
  unfold rotAngle
  congr 2
  simp only [norm2, Vec3.dot] at h
  quat_simp
  linear_combination (a.s * b.s + a.v.x * b.v.x + a.v.y * b.v.y + a.v.z * b.v.z) * h

theorem rotAngle_left (a b g : Quat ℝ) (h : norm2 g = 1) :
    rotAngle (mul g a) (mul g b) = rotAngle a b := by
  unfold rotAngle
  congr 2
  simp only [norm2, Vec3.dot] at h
  quat_simp
  linear_combination (a.s * b.s + a.v.x * b.v.x + a.v.y * b.v.y + a.v.z * b.v.z) * h

theorem rotAngle_comm (a b : Quat ℝ) : rotAngle a b = rotAngle b a := by
  unfold rotAngle
  congr 2
  ring

/-- Two calls whose sets of angles agree give the same answer. -/
theorem minSep_congr (G E : List (Quat ℝ)) (hG : SymmetryGroup G) (c : Quat ℝ) (hE : Equivalents G E c)
    (ref q ref' q' : Quat ℝ)
    (h1 : ∀ g ∈ G, ∃ g' ∈ G, rotAngle ref (mul q g) = rotAngle ref' (mul q' g'))
    (h2 : ∀ g ∈ G, ∃ g' ∈ G, rotAngle ref' (mul q' g) = rotAngle ref (mul q g')) :
    minSep ref q E = minSep ref' q' E := by
  obtain ⟨m, e, hm⟩ := C46_min_angle G E hG c hE ref q
  obtain ⟨m', e', hm'⟩ := C46_min_angle G E hG c hE ref' q'
  rw [e, e']
  congr 1
  apply le_antisymm
  · obtain ⟨g, hg, h⟩ := hm'.1
    obtain ⟨g', hg', h'⟩ := h2 g hg
    exact hm.2 ⟨g', hg', h.trans h'⟩
  · obtain ⟨g, hg, h⟩ := hm.1
    obtain ⟨g', hg', h'⟩ := h1 g hg
    exact hm'.2 ⟨g', hg', h.trans h'⟩

/-- **C46**: replacing either orientation by an equivalent one does not change the angle; nor does
exchanging the two, nor rotating both by the same rotation. -/
theorem C46_invariance (G E : List (Quat ℝ)) (hG : SymmetryGroup G) (c : Quat ℝ) (hE : Equivalents G E c)
    (ref q : Quat ℝ) :
    (∀ h ∈ G, minSep ref (mul q h) E = minSep ref q E) ∧
    (∀ h ∈ G, minSep (mul ref h) q E = minSep ref q E) ∧
    minSep q ref E = minSep ref q E ∧
    (∀ p, norm2 p = 1 → minSep (mul p ref) (mul p q) E = minSep ref q E) := by
  refine ⟨fun h hh => ?_, fun h hh => ?_, ?_, fun p hp => ?_⟩
  · refine minSep_congr G E hG c hE _ _ _ _ (fun g hg => ⟨mul h g, hG.mul _ hh _ hg, ?_⟩)
      (fun g hg => ⟨mul (conj h) g, hG.mul _ (hG.inv _ hh) _ hg, ?_⟩)
    · rw [mul_assoc']
    · rw [mul_assoc', ← mul_assoc' h, mul_conj_self h (hG.unit _ hh), one_mul']
  · refine minSep_congr G E hG c hE _ _ _ _ (fun g hg => ⟨mul g (conj h), hG.mul _ hg _ (hG.inv _ hh), ?_⟩)
      (fun g hg => ⟨mul g h, hG.mul _ hg _ hh, ?_⟩)
    · have hu : norm2 (conj h) = 1 := by rw [norm2_conj]; exact hG.unit _ hh
      rw [← rotAngle_right (mul ref h) (mul q g) (conj h) hu, cancel_right _ _ (hG.unit _ hh), mul_assoc']
    · rw [← rotAngle_right ref (mul q g) h (hG.unit _ hh), mul_assoc']
  · have key : ∀ a b : Quat ℝ, ∀ g ∈ G, ∃ g' ∈ G, rotAngle a (mul b g) = rotAngle b (mul a g') := by
      intro a b g hg
      have hu : norm2 (conj g) = 1 := by rw [norm2_conj]; exact hG.unit _ hg
      refine ⟨conj g, hG.inv _ hg, ?_⟩
      rw [← rotAngle_right a (mul b g) (conj g) hu, cancel_right _ _ (hG.unit _ hg), rotAngle_comm]
    exact minSep_congr G E hG c hE _ _ _ _ (key q ref) (key ref q)
  · refine minSep_congr G E hG c hE _ _ _ _ (fun g hg => ⟨g, hg, ?_⟩) (fun g hg => ⟨g, hg, ?_⟩)
    · rw [mul_assoc', rotAngle_left _ _ _ hp]
    · rw [mul_assoc', rotAngle_left _ _ _ hp]

/-- **C46**: the angle is between 0 and `2 pi`, and between 0 and `pi` if the group contains `-g`
with every `g`. -/
theorem C46_range (G E : List (Quat ℝ)) (hG : SymmetryGroup G) (c : Quat ℝ) (hE : Equivalents G E c)
    (ref q : Quat ℝ) (m : ℝ) (h : minSep ref q E = some m) :
    0 ≤ m ∧ m ≤ 2 * Real.pi ∧ ((∀ g ∈ G, flip g ∈ G) → m ≤ Real.pi) := by
  obtain ⟨m', e, hm⟩ := C46_min_angle G E hG c hE ref q
  rw [h] at e
  cases e
  obtain ⟨g, hg, hmg⟩ := hm.1
  refine ⟨?_, ?_, fun hflip => ?_⟩
  · rw [hmg]; unfold rotAngle
    have := Real.arccos_nonneg (ref.s * (mul q g).s + ref.v.x * (mul q g).v.x + ref.v.y * (mul q g).v.y +
      ref.v.z * (mul q g).v.z)
    linarith
  · rw [hmg]; unfold rotAngle
    have := Real.arccos_le_pi (ref.s * (mul q g).s + ref.v.x * (mul q g).v.x + ref.v.y * (mul q g).v.y +
      ref.v.z * (mul q g).v.z)
    linarith
  · have h1 := hm.2 ⟨g, hg, rfl⟩
    have h2 := hm.2 ⟨flip g, hflip g hg, rfl⟩
    unfold rotAngle at h1 h2
    have e : ref.s * (mul q (flip g)).s + ref.v.x * (mul q (flip g)).v.x + ref.v.y * (mul q (flip g)).v.y +
        ref.v.z * (mul q (flip g)).v.z = -(ref.s * (mul q g).s + ref.v.x * (mul q g).v.x +
          ref.v.y * (mul q g).v.y + ref.v.z * (mul q g).v.z) := by
      simp only [Spec.flip]
      quat_simp
      ring
    rw [e, Real.arccos_neg] at h2
    linarith

/-- **C46**: for unit quaternions the angle is zero exactly for equivalent orientations. -/
theorem C46_zero_iff (G E : List (Quat ℝ)) (hG : SymmetryGroup G) (c : Quat ℝ) (hE : Equivalents G E c)
    (ref q : Quat ℝ) (hr : norm2 ref = 1) (hq : norm2 q = 1) :
    minSep ref q E = some 0 ↔ ∃ g ∈ G, ref = mul q g := by
  have key : ∀ p : Quat ℝ, norm2 p = 1 → (rotAngle ref p = 0 ↔ ref = p) := by
    intro p hp
    have hr' : ref.s * ref.s + (ref.v.x * ref.v.x + ref.v.y * ref.v.y + ref.v.z * ref.v.z) = 1 := hr
    have hp' : p.s * p.s + (p.v.x * p.v.x + p.v.y * p.v.y + p.v.z * p.v.z) = 1 := hp
    unfold rotAngle
    constructor
    · intro h
      have h0 : Real.arccos (ref.s * p.s + ref.v.x * p.v.x + ref.v.y * p.v.y + ref.v.z * p.v.z) = 0 := by
        linarith
      have h1 := Real.arccos_eq_zero.1 h0
      have h2 : (ref.s - p.s) ^ 2 + (ref.v.x - p.v.x) ^ 2 + (ref.v.y - p.v.y) ^ 2 +
          (ref.v.z - p.v.z) ^ 2 ≤ 0 := by nlinarith
      have a1 := sq_nonneg (ref.s - p.s)
      have a2 := sq_nonneg (ref.v.x - p.v.x)
      have a3 := sq_nonneg (ref.v.y - p.v.y)
      have a4 := sq_nonneg (ref.v.z - p.v.z)
      have z : ∀ x : ℝ, x ^ 2 ≤ 0 → x = 0 := fun x hx => pow_eq_zero_iff (two_ne_zero) |>.1
        (le_antisymm hx (sq_nonneg x))
      have b1 := z _ (by linarith : (ref.s - p.s) ^ 2 ≤ 0)
      have b2 := z _ (by linarith : (ref.v.x - p.v.x) ^ 2 ≤ 0)
      have b3 := z _ (by linarith : (ref.v.y - p.v.y) ^ 2 ≤ 0)
      have b4 := z _ (by linarith : (ref.v.z - p.v.z) ^ 2 ≤ 0)
      ext
      · linarith
      · linarith
      · linarith
      · linarith
    · rintro rfl
      have : ref.s * ref.s + ref.v.x * ref.v.x + ref.v.y * ref.v.y + ref.v.z * ref.v.z = 1 := by linarith
      rw [this, Real.arccos_one, mul_zero]
  obtain ⟨m, e, hm⟩ := C46_min_angle G E hG c hE ref q
  have hu : ∀ g ∈ G, norm2 (mul q g) = 1 := fun g hg => by rw [norm2_mul, hq, hG.unit g hg, mul_one]
  rw [e]
  constructor
  · intro h
    injection h with h
    obtain ⟨g, hg, hmg⟩ := hm.1
    exact ⟨g, hg, (key _ (hu g hg)).1 (by rw [← hmg, h])⟩
  · rintro ⟨g, hg, h⟩
    have h1 := hm.2 ⟨g, hg, ((key _ (hu g hg)).2 h).symm⟩
    have h2 := (C46_range G E hG c hE ref q m e).1
    rw [le_antisymm h1 h2]

/-- A two-fold axis, with both signs: `1, -1, k, -k`. -/
def exGroup : List (Quat ℝ) :=
  [⟨1, ⟨0, 0, 0⟩⟩, ⟨-1, ⟨0, 0, 0⟩⟩, ⟨0, ⟨0, 0, 1⟩⟩, ⟨0, ⟨0, 0, -1⟩⟩]

theorem exGroup_ok : SymmetryGroup exGroup ∧ (∀ g ∈ exGroup, flip g ∈ exGroup) ∧
    Equivalents exGroup exGroup one := by
  have neg : ∀ v : Vec3 ℝ, -v = ⟨-v.x, -v.y, -v.z⟩ := fun v => by ext <;> rfl
  have hm : ∀ x : Quat ℝ, x ∈ exGroup ↔ (x = ⟨1, ⟨0, 0, 0⟩⟩ ∨ x = ⟨-1, ⟨0, 0, 0⟩⟩ ∨ x = ⟨0, ⟨0, 0, 1⟩⟩ ∨
      x = ⟨0, ⟨0, 0, -1⟩⟩) := by
    intro x; simp [exGroup]
  refine ⟨⟨?_, ?_, ?_, ?_⟩, ?_, ?_⟩
  · intro g hg
    rcases (hm g).1 hg with rfl | rfl | rfl | rfl <;> norm_num [norm2, Vec3.dot]
  · exact (hm _).2 (Or.inl rfl)
  · intro g hg h hh
    rw [hm]
    rcases (hm g).1 hg with rfl | rfl | rfl | rfl <;> rcases (hm h).1 hh with rfl | rfl | rfl | rfl <;>
      simp [Quat.ext_iff, Vec3.ext_iff, Quat.mul, Vec3.dot, Vec3.cross, Vec3.smul]
  · intro g hg
    rw [hm]
    rcases (hm g).1 hg with rfl | rfl | rfl | rfl <;> simp [Quat.ext_iff, Vec3.ext_iff, conj]
  · intro g hg
    rw [hm]
    rcases (hm g).1 hg with rfl | rfl | rfl | rfl <;> simp [Quat.ext_iff, Vec3.ext_iff, Spec.flip]
  · refine ⟨by norm_num [one, norm2, Vec3.dot], fun e => ?_⟩
    constructor
    · intro he; exact ⟨e, he, (one_mul' e).symm⟩
    · rintro ⟨g, hg, rfl⟩; rwa [one_mul']

-- an orientation turned by the two-fold axis is at angle zero
example : minSep one ⟨0, ⟨0, 0, 1⟩⟩ exGroup = some 0 := by
  refine (C46_zero_iff exGroup exGroup exGroup_ok.1 one exGroup_ok.2.2 _ _ ?_ ?_).2
    ⟨⟨0, ⟨0, 0, -1⟩⟩, by simp [exGroup], ?_⟩
  · norm_num [one, norm2, Vec3.dot]
  · norm_num [norm2, Vec3.dot]
  · simp [Quat.ext_iff, Vec3.ext_iff, one, Quat.mul, Vec3.dot, Vec3.cross, Vec3.smul]

/-- **C46**, counterexample: the default `equiv_orientations=((1, 0, 0, 0),)` does not contain `-q` with
every `q`; the reported angle of an orientation with itself, given by the quaternion of opposite sign, is
`2 pi`. -/
theorem C46_default_counterexample : minSep one (flip one) [one] = some (2 * Real.pi) := by
  have h : ∀ r : Quat ℝ, sepAngle one r = 2 * Real.arccos r.s := by
    intro r
    rw [sepAngle_eq]
    unfold rotAngle
    simp [one]
  simp only [minSep, List.head?_cons, Option.map_some, List.foldl_cons, List.foldl_nil, h]
  have e1 : (flip one : Quat ℝ).s = -1 := rfl
  have e2 : (mul (mul (flip one) (conj one)) one : Quat ℝ).s = -1 := by
    simp [Spec.flip, one, Quat.mul, conj, Vec3.dot, Vec3.cross, Vec3.smul]
  rw [e1, e2, if_neg (lt_irrefl _), Real.arccos_neg_one]

/-! ### C47 -/

/-- **C47** (what is computed, for every system and every schedule).  If every read is inside its array,
the entry of a bond from query point `q` to point `p` is the angle between `orientations[q]` and
`query_orientations[p]` when `q` is below the number of points, and 0 otherwise. -/
theorem C47_what_is_computed (nPoints : ℕ) (ori qori G E : List (Quat ℝ)) (hG : SymmetryGroup G)
    (c : Quat ℝ) (hE : Equivalents G E c) (n : NList ℝ) (hn : GoodList n) (split : ℕ → List (ℕ × ℕ))
    (hbl : Splits split) (ho : ori.length = nPoints)
    (hq : ∀ b ∈ n.bonds, b.q < nPoints → b.p < qori.length) :
    ∃ a, neighborAngles nPoints ori qori E n split = some a ∧ a.length = n.bonds.length ∧
      ∀ (k : ℕ) (b : Bond ℝ), n.bonds[k]? = some b →
        (b.q < nPoints → a[k]? = minSep (ori.getD b.q one) (qori.getD b.p one) E) ∧
        (nPoints ≤ b.q → a[k]? = some 0) := by
  obtain ⟨arr, e, h⟩ := BondLoop.run_spec n hn
    (fun i b => ori[i]?.bind fun q => qori[b.p]?.bind fun qq => minSep q qq E)
    (fun b => (minSep (ori.getD b.q one) (qori.getD b.p one) E).getD 0) nPoints (split nPoints) (hbl nPoints) (fun _ => 0)
    (fun b hb hlt => by
      have h1 : ori[b.q]? = some (ori.getD b.q one) := by
        rw [List.getD_eq_getElem?_getD, List.getElem?_eq_getElem (by omega), Option.getD_some]
      have h2 : qori[b.p]? = some (qori.getD b.p one) := by
        rw [List.getD_eq_getElem?_getD, List.getElem?_eq_getElem (hq b hb hlt), Option.getD_some]
      obtain ⟨m, em, -⟩ := C46_min_angle G E hG c hE (ori.getD b.q one) (qori.getD b.p one)
      rw [h1, h2, Option.bind_some, Option.bind_some, em]; rfl)
  refine ⟨_, by unfold neighborAngles; rw [e]; rfl, by simp, fun k b hk => ?_⟩
  obtain ⟨hk', -⟩ := List.getElem?_eq_some_iff.mp hk
  have hget : ((List.range n.bonds.length).map arr)[k]? = some (arr k) := by
    rw [List.getElem?_map, List.getElem?_range hk']; rfl
  rw [hget, h k b hk]
  refine ⟨fun hlt => ?_, fun hge => ?_⟩
  · obtain ⟨m, em, -⟩ := C46_min_angle G E hG c hE (ori.getD b.q one) (qori.getD b.p one)
    rw [if_pos hlt, em]; rfl
  · rw [if_neg (by omega)]

/-- **C47** (shapes): orientations that do not have one row per point, or query orientations that do not
have one row per query point, are refused. -/
theorem C47_shapes (nPoints nQuery : ℕ) (ori : List (Quat ℝ)) (qori : Option (List (Quat ℝ)))
    (E : List (Quat ℝ)) (n : NList ℝ) (split : ℕ → List (ℕ × ℕ)) :
    (ori.length ≠ nPoints → computeNeighbor nPoints nQuery ori qori E n split = none) ∧
    (∀ qo, qori = some qo → qo.length ≠ nQuery →
      computeNeighbor nPoints nQuery ori qori E n split = none) := by
  constructor
  · intro h; unfold computeNeighbor; rw [if_pos h]
  · rintro qo rfl h
    unfold computeNeighbor
    split_ifs
    · rfl
    · dsimp only; try rw [if_pos h]

/-- **C47** (part): if the query points are the points of the system with the same orientations, every
bond of the list gets the angle between the orientations of its own two points, in either order, for
every schedule.  Missing: different sets of points and query points, where the property is false, see the
counterexamples. -/
theorem C47_same_set_partial (nPoints : ℕ) (ori G E : List (Quat ℝ)) (hG : SymmetryGroup G)
    (c : Quat ℝ) (hE : Equivalents G E c) (n : NList ℝ) (hn : GoodList n)
    (hnq : n.numQueryPoints = nPoints) (hnp : n.numPoints = nPoints) (split : ℕ → List (ℕ × ℕ))
    (hbl : Splits split) (ho : ori.length = nPoints) :
    ∃ a, computeNeighbor nPoints nPoints ori none E n split = some a ∧
      computeNeighbor nPoints nPoints ori (some ori) E n split = some a ∧
      a.length = n.bonds.length ∧
      ∀ (k : ℕ) (b : Bond ℝ), n.bonds[k]? = some b →
        a[k]? = minSep (ori.getD b.q one) (ori.getD b.p one) E ∧
        a[k]? = minSep (ori.getD b.p one) (ori.getD b.q one) E := by
  obtain ⟨a, e, hl, h⟩ := C47_what_is_computed nPoints ori ori G E hG c hE n hn split hbl ho
    (fun b hb _ => by have := hn.plt b hb; omega)
  refine ⟨a, ?_, ?_, hl, fun k b hk => ?_⟩
  · unfold computeNeighbor
    rw [if_neg (not_not.2 ho)]
    exact e
  · unfold computeNeighbor
    rw [if_neg (not_not.2 ho)]
    simp only [ho, ne_eq, not_true, if_false]
    exact e
  · obtain ⟨hk', hb'⟩ := List.getElem?_eq_some_iff.mp hk
    have hlt : b.q < nPoints := by
      have := hn.qlt b (hb' ▸ List.getElem_mem hk')
      omega
    have h1 := (h k b hk).1 hlt
    exact ⟨h1, by rw [h1]; exact (C46_invariance G E hG c hE _ _).2.2.1⟩

/-- The list of all bonds between 2 points and 2 query points. -/
noncomputable def exNList : NList ℝ :=
  ⟨2, 2, [⟨0, 0, 1, 1, ⟨1, 0, 0⟩⟩, ⟨0, 1, 1, 1, ⟨1, 0, 0⟩⟩, ⟨1, 0, 1, 1, ⟨1, 0, 0⟩⟩], false, [], []⟩

theorem exNList_good : GoodList exNList := by
  refine ⟨?_, ?_, ?_, by simp [exNList]⟩
  · simp [exNList]
  · intro b hb
    simp only [exNList, List.mem_cons, List.not_mem_nil, or_false] at hb
    rcases hb with rfl | rfl | rfl <;> simp [exNList]
  · intro b hb
    simp only [exNList, List.mem_cons, List.not_mem_nil, or_false] at hb
    rcases hb with rfl | rfl | rfl <;> simp [exNList]

-- the hypotheses of the theorems above are met, with blocks executed in reverse order
example : ∃ a, computeNeighbor 2 2 [one, ⟨0, ⟨0, 0, 1⟩⟩] none exGroup exNList 
    (fun N => ((List.range N).map (fun i => (i, i + 1))).reverse) = some a := by
  obtain ⟨a, h, -⟩ := C47_same_set_partial 2 [one, ⟨0, ⟨0, 0, 1⟩⟩] exGroup exGroup exGroup_ok.1 one
    exGroup_ok.2.2 exNList exNList_good rfl rfl _ splits_reverse rfl
  exact ⟨a, h⟩

theorem i_not_equivalent : ¬ ∃ g ∈ exGroup, (one : Quat ℝ) = mul ⟨0, ⟨1, 0, 0⟩⟩ g := by
  rintro ⟨g, hg, h⟩
  simp only [exGroup, List.mem_cons, List.not_mem_nil, or_false] at hg
  rcases hg with rfl | rfl | rfl | rfl <;>
    simp [Quat.ext_iff, Vec3.ext_iff, one, Quat.mul, Vec3.dot, Vec3.cross, Vec3.smul] at h

/-- **C47**, counterexample (swapped orientations): for the bond from query point 0 to point 1, the code
uses `orientations[0]` and `query_orientations[1]`.  Here the two orientations of the bond,
`query_orientations[0]` and `orientations[1]`, are equal, and the reported angle is not 0. -/
theorem C47_swapped_counterexample :
    let i : Quat ℝ := ⟨0, ⟨1, 0, 0⟩⟩
    let ori := [one, i]
    let qori := [i, i]
    ∃ a, computeNeighbor 2 2 ori (some qori) exGroup exNList (fun N => [(0, N)]) = some a ∧
      (exNList.bonds[1]?.map fun b => (b.q, b.p)) = some (0, 1) ∧
      minSep (qori.getD 0 one) (ori.getD 1 one) exGroup = some 0 ∧ a[1]? ≠ some 0 := by
  intro i ori qori
  have hi : norm2 i = 1 := by norm_num [i, norm2, Vec3.dot]
  have h1 : norm2 (one : Quat ℝ) = 1 := by norm_num [one, norm2, Vec3.dot]
  obtain ⟨a, e, -, h⟩ := C47_what_is_computed 2 ori qori exGroup exGroup exGroup_ok.1 one exGroup_ok.2.2
    exNList exNList_good _ splits_one rfl (fun b hb _ => exNList_good.plt b hb)
  refine ⟨a, ?_, rfl, ?_, ?_⟩
  · exact e
  · exact (C46_zero_iff exGroup exGroup exGroup_ok.1 one exGroup_ok.2.2 i i hi hi).2
      ⟨one, exGroup_ok.1.one, (mul_one' i).symm⟩
  · rw [(h 1 _ rfl).1 (by decide)]
    intro h0
    exact i_not_equivalent ((C46_zero_iff exGroup exGroup exGroup_ok.1 one exGroup_ok.2.2 one i h1 hi).1 h0)

/-- **C47**, counterexample (more query points than points): the loop stops at the number of points, and
the bonds of the remaining query points keep the value 0 although their orientations are not
equivalent. -/
theorem C47_more_query_points_counterexample :
    let i : Quat ℝ := ⟨0, ⟨1, 0, 0⟩⟩
    let n : NList ℝ := ⟨2, 1, [⟨1, 0, 1, 1, ⟨1, 0, 0⟩⟩], false, [], []⟩
    computeNeighbor 1 2 [i] (some [i, one]) exGroup n (fun N => [(0, N)]) = some [0] ∧
      minSep one i exGroup ≠ some 0 := by
  intro i n
  have hi : norm2 i = 1 := by norm_num [i, norm2, Vec3.dot]
  have h1 : norm2 (one : Quat ℝ) = 1 := by norm_num [one, norm2, Vec3.dot]
  refine ⟨?_, fun h0 => i_not_equivalent
    ((C46_zero_iff exGroup exGroup exGroup_ok.1 one exGroup_ok.2.2 one i h1 hi).1 h0)⟩
  obtain ⟨a, e, hl, h⟩ := C47_what_is_computed 1 [i] [i, one] exGroup exGroup exGroup_ok.1 one
    exGroup_ok.2.2 n ⟨by simp [n], by simp [n], by simp [n], by simp [n]⟩ _
    splits_one rfl (by simp [n])
  have h0 := (h 0 _ rfl).2 le_rfl
  have : a = [0] := by
    match a, hl, h0 with
    | [x], _, h0 => simpa using h0
  rw [← this]
  exact e

/-- **C47**, counterexample (fewer query points than points): `query_orientations` is read outside the
array, because it is indexed with a point index. -/
theorem C47_out_of_bounds_counterexample :
    let n : NList ℝ := ⟨1, 2, [⟨0, 1, 1, 1, ⟨1, 0, 0⟩⟩], false, [], []⟩
    GoodList n ∧ computeNeighbor 2 1 [one, one] (some [one]) exGroup n (fun N => [(0, N)]) = none := by
  intro n
  refine ⟨⟨by simp [n], by simp [n], by simp [n], by simp [n]⟩, ?_⟩
  have hfi : n.findFirstIndex 0 = 0 := by
    have := (C15_find_first_index n ⟨by simp [n], by simp [n], by simp [n], by simp [n]⟩ 0).2 0 _ rfl
    have h2 := this.2 (Nat.zero_le _)
    omega
  unfold computeNeighbor neighborAngles
  simp only [List.length_cons, List.length_nil, ne_eq, not_true, if_false, zero_add]
  rw [BondLoop.run, BondLoop.block, hfi]
  rw [show List.range' 0 (2 - 0) = [0, 1] from rfl, BondLoop.points, BondLoop.inner]
  simp [n]

/-- **C46**, **C47** for `AngularSeparationGlobal`: row `i` holds the angles between `orientations[i]` and
the global orientations, for every order of execution. -/
theorem C46_global (G E : List (Quat ℝ)) (hG : SymmetryGroup G) (c : Quat ℝ) (hE : Equivalents G E c)
    (globals ori : List (Quat ℝ)) (order : List ℕ) (hord : order.Perm (List.range ori.length)) :
    ∃ arr, globalAngles globals ori E order (fun _ => []) = some arr ∧
      ∀ (i : ℕ) (q : Quat ℝ), ori[i]? = some q → (arr i).length = globals.length ∧
        ∀ (j : ℕ) (g : Quat ℝ), globals[j]? = some g → (arr i)[j]? = minSep q g E := by
  have hrow : ∀ q, ∃ row, globalRow globals E q = some row ∧ row.length = globals.length ∧
      ∀ (j : ℕ) (g : Quat ℝ), globals[j]? = some g → row[j]? = minSep q g E := by
    intro q
    unfold globalRow
    induction globals with
    | nil => exact ⟨[], rfl, rfl, by simp⟩
    | cons g gs ih =>
      obtain ⟨row, e, hl, h⟩ := ih
      obtain ⟨m, em, -⟩ := C46_min_angle G E hG c hE q g
      refine ⟨m :: row, ?_, by simp [hl], ?_⟩
      · rw [List.mapM_cons, em, e]; rfl
      · intro j g' hj
        cases j with
        | zero => simp only [List.getElem?_cons_zero, Option.some.injEq] at hj ⊢; rw [← hj, em]
        | succ j => simp only [List.getElem?_cons_succ] at hj ⊢; exact h j g' hj
  have key : ∀ (os : List ℕ) (arr : ℕ → List ℝ), (∀ i ∈ os, i < ori.length) →
      ∃ arr', globalAngles globals ori E os arr = some arr' ∧
        ∀ (i : ℕ) (q : Quat ℝ), ori[i]? = some q → (i ∈ os → some (arr' i) = globalRow globals E q) ∧
          (i ∉ os → arr' i = arr i) := by
    intro os
    induction os with
    | nil => intro arr _; exact ⟨arr, rfl, fun i q _ => ⟨by simp, fun _ => rfl⟩⟩
    | cons o os ih =>
      intro arr hb
      have ho := hb o (List.mem_cons_self ..)
      obtain ⟨row, er, -⟩ := hrow ori[o]
      obtain ⟨arr', e', h'⟩ := ih (Function.update arr o row) (fun i hi => hb i (List.mem_cons_of_mem _ hi))
      refine ⟨arr', ?_, fun i q hq => ⟨fun hi => ?_, fun hi => ?_⟩⟩
      · rw [globalAngles, List.getElem?_eq_getElem ho, Option.bind_some, er, Option.bind_some, e']
      · by_cases hio : i ∈ os
        · exact (h' i q hq).1 hio
        · rcases List.mem_cons.1 hi with rfl | h2
          · rw [(h' i q hq).2 hio, Function.update_self]
            rw [List.getElem?_eq_getElem ho] at hq
            cases hq
            exact er.symm
          · exact absurd h2 hio
      · have h1 : i ≠ o := fun h => hi (h ▸ List.mem_cons_self ..)
        rw [(h' i q hq).2 (fun h => hi (List.mem_cons_of_mem _ h)), Function.update_of_ne h1]
  obtain ⟨arr, e, h⟩ := key order (fun _ => []) (fun i hi => List.mem_range.1 (hord.mem_iff.1 hi))
  refine ⟨arr, e, fun i q hq => ?_⟩
  obtain ⟨hi, -⟩ := List.getElem?_eq_some_iff.mp hq
  obtain ⟨row, er, hl, hr⟩ := hrow q
  have := (h i q hq).1 (hord.mem_iff.2 (List.mem_range.2 hi))
  rw [er] at this
  injection this with this
  rw [this]
  exact ⟨hl, hr⟩

end AngSep
end Freud
