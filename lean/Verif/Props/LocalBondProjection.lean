import Verif.Model.LocalBondProjection
import Verif.Props.AngularSeparation

/-!
# C67: local bond projections

Specification: the projection of a bond onto a direction is the largest dot product of the bond, seen in the
frame of its point, with a direction equivalent to it under the symmetry group.
-/

namespace Freud

/-- Specification: the length of a vector. -/
noncomputable def Spec.len (v : Vec3 ℝ) : ℝ := Real.sqrt (v.x ^ 2 + v.y ^ 2 + v.z ^ 2)

/-- Specification: the projections of the bond `v` of a particle with orientation `o` onto the directions
equivalent to `p`: the directions are turned into the laboratory frame. -/
def Spec.projections (G : List (Quat ℝ)) (o : Quat ℝ) (p v : Vec3 ℝ) : Set ℝ :=
  {t | ∃ g ∈ G, t = Vec3.dot (Quat.rotate (Quat.mul o g) p) v}

open Spec Quat

namespace LBP

theorem foldMax_spec {α : Type*} (f : α → ℝ) (l : List α) (m0 : ℝ) :
    IsGreatest ({m0} ∪ {a | ∃ x ∈ l, a = f x}) (l.foldl (fun m x => if f x > m then f x else m) m0) := by
  induction l generalizing m0 with
  | nil =>
    refine ⟨Or.inl rfl, ?_⟩
    rintro a (rfl | ⟨x, hx, -⟩)
    · exact le_rfl
    · cases hx
  | cons x l ih =>
    rw [List.foldl_cons]
    have h := ih (if f x > m0 then f x else m0)
    refine ⟨?_, ?_⟩
    · rcases h.1 with h1 | ⟨y, hy, h1⟩
      · rw [Set.mem_singleton_iff] at h1
        rw [h1]
        split_ifs
        · exact Or.inr ⟨x, List.mem_cons_self .., rfl⟩
        · exact Or.inl rfl
      · exact Or.inr ⟨y, List.mem_cons_of_mem _ hy, h1⟩
    · have hm := h.2 (Or.inl rfl : (if f x > m0 then f x else m0) ∈ _)
      rintro a (ha | ⟨y, hy, rfl⟩)
      · rw [Set.mem_singleton_iff] at ha
        subst ha
        refine le_trans ?_ hm
        split_ifs with hlt
        · exact hlt.le
        · exact le_rfl
      · rcases List.mem_cons.1 hy with rfl | hy
        · refine le_trans ?_ hm
          split_ifs with hlt
          · exact le_rfl
          · exact not_lt.1 hlt
        · exact h.2 (Or.inr ⟨y, hy, rfl⟩)

theorem dot_local (o g : Quat ℝ) (ho : norm2 o = 1) (p v : Vec3 ℝ) :
    Vec3.dot (rotate g p) (localBond o v) = Vec3.dot (rotate (mul o g) p) v := by
  have h := dot_rotate o (rotate g p) (localBond o v)
  rw [ho] at h
  unfold localBond at h ⊢
  rw [rotate_rotate_conj o ho] at h
  rw [rotate_mul, h]
  ring

/-- **C67**: the value for a bond and a direction is the largest projection onto the directions equivalent
under the symmetry group of the particle. -/
theorem C67_max_projection (G E : List (Quat ℝ)) (hG : SymmetryGroup G) (c : Quat ℝ)
    (hE : Equivalents G E c) (o : Quat ℝ) (ho : norm2 o = 1) (p v : Vec3 ℝ) :
    ∃ m, maxProj p (localBond o v) E = some m ∧ IsGreatest (projections G o p v) m := by
  have hne : E ≠ [] := List.ne_nil_of_mem ((hE.2 (mul c one)).2 ⟨one, hG.one, rfl⟩)
  obtain ⟨e0, E', rfl⟩ := List.exists_cons_of_ne_nil hne
  obtain ⟨g0, hg0, he0⟩ := (hE.2 e0).1 (List.mem_cons_self ..)
  refine ⟨_, rfl, ?_⟩
  have h := foldMax_spec (fun qe => Vec3.dot (rotate (mul (conj e0) qe) p) (localBond o v)) (e0 :: E')
    (Vec3.dot p (localBond o v))
  have hset : ({Vec3.dot p (localBond o v)} ∪
      {a | ∃ x ∈ e0 :: E', a = Vec3.dot (rotate (mul (conj e0) x) p) (localBond o v)} : Set ℝ) =
      projections G o p v := by
    ext a
    constructor
    · rintro (ha | ⟨x, hx, rfl⟩)
      · rw [Set.mem_singleton_iff] at ha
        refine ⟨one, hG.one, ?_⟩
        rw [ha, ← dot_local o one ho, rotate_one]
      · obtain ⟨g, hg, rfl⟩ := (hE.2 x).1 hx
        refine ⟨mul (conj g0) g, hG.mul _ (hG.inv _ hg0) _ hg, ?_⟩
        rw [dot_local o _ ho, he0, Quat.conj_mul]
        congr 3
        rw [mul_assoc' (conj g0), ← mul_assoc' (conj c), conj_mul_self c hE.1, one_mul']
    · rintro ⟨g, hg, rfl⟩
      refine Or.inr ⟨mul c (mul g0 g), (hE.2 _).2 ⟨_, hG.mul _ hg0 _ hg, rfl⟩, ?_⟩
      rw [dot_local o _ ho, he0, Quat.conj_mul]
      congr 3
      rw [mul_assoc' (conj g0), ← mul_assoc' (conj c), conj_mul_self c hE.1, one_mul',
        AngSep.cancel_left _ _ (hG.unit _ hg0)]
  rw [hset] at h
  exact h

/-- **C67**: replacing the orientation of the particle by an equivalent one, replacing the direction by an
equivalent one, or rotating the particle and the bond together does not change the value. -/
theorem C67_invariance (G E : List (Quat ℝ)) (hG : SymmetryGroup G) (c : Quat ℝ)
    (hE : Equivalents G E c) (o : Quat ℝ) (ho : norm2 o = 1) (p v : Vec3 ℝ) :
    (∀ h ∈ G, maxProj p (localBond (mul o h) v) E = maxProj p (localBond o v) E) ∧
    (∀ h ∈ G, maxProj (rotate h p) (localBond o v) E = maxProj p (localBond o v) E) ∧
    (∀ r, norm2 r = 1 → maxProj p (localBond (mul r o) (rotate r v)) E = maxProj p (localBond o v) E) := by
  obtain ⟨m, e, hm⟩ := C67_max_projection G E hG c hE o ho p v
  refine ⟨fun h hh => ?_, fun h hh => ?_, fun r hr => ?_⟩
  · obtain ⟨m', e', hm'⟩ := C67_max_projection G E hG c hE (mul o h)
      (by rw [norm2_mul, ho, hG.unit h hh, one_mul]) p v
    have hs : projections G (mul o h) p v = projections G o p v := by
      ext t
      constructor
      · rintro ⟨g, hg, rfl⟩
        exact ⟨mul h g, hG.mul _ hh _ hg, by rw [mul_assoc']⟩
      · rintro ⟨g, hg, rfl⟩
        refine ⟨mul (conj h) g, hG.mul _ (hG.inv _ hh) _ hg, ?_⟩
        rw [mul_assoc' o, ← mul_assoc' h, mul_conj_self h (hG.unit _ hh), one_mul']
    rw [hs] at hm'
    rw [e, e', hm.unique hm']
  · obtain ⟨m', e', hm'⟩ := C67_max_projection G E hG c hE o ho (rotate h p) v
    have hs : projections G o (rotate h p) v = projections G o p v := by
      ext t
      constructor
      · rintro ⟨g, hg, rfl⟩
        exact ⟨mul g h, hG.mul _ hg _ hh, by rw [← rotate_mul, mul_assoc']⟩
      · rintro ⟨g, hg, rfl⟩
        refine ⟨mul g (conj h), hG.mul _ hg _ (hG.inv _ hh), ?_⟩
        rw [← rotate_mul, mul_assoc', mul_assoc', conj_mul_self h (hG.unit _ hh), mul_one']
    rw [hs] at hm'
    rw [e, e', hm.unique hm']
  · have : localBond (mul r o) (rotate r v) = localBond o v := by
      unfold localBond
      rw [Quat.conj_mul, rotate_mul, rotate_conj_rotate r hr]
    rw [this]

/-- **C67**: the whole array.  For every neighbor list and every schedule, the row of a bond holds for each
direction the largest projection and its quotient by the bond length, with the orientation of the bond's
point. -/
theorem C67_rows (G E : List (Quat ℝ)) (hG : SymmetryGroup G) (c : Quat ℝ) (hE : Equivalents G E c)
    (ori : List (Quat ℝ)) (hu : ∀ o ∈ ori, norm2 o = 1) (ps : List (Vec3 ℝ)) (n : NList ℝ)
    (hn : GoodList n) (ho : ori.length = n.numPoints) (split : ℕ → List (ℕ × ℕ))
    (hbl : Splits split) :
    ∃ a, compute n.numQueryPoints ori ps E n split = some a ∧ a.length = n.bonds.length ∧
      ∀ (k : ℕ) (b : Bond ℝ), n.bonds[k]? = some b → ∃ r, a[k]? = some r ∧ r.length = ps.length ∧
        ∀ (j : ℕ) (p : Vec3 ℝ), ps[j]? = some p → ∃ m,
          IsGreatest (projections G (ori.getD b.p one) p b.vec) m ∧ r[j]? = some (m, m / b.dist) := by
  have hrow : ∀ b : Bond ℝ, b ∈ n.bonds → ∃ r, row ori ps E b.q b = some r ∧ r.length = ps.length ∧
      ∀ (j : ℕ) (p : Vec3 ℝ), ps[j]? = some p → ∃ m,
        IsGreatest (projections G (ori.getD b.p one) p b.vec) m ∧ r[j]? = some (m, m / b.dist) := by
    intro b hb
    have hlt : b.p < ori.length := by have := hn.plt b hb; omega
    have hg : ori[b.p]? = some (ori.getD b.p one) := by
      rw [List.getD_eq_getElem?_getD, List.getElem?_eq_getElem hlt, Option.getD_some]
    have hunit : norm2 (ori.getD b.p one) = 1 := hu _ (List.mem_of_getElem? hg)
    unfold row
    rw [hg, Option.bind_some]
    induction ps with
    | nil => exact ⟨[], rfl, rfl, by simp⟩
    | cons p ps ih =>
      obtain ⟨r, e, hl, h⟩ := ih
      obtain ⟨m, em, hm⟩ := C67_max_projection G E hG c hE _ hunit p b.vec
      refine ⟨(m, m / b.dist) :: r, ?_, by simp [hl], ?_⟩
      · rw [List.mapM_cons, em, e]; rfl
      · intro j p' hj
        cases j with
        | zero =>
          simp only [List.getElem?_cons_zero, Option.some.injEq] at hj ⊢
          subst hj
          exact ⟨m, hm, rfl⟩
        | succ j => simp only [List.getElem?_cons_succ] at hj ⊢; exact h j p' hj
  obtain ⟨arr, e, h⟩ := BondLoop.run_spec n hn (row ori ps E) (fun b => (row ori ps E b.q b).getD [])
    n.numQueryPoints (split n.numQueryPoints) (hbl _) (fun _ => List.replicate ps.length (0, 0))
    (fun b hb _ => by obtain ⟨r, er, -⟩ := hrow b hb; rw [er]; rfl)
  refine ⟨_, by unfold compute; rw [e]; rfl, by simp, fun k b hk => ?_⟩
  obtain ⟨hk', hbk⟩ := List.getElem?_eq_some_iff.mp hk
  have hmem : b ∈ n.bonds := hbk ▸ List.getElem_mem hk'
  have hget : ((List.range n.bonds.length).map arr)[k]? = some (arr k) := by
    rw [List.getElem?_map, List.getElem?_range hk']; rfl
  obtain ⟨r, er, hl, hr⟩ := hrow b hmem
  refine ⟨r, ?_, hl, hr⟩
  rw [hget, h k b hk, if_pos (hn.qlt b hmem), er]; rfl

/-- **C67**: for a bond whose stored distance is the length of its vector, the normalized projection lies
between minus and plus the length of the direction. -/
theorem C67_normalized_range (G : List (Quat ℝ)) (hG : SymmetryGroup G) (o : Quat ℝ) (ho : norm2 o = 1)
    (p v : Vec3 ℝ) (m : ℝ) (hm : IsGreatest (projections G o p v) m) (hv : 0 < len v) :
    -len p ≤ m / len v ∧ m / len v ≤ len p := by
  obtain ⟨g, hg, e⟩ := hm.1
  have hu : norm2 (mul o g) = 1 := by rw [norm2_mul, ho, hG.unit g hg, one_mul]
  set w := rotate (mul o g) p with hw
  have hlen : w.x ^ 2 + w.y ^ 2 + w.z ^ 2 = p.x ^ 2 + p.y ^ 2 + p.z ^ 2 := by
    have := dot_rotate (mul o g) p p
    rw [hu, ← hw] at this
    simp only [Vec3.dot] at this
    linarith
  have hcs : (Vec3.dot w v) ^ 2 ≤ (w.x ^ 2 + w.y ^ 2 + w.z ^ 2) * (v.x ^ 2 + v.y ^ 2 + v.z ^ 2) := by
    simp only [Vec3.dot]
    nlinarith [sq_nonneg (w.x * v.y - w.y * v.x), sq_nonneg (w.x * v.z - w.z * v.x),
      sq_nonneg (w.y * v.z - w.z * v.y)]
  have hab : |m| ≤ len p * len v := by
    rw [e, ← Real.sqrt_sq_eq_abs]
    unfold len
    rw [← Real.sqrt_mul (by positivity)]
    apply Real.sqrt_le_sqrt
    rw [← hlen]
    exact hcs
  have h1 := abs_le.1 hab
  constructor
  · rw [le_div_iff₀ hv]; linarith
  · rw [div_le_iff₀ hv]; linarith

-- the hypotheses are met by the group and the neighbor list of the angular separation examples
example : ∃ a, compute 2 [one, ⟨0, ⟨0, 0, 1⟩⟩] [⟨1, 0, 0⟩, ⟨0, 1, 1⟩] AngSep.exGroup AngSep.exNList
    (fun N => ((List.range N).map (fun i => (i, i + 1))).reverse) = some a ∧ a.length = 3 := by
  obtain ⟨a, h, hl, -⟩ := C67_rows AngSep.exGroup AngSep.exGroup AngSep.exGroup_ok.1 one
    AngSep.exGroup_ok.2.2 [one, ⟨0, ⟨0, 0, 1⟩⟩] (by simp [one, norm2, Vec3.dot])
    [⟨1, 0, 0⟩, ⟨0, 1, 1⟩] AngSep.exNList AngSep.exNList_good rfl _
    splits_reverse
  exact ⟨a, h, hl⟩

end LBP
end Freud
