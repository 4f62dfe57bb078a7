import Verif.Spec.Parts
import Verif.Props.PairFrames

/-!
# Property C100: results of a system are put together from those of its parts
-/

set_option linter.unusedSectionVars false

namespace Freud
open Spec
variable {D : Type*}

/-! ### Bonds -/

theorem shifted_injective (m n : ℕ) : Function.Injective (shifted m n) := by
  rintro ⟨q, p, d, w, v⟩ ⟨q', p', d', w', v'⟩ h
  simp only [shifted, Bond.mk.injEq, Nat.add_right_cancel_iff] at h
  obtain ⟨rfl, rfl, rfl, rfl, rfl⟩ := h
  rfl

/-- **C100**: the bonds of query points with two lots of points are the bonds with the first lot and those
with the second, whose points are numbered after those of the first. -/
theorem C100_bonds_points (b : Box ℝ) (A B qpts : List (Vec3 ℝ)) (hA : PeriodicSystem b A qpts)
    (hB : PeriodicSystem b B qpts) (rMax rMin : ℝ) (hmin : 0 ≤ rMin) (hhalf : BelowHalf b rMax)
    (src srcA srcB : Source) (h : IsSource b (A ++ B) qpts rMax rMin false src)
    (h1 : IsSource b A qpts rMax rMin false srcA) (h2 : IsSource b B qpts rMax rMin false srcB) :
    (bondsFrom src).Perm (bondsFrom srcA ++ (bondsFrom srcB).map (shifted 0 A.length)) := by
  have hs : PeriodicSystem b (A ++ B) qpts := ⟨⟨hA.inBox.valid, hA.inBox.pos, fun p hp =>
    (List.mem_append.mp hp).elim (hA.inBox.inside p) (hB.inBox.inside p)⟩, hA.periodic, hA.query⟩
  obtain ⟨-, a, p, m, n⟩ := source_perm hs hmin hhalf h
  obtain ⟨-, a1, p1, m1, n1⟩ := source_perm hA hmin hhalf h1
  obtain ⟨-, a2, p2, m2, n2⟩ := source_perm hB hmin hhalf h2
  refine (p.trans ?_).trans (p1.append (p2.map _)).symm
  have hnd : (a1 ++ a2.map (shifted 0 A.length)).Nodup := by
    refine List.Nodup.append (n1.of_map _) ((n2.of_map _).map (shifted_injective _ _)) ?_
    intro bd hb1 hb2
    obtain ⟨bd', -, rfl⟩ := List.mem_map.mp hb2
    obtain ⟨q, -, -, -, -, -, -, -, p, hp, -⟩ := (m1 _).mp hb1
    have := (List.getElem?_eq_some_iff.mp hp).1
    simp [shifted] at this
  refine (List.perm_ext_iff_of_nodup (n.of_map _) hnd).mpr fun bd => ?_
  rw [m, List.mem_append, List.mem_map, m1]
  constructor
  · rintro ⟨q, hq, k1, k2, k3, k4, k5, k6, p, hp, k7⟩
    by_cases hj : bd.p < A.length
    · rw [List.getElem?_append_left hj] at hp
      exact Or.inl ⟨q, hq, k1, k2, k3, k4, k5, k6, p, hp, k7⟩
    · rw [List.getElem?_append_right (by omega)] at hp
      refine Or.inr ⟨⟨bd.q, bd.p - A.length, bd.dist, bd.weight, bd.vec⟩, (m2 _).mpr
        ⟨q, hq, rfl, k2, k3, (fun e => by cases e), k5, k6, p, hp, k7⟩, ?_⟩
      cases bd
      simp only [shifted, Bond.mk.injEq, and_true, true_and, add_zero]
      simp only at hj
      omega
  · rintro (⟨q, hq, k1, k2, k3, k4, k5, k6, p, hp, k7⟩ | ⟨bd', hb, rfl⟩)
    · exact ⟨q, hq, k1, k2, k3, k4, k5, k6, p,
        by rw [List.getElem?_append_left (List.getElem?_eq_some_iff.mp hp).1]; exact hp, k7⟩
    · obtain ⟨q, hq, k1, k2, k3, k4, k5, k6, p, hp, k7⟩ := (m2 _).mp hb
      refine ⟨q, hq, rfl, k2, k3, (fun e => by cases e), k5, k6, p, ?_, k7⟩
      simp only [shifted]
      rw [List.getElem?_append_right (by omega), Nat.add_sub_cancel]
      exact hp

/-- **C100**: the bonds of two lots of query points are the bonds of the first lot and those of the second,
whose query points are numbered after those of the first: what is found for a query point does not depend
on which other query points are asked for. -/
theorem C100_bonds_query (b : Box ℝ) (pts A B : List (Vec3 ℝ)) (hA : PeriodicSystem b pts A)
    (hB : PeriodicSystem b pts B) (rMax rMin : ℝ) (hmin : 0 ≤ rMin) (hhalf : BelowHalf b rMax)
    (src srcA srcB : Source) (h : IsSource b pts (A ++ B) rMax rMin false src)
    (h1 : IsSource b pts A rMax rMin false srcA) (h2 : IsSource b pts B rMax rMin false srcB) :
    (bondsFrom src).Perm (bondsFrom srcA ++ (bondsFrom srcB).map (shifted A.length 0)) := by
  have hs : PeriodicSystem b pts (A ++ B) := ⟨hA.inBox, hA.periodic, fun q hq =>
    (List.mem_append.mp hq).elim (hA.query q) (hB.query q)⟩
  obtain ⟨-, a, p, m, n⟩ := source_perm hs hmin hhalf h
  obtain ⟨-, a1, p1, m1, n1⟩ := source_perm hA hmin hhalf h1
  obtain ⟨-, a2, p2, m2, n2⟩ := source_perm hB hmin hhalf h2
  refine (p.trans ?_).trans (p1.append (p2.map _)).symm
  have hnd : (a1 ++ a2.map (shifted A.length 0)).Nodup := by
    refine List.Nodup.append (n1.of_map _) ((n2.of_map _).map (shifted_injective _ _)) ?_
    intro bd hb1 hb2
    obtain ⟨bd', -, rfl⟩ := List.mem_map.mp hb2
    obtain ⟨q, hq, -⟩ := (m1 _).mp hb1
    have := (List.getElem?_eq_some_iff.mp hq).1
    simp [shifted] at this
  refine (List.perm_ext_iff_of_nodup (n.of_map _) hnd).mpr fun bd => ?_
  rw [m, List.mem_append, List.mem_map, m1]
  constructor
  · rintro ⟨q, hq, k1, k2, k3, k4, k5, k6, p, hp, k7⟩
    by_cases hj : bd.q < A.length
    · rw [List.getElem?_append_left hj] at hq
      exact Or.inl ⟨q, hq, k1, k2, k3, k4, k5, k6, p, hp, k7⟩
    · rw [List.getElem?_append_right (by omega)] at hq
      refine Or.inr ⟨⟨bd.q - A.length, bd.p, bd.dist, bd.weight, bd.vec⟩, (m2 _).mpr
        ⟨q, hq, rfl, k2, k3, (fun e => by cases e), k5, k6, p, hp, k7⟩, ?_⟩
      cases bd
      simp only [shifted, Bond.mk.injEq, and_true, add_zero]
      simp only at hj
      omega
  · rintro (⟨q, hq, k1, k2, k3, k4, k5, k6, p, hp, k7⟩ | ⟨bd', hb, rfl⟩)
    · exact ⟨q, by rw [List.getElem?_append_left (List.getElem?_eq_some_iff.mp hq).1]; exact hq,
        k1, k2, k3, k4, k5, k6, p, hp, k7⟩
    · obtain ⟨q, hq, k1, k2, k3, k4, k5, k6, p, hp, k7⟩ := (m2 _).mp hb
      refine ⟨q, ?_, rfl, k2, k3, (fun e => by cases e), k5, k6, p, hp, k7⟩
      simp only [shifted]
      rw [List.getElem?_append_right (by omega), Nat.add_sub_cancel]
      exact hq

/-- **C100**: what is found for one of several query points is what is found when it is the only one. -/
theorem C100_alone (b : Box ℝ) (pts qpts : List (Vec3 ℝ)) (hs : PeriodicSystem b pts qpts) (rMax rMin : ℝ)
    (hmin : 0 ≤ rMin) (hhalf : BelowHalf b rMax) (i : ℕ) (q : Vec3 ℝ) (hq : qpts[i]? = some q)
    (src src1 : Source) (h : IsSource b pts qpts rMax rMin false src)
    (h1 : IsSource b pts [q] rMax rMin false src1) :
    ((bondsFrom src).filter fun bd => bd.q = i).Perm ((bondsFrom src1).map (shifted i 0)) := by
  have hs1 : PeriodicSystem b pts [q] := ⟨hs.inBox, hs.periodic, fun q' hq' => by
    rw [List.mem_singleton.mp hq']; exact hs.query q (List.mem_of_getElem? hq)⟩
  obtain ⟨-, a, p, m, n⟩ := source_perm hs hmin hhalf h
  obtain ⟨-, a1, p1, m1, n1⟩ := source_perm hs1 hmin hhalf h1
  refine ((p.filter _).trans ?_).trans (p1.map _).symm
  refine (List.perm_ext_iff_of_nodup ((n.of_map _).filter _) ((n1.of_map _).map (shifted_injective _ _))).mpr
    fun bd => ?_
  rw [List.mem_filter, m, List.mem_map]
  constructor
  · rintro ⟨⟨q', hq', k1, k2, k3, k4, k5, k6, p, hp, k7⟩, e⟩
    simp only [decide_eq_true_eq] at e
    rw [e, hq, Option.some.injEq] at hq'
    subst hq'
    refine ⟨⟨0, bd.p, bd.dist, bd.weight, bd.vec⟩, (m1 _).mpr
      ⟨q, rfl, rfl, k2, k3, (fun e => by cases e), k5, k6, p, hp, k7⟩, ?_⟩
    cases bd
    simp only at e
    simp [shifted, e]
  · rintro ⟨bd', hb, rfl⟩
    obtain ⟨q', hq', k1, k2, k3, k4, k5, k6, p, hp, k7⟩ := (m1 _).mp hb
    have hz : bd'.q = 0 := by
      have := (List.getElem?_eq_some_iff.mp hq').1
      simpa using this
    rw [hz] at hq'
    simp only [List.getElem?_cons_zero, Option.some.injEq] at hq'
    subst hq'
    exact ⟨⟨q, by simpa [shifted, hz] using hq, rfl, k2, k3, (fun e => by cases e), k5, k6, p, hp, k7⟩,
      by simp [shifted, hz]⟩

/-! ### Numbers of pairs -/

/-- `pairsIn` with another condition on the numbers of the ends. -/
def pairsWith (b : Box ℝ) (pts qpts : List (Vec3 ℝ)) (ok : ℕ → ℕ → Prop) (lo hi : ℝ) : Set (ℕ × ℕ) :=
  {ij | ok ij.1 ij.2 ∧ ∃ q p w, qpts[ij.1]? = some q ∧ pts[ij.2]? = some p ∧
    NearestImage b (p - q) w ∧ lo ≤ Vec3.norm w ∧ Vec3.norm w < hi}

theorem pairsIn_eq (b : Box ℝ) (pts qpts : List (Vec3 ℝ)) (excl : Bool) (ok : ℕ → ℕ → Prop) (lo hi : ℝ)
    (h : ∀ i < qpts.length, ∀ j < pts.length, ok i j ↔ (excl = true → j ≠ i)) :
    pairsIn b pts qpts excl lo hi = pairsWith b pts qpts ok lo hi := by
  ext ⟨i, j⟩
  constructor
  · rintro ⟨h1, q, p, w, h2, h3, h4⟩
    exact ⟨(h i (List.getElem?_eq_some_iff.mp h2).1 j (List.getElem?_eq_some_iff.mp h3).1).mpr h1,
      q, p, w, h2, h3, h4⟩
  · rintro ⟨h1, q, p, w, h2, h3, h4⟩
    exact ⟨(h i (List.getElem?_eq_some_iff.mp h2).1 j (List.getElem?_eq_some_iff.mp h3).1).mp h1,
      q, p, w, h2, h3, h4⟩

theorem pairsWith_finite (b : Box ℝ) (pts qpts : List (Vec3 ℝ)) (ok : ℕ → ℕ → Prop) (lo hi : ℝ) :
    (pairsWith b pts qpts ok lo hi).Finite := by
  refine (Set.Finite.prod (Set.finite_Iio qpts.length) (Set.finite_Iio pts.length)).subset ?_
  rintro ⟨i, j⟩ ⟨-, q, p, w, h2, h3, -⟩
  exact ⟨(List.getElem?_eq_some_iff.mp h2).1, (List.getElem?_eq_some_iff.mp h3).1⟩

theorem pairsWith_points (b : Box ℝ) (A B qpts : List (Vec3 ℝ)) (ok : ℕ → ℕ → Prop) (lo hi : ℝ) :
    (pairsWith b (A ++ B) qpts ok lo hi).ncard = (pairsWith b A qpts ok lo hi).ncard +
      (pairsWith b B qpts (fun i j => ok i (j + A.length)) lo hi).ncard := by
  have hinj : Function.Injective (fun ij : ℕ × ℕ => (ij.1, ij.2 + A.length)) := by
    rintro ⟨i, j⟩ ⟨i', j'⟩ h
    simp only [Prod.mk.injEq, Nat.add_right_cancel_iff] at h
    rw [h.1, h.2]
  rw [← Set.ncard_image_of_injective (pairsWith b B qpts _ lo hi) hinj, ← Set.ncard_union_eq ?_
    (pairsWith_finite ..) ((pairsWith_finite ..).image _)]
  · congr 1
    ext ⟨i, j⟩
    constructor
    · rintro ⟨h1, q, p, w, h2, h3, h4⟩
      simp only at h1 h2 h3
      by_cases hj : j < A.length
      · rw [List.getElem?_append_left hj] at h3
        exact Or.inl ⟨h1, q, p, w, h2, h3, h4⟩
      · rw [List.getElem?_append_right (by omega)] at h3
        have e : j - A.length + A.length = j := by omega
        exact Or.inr ⟨(i, j - A.length), ⟨by simpa [e] using h1, q, p, w, h2, h3, h4⟩, by simp [e]⟩
    · rintro (⟨h1, q, p, w, h2, h3, h4⟩ | ⟨⟨i', j'⟩, ⟨h1, q, p, w, h2, h3, h4⟩, e⟩)
      · exact ⟨h1, q, p, w, h2,
          by rw [List.getElem?_append_left (List.getElem?_eq_some_iff.mp h3).1]; exact h3, h4⟩
      · simp only [Prod.mk.injEq] at e
        obtain ⟨rfl, rfl⟩ := e
        exact ⟨h1, q, p, w, h2,
          by rw [List.getElem?_append_right (by simp), Nat.add_sub_cancel]; exact h3, h4⟩
  · rw [Set.disjoint_left]
    rintro ⟨i, j⟩ ⟨-, q, p, w, -, h3, -⟩ ⟨⟨i', j'⟩, -, e⟩
    simp only [Prod.mk.injEq] at e
    have := (List.getElem?_eq_some_iff.mp h3).1
    simp only at this
    omega

theorem pairsWith_query (b : Box ℝ) (pts A B : List (Vec3 ℝ)) (ok : ℕ → ℕ → Prop) (lo hi : ℝ) :
    (pairsWith b pts (A ++ B) ok lo hi).ncard = (pairsWith b pts A ok lo hi).ncard +
      (pairsWith b pts B (fun i j => ok (i + A.length) j) lo hi).ncard := by
  have hinj : Function.Injective (fun ij : ℕ × ℕ => (ij.1 + A.length, ij.2)) := by
    rintro ⟨i, j⟩ ⟨i', j'⟩ h
    simp only [Prod.mk.injEq, Nat.add_right_cancel_iff] at h
    rw [h.1, h.2]
  rw [← Set.ncard_image_of_injective (pairsWith b pts B _ lo hi) hinj, ← Set.ncard_union_eq ?_
    (pairsWith_finite ..) ((pairsWith_finite ..).image _)]
  · congr 1
    ext ⟨i, j⟩
    constructor
    · rintro ⟨h1, q, p, w, h2, h3, h4⟩
      simp only at h1 h2 h3
      by_cases hj : i < A.length
      · rw [List.getElem?_append_left hj] at h2
        exact Or.inl ⟨h1, q, p, w, h2, h3, h4⟩
      · rw [List.getElem?_append_right (by omega)] at h2
        have e : i - A.length + A.length = i := by omega
        exact Or.inr ⟨(i - A.length, j), ⟨by simpa [e] using h1, q, p, w, h2, h3, h4⟩, by simp [e]⟩
    · rintro (⟨h1, q, p, w, h2, h3, h4⟩ | ⟨⟨i', j'⟩, ⟨h1, q, p, w, h2, h3, h4⟩, e⟩)
      · exact ⟨h1, q, p, w,
          by rw [List.getElem?_append_left (List.getElem?_eq_some_iff.mp h2).1]; exact h2, h3, h4⟩
      · simp only [Prod.mk.injEq] at e
        obtain ⟨rfl, rfl⟩ := e
        exact ⟨h1, q, p, w,
          by rw [List.getElem?_append_right (by simp), Nat.add_sub_cancel]; exact h2, h3, h4⟩
  · rw [Set.disjoint_left]
    rintro ⟨i, j⟩ ⟨-, q, p, w, h2, -, -⟩ ⟨⟨i', j'⟩, -, e⟩
    simp only [Prod.mk.injEq] at e
    have := (List.getElem?_eq_some_iff.mp h2).1
    simp only at this
    omega

theorem split_pairs {f fA fB : RDFFrame} (h : SplitPoints f fA fB) (lo hi : ℝ) :
    (pairsIn f.box f.pts f.qpts f.excl lo hi).ncard =
      (pairsIn fA.box fA.pts fA.qpts fA.excl lo hi).ncard +
      (pairsIn fB.box fB.pts fB.qpts fB.excl lo hi).ncard := by
  rw [h.boxA, h.boxB, h.pts, h.qptsA, h.qptsB, h.excl, h.exclA, h.exclB,
    pairsIn_eq f.box (fA.pts ++ fB.pts) f.qpts false (fun _ _ => True) lo hi (by simp),
    pairsIn_eq f.box fA.pts f.qpts false (fun _ _ => True) lo hi (by simp),
    pairsIn_eq f.box fB.pts f.qpts false (fun _ _ => True) lo hi (by simp), pairsWith_points]

theorem kinds_pairs {f fAA fAB fBA fBB : RDFFrame} (h : TwoKinds f fAA fAB fBA fBB) (lo hi : ℝ) :
    (pairsIn f.box f.pts f.qpts f.excl lo hi).ncard =
      (pairsIn fAA.box fAA.pts fAA.qpts fAA.excl lo hi).ncard +
      (pairsIn fAB.box fAB.pts fAB.qpts fAB.excl lo hi).ncard +
      ((pairsIn fBA.box fBA.pts fBA.qpts fBA.excl lo hi).ncard +
      (pairsIn fBB.box fBB.pts fBB.qpts fBB.excl lo hi).ncard) := by
  obtain ⟨b1, b2, b3, b4⟩ := h.boxes
  obtain ⟨x1, x2, x3, x4⟩ := h.excls
  rw [b1, b2, b3, b4, x1, x2, x3, x4, h.self, h.pts, h.selfA, h.selfB, h.ab.1, h.ab.2, h.ba.1, h.ba.2]
  generalize fAA.pts = A
  generalize fBB.pts = B
  generalize f.excl = e
  rw [pairsIn_eq f.box (A ++ B) (A ++ B) e (fun i j => e = true → j ≠ i) lo hi (fun _ _ _ _ => Iff.rfl),
    pairsWith_query, pairsWith_points, pairsWith_points]
  congr 2
  · rw [pairsIn_eq f.box B A false (fun i j => e = true → j + A.length ≠ i) lo hi]
    intro i hi j hj
    simp only [Bool.false_eq_true, ne_eq, false_implies, iff_true]
    omega
  · rw [pairsIn_eq f.box A B false (fun i j => e = true → j ≠ i + A.length) lo hi]
    intro i hi j hj
    simp only [Bool.false_eq_true, ne_eq, false_implies, iff_true]
    omega
  · rw [pairsIn_eq f.box B B e (fun i j => e = true → j + A.length ≠ i + A.length) lo hi]
    intro i hi j hj
    simp

/-! ### Radial distribution functions -/

theorem rdfGives (pi : ℝ) (bins : ℕ) (rMax rMin : ℝ) (hb : bins ≤ OVERFLOW_BIN) (mode : NormalizationMode)
    (fs : List RDFFrame) (hfs : ∀ f ∈ fs, f.OK rMax rMin) (last : RDFFrame) (hlast : fs.getLast? = some last)
    (hok : FrameOK mode ⟨last.box, last.pts.length, last.qpts.length⟩) :
    RDFGives pi bins rMax rMin mode fs
      (fun k => (((fs.map fun f => (pairsIn f.box f.pts f.qpts f.excl (edge rMin rMax bins k)
        (edge rMin rMax bins (k + 1))).ncard).sum : ℕ) : ℝ) /
            (last.pts.length * density mode ⟨last.box, last.pts.length, last.qpts.length⟩ *
              shellVolume pi last.box.is2D (edge rMin rMax bins k) (edge rMin rMax bins (k + 1)) * fs.length))
      (fun k => (((fs.map fun f => (pairsIn f.box f.pts f.qpts f.excl rMin
        (edge rMin rMax bins (k + 1))).ncard).sum : ℕ) : ℝ) / (last.qpts.length * fs.length)) := by
  intro a ha box0 order hord
  obtain ⟨s, s1, e1, e2, e3⟩ := C85_rdf pi bins rMax rMin a ha hb mode box0 fs hfs last hlast hok order hord
  refine ⟨s, s1, e1, e2, fun k hk => ?_⟩
  have := e3 k hk
  simp only at this
  rw [this.1, this.2]
  push_cast
  simp only [List.map_map, Function.comp_def, and_self]

/-- **C100**: the RDF around two lots of points is the mean of those around either, with the numbers of
points as weights; the numbers of neighbors add up. -/
theorem C100_rdf_points (pi : ℝ) (bins : ℕ) (rMax rMin : ℝ) (hb : bins ≤ OVERFLOW_BIN)
    (mode : NormalizationMode) (parts : List (RDFFrame × RDFFrame × RDFFrame))
    (hok : ∀ p ∈ parts, p.1.OK rMax rMin ∧ p.2.1.OK rMax rMin ∧ p.2.2.OK rMax rMin)
    (hsplit : ∀ p ∈ parts, SplitPoints p.1 p.2.1 p.2.2) (f fA fB : RDFFrame)
    (hlast : parts.getLast? = some (f, fA, fB))
    (hfA : FrameOK mode ⟨fA.box, fA.pts.length, fA.qpts.length⟩)
    (hfB : FrameOK mode ⟨fB.box, fB.pts.length, fB.qpts.length⟩) :
    ∃ g c gA cA gB cB, RDFGives pi bins rMax rMin mode (parts.map (·.1)) g c ∧
      RDFGives pi bins rMax rMin mode (parts.map (·.2.1)) gA cA ∧
      RDFGives pi bins rMax rMin mode (parts.map (·.2.2)) gB cB ∧
      ∀ k < bins, g k * (fA.pts.length + fB.pts.length) = gA k * fA.pts.length + gB k * fB.pts.length ∧
        c k = cA k + cB k := by
  have hm := List.mem_of_getLast? hlast
  have hsp := hsplit _ hm
  simp only at hsp
  have hlen : f.pts.length = fA.pts.length + fB.pts.length := by rw [hsp.pts, List.length_append]
  have hf : FrameOK mode ⟨f.box, f.pts.length, f.qpts.length⟩ := by
    obtain ⟨k1, k2, k3, k4⟩ := hfA
    simp only [hsp.qptsA, hsp.boxA] at k1 k2 k3 k4
    exact ⟨by simp only; omega, k2, k3, k4⟩
  have hsum : ∀ lo hi, ((parts.map (·.1)).map fun f => (pairsIn f.box f.pts f.qpts f.excl lo hi).ncard).sum =
      ((parts.map (·.2.1)).map fun f => (pairsIn f.box f.pts f.qpts f.excl lo hi).ncard).sum +
      ((parts.map (·.2.2)).map fun f => (pairsIn f.box f.pts f.qpts f.excl lo hi).ncard).sum := by
    intro lo hi
    rw [List.map_map, List.map_map, List.map_map, ← List.sum_map_add]
    refine congrArg _ (List.map_congr_left fun p hp => ?_)
    exact split_pairs (hsplit p hp) lo hi
  refine ⟨_, _, _, _, _, _, rdfGives pi bins rMax rMin hb mode _ ?_ f ?_ hf,
    rdfGives pi bins rMax rMin hb mode _ ?_ fA ?_ hfA, rdfGives pi bins rMax rMin hb mode _ ?_ fB ?_ hfB, ?_⟩
  · simp only [List.mem_map]; rintro _ ⟨p, hp, rfl⟩; exact (hok p hp).1
  · rw [List.getLast?_map, hlast]; rfl
  · simp only [List.mem_map]; rintro _ ⟨p, hp, rfl⟩; exact (hok p hp).2.1
  · rw [List.getLast?_map, hlast]; rfl
  · simp only [List.mem_map]; rintro _ ⟨p, hp, rfl⟩; exact (hok p hp).2.2
  · rw [List.getLast?_map, hlast]; rfl
  intro k hk
  have hd : ∀ n : ℕ, density mode ⟨f.box, n, f.qpts.length⟩ = density mode ⟨f.box, f.pts.length, f.qpts.length⟩ := by
    intro n; cases mode <;> rfl
  have nA : (fA.pts.length : ℝ) ≠ 0 := by have := hfA.points; simp only at this; exact_mod_cast (by omega : _ ≠ 0)
  have nB : (fB.pts.length : ℝ) ≠ 0 := by have := hfB.points; simp only at this; exact_mod_cast (by omega : _ ≠ 0)
  have nAB : (fA.pts.length : ℝ) + fB.pts.length ≠ 0 := by positivity
  constructor
  · rw [hsum, hsp.boxA, hsp.boxB, hsp.qptsA, hsp.qptsB, hd fA.pts.length, hd fB.pts.length, List.length_map,
      List.length_map, List.length_map]
    generalize (density mode _ : ℝ) = d
    generalize (shellVolume pi _ _ _ : ℝ) = V
    rw [hlen]
    push_cast
    simp only [div_eq_mul_inv, mul_inv]
    field_simp
  · rw [hsum, hsp.qptsA, hsp.qptsB, List.length_map, List.length_map, List.length_map]
    push_cast
    rw [add_div]

/-- **C100**: the RDF of a system of two kinds of particles is made of the partial ones: with `N` particles
of which `N_A` and `N_B` are of either kind, `N² g = N_A² g_AA + N_A N_B (g_AB + g_BA) + N_B² g_BB` in every
bin, and `N n = N_A (n_AA + n_AB) + N_B (n_BA + n_BB)` for the mean numbers of neighbors. -/
theorem C100_rdf_kinds (pi : ℝ) (bins : ℕ) (rMax rMin : ℝ) (hb : bins ≤ OVERFLOW_BIN)
    (parts : List (RDFFrame × RDFFrame × RDFFrame × RDFFrame × RDFFrame))
    (hok : ∀ p ∈ parts, p.1.OK rMax rMin ∧ p.2.1.OK rMax rMin ∧ p.2.2.1.OK rMax rMin ∧
      p.2.2.2.1.OK rMax rMin ∧ p.2.2.2.2.OK rMax rMin)
    (hsplit : ∀ p ∈ parts, TwoKinds p.1 p.2.1 p.2.2.1 p.2.2.2.1 p.2.2.2.2) (f fAA fAB fBA fBB : RDFFrame)
    (hlast : parts.getLast? = some (f, fAA, fAB, fBA, fBB)) (hA : fAA.pts ≠ []) (hB : fBB.pts ≠ [])
    (hvol : 0 < f.box.getVolume) :
    ∃ g c gAA cAA gAB cAB gBA cBA gBB cBB, RDFGives pi bins rMax rMin .exact (parts.map (·.1)) g c ∧
      RDFGives pi bins rMax rMin .exact (parts.map (·.2.1)) gAA cAA ∧
      RDFGives pi bins rMax rMin .exact (parts.map (·.2.2.1)) gAB cAB ∧
      RDFGives pi bins rMax rMin .exact (parts.map (·.2.2.2.1)) gBA cBA ∧
      RDFGives pi bins rMax rMin .exact (parts.map (·.2.2.2.2)) gBB cBB ∧
      ∀ k < bins,
        g k * (fAA.pts.length + fBB.pts.length) ^ 2 = gAA k * fAA.pts.length ^ 2 +
          (gAB k + gBA k) * (fAA.pts.length * fBB.pts.length) + gBB k * fBB.pts.length ^ 2 ∧
        c k * (fAA.pts.length + fBB.pts.length) = (cAA k + cAB k) * fAA.pts.length +
          (cBA k + cBB k) * fBB.pts.length := by
  have hsp := hsplit _ (List.mem_of_getLast? hlast)
  simp only at hsp
  obtain ⟨b1, b2, b3, b4⟩ := hsp.boxes
  have lA := List.length_pos_iff.mpr hA
  have lB := List.length_pos_iff.mpr hB
  have hlen : f.pts.length = fAA.pts.length + fBB.pts.length := by rw [hsp.pts, List.length_append]
  have hsum : ∀ lo hi, ((parts.map (·.1)).map fun f => (pairsIn f.box f.pts f.qpts f.excl lo hi).ncard).sum =
      ((parts.map (·.2.1)).map fun f => (pairsIn f.box f.pts f.qpts f.excl lo hi).ncard).sum +
      ((parts.map (·.2.2.1)).map fun f => (pairsIn f.box f.pts f.qpts f.excl lo hi).ncard).sum +
      (((parts.map (·.2.2.2.1)).map fun f => (pairsIn f.box f.pts f.qpts f.excl lo hi).ncard).sum +
      ((parts.map (·.2.2.2.2)).map fun f => (pairsIn f.box f.pts f.qpts f.excl lo hi).ncard).sum) := by
    intro lo hi
    simp only [List.map_map]
    rw [← List.sum_map_add, ← List.sum_map_add, ← List.sum_map_add]
    refine congrArg _ (List.map_congr_left fun p hp => ?_)
    exact kinds_pairs (hsplit p hp) lo hi
  refine ⟨_, _, _, _, _, _, _, _, _, _, rdfGives pi bins rMax rMin hb _ _ ?_ f ?_ ?_,
    rdfGives pi bins rMax rMin hb _ _ ?_ fAA ?_ ?_, rdfGives pi bins rMax rMin hb _ _ ?_ fAB ?_ ?_,
    rdfGives pi bins rMax rMin hb _ _ ?_ fBA ?_ ?_, rdfGives pi bins rMax rMin hb _ _ ?_ fBB ?_ ?_, ?_⟩
  · simp only [List.mem_map]; rintro _ ⟨p, hp, rfl⟩; exact (hok p hp).1
  · rw [List.getLast?_map, hlast]; rfl
  · exact ⟨by simp only; omega, by simp only [hsp.self]; omega, by simp, hvol⟩
  · simp only [List.mem_map]; rintro _ ⟨p, hp, rfl⟩; exact (hok p hp).2.1
  · rw [List.getLast?_map, hlast]; rfl
  · exact ⟨lA, by simp only [hsp.selfA]; omega, by simp, by simpa only [b1] using hvol⟩
  · simp only [List.mem_map]; rintro _ ⟨p, hp, rfl⟩; exact (hok p hp).2.2.1
  · rw [List.getLast?_map, hlast]; rfl
  · exact ⟨by simp only [hsp.ab.2]; omega, by simp only [hsp.ab.1]; omega, by simp, by simpa only [b2] using hvol⟩
  · simp only [List.mem_map]; rintro _ ⟨p, hp, rfl⟩; exact (hok p hp).2.2.2.1
  · rw [List.getLast?_map, hlast]; rfl
  · exact ⟨by simp only [hsp.ba.2]; omega, by simp only [hsp.ba.1]; omega, by simp, by simpa only [b3] using hvol⟩
  · simp only [List.mem_map]; rintro _ ⟨p, hp, rfl⟩; exact (hok p hp).2.2.2.2
  · rw [List.getLast?_map, hlast]; rfl
  · exact ⟨lB, by simp only [hsp.selfB]; omega, by simp, by simpa only [b4] using hvol⟩
  intro k hk
  have nA : (fAA.pts.length : ℝ) ≠ 0 := by exact_mod_cast lA.ne'
  have nB : (fBB.pts.length : ℝ) ≠ 0 := by exact_mod_cast lB.ne'
  have nAB : (fAA.pts.length : ℝ) + fBB.pts.length ≠ 0 := by positivity
  constructor
  · rw [hsum, b1, b2, b3, b4, hsp.self, hsp.selfA, hsp.selfB, hsp.ab.1, hsp.ab.2, hsp.ba.1, hsp.ba.2]
    simp only [List.length_map, density]
    have hv := hvol.ne'
    generalize f.box.getVolume = W at *
    generalize (shellVolume pi _ _ _ : ℝ) = V
    rw [hlen]
    push_cast
    simp only [div_eq_mul_inv, mul_inv]
    field_simp
    try ring
  · rw [hsum, hsp.self, hsp.selfA, hsp.selfB, hsp.ab.1, hsp.ba.1]
    simp only [List.length_map]
    rw [hlen]
    push_cast
    simp only [div_eq_mul_inv, mul_inv]
    field_simp
    try ring

/-! ### Potentials of mean force -/

section PMFT
open PMFT

/-- The samples of a frame are those of its parts. -/
theorem samples_split {β : Type*} (S : D → D → ℝ → Vec3 ℝ → β) {f fA fB : DataFrame D} (h : f.OK)
    (hA : fA.OK) (hB : fB.OK) (hs : SplitData f fA fB) :
    ((bondsFrom f.src).map fun bd => S (f.data bd.p) (f.queryData bd.q) bd.dist bd.vec).Perm
      (((bondsFrom fA.src).map fun bd => S (fA.data bd.p) (fA.queryData bd.q) bd.dist bd.vec) ++
      (bondsFrom fB.src).map fun bd => S (fB.data bd.p) (fB.queryData bd.q) bd.dist bd.vec) := by
  have sA := hA.system
  have sB := hB.system
  have kA := hA.source
  have kB := hB.source
  have k := h.source
  rw [hs.boxA, hs.qptsA] at sA
  rw [hs.boxB, hs.qptsB] at sB
  rw [hs.boxA, hs.qptsA, hs.exclA, hs.cutoffA, hs.innerA] at kA
  rw [hs.boxB, hs.qptsB, hs.exclB, hs.cutoffB, hs.innerB] at kB
  rw [hs.pts, hs.excl] at k
  have hb := C100_bonds_points f.box fA.pts fB.pts f.qpts sA sB f.cutoff f.inner h.inner0 h.half _ _ _ k kA kB
  refine (hb.map _).trans (List.Perm.of_eq ?_)
  rw [List.map_append, List.map_map]
  congr 1
  · refine List.map_congr_left fun bd hbd => ?_
    obtain ⟨e1, e2⟩ := hA.ends hbd
    rw [hs.dataA _ e2, hs.queryA _ (by rw [← hs.qptsA]; exact e1)]
  · refine List.map_congr_left fun bd hbd => ?_
    obtain ⟨e1, e2⟩ := hB.ends hbd
    simp only [Function.comp_apply, shifted, add_zero]
    rw [hs.dataB _ e2, hs.queryB _ (by rw [← hs.qptsB]; exact e1)]

theorem countIn_append (axes : List (RegularAxis ℝ)) (idx : List ℕ) (l l' : List (List ℝ)) :
    countIn axes idx (l ++ l') = countIn axes idx l + countIn axes idx l' := by
  classical
  unfold countIn
  rw [List.filter_append, List.length_append]

theorem countIn_flatMap {β : Type*} (axes : List (RegularAxis ℝ)) (idx : List ℕ) (l : List β)
    (F : β → List (List ℝ)) : countIn axes idx (l.flatMap F) = (l.map fun x => countIn axes idx (F x)).sum := by
  induction l with
  | nil => simp [countIn]
  | cons x l ih => rw [List.flatMap_cons, countIn_append, ih, List.map_cons, List.sum_cons]

theorem pmft_gives (S : D → D → ℝ → Vec3 ℝ → List ℝ) (g : PMFT.Grid ℝ) (hax : ∀ a ∈ g.axes, AxisOK a)
    (hS : ∀ d q r v, (S d q r v).length = g.axes.length)
    (hs : (g.axes.map (·.nbins)).prod ≤ OVERFLOW_BIN) (fs : List (DataFrame D)) (hfs : ∀ f ∈ fs, f.OK)
    (h2 : ∀ f ∈ fs, f.box.is2D = true) (f : DataFrame D) (hf : fs.getLast? = some f) :
    PMFT2DGives g (fs.map (callOf S)) fun idx =>
      (((fs.map fun f => countIn g.axes idx ((bondsFrom f.src).map fun bd =>
        S (f.data bd.p) (f.queryData bd.q) bd.dist bd.vec)).sum : ℕ) : ℝ) *
        (f.box.getVolume / (f.qpts.length : ℝ) * (1 / ((fs.length : ℝ) * (f.pts.length : ℝ))) *
          g.jf (rowMajor idx (g.axes.map (·.nbins)))) := by
  intro box0 order hord
  have hfr : ∀ (fs : List (DataFrame D)) acc, (∀ f ∈ fs, f.box.is2D = true) →
      frames2D ((fs.map (callOf S)).map PMFT.Op.accumulate) acc =
        acc ++ fs.map fun f => frameOf (callOf S f) := by
    intro fs
    induction fs with
    | nil => simp [frames2D]
    | cons f fs ih =>
      intro acc h
      rw [List.map_cons, List.map_cons, frames2D, if_pos (by exact h f List.mem_cons_self),
        ih _ fun a ha => h a (List.mem_cons_of_mem _ ha)]
      simp
  obtain ⟨s, s1, e1, e2, -, e4⟩ := pmft2D_read g hax hs box0 ((fs.map (callOf S)).map .accumulate) (by
      intro o ho
      obtain ⟨a, ha, rfl⟩ := List.mem_map.mp ho
      obtain ⟨f, hf, rfl⟩ := List.mem_map.mp ha
      refine ⟨(hfs f hf).exec, fun i _ s hs => ?_, by simp [callOf, attemptFrom, NO_NUMBER]⟩
      obtain ⟨bd, -, rfl⟩ := List.mem_map.mp hs
      exact hS _ _ _ _) order hord
    (frameOf (callOf S f)) (by rw [hfr _ _ h2, List.nil_append, List.getLast?_map, hf]; rfl)
  refine ⟨s, s1, e1, e2, fun idx hi => ?_⟩
  rw [e4 idx hi, hfr _ _ h2, List.nil_append, List.flatMap_map, countIn_flatMap, List.length_map]
  simp only [callOf_samples]
  rfl

theorem pmft_split (S : D → D → ℝ → Vec3 ℝ → List ℝ) (g : PMFT.Grid ℝ) (hax : ∀ a ∈ g.axes, AxisOK a)
    (hS : ∀ d q r v, (S d q r v).length = g.axes.length)
    (hs : (g.axes.map (·.nbins)).prod ≤ OVERFLOW_BIN)
    (parts : List (DataFrame D × DataFrame D × DataFrame D))
    (hok : ∀ p ∈ parts, p.1.OK ∧ p.2.1.OK ∧ p.2.2.OK) (h2 : ∀ p ∈ parts, p.1.box.is2D = true)
    (hsplit : ∀ p ∈ parts, SplitData p.1 p.2.1 p.2.2) (f fA fB : DataFrame D)
    (hlast : parts.getLast? = some (f, fA, fB)) :
    ∃ w wA wB, PMFT2DGives g ((parts.map (·.1)).map (callOf S)) w ∧
      PMFT2DGives g ((parts.map (·.2.1)).map (callOf S)) wA ∧
      PMFT2DGives g ((parts.map (·.2.2)).map (callOf S)) wB ∧
      ∀ idx, ValidIndex idx (g.axes.map (·.nbins)) →
        w idx * (fA.pts.length + fB.pts.length) = wA idx * fA.pts.length + wB idx * fB.pts.length := by
  have hm := List.mem_of_getLast? hlast
  have hsp := hsplit _ hm
  simp only at hsp
  obtain ⟨-, oA, oB⟩ := hok _ hm
  simp only at oA oB
  refine ⟨_, _, _, pmft_gives S g hax hS hs _ ?_ ?_ f ?_, pmft_gives S g hax hS hs _ ?_ ?_ fA ?_,
    pmft_gives S g hax hS hs _ ?_ ?_ fB ?_, ?_⟩
  · simp only [List.mem_map]; rintro _ ⟨p, hp, rfl⟩; exact (hok p hp).1
  · simp only [List.mem_map]; rintro _ ⟨p, hp, rfl⟩; exact h2 p hp
  · rw [List.getLast?_map, hlast]; rfl
  · simp only [List.mem_map]; rintro _ ⟨p, hp, rfl⟩; exact (hok p hp).2.1
  · simp only [List.mem_map]; rintro _ ⟨p, hp, rfl⟩; rw [(hsplit p hp).boxA]; exact h2 p hp
  · rw [List.getLast?_map, hlast]; rfl
  · simp only [List.mem_map]; rintro _ ⟨p, hp, rfl⟩; exact (hok p hp).2.2
  · simp only [List.mem_map]; rintro _ ⟨p, hp, rfl⟩; rw [(hsplit p hp).boxB]; exact h2 p hp
  · rw [List.getLast?_map, hlast]; rfl
  intro idx hi
  have hsum : ((parts.map (·.1)).map fun f => countIn g.axes idx ((bondsFrom f.src).map fun bd =>
        S (f.data bd.p) (f.queryData bd.q) bd.dist bd.vec)).sum =
      ((parts.map (·.2.1)).map fun f => countIn g.axes idx ((bondsFrom f.src).map fun bd =>
        S (f.data bd.p) (f.queryData bd.q) bd.dist bd.vec)).sum +
      ((parts.map (·.2.2)).map fun f => countIn g.axes idx ((bondsFrom f.src).map fun bd =>
        S (f.data bd.p) (f.queryData bd.q) bd.dist bd.vec)).sum := by
    rw [List.map_map, List.map_map, List.map_map, ← List.sum_map_add]
    refine congrArg _ (List.map_congr_left fun p hp => ?_)
    simp only [Function.comp_apply]
    rw [← countIn_append]
    exact countIn_perm (samples_split S (hok p hp).1 (hok p hp).2.1 (hok p hp).2.2 (hsplit p hp))
  have hlen : f.pts.length = fA.pts.length + fB.pts.length := by rw [hsp.pts, List.length_append]
  have nA : (fA.pts.length : ℝ) ≠ 0 := by exact_mod_cast (List.length_pos_iff.mpr oA.points).ne'
  have nB : (fB.pts.length : ℝ) ≠ 0 := by exact_mod_cast (List.length_pos_iff.mpr oB.points).ne'
  have nAB : (fA.pts.length : ℝ) + fB.pts.length ≠ 0 := by positivity
  rw [hsum, hsp.boxA, hsp.boxB, hsp.qptsA, hsp.qptsB, hlen]
  simp only [List.length_map]
  push_cast
  generalize (List.sum _ : ℝ) = x
  generalize (List.sum _ : ℝ) = y
  simp only [div_eq_mul_inv, mul_inv]
  field_simp

/-- **C100**: the `PMFTXY` around two lots of points is the mean of those around either, with the numbers of
points as weights. -/
theorem C100_pmft_xy (T : Trig ℝ) (xMax yMax : ℝ) (hx : 0 < xMax) (hy : 0 < yMax) (nx ny : ℕ)
    (g : PMFT.Grid ℝ) (hg : mkXY xMax yMax nx ny = some g) (hn : nx * ny ≤ OVERFLOW_BIN)
    (parts : List (DataFrame ℝ × DataFrame ℝ × DataFrame ℝ))
    (hok : ∀ p ∈ parts, p.1.OK ∧ p.2.1.OK ∧ p.2.2.OK) (h2 : ∀ p ∈ parts, p.1.box.is2D = true)
    (hsplit : ∀ p ∈ parts, SplitData p.1 p.2.1 p.2.2) (f fA fB : DataFrame ℝ)
    (hlast : parts.getLast? = some (f, fA, fB)) :
    let calls := fun fs : List (DataFrame ℝ) => fs.map fun f => xyFrom T f.info f.queryData f.src f.ev
    ∃ w wA wB, PMFT2DGives g (calls (parts.map (·.1))) w ∧ PMFT2DGives g (calls (parts.map (·.2.1))) wA ∧
      PMFT2DGives g (calls (parts.map (·.2.2))) wB ∧ ∀ i < nx, ∀ j < ny,
        w [i, j] * (fA.pts.length + fB.pts.length) = wA [i, j] * fA.pts.length + wB [i, j] * fB.pts.length := by
  obtain ⟨e, hax⟩ := xy_axes hx hy hg hn
  have hp : (g.axes.map (·.nbins)).prod = nx * ny := by rw [e]; simp
  obtain ⟨w, wA, wB, k1, k2, k3, k4⟩ := pmft_split (fun _ q r v => sampleXY T (fun _ => q) ⟨0, 0, r, 1, v⟩) g hax
    (fun d q r v => by rw [e]; rfl) (by rw [hp]; exact hn) parts hok h2 hsplit f fA fB hlast
  exact ⟨w, wA, wB, k1, k2, k3, fun i hi j hj => k4 [i, j] (by rw [e]; simp [ValidIndex, hi, hj])⟩

/-- **C100**: and so for `PMFTXYT`. -/
theorem C100_pmft_xyt (T : Trig ℝ) (hT : 0 < T.twoPi) (xMax yMax : ℝ) (hx : 0 < xMax) (hy : 0 < yMax)
    (nx ny nt : ℕ) (g : PMFT.Grid ℝ) (hg : mkXYT T xMax yMax nx ny nt = some g)
    (hn : nx * (ny * nt) ≤ OVERFLOW_BIN) (parts : List (DataFrame ℝ × DataFrame ℝ × DataFrame ℝ))
    (hok : ∀ p ∈ parts, p.1.OK ∧ p.2.1.OK ∧ p.2.2.OK) (h2 : ∀ p ∈ parts, p.1.box.is2D = true)
    (hsplit : ∀ p ∈ parts, SplitData p.1 p.2.1 p.2.2) (f fA fB : DataFrame ℝ)
    (hlast : parts.getLast? = some (f, fA, fB)) :
    let calls := fun fs : List (DataFrame ℝ) => fs.map fun f => xytFrom T f.info f.data f.queryData f.src f.ev
    ∃ w wA wB, PMFT2DGives g (calls (parts.map (·.1))) w ∧ PMFT2DGives g (calls (parts.map (·.2.1))) wA ∧
      PMFT2DGives g (calls (parts.map (·.2.2))) wB ∧ ∀ i < nx, ∀ j < ny, ∀ k < nt,
        w [i, j, k] * (fA.pts.length + fB.pts.length) =
          wA [i, j, k] * fA.pts.length + wB [i, j, k] * fB.pts.length := by
  obtain ⟨e, hax⟩ := xyt_axes hT hx hy hg hn
  have hp : (g.axes.map (·.nbins)).prod = nx * (ny * nt) := by rw [e]; simp
  obtain ⟨w, wA, wB, k1, k2, k3, k4⟩ := pmft_split
    (fun d q r v => sampleXYT T (fun _ => d) (fun _ => q) ⟨0, 0, r, 1, v⟩) g hax
    (fun d q r v => by rw [e]; rfl) (by rw [hp]; exact hn) parts hok h2 hsplit f fA fB hlast
  exact ⟨w, wA, wB, k1, k2, k3, fun i hi j hj k hk => k4 [i, j, k] (by rw [e]; simp [ValidIndex, hi, hj, hk])⟩

/-- **C100**: and so for `PMFTR12`. -/
theorem C100_pmft_r12 (T : Trig ℝ) (hT : 0 < T.twoPi) (rMax : ℝ) (hr : 0 < rMax) (nr nt1 nt2 : ℕ)
    (g : PMFT.Grid ℝ) (hg : mkR12 T rMax nr nt1 nt2 = some g) (hn : nr * (nt1 * nt2) ≤ OVERFLOW_BIN)
    (parts : List (DataFrame ℝ × DataFrame ℝ × DataFrame ℝ))
    (hok : ∀ p ∈ parts, p.1.OK ∧ p.2.1.OK ∧ p.2.2.OK) (h2 : ∀ p ∈ parts, p.1.box.is2D = true)
    (hsplit : ∀ p ∈ parts, SplitData p.1 p.2.1 p.2.2) (f fA fB : DataFrame ℝ)
    (hlast : parts.getLast? = some (f, fA, fB)) :
    let calls := fun fs : List (DataFrame ℝ) => fs.map fun f => r12From T f.info f.data f.queryData f.src f.ev
    ∃ w wA wB, PMFT2DGives g (calls (parts.map (·.1))) w ∧ PMFT2DGives g (calls (parts.map (·.2.1))) wA ∧
      PMFT2DGives g (calls (parts.map (·.2.2))) wB ∧ ∀ i < nr, ∀ j < nt1, ∀ k < nt2,
        w [i, j, k] * (fA.pts.length + fB.pts.length) =
          wA [i, j, k] * fA.pts.length + wB [i, j, k] * fB.pts.length := by
  obtain ⟨e, hax⟩ := r12_axes hT hr hg hn
  have hp : (g.axes.map (·.nbins)).prod = nr * (nt1 * nt2) := by rw [e]; simp
  obtain ⟨w, wA, wB, k1, k2, k3, k4⟩ := pmft_split
    (fun d q r v => sampleR12 T (fun _ => d) (fun _ => q) ⟨0, 0, r, 1, v⟩) g hax
    (fun d q r v => by rw [e]; rfl) (by rw [hp]; exact hn) parts hok h2 hsplit f fA fB hlast
  exact ⟨w, wA, wB, k1, k2, k3, fun i hi j hj k hk => k4 [i, j, k] (by rw [e]; simp [ValidIndex, hi, hj, hk])⟩

/-! ### A case that meets the hypotheses: two particles of different kinds, in a square -/

theorem exists_part (A B : List (Vec3 ℝ)) (hA : A ≠ []) (hB : B ≠ []) (sA : A ⊆ facePair) (sB : B ⊆ facePair)
    (e : Bool) (data queryData : ℕ → D) : ∃ f : DataFrame D, f.OK ∧ f.box = Box.mk' 10 10 0 0 0 0 true ∧
    f.pts = A ∧ f.qpts = B ∧ f.excl = e ∧ f.data = data ∧ f.queryData = queryData ∧ f.cutoff = 2 ∧ f.inner = 0 := by
  obtain ⟨f0, -, h, -, -, eb, ep, -⟩ := exists_same_square (0 : ℕ) 1
  have hsys := h.system
  have hhalf : BelowHalf (Box.mk' 10 10 0 0 0 0 true : Box ℝ) 2 := by
    refine ⟨fun _ => ?_, fun _ => ?_, fun _ h => by cases h⟩ <;>
      simp [Box.mk', Box.setL, Box.getNearestPlaneDistance] <;> norm_num
  rw [eb, ep] at hsys
  obtain ⟨src, ev, h1⟩ := exists_frame (D := D) (b := Box.mk' 10 10 0 0 0 0 true) (pts := A)
    (qpts := B) ⟨⟨hsys.inBox.valid, hsys.inBox.pos, fun p hp => hsys.inBox.inside p (sA hp)⟩, hsys.periodic,
      fun p hp => hsys.inBox.inside p (sB hp)⟩ hA hB le_rfl
    (show (0 : ℝ) < 2 by norm_num) hhalf e data queryData
  exact ⟨_, h1, rfl, rfl, rfl, rfl, rfl, rfl, rfl, rfl⟩

-- `C100_pmft_xy`, `C100_pmft_xyt`, `C100_pmft_r12`
example : ∃ f fA fB : DataFrame ℝ, f.OK ∧ fA.OK ∧ fB.OK ∧ SplitData f fA fB ∧ f.box.is2D = true ∧
    f.pts = facePair ∧ fA.pts.length = 1 ∧ fB.pts.length = 1 ∧ f.data 1 = 5 := by
  obtain ⟨f, h, a1, a2, a3, a4, a5, a6, a7, a8⟩ := exists_part facePair facePair (by simp [facePair])
    (by simp [facePair]) (fun _ h => h) (fun _ h => h) false (fun i => if i = 0 then (3 : ℝ) else 5) (fun _ => 7)
  obtain ⟨fA, hA, b1, b2, b3, b4, b5, b6, b7, b8⟩ := exists_part [facePair[0]] facePair (by simp)
    (by simp [facePair]) (by simp [facePair]) (fun _ h => h) false (fun _ => (3 : ℝ)) (fun _ => 7)
  obtain ⟨fB, hB, c1, c2, c3, c4, c5, c6, c7, c8⟩ := exists_part [facePair[1]] facePair (by simp)
    (by simp [facePair]) (by simp [facePair]) (fun _ h => h) false (fun _ => (5 : ℝ)) (fun _ => 7)
  refine ⟨f, fA, fB, h, hA, hB, ⟨by rw [a1, b1], by rw [a1, c1], by rw [a2, b2, c2]; rfl, by rw [a3, b3],
    by rw [a3, c3], fun i hi => ?_, fun i hi => ?_, by simp [a6, b6], by simp [a6, c6], a4, b4, c4,
    by rw [a7, b7], by rw [a7, c7], by rw [a8, b8], by rw [a8, c8]⟩, by rw [a1]; rfl, a2, by rw [b2]; rfl,
    by rw [c2]; rfl, by rw [a5]; simp⟩
  · rw [b2] at hi
    have : i = 0 := by simpa using hi
    simp [a5, b5, this]
  · rw [c2] at hi
    have : i = 0 := by simpa using hi
    simp [a5, c5, this, b2]

/-- A frame for `RDF`. -/
theorem exists_rdf_part (A B : List (Vec3 ℝ)) (hA : A ≠ []) (hB : B ≠ []) (sA : A ⊆ facePair)
    (sB : B ⊆ facePair) (e : Bool) : ∃ f : RDFFrame, f.OK 2 0 ∧ f.box = Box.mk' 10 10 0 0 0 0 true ∧
    f.pts = A ∧ f.qpts = B ∧ f.excl = e := by
  obtain ⟨f, h, a1, a2, a3, a4, -, -, a7, a8⟩ := exists_part A B hA hB sA sB e (fun _ => ()) (fun _ => ())
  exact ⟨⟨f.box, f.pts, f.qpts, f.excl, f.cutoff, f.inner, f.src, f.ev⟩,
    ⟨h.system, h.half, h.inner0, a8.le, a7.ge, h.source, h.exec⟩, a1, a2, a3, a4⟩

-- `C100_rdf_kinds`: with the pairs of a particle with itself excluded
example : ∃ f fAA fAB fBA fBB : RDFFrame, f.OK 2 0 ∧ fAA.OK 2 0 ∧ fAB.OK 2 0 ∧ fBA.OK 2 0 ∧ fBB.OK 2 0 ∧
    TwoKinds f fAA fAB fBA fBB ∧ fAA.pts ≠ [] ∧ fBB.pts ≠ [] ∧ f.excl = true ∧ 0 < f.box.getVolume := by
  obtain ⟨f, h, a1, a2, a3, a4⟩ := exists_rdf_part facePair facePair (by simp [facePair])
    (by simp [facePair]) (fun _ h => h) (fun _ h => h) true
  obtain ⟨fAA, h1, b1, b2, b3, b4⟩ := exists_rdf_part [facePair[0]] [facePair[0]] (by simp) (by simp)
    (by simp [facePair]) (by simp [facePair]) true
  obtain ⟨fAB, h2, c1, c2, c3, c4⟩ := exists_rdf_part [facePair[1]] [facePair[0]] (by simp) (by simp)
    (by simp [facePair]) (by simp [facePair]) false
  obtain ⟨fBA, h3, d1, d2, d3, d4⟩ := exists_rdf_part [facePair[0]] [facePair[1]] (by simp) (by simp)
    (by simp [facePair]) (by simp [facePair]) false
  obtain ⟨fBB, h4, e1, e2, e3, e4⟩ := exists_rdf_part [facePair[1]] [facePair[1]] (by simp) (by simp)
    (by simp [facePair]) (by simp [facePair]) true
  refine ⟨f, fAA, fAB, fBA, fBB, h, h1, h2, h3, h4, ⟨⟨by rw [a1, b1], by rw [a1, c1], by rw [a1, d1],
    by rw [a1, e1]⟩, by rw [a2, a3], by rw [a2, b2, e2]; rfl, by rw [b2, b3], by rw [e2, e3],
    ⟨by rw [c3, b2], by rw [c2, e2]⟩, ⟨by rw [d3, e2], by rw [d2, b2]⟩,
    ⟨by rw [a4, b4], by rw [a4, e4], c4, d4⟩⟩, by simp [b2], by simp [e2], a4, ?_⟩
  simp [a1, Box.getVolume, Box.mk', Box.setL]

-- `C100_rdf_points`, in both modes
example (mode : NormalizationMode) : ∃ f fA fB : RDFFrame, f.OK 2 0 ∧ fA.OK 2 0 ∧ fB.OK 2 0 ∧
    SplitPoints f fA fB ∧ f.pts = facePair ∧ FrameOK mode ⟨fA.box, fA.pts.length, fA.qpts.length⟩ ∧
    FrameOK mode ⟨fB.box, fB.pts.length, fB.qpts.length⟩ := by
  obtain ⟨f, h, a1, a2, a3, a4⟩ := exists_rdf_part facePair facePair (by simp [facePair])
    (by simp [facePair]) (fun _ h => h) (fun _ h => h) false
  obtain ⟨fA, h1, b1, b2, b3, b4⟩ := exists_rdf_part [facePair[0]] facePair (by simp) (by simp [facePair])
    (by simp [facePair]) (fun _ h => h) false
  obtain ⟨fB, h2, c1, c2, c3, c4⟩ := exists_rdf_part [facePair[1]] facePair (by simp) (by simp [facePair])
    (by simp [facePair]) (fun _ h => h) false
  refine ⟨f, fA, fB, h, h1, h2, ⟨by rw [a1, b1], by rw [a1, c1], by rw [a2, b2, c2]; rfl, by rw [a3, b3],
    by rw [a3, c3], a4, b4, c4⟩, a2, ?_, ?_⟩
  · exact ⟨by simp [b2], by simp [b3, facePair], by simp [b3, facePair],
      by simp [b1, Box.getVolume, Box.mk', Box.setL]⟩
  · exact ⟨by simp [c2], by simp [c3, facePair], by simp [c3, facePair],
      by simp [c1, Box.getVolume, Box.mk', Box.setL]⟩

-- `C100_bonds_points`, `C100_bonds_query`, `C100_alone`: sources and systems as in the frames above
example : ∃ f f1 : DataFrame Unit, f.OK ∧ f1.OK ∧ f.qpts.length = 2 ∧ f1.box = f.box ∧ f1.pts = f.pts ∧
    (∃ q, f.qpts[1]? = some q ∧ f1.qpts = [q]) ∧ f.excl = false ∧ f1.excl = false := by
  obtain ⟨f, h, a1, a2, a3, a4, -⟩ := exists_part facePair facePair (by simp [facePair])
    (by simp [facePair]) (fun _ h => h) (fun _ h => h) false (fun _ => ()) (fun _ => ())
  obtain ⟨f1, h1, b1, b2, b3, b4, -⟩ := exists_part facePair [facePair[1]] (by simp [facePair]) (by simp)
    (fun _ h => h) (by simp [facePair]) false (fun _ => ()) (fun _ => ())
  exact ⟨f, f1, h, h1, by simp [a3, facePair], by rw [a1, b1], by rw [a2, b2],
    ⟨facePair[1], by rw [a3]; rfl, b3⟩, a4, b4⟩

end PMFT

end Freud
