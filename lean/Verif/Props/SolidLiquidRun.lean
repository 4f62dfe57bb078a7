import Verif.Model.SolidLiquidRun
import Verif.Spec.SolidLiquid
import Verif.Props.SolidLiquid
import Verif.Props.Harmonics

/-!
# C104: `SolidLiquid` from the points to its results
-/

namespace Freud
open Spec DSet

section
open scoped Classical

namespace SolidLiquid

open Steinhardt in
theorem harmonics_sum {l : ℕ} {Y : ℤ → Vec3 ℝ → ℂ} (hY : Harmonics l Y) {r r' : ℕ → ℂ} {L L' : List (ℝ × Vec3 ℝ)}
    (h : Holds Y l (some r) (some L)) (h' : Holds Y l (some r') (some L')) :
    ((List.range (2 * l + 1)).map fun k => (r k).re * (r' k).re + (r k).im * (r' k).im).sum =
      (2 * l + 1 : ℕ) / (4 * Real.pi) * dirOverlap l L L' := by
  have e : ((List.range (2 * l + 1)).map fun k => (r k).re * (r' k).re + (r k).im * (r' k).im).sum =
      ∑ k ∈ Finset.range (2 * l + 1), (r k * (starRingEnd ℂ) (r' k)).re := by
    rw [Finset.sum]
    congr 1
    simp [Complex.mul_re]
  rw [e, sum_slots]
  have h1 := sum_conj hY L L' h.1 h'.1
  have h2 := congrArg Complex.re h1
  rw [Complex.re_sum, Complex.ofReal_re] at h2
  rw [show dirOverlap l L L' = double l L L' from rfl, ← h2]
  refine Finset.sum_congr rfl fun m hm => ?_
  rw [Finset.mem_Icc] at hm
  rw [h.2 m hm.1 hm.2, h'.2 m hm.1 hm.2]

theorem qValue_zero {l : ℕ} {Y : ℤ → Vec3 ℝ → ℂ} (hY : Harmonics l Y) {L : List (ℝ × Vec3 ℝ)}
    (hL : Steinhardt.Units L) : qValue l L = 0 ↔ dirOverlap l L L = 0 :=
  Real.sqrt_eq_zero (Steinhardt.double_nonneg hY L hL)

/-- One bond: the number that is compared and the one that is shown. -/
theorem bond_spec {Y : ℤ → Vec3 ℝ → ℂ} (a : Args) (hY : Harmonics a.l Y) (rows : List Steinhardt.Row)
    (D : ℕ → Option (List (ℝ × Vec3 ℝ))) (i j : ℕ) (hi : Steinhardt.Holds Y a.l (rows.getD i none) (D i))
    (hj : Steinhardt.Holds Y a.l (rows.getD j none) (D j)) (q : List (Option ℝ))
    (qi : q.getD i none = (rows.getD i none).map (Steinhardt.ql a.l))
    (qj : q.getD j none = (rows.getD j none).map (Steinhardt.ql a.l)) :
    product a.params (harmonics rows) (norms q) i j = (bondValue a.normalizeQ a.l (D i) (D j)).getD 0 ∧
    shown a rows q i j (product a.params (harmonics rows) (norms q) i j) = bondValue a.normalizeQ a.l (D i) (D j) := by
  have hz : ∀ l : List ℕ, (l.map fun _ : ℕ => (0 : ℝ)).sum = 0 := by simp
  cases hri : rows.getD i none with
  | none =>
    rw [hri] at hi
    cases hDi : D i with
    | some L => rw [hDi] at hi; exact hi.elim
    | none =>
      refine ⟨?_, by unfold shown; rw [hri]; rfl⟩
      unfold product harmonics
      simp only [hri, zero_mul, add_zero, hz, bondValue, Option.getD_none, ite_self]
  | some r =>
    rw [hri] at hi
    cases hDi : D i with
    | none => rw [hDi] at hi; exact hi.elim
    | some L =>
      rw [hDi] at hi
      cases hrj : rows.getD j none with
      | none =>
        rw [hrj] at hj
        cases hDj : D j with
        | some L => rw [hDj] at hj; exact hj.elim
        | none =>
          refine ⟨?_, by unfold shown; rw [hri, hrj]; rfl⟩
          unfold product harmonics
          simp only [hrj, mul_zero, add_zero, hz, bondValue, Option.getD_none, zero_mul, ite_self]
      | some r' =>
        rw [hrj] at hj
        cases hDj : D j with
        | none => rw [hDj] at hj; exact hj.elim
        | some L' =>
          rw [hDj] at hj
          have ni : norms q i = qValue a.l L := by
            have := Steinhardt.ql_eq hY hi
            unfold norms
            rw [qi, hri, this]; rfl
          have nj : norms q j = qValue a.l L' := by
            have := Steinhardt.ql_eq hY hj
            unfold norms
            rw [qj, hrj, this]; rfl
          have hs := harmonics_sum hY hi hj
          have hprod : product a.params (harmonics rows) (norms q) i j =
              if a.normalizeQ then dirOverlap a.l L L' / (qValue a.l L * qValue a.l L')
              else (2 * a.l + 1 : ℕ) / (4 * Real.pi) * dirOverlap a.l L L' := by
            unfold product harmonics
            simp only [hri, hrj, Args.params, ni, nj]
            rw [hs]
            have h1 : ((2 * a.l + 1 : ℕ) : ℝ) ≠ 0 := by positivity
            have h2 := Real.pi_ne_zero
            split_ifs
            · rw [div_eq_mul_inv (dirOverlap _ _ _), div_eq_mul_inv _ (qValue _ _ * _)]
              field_simp
            · rfl
          have zi := qValue_zero hY hi.1
          have zj := qValue_zero hY hj.1
          rw [hprod]
          unfold shown
          rw [hri, hrj]
          simp only [ni, nj, bondValue]
          cases a.normalizeQ with
          | false => simp
          | true =>
            simp only [if_true, true_and]
            by_cases h0 : qValue a.l L * qValue a.l L' = 0
            · rw [if_pos h0, if_pos (by rw [mul_eq_zero, zi, zj] at h0; exact h0), h0]
              simp
            · rw [if_neg h0, if_neg (by rw [mul_eq_zero, zi, zj] at h0; exact h0)]
              exact ⟨rfl, rfl⟩

end SolidLiquid

/-- The bond parameter of particles `i` and `j` with these neighbors. -/
noncomputable def Spec.bondParameter (normalize : Bool) (l : ℕ) (b : Box ℝ) (points : List (Vec3 ℝ))
    (bonds : List (Bond ℝ)) (i j : ℕ) : Option ℝ :=
  bondValue normalize l (normalized (directions b points false bonds i)) (normalized (directions b points false bonds j))

/-- The number of bonds of particle `i` whose parameter is above the threshold. -/
noncomputable def Spec.solidBondCount (threshold : ℝ) (value : ℕ → ℕ → Option ℝ) (bonds : List (Bond ℝ)) (i : ℕ) : ℕ :=
  (bonds.filter fun b => b.q = i ∧ Above threshold (value b.q b.p)).length

/-- A bond above the threshold between two particles with at least `k` such bonds. -/
def Spec.SolidPair (threshold : ℝ) (k : ℕ) (value : ℕ → ℕ → Option ℝ) (bonds : List (Bond ℝ)) (b : Bond ℝ) : Prop :=
  Above threshold (value b.q b.p) ∧ k ≤ solidBondCount threshold value bonds b.q ∧
    k ≤ solidBondCount threshold value bonds b.p

/-- A computation that may happen: the Steinhardt computation is legal, the list is one of the points with themselves,
and the loop over the points runs every iteration once. -/
structure Spec.LegalSolid (l : ℕ) (c : Steinhardt.Call) (order : List ℕ) : Prop where
  base : LegalSteinhardt l c
  queries : c.nlist.numQueryPoints = c.points.length
  points : c.nlist.numPoints = c.points.length
  order : order.Perm (List.range c.points.length)

namespace SolidLiquid

theorem above_iff {thr : ℝ} (h : 0 ≤ thr) (v : Option ℝ) : v.getD 0 > thr ↔ Above thr v := by
  cases v with
  | none =>
    simp only [Option.getD_none, Above, reduceCtorEq, false_and, exists_false, iff_false, not_lt, gt_iff_lt]
    exact h
  | some x => simp [Above]

/-- What the Steinhardt step gives to the loops. -/
theorem run_core (sph : Steinhardt.Sph) (a : Args) (hthr : 0 ≤ a.qThreshold)
    (hf : FsphOK sph a.l (sphericalHarmonic a.l)) (history : List Steinhardt.Call)
    (hh : ∀ c ∈ history, LegalSteinhardt a.l c) (c : Steinhardt.Call) (order : List ℕ) (hc : LegalSolid a.l c order) :
    ∃ r qlm ql, Steinhardt.resultAfter sph a.steinhardt history c = some r ∧
      qlm = harmonics r.qlmi ∧ ql = norms (r.getQl a.steinhardt) ∧
      ∀ nb ∈ c.nlist.bonds,
        (product a.params qlm ql nb.q nb.p > a.qThreshold ↔
          Above a.qThreshold (bondParameter a.normalizeQ a.l c.box c.points c.nlist.bonds nb.q nb.p)) ∧
        shown a r.qlmi (r.getQl a.steinhardt) nb.q nb.p (product a.params qlm ql nb.q nb.p) =
          bondParameter a.normalizeQ a.l c.box c.points c.nlist.bonds nb.q nb.p := by
  obtain ⟨r, used, sys, e, hlen, hb, -, -, -, h1, -⟩ :=
    Steinhardt.result_spec (p := a.steinhardt) hf (by simp [Args.steinhardt]) history hh c hc.base
  refine ⟨r, _, _, e, rfl, rfl, fun nb hnb => ?_⟩
  have hq := hc.base.list.good.qlt nb hnb
  have hp := hc.base.list.good.plt nb hnb
  rw [hc.queries] at hq
  rw [hc.points] at hp
  have hget : ∀ i < c.points.length, (r.getQl a.steinhardt).getD i none =
      (r.qlmi.getD i none).map (Steinhardt.ql a.l) := by
    intro i hi
    have : r.getQl a.steinhardt = r.qlmi.map (Option.map (Steinhardt.ql a.l)) := h1
    rw [this, List.getD_eq_getElem?_getD, List.getD_eq_getElem?_getD, List.getElem?_map,
      List.getElem?_eq_getElem (by omega)]
    rfl
  have := bond_spec a (C101_harmonics a.l) r.qlmi (Steinhardt.dist a.steinhardt c false) nb.q nb.p (hb _ hq) (hb _ hp)
    (r.getQl a.steinhardt) (hget _ hq) (hget _ hp)
  refine ⟨?_, this.2⟩
  rw [this.1]
  exact above_iff hthr _

end SolidLiquid

/-- **C104** (values): after any history of calls, for every thread schedule, `ql_ij` holds for every bond the mean of the
Legendre polynomial of the cosines of the angles between the bonds of the two particles (divided by the geometric mean
of those of each particle with itself, or times `(2 l + 1) / (4 pi)` without normalization); `num_connections` counts
for every particle its bonds above the threshold; the clusters are made of the bonds above the threshold between
particles with at least `solid_threshold` of them. A value that is not a number is not above the threshold. -/
theorem C104_value (sph : Steinhardt.Sph) (a : SolidLiquid.Args) (hthr : 0 ≤ a.qThreshold)
    (hf : FsphOK sph a.l (sphericalHarmonic a.l)) (history : List Steinhardt.Call)
    (hh : ∀ c ∈ history, LegalSteinhardt a.l c) (c : Steinhardt.Call) (order : List ℕ) (hc : LegalSolid a.l c order) :
    ∃ r, SolidLiquid.run sph a history c order = some r ∧
      r.qlij = c.nlist.bonds.map (fun nb =>
        bondParameter a.normalizeQ a.l c.box c.points c.nlist.bonds nb.q nb.p) ∧
      r.connections = (List.range c.points.length).map (solidBondCount a.qThreshold
        (bondParameter a.normalizeQ a.l c.box c.points c.nlist.bonds) c.nlist.bonds) ∧
      r.clusterBonds.bonds = c.nlist.bonds.filter (fun nb => SolidPair a.qThreshold a.solidThreshold
        (bondParameter a.normalizeQ a.l c.box c.points c.nlist.bonds) c.nlist.bonds nb) ∧
      r.nlist = c.nlist := by
  obtain ⟨r, qlm, ql, e, e1, e2, h⟩ := SolidLiquid.run_core sph a hthr hf history hh c order hc
  obtain ⟨s, es, s1, s2, s3⟩ := C44_bonds a.params c.nlist hc.base.list.good (by rw [hc.queries, hc.points])
    qlm ql order (by rw [hc.queries]; exact hc.order)
  have hcount : ∀ i, solidCount c.nlist.bonds (SolidLiquid.product a.params qlm ql) a.params.qThreshold i =
      solidBondCount a.qThreshold (bondParameter a.normalizeQ a.l c.box c.points c.nlist.bonds) c.nlist.bonds i := by
    intro i
    unfold solidCount solidBondCount
    congr 1
    refine List.filter_congr fun nb hnb => ?_
    have := (h nb hnb).1
    rw [decide_eq_decide]
    exact and_congr Iff.rfl this
  refine ⟨_, by unfold SolidLiquid.run; rw [e, Option.bind_some, ← e1, ← e2, es, Option.map_some], ?_, ?_, ?_, rfl⟩
  · dsimp only
    rw [s1]
    apply List.ext_getElem
    · simp
    · intro i h1 h2
      rw [List.getElem_zipWith, List.getElem_map, List.getElem_map]
      exact (h _ (List.getElem_mem _)).2
  · dsimp only
    rw [s2, hc.points]
    exact List.map_congr_left fun i _ => hcount i
  · dsimp only
    rw [s3]
    unfold solidBonds
    refine List.filter_congr fun nb hnb => ?_
    have := (h nb hnb).1
    rw [decide_eq_decide, hcount, hcount]
    exact and_congr this Iff.rfl

namespace SolidLiquid

theorem dot_comm (u v : Vec3 ℝ) : Vec3.dot u v = Vec3.dot v u := by unfold Vec3.dot; ring

theorem dirOverlap_nil (l : ℕ) (L : List (ℝ × Vec3 ℝ)) : dirOverlap l L [] = 0 := by simp [dirOverlap]

theorem dirOverlap_comm (l : ℕ) (L L' : List (ℝ × Vec3 ℝ)) : dirOverlap l L L' = dirOverlap l L' L := by
  induction L with
  | nil => rw [dirOverlap_nil]; rfl
  | cons d L ih =>
    have h1 : dirOverlap l (d :: L) L' =
        (L'.map fun e => d.1 * e.1 * legendre l (Vec3.dot d.2 e.2)).sum + dirOverlap l L L' := rfl
    have h2 : dirOverlap l L' (d :: L) =
        (L'.map fun e => e.1 * d.1 * legendre l (Vec3.dot e.2 d.2) +
          (L.map fun f => e.1 * f.1 * legendre l (Vec3.dot e.2 f.2)).sum).sum := rfl
    rw [h1, h2, List.sum_map_add, ih]
    congr 2
    exact List.map_congr_left fun e _ => by rw [dot_comm, mul_comm d.1]

theorem bondValue_comm (normalize : Bool) (l : ℕ) (o o' : Option (List (ℝ × Vec3 ℝ))) :
    bondValue normalize l o o' = bondValue normalize l o' o := by
  cases o with
  | none => cases o' <;> rfl
  | some L =>
    cases o' with
    | none => rfl
    | some L' =>
      unfold bondValue
      simp only [dirOverlap_comm l L' L, or_comm, mul_comm (Real.sqrt (dirOverlap l L' L'))]

/-- The square of the overlap of two distributions is at most the product of those with themselves. -/
theorem dirOverlap_sq_le (l : ℕ) (L L' : List (ℝ × Vec3 ℝ)) (hL : Steinhardt.Units L) (hL' : Steinhardt.Units L') :
    |dirOverlap l L L'| ≤ Real.sqrt (dirOverlap l L L) * Real.sqrt (dirOverlap l L' L') := by
  have hscale : ∀ (t : ℝ) (M N : List (ℝ × Vec3 ℝ)),
      dirOverlap l (M.map fun d => (t * d.1, d.2)) N = t * dirOverlap l M N := by
    intro t M N
    unfold dirOverlap
    rw [List.map_map, ← List.sum_map_mul_left]
    congr 1
    refine List.map_congr_left fun d _ => ?_
    rw [Function.comp_apply, ← List.sum_map_mul_left]
    congr 1
    exact List.map_congr_left fun e _ => by ring
  have happ : ∀ M N P : List (ℝ × Vec3 ℝ), dirOverlap l (M ++ N) P = dirOverlap l M P + dirOverlap l N P := by
    intro M N P
    simp [dirOverlap]
  have hscale' : ∀ (t : ℝ) (M N : List (ℝ × Vec3 ℝ)),
      dirOverlap l N (M.map fun d => (t * d.1, d.2)) = t * dirOverlap l N M := by
    intro t M N
    rw [dirOverlap_comm, hscale, dirOverlap_comm]
  have happ' : ∀ M N P : List (ℝ × Vec3 ℝ), dirOverlap l P (M ++ N) = dirOverlap l P M + dirOverlap l P N := by
    intro M N P
    rw [dirOverlap_comm, happ, dirOverlap_comm l M, dirOverlap_comm l N]
  have hquad : ∀ s t : ℝ, 0 ≤ s * s * dirOverlap l L L + 2 * (s * t) * dirOverlap l L L' + t * t * dirOverlap l L' L' := by
    intro s t
    have h := Steinhardt.double_nonneg (C101_harmonics l)
      ((L.map fun d => (s * d.1, d.2)) ++ (L'.map fun d => (t * d.1, d.2))) (by
        intro d hd
        rcases List.mem_append.mp hd with hd | hd
        · obtain ⟨e, he, rfl⟩ := List.mem_map.mp hd
          exact hL e he
        · obtain ⟨e, he, rfl⟩ := List.mem_map.mp hd
          exact hL' e he)
    change 0 ≤ dirOverlap l _ _ at h
    simp only [happ, happ', hscale, hscale'] at h
    rw [dirOverlap_comm l L' L] at h
    nlinarith
  set A := dirOverlap l L L
  set B := dirOverlap l L' L'
  set C := dirOverlap l L L'
  have hA : 0 ≤ A := Steinhardt.double_nonneg (C101_harmonics l) L hL
  have hB : 0 ≤ B := Steinhardt.double_nonneg (C101_harmonics l) L' hL'
  rw [← Real.sqrt_mul hA]
  refine Real.abs_le_sqrt ?_
  by_cases hB0 : B = 0
  · have h1 := hquad 1 (-(A + 1) * C)
    have h2 := hquad C (-(A + 1))
    rw [hB0] at h1 h2 ⊢
    have h3 : C * C * (A + 2) ≤ 0 := by nlinarith
    nlinarith [mul_self_nonneg C, mul_nonneg (mul_self_nonneg C) hA]
  · have h1 := hquad B (-C)
    have hBpos : 0 < B := lt_of_le_of_ne hB (Ne.symm hB0)
    have h2 : 0 ≤ B * (A * B - C ^ 2) := by nlinarith
    have := nonneg_of_mul_nonneg_right h2 hBpos
    linarith

theorem units_normalized (b : Box ℝ) (points : List (Vec3 ℝ)) (bonds : List (Bond ℝ)) (i : ℕ) (L : List (ℝ × Vec3 ℝ))
    (h : normalized (directions b points false bonds i) = some L) : Steinhardt.Units L :=
  (Steinhardt.sub_normalized b points false bonds i (by simp) L h).1

end SolidLiquid

/-- **C104** (range): the normalized value of every bond that is a number lies between -1 and 1, for every threshold,
schedule and history. -/
theorem C104_range (sph : Steinhardt.Sph) (a : SolidLiquid.Args) (hthr : 0 ≤ a.qThreshold) (hnorm : a.normalizeQ = true)
    (hf : FsphOK sph a.l (sphericalHarmonic a.l)) (history : List Steinhardt.Call)
    (hh : ∀ c ∈ history, LegalSteinhardt a.l c) (c : Steinhardt.Call) (order : List ℕ) (hc : LegalSolid a.l c order) :
    ∃ r, SolidLiquid.run sph a history c order = some r ∧ ∀ x, some x ∈ r.qlij → -1 ≤ x ∧ x ≤ 1 := by
  obtain ⟨r, e, h1, -⟩ := C104_value sph a hthr hf history hh c order hc
  refine ⟨r, e, fun x hx => ?_⟩
  rw [h1, hnorm] at hx
  obtain ⟨nb, -, hv⟩ := List.mem_map.mp hx
  unfold bondParameter at hv
  cases hL : normalized (directions c.box c.points false c.nlist.bonds nb.q) with
  | none => rw [hL] at hv; cases hv
  | some L =>
    cases hL' : normalized (directions c.box c.points false c.nlist.bonds nb.p) with
    | none => rw [hL, hL'] at hv; cases hv
    | some L' =>
      rw [hL, hL'] at hv
      unfold bondValue at hv
      dsimp only at hv
      rw [if_pos rfl] at hv
      split_ifs at hv with h0
      cases hv
      push Not at h0
      have hu := SolidLiquid.units_normalized _ _ _ _ _ hL
      have hu' := SolidLiquid.units_normalized _ _ _ _ _ hL'
      have hA : 0 < dirOverlap a.l L L :=
        lt_of_le_of_ne (Steinhardt.double_nonneg (C101_harmonics a.l) L hu) (Ne.symm h0.1)
      have hB : 0 < dirOverlap a.l L' L' :=
        lt_of_le_of_ne (Steinhardt.double_nonneg (C101_harmonics a.l) L' hu') (Ne.symm h0.2)
      have hp := mul_pos (Real.sqrt_pos.mpr hA) (Real.sqrt_pos.mpr hB)
      have := abs_le.mp (SolidLiquid.dirOverlap_sq_le a.l L L' hu hu')
      constructor
      · rw [le_div_iff₀ hp]; linarith [this.1]
      · rw [div_le_one hp]; exact this.2

/-- **C104** (symmetry): a bond and the bond in the other direction have the same value, and one is above the threshold
exactly if the other is. -/
theorem C104_symmetric (sph : Steinhardt.Sph) (a : SolidLiquid.Args) (hthr : 0 ≤ a.qThreshold)
    (hf : FsphOK sph a.l (sphericalHarmonic a.l)) (history : List Steinhardt.Call)
    (hh : ∀ c ∈ history, LegalSteinhardt a.l c) (c : Steinhardt.Call) (order : List ℕ) (hc : LegalSolid a.l c order) :
    ∃ r, SolidLiquid.run sph a history c order = some r ∧
      ∀ (k k' : ℕ) (nb nb' : Bond ℝ), r.nlist.bonds[k]? = some nb → r.nlist.bonds[k']? = some nb' →
        nb'.q = nb.p → nb'.p = nb.q → r.qlij[k]? = r.qlij[k']? ∧ (nb ∈ r.clusterBonds.bonds ↔ nb' ∈ r.clusterBonds.bonds) := by
  obtain ⟨r, e, h1, -, h3, h4⟩ := C104_value sph a hthr hf history hh c order hc
  refine ⟨r, e, fun k k' nb nb' hk hk' hq hp => ?_⟩
  rw [h4] at hk hk'
  have hsym : ∀ i j, bondParameter a.normalizeQ a.l c.box c.points c.nlist.bonds i j =
      bondParameter a.normalizeQ a.l c.box c.points c.nlist.bonds j i := fun i j => SolidLiquid.bondValue_comm _ _ _ _
  refine ⟨?_, ?_⟩
  · rw [h1, List.getElem?_map, List.getElem?_map, hk, hk', Option.map_some, Option.map_some, hq, hp, hsym]
  · rw [h3, List.mem_filter, List.mem_filter]
    have m1 := List.mem_of_getElem? hk
    have m2 := List.mem_of_getElem? hk'
    simp only [m1, m2, true_and, decide_eq_true_eq]
    unfold SolidPair
    rw [hq, hp, hsym nb.p nb.q]
    tauto

namespace SolidLiquid

theorem dirOverlap_turned {R : Vec3 ℝ → Vec3 ℝ} (hR : ∀ u v, Vec3.dot (R u) (R v) = Vec3.dot u v) (l : ℕ)
    {L L' N N' : List (ℝ × Vec3 ℝ)} (h : List.Forall₂ (Steinhardt.Turned R) L L')
    (h' : List.Forall₂ (Steinhardt.Turned R) N N') : dirOverlap l L' N' = dirOverlap l L N := by
  unfold dirOverlap
  induction h with
  | nil => rfl
  | @cons d d' L L' hd _ ih =>
    rw [List.map_cons, List.map_cons, List.sum_cons, List.sum_cons, ih]
    congr 1
    clear ih
    induction h' with
    | nil => rfl
    | @cons e e' N N' he _ ih =>
      rw [List.map_cons, List.map_cons, List.sum_cons, List.sum_cons, ih, Steinhardt.dot_turned hR hd he, hd.1, he.1]

theorem bondValue_turned {R : Vec3 ℝ → Vec3 ℝ} (hR : ∀ u v, Vec3.dot (R u) (R v) = Vec3.dot u v) (normalize : Bool)
    (l : ℕ) {L L' N N' : Option (List (ℝ × Vec3 ℝ))} (h : Steinhardt.OptTurned R L L')
    (h' : Steinhardt.OptTurned R N N') : bondValue normalize l L' N' = bondValue normalize l L N := by
  match L, L', h with
  | none, none, _ => rfl
  | some L, some L', h =>
    match N, N', h' with
    | none, none, _ => rfl
    | some N, some N', h' =>
      unfold bondValue
      dsimp only
      rw [dirOverlap_turned hR l h h', dirOverlap_turned hR l h h, dirOverlap_turned hR l h' h']

end SolidLiquid

/-- **C104** (rotations): if all bond vectors are turned by one map that keeps scalar products (a rotation, or a rotation
with a mirror image), then nothing changes: not the value of any bond, not the number of connections of any particle,
not the bonds of the clusters; whatever was computed before and however the threads run. -/
theorem C104_rotation (sph : Steinhardt.Sph) (a : SolidLiquid.Args) (hthr : 0 ≤ a.qThreshold)
    (hf : FsphOK sph a.l (sphericalHarmonic a.l)) (history history' : List Steinhardt.Call)
    (hh : ∀ c ∈ history, LegalSteinhardt a.l c) (hh' : ∀ c ∈ history', LegalSteinhardt a.l c)
    (c c' : Steinhardt.Call) (order order' : List ℕ) (hc : LegalSolid a.l c order) (hc' : LegalSolid a.l c' order')
    (R : Vec3 ℝ → Vec3 ℝ) (hR : ∀ u v, Vec3.dot (R u) (R v) = Vec3.dot u v)
    (hrel : BondwiseRelated (fun v v' => v' = R v ∧ v ≠ ⟨0, 0, 0⟩) c.box c'.box c.points c'.points
      c.nlist c'.nlist) :
    ∃ r r', SolidLiquid.run sph a history c order = some r ∧ SolidLiquid.run sph a history' c' order' = some r' ∧
      r'.qlij = r.qlij ∧ r'.connections = r.connections ∧
      r'.clusterBonds.bonds.map (fun nb => (nb.q, nb.p)) = r.clusterBonds.bonds.map (fun nb => (nb.q, nb.p)) := by
  obtain ⟨r, e, h1, h2, h3, -⟩ := C104_value sph a hthr hf history hh c order hc
  obtain ⟨r', e', h1', h2', h3', -⟩ := C104_value sph a hthr hf history' hh' c' order' hc'
  have hv : bondParameter a.normalizeQ a.l c'.box c'.points c'.nlist.bonds =
      bondParameter a.normalizeQ a.l c.box c.points c.nlist.bonds := by
    funext i j
    exact SolidLiquid.bondValue_turned hR _ _ (Steinhardt.dist_turned a.steinhardt c c' hrel false i)
      (Steinhardt.dist_turned a.steinhardt c c' hrel false j)
  have hb := hrel.bonds
  have hbonds : ∀ (P : ℕ → ℕ → Bool), (c'.nlist.bonds.filter fun nb => P nb.q nb.p).map (fun nb => (nb.q, nb.p)) =
      (c.nlist.bonds.filter fun nb => P nb.q nb.p).map (fun nb => (nb.q, nb.p)) := by
    intro P
    revert hb
    generalize c.nlist.bonds = l
    generalize c'.nlist.bonds = l'
    intro hb
    induction hb with
    | nil => rfl
    | @cons nb nb' _ _ hnb _ ih =>
      by_cases h : P nb.q nb.p = true
      · rw [List.filter_cons_of_pos (p := fun nb : Bond ℝ => P nb.q nb.p) (a := nb) h, List.filter_cons_of_pos (by rw [hnb.1, hnb.2.1]; exact h),
          List.map_cons, List.map_cons, ih, hnb.1, hnb.2.1]
      · rw [List.filter_cons_of_neg (p := fun nb : Bond ℝ => P nb.q nb.p) (a := nb) h, List.filter_cons_of_neg (by rw [hnb.1, hnb.2.1]; exact h), ih]
  have hcount : ∀ i, solidBondCount a.qThreshold (bondParameter a.normalizeQ a.l c.box c.points c.nlist.bonds)
      c'.nlist.bonds i = solidBondCount a.qThreshold (bondParameter a.normalizeQ a.l c.box c.points c.nlist.bonds)
      c.nlist.bonds i := by
    intro i
    unfold solidBondCount
    have := congrArg List.length (hbonds fun q p => decide (q = i ∧
      Above a.qThreshold (bondParameter a.normalizeQ a.l c.box c.points c.nlist.bonds q p)))
    rwa [List.length_map, List.length_map] at this
  refine ⟨r, r', e, e', ?_, ?_, ?_⟩
  · rw [h1, h1', hv]
    have := congrArg (List.map fun qp : ℕ × ℕ => bondParameter a.normalizeQ a.l c.box c.points c.nlist.bonds qp.1 qp.2)
      (hbonds fun _ _ => true)
    simpa [Function.comp_def] using this
  · rw [h2, h2', hv, hrel.same_size]
    exact List.map_congr_left fun i _ => hcount i
  · rw [h3, h3', hv]
    have := hbonds fun q p => decide
      (Above a.qThreshold (bondParameter a.normalizeQ a.l c.box c.points c.nlist.bonds q p) ∧
      a.solidThreshold ≤ solidBondCount a.qThreshold
        (bondParameter a.normalizeQ a.l c.box c.points c.nlist.bonds) c.nlist.bonds q ∧
      a.solidThreshold ≤ solidBondCount a.qThreshold
        (bondParameter a.normalizeQ a.l c.box c.points c.nlist.bonds) c.nlist.bonds p)
    rw [List.filter_congr (l := c'.nlist.bonds) fun nb _ => ?_, this]
    · congr 1
      refine List.filter_congr fun nb _ => ?_
      rw [decide_eq_decide]
      rfl
    · rw [decide_eq_decide]
      unfold SolidPair
      rw [hcount, hcount]

namespace SolidLiquid

theorem legendre_neg (l : ℕ) (x : ℝ) : legendre l (-x) = (-1) ^ l * legendre l x := by
  induction l using Nat.twoStepInduction with
  | zero => simp [legendre]
  | one => simp [legendre]
  | more n h1 h2 =>
    rw [legendre, legendre, h1, h2]
    ring

theorem dirOverlap_perm (l : ℕ) {L L' : List (ℝ × Vec3 ℝ)} (h : L.Perm L') (M : List (ℝ × Vec3 ℝ)) :
    dirOverlap l L M = dirOverlap l L' M := (h.map _).sum_eq

theorem dirOverlap_inverted {l : ℕ} (hl : Even l) (L M : List (ℝ × Vec3 ℝ)) :
    dirOverlap l (L.map fun d => (d.1, -d.2)) M = dirOverlap l L M := by
  unfold dirOverlap
  rw [List.map_map]
  congr 1
  refine List.map_congr_left fun d _ => ?_
  rw [Function.comp_apply]
  congr 1
  refine List.map_congr_left fun e _ => ?_
  dsimp only
  rw [show Vec3.dot (-d.2) e.2 = -Vec3.dot d.2 e.2 by
    show (-d.2.x) * e.2.x + (-d.2.y) * e.2.y + (-d.2.z) * e.2.z = -(d.2.x * e.2.x + d.2.y * e.2.y + d.2.z * e.2.z)
    ring, legendre_neg, hl.neg_one_pow, one_mul]

end SolidLiquid

/-- All particles see the same directions `D`, in any order; for even `l` the directions may also be the opposite
ones. -/
def Spec.SameSurroundings (l : ℕ) (c : Steinhardt.Call) (D : List (Vec3 ℝ)) : Prop :=
  ∀ i < c.points.length,
    (((c.nlist.bonds.filter fun nb => nb.q = i).map fun nb => unit (bondVector c.box c.points nb)).Perm D ∨
    (Even l ∧ ((c.nlist.bonds.filter fun nb => nb.q = i).map fun nb => unit (bondVector c.box c.points nb)).Perm
      (D.map fun d => -d)))

/-- **C104** (crystals): if all particles see the same directions (or, for even `l`, the opposite ones) and `q_l` of
these is not zero, then the normalized value of every bond is 1; every particle has as many connections as neighbors
for every threshold below 1; and the clusters are made of all bonds if the particles have at least
`solid_threshold` neighbors, of none if not. -/
theorem C104_crystal (sph : Steinhardt.Sph) (a : SolidLiquid.Args) (hthr : 0 ≤ a.qThreshold) (hthr1 : a.qThreshold < 1)
    (hnorm : a.normalizeQ = true) (hf : FsphOK sph a.l (sphericalHarmonic a.l)) (history : List Steinhardt.Call)
    (hh : ∀ c ∈ history, LegalSteinhardt a.l c) (c : Steinhardt.Call) (order : List ℕ) (hc : LegalSolid a.l c order)
    (D : List (Vec3 ℝ)) (hD : SameSurroundings a.l c D) (hq : qValue a.l (D.map fun d => (1, d)) ≠ 0) :
    ∃ r, SolidLiquid.run sph a history c order = some r ∧
      r.qlij = List.replicate c.nlist.bonds.length (some 1) ∧
      r.connections = List.replicate c.points.length D.length ∧
      r.clusterBonds.bonds = if a.solidThreshold ≤ D.length then c.nlist.bonds else [] := by
  obtain ⟨r, e, h1, h2, h3, -⟩ := C104_value sph a hthr hf history hh c order hc
  have hD0 : dirOverlap a.l (D.map fun d => (1, d)) (D.map fun d => (1, d)) ≠ 0 := by
    intro h0
    exact hq (by show Real.sqrt (dirOverlap a.l _ _) = 0; rw [h0, Real.sqrt_zero])
  have hlen : D.length ≠ 0 := by
    intro h0
    rw [List.length_eq_zero_iff] at h0
    rw [h0] at hD0
    exact hD0 rfl
  have hdir : ∀ i, directions c.box c.points false c.nlist.bonds i =
      ((c.nlist.bonds.filter fun nb => nb.q = i).map fun nb => unit (bondVector c.box c.points nb)).map
        fun d => (1, d) := by
    intro i
    unfold directions
    rw [List.map_map]
    rfl
  have hnum : ∀ i < c.points.length, (c.nlist.bonds.filter fun nb => nb.q = i).length = D.length := by
    intro i hi
    rcases hD i hi with h | ⟨-, h⟩
    · simpa using h.length_eq
    · simpa using h.length_eq
  have hov : ∀ i < c.points.length, ∀ M, dirOverlap a.l (directions c.box c.points false c.nlist.bonds i) M =
      dirOverlap a.l (D.map fun d => (1, d)) M := by
    intro i hi M
    rw [hdir]
    rcases hD i hi with h | ⟨hev, h⟩
    · exact SolidLiquid.dirOverlap_perm _ (h.map _) M
    · rw [SolidLiquid.dirOverlap_perm _ (h.map _) M, ← SolidLiquid.dirOverlap_inverted hev (D.map fun d => (1, d))]
      simp [Function.comp_def]
  have hsum : ∀ i < c.points.length, ((directions c.box c.points false c.nlist.bonds i).map (·.1)).sum =
      (D.length : ℝ) := by
    intro i hi
    rw [hdir, ← hnum i hi]
    simp [Function.comp_def]
  have hnz : (D.length : ℝ) ≠ 0 := Nat.cast_ne_zero.mpr hlen
  have hnrm : ∀ i < c.points.length, normalized (directions c.box c.points false c.nlist.bonds i) =
      some ((directions c.box c.points false c.nlist.bonds i).map fun d => (d.1 / (D.length : ℝ), d.2)) := by
    intro i hi
    unfold normalized
    rw [hsum i hi, if_neg hnz]
  have hscale : ∀ (M N : List (ℝ × Vec3 ℝ)),
      dirOverlap a.l (M.map fun d => (d.1 / (D.length : ℝ), d.2)) N = dirOverlap a.l M N / (D.length : ℝ) := by
    intro M N
    unfold dirOverlap
    rw [List.map_map, div_eq_mul_inv, ← List.sum_map_mul_right]
    congr 1
    refine List.map_congr_left fun d _ => ?_
    rw [Function.comp_apply, ← List.sum_map_mul_right]
    congr 1
    exact List.map_congr_left fun e _ => by dsimp only; rw [div_eq_mul_inv]; ring
  have hall : ∀ i < c.points.length, ∀ j < c.points.length,
      dirOverlap a.l ((directions c.box c.points false c.nlist.bonds i).map fun d => (d.1 / (D.length : ℝ), d.2))
        ((directions c.box c.points false c.nlist.bonds j).map fun d => (d.1 / (D.length : ℝ), d.2)) =
      dirOverlap a.l (D.map fun d => (1, d)) (D.map fun d => (1, d)) / (D.length : ℝ) / (D.length : ℝ) := by
    intro i hi j hj
    rw [hscale, SolidLiquid.dirOverlap_comm, hscale, hov j hj, SolidLiquid.dirOverlap_comm, hov i hi]
  have hpos : 0 < dirOverlap a.l (D.map fun d => (1, d)) (D.map fun d => (1, d)) / (D.length : ℝ) / (D.length : ℝ) := by
    have hp := Real.sqrt_ne_zero'.mp hq
    have hl : (0 : ℝ) < D.length := by positivity
    exact div_pos (div_pos hp hl) hl
  have hval : ∀ nb ∈ c.nlist.bonds,
      bondParameter a.normalizeQ a.l c.box c.points c.nlist.bonds nb.q nb.p = some 1 := by
    intro nb hnb
    have hqn := hc.base.list.good.qlt nb hnb
    have hpn := hc.base.list.good.plt nb hnb
    rw [hc.queries] at hqn
    rw [hc.points] at hpn
    unfold bondParameter
    rw [hnrm _ hqn, hnrm _ hpn, hnorm]
    unfold bondValue
    simp only [hall _ hqn _ hqn, hall _ hqn _ hpn, hall _ hpn _ hpn, if_true, or_self, if_neg hpos.ne',
      Real.mul_self_sqrt hpos.le, div_self hpos.ne']
  have hcount : ∀ i < c.points.length, solidBondCount a.qThreshold
      (bondParameter a.normalizeQ a.l c.box c.points c.nlist.bonds) c.nlist.bonds i = D.length := by
    intro i hi
    rw [← hnum i hi]
    unfold solidBondCount
    congr 1
    refine List.filter_congr fun nb hnb => ?_
    rw [decide_eq_decide, hval nb hnb]
    exact and_iff_left ⟨1, rfl, hthr1⟩
  refine ⟨r, e, ?_, ?_, ?_⟩
  · rw [h1, List.eq_replicate_iff]
    refine ⟨by simp, fun v hv => ?_⟩
    obtain ⟨nb, hnb, rfl⟩ := List.mem_map.mp hv
    exact hval nb hnb
  · rw [h2, List.eq_replicate_iff]
    refine ⟨by simp, fun v hv => ?_⟩
    obtain ⟨i, hi, rfl⟩ := List.mem_map.mp hv
    exact hcount i (List.mem_range.mp hi)
  · rw [h3]
    have hiff : ∀ nb ∈ c.nlist.bonds, (SolidPair a.qThreshold a.solidThreshold
        (bondParameter a.normalizeQ a.l c.box c.points c.nlist.bonds) c.nlist.bonds nb ↔
          a.solidThreshold ≤ D.length) := by
      intro nb hnb
      have hqn := hc.base.list.good.qlt nb hnb
      have hpn := hc.base.list.good.plt nb hnb
      rw [hc.queries] at hqn
      rw [hc.points] at hpn
      unfold SolidPair
      rw [hval nb hnb, hcount _ hqn, hcount _ hpn]
      exact ⟨fun h => h.2.1, fun h => ⟨⟨1, rfl, hthr1⟩, h, h⟩⟩
    split_ifs with hk
    · rw [List.filter_eq_self]
      intro nb hnb
      exact decide_eq_true ((hiff nb hnb).mpr hk)
    · rw [List.filter_eq_nil_iff]
      intro nb hnb h
      exact hk ((hiff nb hnb).mp (of_decide_eq_true h))

/-- **C104** (clusters): whatever the threads of the cluster loop do and however ties are sorted, two particles have the
same `cluster_idx` exactly if they are joined by a chain of solid-like bonds between solid-like particles; in
particular each particle that is not solid-like is alone in its cluster. -/
theorem C104_clusters (sph : Steinhardt.Sph) (a : SolidLiquid.Args) (hthr : 0 ≤ a.qThreshold)
    (hf : FsphOK sph a.l (sphericalHarmonic a.l)) (history : List Steinhardt.Call)
    (hh : ∀ c ∈ history, LegalSteinhardt a.l c) (c : Steinhardt.Call) (order : List ℕ) (hc : LegalSolid a.l c order) :
    ∃ r, SolidLiquid.run sph a history c order = some r ∧
      ∀ (work : List (List (ℕ × ℕ))),
        work.flatten.Perm (r.clusterBonds.bonds.map (fun b => (b.p, b.q))) →
      ∀ (s : DState), Reachable c.points.length work s → (∀ t ∈ s.threads, t.finished) →
      ∀ res, Cluster.Finish c.points.length s.mem id res →
        (∀ x < c.points.length, ∀ y < c.points.length,
          res.clusterIdx.getD x 0 = res.clusterIdx.getD y 0 ↔
          Relation.EqvGen (fun i j => ∃ nb ∈ c.nlist.bonds, nb.q = i ∧ nb.p = j ∧ SolidPair a.qThreshold a.solidThreshold
            (bondParameter a.normalizeQ a.l c.box c.points c.nlist.bonds) c.nlist.bonds nb) x y) ∧
        (∀ x < c.points.length, r.connections.getD x 0 < a.solidThreshold →
          ∀ y < c.points.length, res.clusterIdx.getD x 0 = res.clusterIdx.getD y 0 → x = y) ∧
        Canonical c.points.length res.num (fun i => res.clusterIdx.getD i 0) := by
  obtain ⟨r, e, h1, h2, h3, -⟩ := C104_value sph a hthr hf history hh c order hc
  refine ⟨r, e, fun work hwork s hr hfin res hres => ?_⟩
  have hmem : ∀ e ∈ work.flatten, e.1 < c.points.length ∧ e.2 < c.points.length := by
    intro e he
    obtain ⟨b, hbm, rfl⟩ := List.mem_map.mp (hwork.subset he)
    rw [h3] at hbm
    have := (List.mem_filter.mp hbm).1
    exact ⟨by rw [← hc.points]; exact hc.base.list.good.plt b this, by rw [← hc.queries]; exact hc.base.list.good.qlt b this⟩
  obtain ⟨-, -, g2, g3, -⟩ := C33_cluster_labels c.points.length work hmem s hr hfin id res hres
  have hiff : ∀ i j, (i, j) ∈ work.flatten ↔ ∃ nb ∈ c.nlist.bonds, nb.q = j ∧ nb.p = i ∧
      SolidPair a.qThreshold a.solidThreshold
        (bondParameter a.normalizeQ a.l c.box c.points c.nlist.bonds) c.nlist.bonds nb := by
    intro i j
    rw [hwork.mem_iff, h3, List.mem_map]
    constructor
    · rintro ⟨b, h, e⟩
      cases e
      obtain ⟨ha, hb⟩ := List.mem_filter.mp h
      exact ⟨b, ha, rfl, rfl, of_decide_eq_true hb⟩
    · rintro ⟨b, h, rfl, rfl, hs⟩
      exact ⟨b, List.mem_filter.mpr ⟨h, decide_eq_true hs⟩, rfl⟩
  have main : ∀ x < c.points.length, ∀ y < c.points.length,
      res.clusterIdx.getD x 0 = res.clusterIdx.getD y 0 ↔
          Relation.EqvGen (fun i j => ∃ nb ∈ c.nlist.bonds, nb.q = i ∧ nb.p = j ∧ SolidPair a.qThreshold a.solidThreshold
            (bondParameter a.normalizeQ a.l c.box c.points c.nlist.bonds) c.nlist.bonds nb) x y := by
    intro x hx y hy
    rw [g2 x hx y hy]
    unfold Connected
    clear hx hy
    constructor
    · intro h
      induction h with
      | rel a c h => exact .symm _ _ (.rel _ _ ((hiff a c).mp h))
      | refl => exact .refl _
      | symm _ _ _ ih => exact .symm _ _ ih
      | trans _ _ _ _ _ ih1 ih2 => exact .trans _ _ _ ih1 ih2
    · intro h
      induction h with
      | rel a c h => exact .symm _ _ (.rel _ _ ((hiff c a).mpr h))
      | refl => exact .refl _
      | symm _ _ _ ih => exact .symm _ _ ih
      | trans _ _ _ _ _ ih1 ih2 => exact .trans _ _ _ ih1 ih2
  refine ⟨main, fun x hx hlow y hy hxy => ?_, g3⟩
  have hcx : solidBondCount a.qThreshold (bondParameter a.normalizeQ a.l c.box c.points c.nlist.bonds)
      c.nlist.bonds x < a.solidThreshold := by
    rw [h2, List.getD_eq_getElem?_getD, List.getElem?_map, List.getElem?_range hx] at hlow
    exact hlow
  have key : ∀ i j, Relation.EqvGen (fun i j => ∃ nb ∈ c.nlist.bonds, nb.q = i ∧ nb.p = j ∧
      SolidPair a.qThreshold a.solidThreshold
        (bondParameter a.normalizeQ a.l c.box c.points c.nlist.bonds) c.nlist.bonds nb) i j → (i = x ↔ j = x) := by
    intro i j h
    induction h with
    | rel i j h =>
      obtain ⟨nb, -, rfl, rfl, -, k1, k2⟩ := h
      constructor
      · intro h; rw [h] at k1; omega
      · intro h; rw [h] at k2; omega
    | refl => rfl
    | symm _ _ _ ih => exact ih.symm
    | trans _ _ _ _ _ ih1 ih2 => exact ih1.trans ih2
  exact ((key x y ((main x hx y hy).mp hxy)).mp rfl).symm

/-- **C104** (constructor): `SolidLiquid` is accepted exactly if the threshold for the bonds is not negative and the one
for the particles is between 0 and the largest `unsigned int`; the latter is rounded down, so that a particle is
solid-like if its number of connections is more than the given number minus one. -/
theorem C104_constructor (l : ℕ) (q s : ℝ) (n : Bool) :
    ((SolidLiquid.new l q s n).isSome ↔ 0 ≤ q ∧ 0 ≤ s ∧ s < 2 ^ 32) ∧
    ∀ a, SolidLiquid.new l q s n = some a → a.l = l ∧ a.qThreshold = q ∧ a.normalizeQ = n ∧
      ∀ k : ℕ, a.solidThreshold ≤ k ↔ s - 1 < k := by
  unfold SolidLiquid.new asUInt
  have hfl : (0 ≤ ⌊s⌋ ∧ ⌊s⌋ < 2 ^ 32) ↔ 0 ≤ s ∧ s < 2 ^ 32 := by
    rw [Int.floor_nonneg, Int.floor_lt]
    norm_num
  by_cases h : 0 ≤ ⌊s⌋ ∧ ⌊s⌋ < 2 ^ 32
  · rw [if_pos h, Option.bind_some]
    have h' := hfl.mp h
    by_cases hq : q < 0
    · rw [if_pos hq]
      refine ⟨⟨fun hc => by simp at hc, fun hc => absurd hq (not_lt.mpr hc.1)⟩, fun a ha => by cases ha⟩
    · rw [if_neg hq]
      refine ⟨⟨fun _ => ⟨not_lt.mp hq, h'⟩, fun _ => rfl⟩, fun a ha => ?_⟩
      cases ha
      refine ⟨rfl, rfl, rfl, fun k => ?_⟩
      rw [Int.toNat_le, ← Int.lt_add_one_iff, Int.floor_lt]
      push_cast
      constructor <;> intro h <;> linarith
  · rw [if_neg h]
    refine ⟨⟨fun hc => by simp at hc, fun hc => absurd (hfl.mpr hc.2) h⟩, fun a ha => by cases ha⟩

/-- A call on the pair of particles. -/
theorem SolidLiquid.pair_legal (l : ℕ) : LegalSolid l
    { Steinhardt.pair with reduceOrder := List.range (2 * l + 1) } [1, 0] :=
  ⟨Steinhardt.pair_legal l, rfl, rfl, List.Perm.swap _ _ _⟩

/-- **C104** (documentation of `nlist`): the property is described as the list of the solid-like bonds, but it is the list
of all bonds of the computation. For two neighbors and `l = 1` the value of both bonds is -1 and no bond is
solid-like; `nlist` has two. -/
theorem C104_nlist_counterexample : ∃ r, SolidLiquid.run Steinhardt.fsph ⟨1, 1 / 2, 1, true⟩ [] Steinhardt.pair [1, 0] =
    some r ∧ r.qlij = [some (-1), some (-1)] ∧ r.connections = [0, 0] ∧ r.clusterBonds.bonds = [] ∧
    r.nlist.bonds.length = 2 := by
  obtain ⟨r, e, h1, h2, h3, h4⟩ := C104_value Steinhardt.fsph ⟨1, 1 / 2, 1, true⟩ (by norm_num) (C101_fsph 1) []
    (by simp) Steinhardt.pair [1, 0] ⟨Steinhardt.pair_ok, rfl, rfl, List.Perm.swap _ _ _⟩
  have hv : bondParameter true 1 Steinhardt.pair.box Steinhardt.pair.points Steinhardt.pair.nlist.bonds 0 1 = some (-1) ∧
      bondParameter true 1 Steinhardt.pair.box Steinhardt.pair.points Steinhardt.pair.nlist.bonds 1 0 = some (-1) := by
    unfold bondParameter
    rw [Steinhardt.pair_plain.1, Steinhardt.pair_plain.2]
    constructor <;> simp [bondValue, dirOverlap, legendre, Vec3.dot]
  have hna : ¬ Above (1 / 2) (some (-1)) := by
    rintro ⟨x, hx, h⟩
    cases hx
    norm_num at h
  have hb : Steinhardt.pair.nlist.bonds = [⟨0, 1, 1, 1, ⟨1, 0, 0⟩⟩, ⟨1, 0, 1, 1, ⟨-1, 0, 0⟩⟩] := rfl
  have hn : ∀ nb ∈ Steinhardt.pair.nlist.bonds, ¬ Above (1 / 2) (bondParameter true 1 Steinhardt.pair.box
      Steinhardt.pair.points Steinhardt.pair.nlist.bonds nb.q nb.p) := by
    intro nb hnb
    have hnb' := hnb
    rw [hb, List.mem_cons, List.mem_singleton] at hnb'
    rcases hnb' with rfl | rfl
    · rw [hv.1]; exact hna
    · rw [hv.2]; exact hna
  refine ⟨r, e, ?_, ?_, ?_, by rw [h4]; rfl⟩
  · rw [h1]
    exact congrArg₂ (fun x y => [x, y]) hv.1 hv.2
  · rw [h2]
    have : ∀ i, solidBondCount (1 / 2) (bondParameter true 1 Steinhardt.pair.box Steinhardt.pair.points
        Steinhardt.pair.nlist.bonds) Steinhardt.pair.nlist.bonds i = 0 := by
      intro i
      unfold solidBondCount
      rw [List.length_eq_zero_iff, List.filter_eq_nil_iff]
      intro nb hnb h
      exact hn nb hnb (of_decide_eq_true h).2
    exact congrArg₂ (fun x y => [x, y]) (this 0) (this 1)
  · rw [h3, List.filter_eq_nil_iff]
    intro nb hnb h
    exact hn nb hnb (of_decide_eq_true h).1

/-- The hypotheses of `C104_crystal` are met by the pair for every even `l`: its particles see opposite directions. -/
example (l : ℕ) (hl : Even l) (k : ℕ) : ∃ r,
    SolidLiquid.run Steinhardt.fsph ⟨l, 7 / 10, k, true⟩ [{ Steinhardt.pair with reduceOrder := List.range (2 * l + 1) }]
      { Steinhardt.pair with reduceOrder := List.range (2 * l + 1) } [1, 0] = some r ∧
      r.qlij = List.replicate 2 (some 1) ∧ r.connections = List.replicate 2 1 ∧
      r.clusterBonds.bonds = if k ≤ 1 then Steinhardt.pair.nlist.bonds else [] := by
  refine C104_crystal Steinhardt.fsph ⟨l, 7 / 10, k, true⟩ (by norm_num) (by norm_num) rfl (C101_fsph l) _ ?_ _ _
    (SolidLiquid.pair_legal l) [⟨1, 0, 0⟩] ?_ ?_
  · intro c hc
    rw [List.mem_singleton.mp hc]
    exact Steinhardt.pair_legal l
  · intro i hi
    have h2 : i < 2 := hi
    interval_cases i
    · left
      simp [Steinhardt.pair, bondVector, Box.wrap, unit, Vec3.dot, Vec3.smul, Vec3.ext_iff]
    · right
      refine ⟨hl, ?_⟩
      simp [Steinhardt.pair, bondVector, Box.wrap, unit, Vec3.dot, Vec3.smul, Vec3.ext_iff]
  · simp [qValue, Vec3.dot, Steinhardt.legendre_one]

/-- The hypotheses of `C104_rotation` are met by a pair and the pair turned by a quarter. -/
example (n : Bool) : ∃ r r',
    SolidLiquid.run Steinhardt.fsph ⟨6, 7 / 10, 1, n⟩ [] { Steinhardt.pair with reduceOrder := List.range 13 } [1, 0] =
      some r ∧
    SolidLiquid.run Steinhardt.fsph ⟨6, 7 / 10, 1, n⟩ [] { Steinhardt.turnedPair with reduceOrder := List.range 13 } [0, 1] =
      some r' ∧ r'.qlij = r.qlij ∧ r'.connections = r.connections ∧
      r'.clusterBonds.bonds.map (fun nb => (nb.q, nb.p)) = r.clusterBonds.bonds.map (fun nb => (nb.q, nb.p)) := by
  refine C104_rotation Steinhardt.fsph ⟨6, 7 / 10, 1, n⟩ (by norm_num) (C101_fsph 6) [] [] (by simp) (by simp) _ _ _ _
    (SolidLiquid.pair_legal 6)
    ⟨⟨Steinhardt.pair_ok.list, ?_, Steinhardt.pair_ok.ev, Steinhardt.pair_ok.evAve, List.Perm.refl _⟩, rfl, rfl,
      List.Perm.refl _⟩
    (fun v => ⟨-v.y, v.x, v.z⟩) ?_ ⟨rfl, rfl, ?_⟩
  · intro nb hnb _
    simp only [Steinhardt.turnedPair, Steinhardt.pair, List.mem_cons, List.not_mem_nil, or_false] at hnb
    rcases hnb with rfl | rfl <;> simp [bondVector, Steinhardt.turnedPair, Steinhardt.pair, Box.wrap, Vec3.dot]
  · intro u v
    simp only [Vec3.dot]; ring
  · refine .cons ⟨rfl, rfl, rfl, ?_⟩ (.cons ⟨rfl, rfl, rfl, ?_⟩ .nil) <;>
      simp [separation, Steinhardt.turnedPair, Steinhardt.pair, Box.wrap, Vec3.ext_iff]

end
end Freud
