import Verif.Model.SolidLiquid
import Verif.Props.NeighborList
import Verif.Props.Cluster
import Verif.Props.NeighborLoop
import Mathlib.Data.Rat.Floor

/-!
# C44: solid-like bonds and their clusters
-/

namespace Freud
open Spec DSet
namespace SolidLiquid

variable {K : Type*} [Field K] [LinearOrder K] [IsStrictOrderedRing K]

theorem bondLoop_length (n : NList K) (f : ℕ → ℕ → K) (i bond : ℕ) (arr : List K) :
    (bondLoop n f i bond arr).length = arr.length := by
  obtain ⟨k, hk⟩ : ∃ k, k = n.bonds.length - bond := ⟨_, rfl⟩
  induction k using Nat.strong_induction_on generalizing bond arr with
  | _ k ih =>
    rw [bondLoop]
    split
    · split
      · rw [ih (n.bonds.length - (bond + 1)) (by omega) _ _ rfl, List.length_set]
      · rfl
    · rfl

theorem bondLoop_spec (n : NList K) (hn : GoodList n) (f : ℕ → ℕ → K) (i bond : ℕ) (arr : List K)
    (hge : ∀ k b, n.bonds[k]? = some b → bond ≤ k → i ≤ b.q)
    (hl : arr.length = n.bonds.length) (k : ℕ) (b : Bond K) (hb : n.bonds[k]? = some b) :
    (bondLoop n f i bond arr).getD k 0 =
      if bond ≤ k ∧ b.q = i then f i b.p else arr.getD k 0 := by
  obtain ⟨m, hm⟩ : ∃ m, m = n.bonds.length - bond := ⟨_, rfl⟩
  induction m using Nat.strong_induction_on generalizing bond arr with
  | _ m ih =>
    obtain ⟨hk, ek⟩ := List.getElem?_eq_some_iff.mp hb
    rw [bondLoop]
    split
    · rename_i hlt
      split
      · rename_i hq
        rw [ih (n.bonds.length - (bond + 1)) (by omega) (bond + 1) _
          (fun k b h1 h2 => hge k b h1 (by omega)) (by simpa using hl) rfl]
        by_cases hkb : k = bond
        · subst hkb
          rw [if_neg (by omega), if_pos ⟨le_refl _, by rw [← ek]; exact hq⟩]
          rw [List.getD_eq_getElem?_getD, List.getElem?_set_self (by omega), Option.getD_some, ek]
        · have e : (arr.set bond (f i n.bonds[bond].p)).getD k 0 = arr.getD k 0 := by
            rw [List.getD_eq_getElem?_getD, List.getElem?_set_ne (by omega),
              ← List.getD_eq_getElem?_getD]
          rw [e]
          by_cases hc : bond ≤ k ∧ b.q = i
          · rw [if_pos hc, if_pos ⟨by omega, hc.2⟩]
          · rw [if_neg hc, if_neg (by omega)]
      · rename_i hq
        rw [if_neg]
        rintro ⟨h1, h2⟩
        have a1 := hge bond _ (List.getElem?_eq_getElem hlt) (le_refl _)
        have a2 : n.bonds[bond].q ≤ b.q := by
          rcases Nat.eq_or_lt_of_le h1 with h | h
          · subst h; rw [ek]
          · have := List.pairwise_iff_getElem.mp hn.sorted bond k (by simpa using hlt)
              (by simpa using hk) h
            simpa [ek] using this
        omega
    · rw [if_neg (by omega)]

theorem bondProducts_spec (n : NList K) (hn : GoodList n) (f : ℕ → ℕ → K) (order : List ℕ)
    (hord : order.Perm (List.range n.numQueryPoints)) :
    bondProducts n f order = n.bonds.map (fun b => f b.q b.p) := by
  have key : ∀ (os : List ℕ) (arr : List K), arr.length = n.bonds.length →
      (os.foldl (fun arr i => bondLoop n f i (n.findFirstIndex i) arr) arr).length = n.bonds.length ∧
      ∀ k b, n.bonds[k]? = some b →
        (os.foldl (fun arr i => bondLoop n f i (n.findFirstIndex i) arr) arr).getD k 0 =
          if b.q ∈ os then f b.q b.p else arr.getD k 0 := by
    intro os
    induction os with
    | nil => intro arr ha; exact ⟨ha, fun k b _ => by simp⟩
    | cons i os ih =>
      intro arr ha
      have hl : (bondLoop n f i (n.findFirstIndex i) arr).length = n.bonds.length := by
        rw [bondLoop_length, ha]
      obtain ⟨h1, h2⟩ := ih _ hl
      refine ⟨h1, fun k b hb => ?_⟩
      rw [List.foldl_cons, h2 k b hb]
      have hff := (C15_find_first_index n hn i).2
      rw [bondLoop_spec n hn f i _ arr (fun k b h1 h2 => (hff k b h1).mp h2) ha k b hb]
      by_cases hm : b.q ∈ os
      · rw [if_pos hm, if_pos (List.mem_cons_of_mem _ hm)]
      · rw [if_neg hm]
        by_cases hq : b.q = i
        · subst hq
          rw [if_pos ⟨(hff k b hb).mpr (le_refl _), rfl⟩, if_pos List.mem_cons_self]
        · rw [if_neg (fun h => hq h.2), if_neg (by simp [hq, hm])]
  obtain ⟨h1, h2⟩ := key order (List.replicate n.bonds.length 0) (by simp)
  apply List.ext_getElem
  · rw [List.length_map]; exact h1
  · intro k k1 k2
    rw [List.length_map] at k2
    have := h2 k _ (List.getElem?_eq_getElem k2)
    rw [if_pos (hord.symm.subset (List.mem_range.mpr (hn.qlt _ (List.getElem_mem k2)))),
      List.getD_eq_getElem?_getD] at this
    rw [List.getElem_map]
    rw [← this]
    unfold bondProducts at k1 ⊢
    rw [List.getElem?_eq_getElem k1, Option.getD_some]

theorem countMask_spec (conn : List ℕ) (thr : ℕ) (bs : List (Bond K))
    (h : ∀ b ∈ bs, b.q < conn.length ∧ b.p < conn.length) :
    countMask conn thr bs = some (bs.map (fun b => decide (conn.getD b.q 0 ≥ thr) &&
      decide (conn.getD b.p 0 ≥ thr))) := by
  induction bs with
  | nil => rfl
  | cons b bs ih =>
    obtain ⟨h1, h2⟩ := h b List.mem_cons_self
    rw [countMask, getChecked, getChecked, List.getElem?_eq_getElem h1, List.getElem?_eq_getElem h2,
      ih (fun b hb => h b (List.mem_cons_of_mem _ hb))]
    simp [List.getD_eq_getElem?_getD, List.getElem?_eq_getElem h1, List.getElem?_eq_getElem h2]

end SolidLiquid

variable {K : Type*} [Field K] [LinearOrder K] [IsStrictOrderedRing K]

/-- The number of bonds of particle `i` whose bond product is above the threshold. -/
def Spec.solidCount (bonds : List (Bond K)) (prod : ℕ → ℕ → K) (thr : K) (i : ℕ) : ℕ :=
  (bonds.filter (fun b => b.q = i ∧ prod b.q b.p > thr)).length

/-- The bonds that are above the threshold and join two particles with at least `k` such bonds. -/
def Spec.solidBonds (bonds : List (Bond K)) (prod : ℕ → ℕ → K) (thr : K) (k : ℕ) : List (Bond K) :=
  bonds.filter (fun b => prod b.q b.p > thr ∧ k ≤ solidCount bonds prod thr b.q ∧
    k ≤ solidCount bonds prod thr b.p)

/-- **C44**: for every sorted neighbor list of a system with itself and every schedule, `ql_ij` holds
the product of every bond, `num_connections` counts for every particle its bonds above the
threshold, and the bonds given to the cluster algorithm are exactly those above the threshold that
join two particles with enough connections. -/
theorem C44_bonds (p : SolidLiquid.Params K) (n : NList K) (hn : GoodList n)
    (hsame : n.numQueryPoints = n.numPoints) (qlm : ℕ → ℕ → K × K) (ql : ℕ → K) (order : List ℕ)
    (hord : order.Perm (List.range n.numQueryPoints)) :
    ∃ r, SolidLiquid.compute p n qlm ql order = some r ∧
      r.qlij = n.bonds.map (fun b => SolidLiquid.product p qlm ql b.q b.p) ∧
      r.connections = (List.range n.numPoints).map
        (solidCount n.bonds (SolidLiquid.product p qlm ql) p.qThreshold) ∧
      r.clusterBonds.bonds =
        solidBonds n.bonds (SolidLiquid.product p qlm ql) p.qThreshold p.solidThreshold := by
  have hq := SolidLiquid.bondProducts_spec n hn (SolidLiquid.product p qlm ql) order hord
  obtain ⟨s, rm, e1, hsb, -, hsq, hsp⟩ := C16_filter n
    ((SolidLiquid.bondProducts n (SolidLiquid.product p qlm ql) order).map
      (fun x => decide (x > p.qThreshold))) (by rw [hq]; simp)
  have hsb' : s.bonds = n.bonds.filter
      (fun b => decide (SolidLiquid.product p qlm ql b.q b.p > p.qThreshold)) := by
    rw [hsb, hq, List.map_map, ← keep_map]; rfl
  have hfresh : s.segUpdated = false := by
    unfold NList.filter at e1
    split at e1
    · cases e1
    · cases e1; rfl
  have hsub : s.bonds.Sublist n.bonds := by rw [hsb']; exact List.filter_sublist
  have hgs : GoodList s := by
    refine ⟨hn.sorted.sublist (hsub.map _), fun b hb => ?_, fun b hb => ?_, by rw [hsq]; exact hn.small⟩
    · rw [hsq]; exact hn.qlt b (hsub.subset hb)
    · rw [hsp]; exact hn.plt b (hsub.subset hb)
  obtain ⟨s', e2, hb', -, hcl, hc⟩ := C15_segments s hgs hfresh
  have hconn : (List.range n.numQueryPoints).mapM (SolidLiquid.getChecked s'.counts) =
      some ((List.range n.numQueryPoints).map (fun i => s'.counts.getD i 0)) := by
    have : ∀ l : List ℕ, (∀ i ∈ l, i < s'.counts.length) →
        l.mapM (SolidLiquid.getChecked s'.counts) = some (l.map (fun i => s'.counts.getD i 0)) := by
      intro l
      induction l with
      | nil => intro _; rfl
      | cons i l ih =>
        intro h
        have hi := h i List.mem_cons_self
        rw [List.mapM_cons, ih (fun i hi => h i (List.mem_cons_of_mem _ hi)), SolidLiquid.getChecked,
          List.getElem?_eq_getElem hi]
        simp [List.getD_eq_getElem?_getD, List.getElem?_eq_getElem hi]
    exact this _ (fun i hi => by rw [hcl, hsq]; exact List.mem_range.mp hi)
  have hconn' : (List.range n.numQueryPoints).map (fun i => s'.counts.getD i 0) =
      (List.range n.numPoints).map
        (solidCount n.bonds (SolidLiquid.product p qlm ql) p.qThreshold) := by
    rw [hsame]
    apply List.map_congr_left
    intro i hi
    rw [(hc i (by rw [hsq, hsame]; exact List.mem_range.mp hi)).1, hsb', List.filter_filter]
    unfold solidCount
    congr 1
    apply List.filter_congr
    intro b _
    simp
  rw [hconn'] at hconn
  have hget : ∀ i < n.numPoints, ((List.range n.numPoints).map
      (solidCount n.bonds (SolidLiquid.product p qlm ql) p.qThreshold)).getD i 0 =
      solidCount n.bonds (SolidLiquid.product p qlm ql) p.qThreshold i := by
    intro i hi
    simp [List.getD_eq_getElem?_getD, List.getElem?_range hi]
  have hmask := SolidLiquid.countMask_spec ((List.range n.numPoints).map
      (solidCount n.bonds (SolidLiquid.product p qlm ql) p.qThreshold)) p.solidThreshold s'.bonds
    (by
      intro b hb
      rw [hb'] at hb
      simp only [List.length_map, List.length_range]
      refine ⟨?_, ?_⟩
      · rw [← hsame]; exact hn.qlt b (hsub.subset hb)
      · exact hn.plt b (hsub.subset hb))
  obtain ⟨f, rm2, e3, hfb, -⟩ := C16_filter s' (s'.bonds.map (fun b =>
      decide (((List.range n.numPoints).map
        (solidCount n.bonds (SolidLiquid.product p qlm ql) p.qThreshold)).getD b.q 0 ≥ p.solidThreshold) &&
      decide (((List.range n.numPoints).map
        (solidCount n.bonds (SolidLiquid.product p qlm ql) p.qThreshold)).getD b.p 0 ≥ p.solidThreshold)))
    (by simp)
  refine ⟨⟨SolidLiquid.bondProducts n (SolidLiquid.product p qlm ql) order, _, f⟩, ?_, hq, rfl, ?_⟩
  · unfold SolidLiquid.compute
    simp only [e1, Option.bind_some, e2, hconn, hmask, e3, Option.map_some]
  · show f.bonds = _
    rw [hfb, keep_map, hb', hsb', List.filter_filter]
    unfold solidBonds
    apply List.filter_congr
    intro b hb
    rw [hget b.q (by rw [← hsame]; exact hn.qlt b hb), hget b.p (hn.plt b hb)]
    by_cases h1 : SolidLiquid.product p qlm ql b.q b.p > p.qThreshold <;> simp [h1]

/-- **C44** (clusters): whatever the threads of the cluster loop do with these bonds and however
ties are sorted, two particles have the same `cluster_idx` exactly when a chain of such bonds joins
them, and the labels are ordered by cluster size. -/
theorem C44_clusters (p : SolidLiquid.Params K) (n : NList K) (hn : GoodList n)
    (hsame : n.numQueryPoints = n.numPoints) (qlm : ℕ → ℕ → K × K) (ql : ℕ → K) (order : List ℕ)
    (hord : order.Perm (List.range n.numQueryPoints)) :
    ∃ r, SolidLiquid.compute p n qlm ql order = some r ∧
      ∀ (work : List (List (ℕ × ℕ))),
        work.flatten.Perm (r.clusterBonds.bonds.map (fun b => (b.p, b.q))) →
      ∀ (s : DState), Reachable n.numPoints work s → (∀ t ∈ s.threads, t.finished) →
      ∀ res, Cluster.Finish n.numPoints s.mem id res →
        res.clusterIdx.length = n.numPoints ∧
        (∀ x < n.numPoints, ∀ y < n.numPoints,
          res.clusterIdx.getD x 0 = res.clusterIdx.getD y 0 ↔
          Relation.EqvGen (fun a c => ∃ b ∈ solidBonds n.bonds (SolidLiquid.product p qlm ql)
            p.qThreshold p.solidThreshold, b.q = a ∧ b.p = c) x y) ∧
        Canonical n.numPoints res.num (fun i => res.clusterIdx.getD i 0) := by
  obtain ⟨r, e, -, -, hb⟩ := C44_bonds p n hn hsame qlm ql order hord
  refine ⟨r, e, fun work hwork s hr hfin res hres => ?_⟩
  have hmem : ∀ e ∈ work.flatten, e.1 < n.numPoints ∧ e.2 < n.numPoints := by
    intro e he
    obtain ⟨b, hbm, rfl⟩ := List.mem_map.mp (hwork.subset he)
    rw [hb] at hbm
    have := (List.mem_filter.mp hbm).1
    exact ⟨hn.plt b this, by rw [← hsame]; exact hn.qlt b this⟩
  obtain ⟨h1, -, h2, h3, -⟩ := C33_cluster_labels n.numPoints work hmem s hr hfin id res hres
  refine ⟨h1, fun x hx y hy => ?_, h3⟩
  rw [h2 x hx y hy]
  unfold Connected
  have hiff : ∀ a c, (a, c) ∈ work.flatten ↔ ∃ b ∈ solidBonds n.bonds (SolidLiquid.product p qlm ql)
      p.qThreshold p.solidThreshold, b.q = c ∧ b.p = a := by
    intro a c
    rw [hwork.mem_iff, hb, List.mem_map]
    constructor
    · rintro ⟨b, h, e⟩
      cases e
      exact ⟨b, h, rfl, rfl⟩
    · rintro ⟨b, h, rfl, rfl⟩
      exact ⟨b, h, rfl⟩
  clear hx hy
  constructor
  · intro h
    induction h with
    | rel a c h => exact .symm _ _ (.rel _ _ ((hiff a c).mp h))
    | refl => exact .refl _
    | symm _ _ _ ih => exact .symm _ _ ih
    | trans _ _ _ _ _ ih1 ih2 => exact .trans _ _ _ ih1 ih2
  · intro h
    induction h with
    | rel a c h => exact .symm _ _ (.rel _ _ ((hiff c a).mpr h))
    | refl => exact .refl _
    | symm _ _ _ ih => exact .symm _ _ ih
    | trans _ _ _ _ _ ih1 ih2 => exact .trans _ _ _ ih1 ih2

/-- **C44** (results exist): the cluster passes always produce labels. -/
theorem C44_clusters_exist (p : SolidLiquid.Params K) (n : NList K) (hn : GoodList n)
    (hsame : n.numQueryPoints = n.numPoints) (qlm : ℕ → ℕ → K × K) (ql : ℕ → K) (order : List ℕ)
    (hord : order.Perm (List.range n.numQueryPoints)) :
    ∃ r, SolidLiquid.compute p n qlm ql order = some r ∧
      ∀ (work : List (List (ℕ × ℕ))),
        work.flatten.Perm (r.clusterBonds.bonds.map (fun b => (b.p, b.q))) →
      ∀ (s : DState), Reachable n.numPoints work s → ∃ res, Cluster.Finish n.numPoints s.mem id res := by
  obtain ⟨r, e, -, -, hb⟩ := C44_bonds p n hn hsame qlm ql order hord
  refine ⟨r, e, fun work hwork s hr => C33_result_exists n.numPoints work ?_ s hr id⟩
  intro e he
  obtain ⟨b, hbm, rfl⟩ := List.mem_map.mp (hwork.subset he)
  rw [hb] at hbm
  have := (List.mem_filter.mp hbm).1
  exact ⟨hn.plt b this, by rw [← hsame]; exact hn.qlt b this⟩

/-- **C44** (range of normalised products): when `ql` is the norm of `qlm` that Steinhardt stores,
`sqrt(4 pi / (2 l + 1) * sum |qlm|^2)`, and neither norm is zero, every normalised product lies
between -1 and 1, and it is 1 for equal harmonics. -/
theorem C44_normalized_range (p : SolidLiquid.Params ℝ) (hnorm : p.normalizeQ = true)
    (hfac : 0 < p.factor) (qlm : ℕ → ℕ → ℝ × ℝ) (ql : ℕ → ℝ)
    (hql : ∀ i, ql i = Real.sqrt (p.factor * ((List.range p.numMs).map (fun k =>
      (qlm i k).1 ^ 2 + (qlm i k).2 ^ 2)).sum)) (i j : ℕ) (hi : ql i ≠ 0) (hj : ql j ≠ 0) :
    -1 ≤ SolidLiquid.product p qlm ql i j ∧ SolidLiquid.product p qlm ql i j ≤ 1 ∧
      (qlm i = qlm j → SolidLiquid.product p qlm ql i j = 1) := by
  have hs : ∀ i, 0 ≤ ((List.range p.numMs).map (fun k => (qlm i k).1 ^ 2 + (qlm i k).2 ^ 2)).sum := by
    intro i
    apply List.sum_nonneg
    intro x hx
    obtain ⟨k, -, rfl⟩ := List.mem_map.mp hx
    positivity
  have hpos : ∀ i, ql i ≠ 0 → 0 < ql i := fun i h =>
    lt_of_le_of_ne (by rw [hql]; exact Real.sqrt_nonneg _) h.symm
  have hsq : ∀ i, ql i * ql i = p.factor *
      ((List.range p.numMs).map (fun k => (qlm i k).1 ^ 2 + (qlm i k).2 ^ 2)).sum := by
    intro i
    rw [hql]
    exact Real.mul_self_sqrt (mul_nonneg hfac.le (hs i))
  have cs : ∀ l : List ℕ, ∀ a b : ℝ,
      a * b * 2 * (l.map (fun k => (qlm i k).1 * (qlm j k).1 + (qlm i k).2 * (qlm j k).2)).sum ≤
      a ^ 2 * (l.map (fun k => (qlm i k).1 ^ 2 + (qlm i k).2 ^ 2)).sum +
      b ^ 2 * (l.map (fun k => (qlm j k).1 ^ 2 + (qlm j k).2 ^ 2)).sum := by
    intro l a b
    induction l with
    | nil => simp
    | cons k l ih =>
      simp only [List.map_cons, List.sum_cons]
      nlinarith [sq_nonneg (a * (qlm i k).1 - b * (qlm j k).1),
        sq_nonneg (a * (qlm i k).2 - b * (qlm j k).2)]
  have e : SolidLiquid.product p qlm ql i j = p.factor * ((List.range p.numMs).map (fun k =>
      (qlm i k).1 * (qlm j k).1 + (qlm i k).2 * (qlm j k).2)).sum / (ql i * ql j) := by
    unfold SolidLiquid.product
    rw [if_pos hnorm]
    ring
  have hp := mul_pos (hpos i hi) (hpos j hj)
  have h1 := cs (List.range p.numMs) (ql j) (ql i)
  have h2 := cs (List.range p.numMs) (ql j) (-ql i)
  have ei := hsq i
  have ej := hsq j
  set A := ((List.range p.numMs).map (fun k => (qlm i k).1 ^ 2 + (qlm i k).2 ^ 2)).sum
  set B := ((List.range p.numMs).map (fun k => (qlm j k).1 ^ 2 + (qlm j k).2 ^ 2)).sum
  set C := ((List.range p.numMs).map (fun k =>
      (qlm i k).1 * (qlm j k).1 + (qlm i k).2 * (qlm j k).2)).sum with hC
  have g1 : (ql i * ql j) * (p.factor * C) ≤ (ql i * ql j) * (ql i * ql j) := by
    have : ql j * ql i * 2 * C * p.factor ≤ (ql j ^ 2 * A + ql i ^ 2 * B) * p.factor :=
      mul_le_mul_of_nonneg_right h1 hfac.le
    have e1 : ql j ^ 2 * A * p.factor = (ql i * ql j) * (ql i * ql j) := by
      linear_combination (-(ql j) ^ 2) * ei
    have e2 : ql i ^ 2 * B * p.factor = (ql i * ql j) * (ql i * ql j) := by
      linear_combination (-(ql i) ^ 2) * ej
    nlinarith
  have g2 : -((ql i * ql j) * (ql i * ql j)) ≤ (ql i * ql j) * (p.factor * C) := by
    have : ql j * -ql i * 2 * C * p.factor ≤ (ql j ^ 2 * A + (-ql i) ^ 2 * B) * p.factor :=
      mul_le_mul_of_nonneg_right h2 hfac.le
    have e1 : ql j ^ 2 * A * p.factor = (ql i * ql j) * (ql i * ql j) := by
      linear_combination (-(ql j) ^ 2) * ei
    have e2 : ql i ^ 2 * B * p.factor = (ql i * ql j) * (ql i * ql j) := by
      linear_combination (-(ql i) ^ 2) * ej
    nlinarith
  refine ⟨?_, ?_, fun heq => ?_⟩
  · rw [e, le_div_iff₀ hp]
    have := le_of_mul_le_mul_left (a := ql i * ql j) (b := -(ql i * ql j)) (c := p.factor * C)
      (by rw [mul_neg]; exact g2) hp
    linarith
  · rw [e, div_le_one hp]
    exact le_of_mul_le_mul_left g1 hp
  · have hqq : ql i = ql j := by rw [hql i, hql j, heq]
    rw [e, div_eq_one_iff_eq hp.ne', ← hqq, ei]
    congr 1
    rw [hC]
    congr 1
    apply List.map_congr_left
    intro k _
    rw [heq]; ring

/-- A system of four particles: a triangle of strong bonds with a weak bond to particle 3. -/
def Spec.slList : NList ℚ :=
  ⟨4, 4, [⟨0, 1, 1, 1, ⟨1, 0, 0⟩⟩, ⟨0, 2, 1, 1, ⟨0, 1, 0⟩⟩, ⟨1, 0, 1, 1, ⟨-1, 0, 0⟩⟩,
    ⟨1, 2, 1, 1, ⟨-1, 1, 0⟩⟩, ⟨2, 0, 1, 1, ⟨0, -1, 0⟩⟩, ⟨2, 3, 1, 1, ⟨0, 1, 0⟩⟩,
    ⟨3, 2, 1, 1, ⟨0, -1, 0⟩⟩], false, [], []⟩

/-- The harmonics of its particles. -/
def Spec.slQlm (i _k : ℕ) : ℚ × ℚ := if i = 3 then (1 / 10, 0) else (1, 0)

/-- The hypotheses of `C44_bonds` hold, and the bond to particle 3 is removed. -/
example : GoodList slList ∧ slList.numQueryPoints = slList.numPoints ∧
    [2, 0, 3, 1].Perm (List.range slList.numQueryPoints) ∧
    ((SolidLiquid.compute ⟨1, 1 / 2, 1, false, 1⟩ slList slQlm (fun _ => 1) [2, 0, 3, 1]).map
      (fun r => (r.connections, r.clusterBonds.bonds.map (fun b => (b.q, b.p))))) =
      some ([2, 2, 1, 0], [(0, 1), (0, 2), (1, 0), (1, 2), (2, 0)]) := by
  refine ⟨⟨by decide, by decide, by decide, by decide⟩, rfl, by decide, by decide +kernel⟩

/-- Harmonics meeting the hypotheses of `C44_normalized_range`. -/
example : ∃ (qlm : ℕ → ℕ → ℝ × ℝ) (ql : ℕ → ℝ),
    (∀ i, ql i = Real.sqrt ((4 : ℝ) * ((List.range 1).map (fun k =>
      (qlm i k).1 ^ 2 + (qlm i k).2 ^ 2)).sum)) ∧ ql 0 ≠ 0 ∧ ql 1 ≠ 0 ∧ qlm 0 ≠ qlm 1 := by
  refine ⟨fun i _ => if i = 0 then (1, 0) else (0, 1), fun _ => 2, fun i => ?_, by norm_num, by norm_num, ?_⟩
  · have : (4 : ℝ) = 2 ^ 2 := by norm_num
    by_cases h : i = 0 <;> simp [h] <;> rw [this, Real.sqrt_sq] <;> norm_num
  · intro h
    have := congrArg Prod.fst (congrFun h 0)
    norm_num at this

/-- **C44** (neighbor lists of two different sets): a list whose point indices exceed its number of
query points makes `compute` raise as soon as a solid-like bond has such an index. -/
theorem C44_different_sizes_raise_counterexample :
    GoodList (⟨1, 2, [⟨0, 1, 1, 1, ⟨1, 0, 0⟩⟩], false, [], []⟩ : NList ℚ) ∧
    (SolidLiquid.compute (K := ℚ) ⟨1, 1 / 2, 1, false, 1⟩ ⟨1, 2, [⟨0, 1, 1, 1, ⟨1, 0, 0⟩⟩], false, [], []⟩
      (fun _ _ => (1, 0)) (fun _ => 1) [0]).isNone := by
  refine ⟨⟨by decide, by decide, by decide, by decide⟩, by decide +kernel⟩

end Freud
