import Verif.Spec.Repeat
import Verif.Props.PairFrames
import Mathlib.Algebra.Order.BigOperators.Group.Finset

/-!
# Lemmas: bonds of a periodic system described by a larger cell
-/

namespace Freud
open Spec

/-- Moving both vectors keeps one an image of the other. -/
theorem isImage_move {b : Box ℝ} {v w : Vec3 ℝ} (h : IsImage b v w) (u : Vec3 ℝ) : IsImage b (v + u) (w + u) := by
  obtain ⟨n, hn, rfl⟩ := h
  exact ⟨n, hn, by ext <;> simp <;> ring⟩

theorem isImage_sub {b : Box ℝ} {v w : Vec3 ℝ} (h : IsImage b v w) (u : Vec3 ℝ) : IsImage b (v - u) (w - u) := by
  obtain ⟨n, hn, rfl⟩ := h
  exact ⟨n, hn, by ext <;> simp <;> ring⟩

theorem Spec.CoarserLattice.image {b b' : Box ℝ} (h : CoarserLattice b b') {v w : Vec3 ℝ} (hw : IsImage b' v w) :
    IsImage b v w := by
  obtain ⟨n', hn', rfl⟩ := hw
  obtain ⟨n, hn, e⟩ := h.sub n' hn'
  exact ⟨n, hn, by rw [e]⟩

/-- Two short images are the same. -/
theorem short_unique {b : Box ℝ} (hb : Valid b) {r : ℝ} (hr : BelowHalf b r) {v w w' : Vec3 ℝ} (hv : Planar b v)
    (hw : IsImage b v w) (hs : Vec3.norm w < r) (hw' : IsImage b v w') (hs' : Vec3.norm w' < r) : w = w' :=
  (wrap_of_short hb hr hv hw hs).1.symm.trans (wrap_of_short hb hr hv hw' hs').1

namespace Spec.Repeated
variable {b b' : Box ℝ} {t : Vec3 ℝ} {φ : ℕ → ℕ} {pts pts' : List (Vec3 ℝ)}

theorem lt (h : Repeated b b' t φ pts pts') {i : ℕ} (hi : i < pts'.length) : φ i < pts.length := by
  obtain ⟨p, hp, -⟩ := h.point i _ (List.getElem?_eq_getElem hi)
  exact (List.getElem?_eq_some_iff.mp hp).1

/-- The copies of a particle. -/
def copies (φ : ℕ → ℕ) (pts' : List (Vec3 ℝ)) (j : ℕ) : Finset ℕ := (Finset.range pts'.length).filter fun i => φ i = j

theorem copies_le (h : Repeated b b' t φ pts pts') {j k : ℕ} (hj : j < pts.length) (hk : k < pts.length) :
    (copies φ pts' j).card ≤ (copies φ pts' k).card := by
  have hex : ∀ i ∈ copies φ pts' j, ∃ i', φ i' = k ∧ ∃ p', pts'[i']? = some p' ∧
      IsImage b' (pts'.getD i ⟨0, 0, 0⟩ - pts[j] + pts[k]) p' := by
    intro i hi
    obtain ⟨h1, h2⟩ := Finset.mem_filter.mp hi
    have hi := Finset.mem_range.mp h1
    obtain ⟨p, hp, n, hn, e⟩ := h.point i _ (List.getElem?_eq_getElem hi)
    rw [h2, List.getElem?_eq_getElem hj, Option.some.injEq] at hp
    obtain ⟨i', p', e1, e2, e3⟩ := h.all k pts[k] (pts'.getD i ⟨0, 0, 0⟩ - pts[j] + pts[k])
      (List.getElem?_eq_getElem hk) ⟨n, hn, by
        rw [List.getD_eq_getElem?_getD, List.getElem?_eq_getElem hi, Option.getD_some, e, ← hp]
        ext <;> simp <;> ring⟩
    exact ⟨i', e1, p', e2, e3⟩
  classical
  choose! g hg1 hg2 using hex
  refine Finset.card_le_card_of_injOn g (fun i hi => ?_) fun i hi i' hi' e => ?_
  · obtain ⟨p', e2, -⟩ := hg2 i hi
    exact Finset.mem_filter.mpr ⟨Finset.mem_range.mpr (List.getElem?_eq_some_iff.mp e2).1, hg1 i hi⟩
  · obtain ⟨p1, e1, m1⟩ := hg2 i hi
    obtain ⟨p2, e2, m2⟩ := hg2 i' hi'
    rw [e, e2, Option.some.injEq] at e1
    subst e1
    obtain ⟨a1, a2⟩ := Finset.mem_filter.mp hi
    obtain ⟨a3, a4⟩ := Finset.mem_filter.mp hi'
    have a1 := Finset.mem_range.mp a1
    have a3 := Finset.mem_range.mp a3
    refine h.once i i' _ _ (List.getElem?_eq_getElem a1) (List.getElem?_eq_getElem a3) (a2.trans a4.symm) ?_
    have := isImage_move (isImage_trans m1 (isImage_symm m2)) (pts[j] - pts[k])
    simp only [List.getD_eq_getElem?_getD, List.getElem?_eq_getElem a1, List.getElem?_eq_getElem a3,
      Option.getD_some] at this
    convert this using 1 <;> (ext <;> simp)

/-- If there are `m` times as many particles, every particle has `m` copies. -/
theorem copies_card (h : Repeated b b' t φ pts pts') {m : ℕ} (hm : pts'.length = m * pts.length) {j : ℕ}
    (hj : j < pts.length) : (copies φ pts' j).card = m := by
  have e : (Finset.range pts'.length).card = ∑ k ∈ Finset.range pts.length, (copies φ pts' k).card :=
    Finset.card_eq_sum_card_fiberwise fun i hi => Finset.mem_coe.mpr (Finset.mem_range.mpr
      (h.lt (Finset.mem_range.mp (Finset.mem_coe.mp hi))))
  rw [Finset.card_range, Finset.sum_congr rfl fun k hk =>
    le_antisymm (h.copies_le (Finset.mem_range.mp hk) hj) (h.copies_le hj (Finset.mem_range.mp hk)),
    Finset.sum_const, Finset.card_range, smul_eq_mul, hm, mul_comm] at e
  exact (Nat.eq_of_mul_eq_mul_left (by omega) e).symm

end Spec.Repeated

/-! ### Bonds -/

section Bonds
variable {b b' : Box ℝ} {t : Vec3 ℝ} {φ ψ : ℕ → ℕ} {pts pts' qpts qpts' : List (Vec3 ℝ)} {rMax rMin : ℝ} {excl : Bool}

/-- A bond of the larger cell is a bond of the smaller one. -/
theorem queryBond_down (hl : CoarserLattice b b') (hs : PeriodicSystem b pts qpts) (hr : BelowHalf b rMax)
    (hp : Repeated b b' t ψ pts pts') (hq : Repeated b b' t φ qpts qpts')
    (hex : excl = true → qpts = pts ∧ qpts' = pts' ∧ φ = ψ) {bd : Bond ℝ}
    (h : IsQueryBond b' pts' qpts' rMax rMin excl bd) : IsQueryBond b pts qpts rMax rMin excl (relabel φ ψ bd) := by
  obtain ⟨q', hq', -, h1, h2, h3, h4, h5, p', hp', h6⟩ := h
  obtain ⟨q, hq0, i1⟩ := hq.point _ _ hq'
  obtain ⟨p, hp0, i2⟩ := hp.point _ _ hp'
  have hw : IsImage b (p - q) bd.vec := isImage_trans (isImage_separation i2 i1) (hl.image h6)
  refine ⟨q, hq0, rfl, h1, h2, fun e => ?_, h4, h5, p, hp0, hw⟩
  obtain ⟨e1, e2, e3⟩ := hex e
  subst e1 e2 e3
  intro he
  simp only [relabel] at he hp0 hq0
  rw [he, hq0, Option.some.injEq] at hp0
  subst hp0
  have h0 : IsImage b (q - q) ⟨0, 0, 0⟩ := ⟨⟨0, 0, 0⟩, ⟨fun _ => rfl, fun _ => rfl, fun _ => rfl⟩, by
    ext <;> simp [lattice, comb]⟩
  have hpos : 0 ≤ Vec3.norm bd.vec := Real.sqrt_nonneg _
  have e0 : bd.vec = ⟨0, 0, 0⟩ := short_unique hs.inBox.valid hr (fun _ => by simp) hw h5 h0
    (by simp only [Vec3.norm, Vec3.dot]; simp; linarith)
  rw [e0] at h6
  refine h3 e (hp.once _ _ _ _ hp' hq' he ?_)
  have := isImage_move h6 q'
  convert this using 1 <;> (ext <;> simp)

/-- A bond of the smaller cell is one of the larger cell, for every copy of the query point. -/
theorem queryBond_up (hp : Repeated b b' t ψ pts pts') (hq : Repeated b b' t φ qpts qpts')
    (hex : excl = true → qpts = pts ∧ qpts' = pts' ∧ φ = ψ) {bd : Bond ℝ}
    (h : IsQueryBond b pts qpts rMax rMin excl bd) {i : ℕ} (hi : i < qpts'.length) (hφ : φ i = bd.q) :
    ∃ bd', IsQueryBond b' pts' qpts' rMax rMin excl bd' ∧ bd'.q = i ∧ relabel φ ψ bd' = bd := by
  obtain ⟨q, hq0, -, h1, h2, h3, h4, h5, p, hp0, h6⟩ := h
  obtain ⟨q0, hq1, i1⟩ := hq.point i _ (List.getElem?_eq_getElem hi)
  rw [hφ, hq0, Option.some.injEq] at hq1
  subst hq1
  obtain ⟨j, p', e1, e2, e3⟩ := hp.all bd.p p (qpts'[i] + bd.vec) hp0 (by
    obtain ⟨n, hn, e⟩ := i1
    obtain ⟨n', hn', e'⟩ := h6
    exact ⟨n + n', allowed_add hn hn', by rw [lattice_add, e, e']; ext <;> simp <;> ring⟩)
  refine ⟨⟨i, j, bd.dist, bd.weight, bd.vec⟩, ⟨qpts'[i], List.getElem?_eq_getElem hi, rfl, h1, h2, fun e => ?_, h4,
    h5, p', e2, ?_⟩, rfl, ?_⟩
  · obtain ⟨-, -, e4⟩ := hex e
    intro e5
    exact h3 e (by rw [← e1, ← hφ, e4]; exact congrArg ψ e5)
  · have := isImage_sub (isImage_symm e3) qpts'[i]
    convert this using 1
    ext <;> simp
  · simp only [relabel, hφ, e1]

/-- The copies of a bond for one query point are the same. -/
theorem queryBond_once (hp : Repeated b b' t ψ pts pts') {bd bd' : Bond ℝ}
    (h : IsQueryBond b' pts' qpts' rMax rMin excl bd) (h' : IsQueryBond b' pts' qpts' rMax rMin excl bd')
    (hq : bd.q = bd'.q) (e : relabel φ ψ bd = relabel φ ψ bd') : bd = bd' := by
  obtain ⟨q, hq0, -, h1, h2, h3, h4, h5, p, hp0, h6⟩ := h
  obtain ⟨q', hq0', -, h1', h2', h3', h4', h5', p', hp0', h6'⟩ := h'
  rw [hq, hq0', Option.some.injEq] at hq0
  subst hq0
  obtain ⟨i, j, d, w, v⟩ := bd
  obtain ⟨i', j', d', w', v'⟩ := bd'
  simp only [relabel, Bond.mk.injEq] at *
  obtain ⟨-, e2, e3, e4, e5⟩ := e
  subst e5
  refine ⟨hq, hp.once _ _ _ _ hp0 hp0' e2 ?_, e3, e4, rfl⟩
  have := isImage_move (isImage_trans h6 (isImage_symm h6')) q'
  convert this using 1 <;> (ext <;> simp)

end Bonds
end Freud
