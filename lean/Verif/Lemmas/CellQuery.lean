import Verif.Lemmas.CellIter
import Verif.Lemmas.Periodic
import Mathlib.Tactic.IntervalCases
import Mathlib.Algebra.Order.Floor.Ring

/-!
# What the grid of `CellQuery` contains
-/

namespace Freud
namespace CellQuery
open Spec

/-! ### Building -/

/-- The list `particle_cell_mapping`. -/
noncomputable def mapping (b : Box ℝ) (pts : List (Vec3 ℝ)) (R : ℝ) : List (ℕ × Tagged) :=
  pts.zipIdx.flatMap fun pi =>
    entries b R (cellIdxSafe (gridMin b R) (1 / R) (gridDims b R)) pi.1 pi.2

theorem cellIdxSafe_some (mn : Vec3 ℝ) (inv : ℝ) (dim : Vec3 ℕ) (p : Vec3 ℝ) (c : ℕ) :
    cellIdxSafe mn inv dim p = some c ↔
      (0 ≤ (cellXYZ mn inv p).x ∧ (cellXYZ mn inv p).x < dim.x) ∧
      (0 ≤ (cellXYZ mn inv p).y ∧ (cellXYZ mn inv p).y < dim.y) ∧
      (0 ≤ (cellXYZ mn inv p).z ∧ (cellXYZ mn inv p).z < dim.z) ∧
      (c : ℤ) = ((cellXYZ mn inv p).z * dim.y + (cellXYZ mn inv p).y) * dim.x +
        (cellXYZ mn inv p).x := by
  unfold cellIdxSafe
  generalize cellXYZ mn inv p = v
  by_cases h : v.x < 0 ∨ v.y < 0 ∨ v.z < 0 ∨ v.x ≥ dim.x ∨ v.y ≥ dim.y ∨ v.z ≥ dim.z
  · simp only [if_pos h]
    constructor
    · intro h; cases h
    · rintro ⟨h1, h2, h3, -⟩; omega
  · simp only [if_neg h, Option.some.injEq]
    have hx : ((v.x.toNat : ℕ) : ℤ) = v.x := Int.toNat_of_nonneg (by omega)
    have hy : ((v.y.toNat : ℕ) : ℤ) = v.y := Int.toNat_of_nonneg (by omega)
    have hz : ((v.z.toNat : ℕ) : ℤ) = v.z := Int.toNat_of_nonneg (by omega)
    constructor
    · rintro rfl
      refine ⟨by omega, by omega, by omega, ?_⟩
      push_cast
      rw [hx, hy, hz]
    · rintro ⟨-, -, -, h⟩
      apply Nat.cast_injective (R := ℤ)
      push_cast
      rw [hx, hy, hz, h]

theorem idx_lt {x y z X Y Z : ℤ} (hx : 0 ≤ x ∧ x < X) (hy : 0 ≤ y ∧ y < Y) (hz : 0 ≤ z ∧ z < Z) :
    (z * Y + y) * X + x < X * Y * Z := by
  have h1 : z * Y + y + 1 ≤ Y * Z := by nlinarith [hz.1, hy.1]
  have h2 : (z * Y + y) * X + x + 1 ≤ (z * Y + y + 1) * X := by nlinarith
  nlinarith [hx.1]

theorem idx_inj {x y z x' y' z' X Y : ℤ} (hx : 0 ≤ x ∧ x < X) (hy : 0 ≤ y ∧ y < Y)
    (hx' : 0 ≤ x' ∧ x' < X) (hy' : 0 ≤ y' ∧ y' < Y)
    (h : (z * Y + y) * X + x = (z' * Y + y') * X + x') : x = x' ∧ y = y' ∧ z = z' := by
  have hX : 0 < X := by omega
  have hY : 0 < Y := by omega
  have e1 : z * Y + y = z' * Y + y' := by
    by_contra hne
    rcases lt_or_gt_of_ne hne with h' | h' <;> nlinarith
  have e2 : z = z' := by
    by_contra hne
    rcases lt_or_gt_of_ne hne with h' | h' <;> nlinarith
  subst e2
  rw [e1] at h
  omega

theorem mapping_lt (b : Box ℝ) (pts : List (Vec3 ℝ)) (R : ℝ) :
    ∀ e ∈ mapping b pts R,
      cellIdxSafe (gridMin b R) (1 / R) (gridDims b R) e.2.p = some e.1 := by
  intro e he
  obtain ⟨pi, -, he⟩ := List.mem_flatMap.mp he
  rcases List.mem_append.mp he with he | he
  · obtain ⟨s, -, he⟩ := List.mem_filterMap.mp he
    obtain ⟨c, hc, rfl⟩ := Option.map_eq_some_iff.mp he
    exact hc
  · rw [Option.mem_toList] at he
    obtain ⟨c, hc, rfl⟩ := Option.map_eq_some_iff.mp he
    exact hc

/-- The grid `g` is the one that `buildGrid` makes. -/
structure Built (b : Box ℝ) (pts : List (Vec3 ℝ)) (R : ℝ) (g : Grid) : Prop where
  inv : g.inv = 1 / R
  minPos : g.minPos = gridMin b R
  nx : g.nx = (gridDims b R).x
  ny : g.ny = (gridDims b R).y
  nz : g.nz = (gridDims b R).z
  starts : ∀ c < g.nx * g.ny * g.nz, g.starts.getD c 0 = before (cellList (mapping b pts R)) c
  counts : ∀ c < g.nx * g.ny * g.nz, g.counts.getD c 0 = (cellList (mapping b pts R) c).length
  over : ∀ c, g.nx * g.ny * g.nz ≤ c → g.starts.getD c 0 = 0 ∧ g.counts.getD c 0 = 0
  buffer : g.buffer = (List.range (g.nx * g.ny * g.nz)).flatMap (cellList (mapping b pts R))

theorem prefixSum_length (o : ℕ) (l : List ℕ) : (prefixSum o l).length = l.length := by
  induction l generalizing o with
  | nil => rfl
  | cons a l ih => simp [prefixSum, ih]

theorem built {b : Box ℝ} {pts : List (Vec3 ℝ)} {R : ℝ} {g : Grid} (h : buildGrid b pts R = some g) :
    Built b pts R g := by
  unfold buildGrid at h
  split at h
  · cases h
  · simp only [Option.some.injEq] at h
    have hlt : ∀ e ∈ mapping b pts R,
        e.1 < (gridDims b R).x * (gridDims b R).y * (gridDims b R).z := by
      intro e he
      obtain ⟨h1, h2, h3, h4⟩ := (cellIdxSafe_some _ _ _ _ _).mp (mapping_lt b pts R e he)
      have := idx_lt h1 h2 h3
      rw [← h4] at this
      exact_mod_cast this
    have hst : ∀ c < (gridDims b R).x * (gridDims b R).y * (gridDims b R).z,
        (prefixSum 0 (tally ((gridDims b R).x * (gridDims b R).y * (gridDims b R).z)
          ((mapping b pts R).map Prod.fst))).getD c 0 = before (cellList (mapping b pts R)) c := by
      intro c hc
      have := prefixSum_getD (cellList (mapping b pts R)) _ 0 0 (fun k hk => by
        rw [tally_length] at hk
        rw [tally_getD _ ((mapping b pts R).map Prod.fst) k hk, count_all, Nat.zero_add]) c
          (by rw [tally_length]; exact hc)
      simp only [before, Nat.zero_add, Nat.add_zero] at this
      exact this
    have hcr : ∀ c < (gridDims b R).x * (gridDims b R).y * (gridDims b R).z,
        (tally ((gridDims b R).x * (gridDims b R).y * (gridDims b R).z)
          (((mapping b pts R).filter fun e => decide (0 ≤ e.2.idx)).map Prod.fst)).getD c 0 =
          (reals (mapping b pts R) c).length := by
      intro c hc
      rw [tally_getD _ _ c hc, count_reals]
    subst h
    refine ⟨rfl, rfl, rfl, rfl, rfl, hst, fun c hc => ?_, fun c hc => ⟨?_, ?_⟩, ?_⟩
    · simp only
      rw [← count_all]
      exact tally_getD _ _ c hc
    · simp only
      rw [List.getD_eq_getElem?_getD, List.getElem?_eq_none]
      · rfl
      · rw [prefixSum_length, tally_length]; exact hc
    · simp only
      rw [List.getD_eq_getElem?_getD, List.getElem?_eq_none]
      · rfl
      · rw [tally_length]; exact hc
    · exact placeAll_eq _ (mapping b pts R) hlt _ _ hst hcr _

theorem built_rows {b : Box ℝ} {pts : List (Vec3 ℝ)} {R : ℝ} {g : Grid} (h : Built b pts R g) :
    ∀ (it : Iter) d, InGrid g it.cell d →
      (rowRange g it (it.cell.y + d.2) (it.cell.z + d.1)).2 ≤ g.buffer.length := by
  intro it d _
  unfold rowRange
  simp only
  generalize (((it.cell.z + d.1) * (g.ny : ℤ) + (it.cell.y + d.2)) * (g.nx : ℤ) + it.cell.x +
    (if it.cell.x < (g.nx : ℤ) - 1 then 1 else 0)).toNat = e
  rcases Nat.lt_or_ge e (g.nx * g.ny * g.nz) with he | he
  · rw [h.starts e he, h.counts e he, h.buffer, length_flatMap_range]
    exact before_mono (cellList (mapping b pts R)) (show e + 1 ≤ _ from he)
  · rw [(h.over e he).1, (h.over e he).2]
    exact Nat.zero_le _

theorem mem_cellList (m : List (ℕ × Tagged)) (c : ℕ) (t : Tagged) :
    t ∈ cellList m c ↔ (c, t) ∈ m := by
  unfold cellList reals ghosts
  simp only [List.mem_append, List.mem_map, List.mem_filter, decide_eq_true_eq]
  constructor
  · rintro (⟨⟨c', t'⟩, ⟨h1, rfl, -⟩, rfl⟩ | ⟨⟨c', t'⟩, ⟨h1, rfl, -⟩, rfl⟩) <;> exact h1
  · intro h
    rcases lt_or_ge t.idx 0 with h' | h'
    · exact Or.inr ⟨_, ⟨h, rfl, h'⟩, rfl⟩
    · exact Or.inl ⟨_, ⟨h, rfl, h'⟩, rfl⟩

/-- The cell of a point on the grid. -/
noncomputable def Grid.xyz (g : Grid) (p : Vec3 ℝ) : Vec3 ℤ := cellXYZ g.minPos g.inv p

theorem built_cell {b : Box ℝ} {pts : List (Vec3 ℝ)} {R : ℝ} {g : Grid} (h : Built b pts R g)
    {e : ℕ × Tagged} (he : e ∈ mapping b pts R) :
    (0 ≤ (g.xyz e.2.p).x ∧ (g.xyz e.2.p).x < g.nx) ∧ (0 ≤ (g.xyz e.2.p).y ∧ (g.xyz e.2.p).y < g.ny) ∧
    (0 ≤ (g.xyz e.2.p).z ∧ (g.xyz e.2.p).z < g.nz) ∧
      (e.1 : ℤ) = ((g.xyz e.2.p).z * g.ny + (g.xyz e.2.p).y) * g.nx + (g.xyz e.2.p).x := by
  have := (cellIdxSafe_some _ _ _ _ _).mp (mapping_lt b pts R e he)
  rw [Grid.xyz, h.inv, h.minPos, h.nx, h.ny, h.nz]
  exact this

/-- A row as a list of cells. -/
theorem rowEntries_eq {b : Box ℝ} {pts : List (Vec3 ℝ)} {R : ℝ} {g : Grid} (h : Built b pts R g)
    (it : Iter) (hx : 0 ≤ it.cell.x ∧ it.cell.x < g.nx) (d : ℤ × ℤ) (hd : InGrid g it.cell d) :
    ∃ s e : ℕ, s ≤ e ∧ rowEntries g it d =
      (List.range' s (e + 1 - s)).flatMap (cellList (mapping b pts R)) ∧
      (s : ℤ) = ((it.cell.z + d.1) * g.ny + (it.cell.y + d.2)) * g.nx + it.cell.x +
        (if it.cell.x > 0 then -1 else 0) ∧
      (e : ℤ) = ((it.cell.z + d.1) * g.ny + (it.cell.y + d.2)) * g.nx + it.cell.x +
        (if it.cell.x < (g.nx : ℤ) - 1 then 1 else 0) := by
  obtain ⟨hz1, hz2, hy1, hy2⟩ := hd
  have hrow : 0 ≤ ((it.cell.z + d.1) * (g.ny : ℤ) + (it.cell.y + d.2)) * (g.nx : ℤ) := by positivity
  have hlt := idx_lt (x := (g.nx : ℤ) - 1) (X := g.nx) ⟨by omega, by omega⟩ ⟨hy1, hy2⟩ ⟨hz1, hz2⟩
  generalize hS : ((it.cell.z + d.1) * (g.ny : ℤ) + (it.cell.y + d.2)) * (g.nx : ℤ) = row at *
  have hs : 0 ≤ row + it.cell.x + (if it.cell.x > 0 then (-1 : ℤ) else 0) := by split <;> omega
  have he : 0 ≤ row + it.cell.x + (if it.cell.x < (g.nx : ℤ) - 1 then (1 : ℤ) else 0) := by
    split <;> omega
  have hse : row + it.cell.x + (if it.cell.x > 0 then (-1 : ℤ) else 0) ≤
      row + it.cell.x + (if it.cell.x < (g.nx : ℤ) - 1 then (1 : ℤ) else 0) := by
    split <;> split <;> omega
  have hen : row + it.cell.x + (if it.cell.x < (g.nx : ℤ) - 1 then (1 : ℤ) else 0) <
      (g.nx : ℤ) * g.ny * g.nz := by
    split <;> omega
  refine ⟨(row + it.cell.x + (if it.cell.x > 0 then (-1 : ℤ) else 0)).toNat,
    (row + it.cell.x + (if it.cell.x < (g.nx : ℤ) - 1 then (1 : ℤ) else 0)).toNat,
    Int.toNat_le_toNat hse, ?_, Int.toNat_of_nonneg hs, Int.toNat_of_nonneg he⟩
  have hen' : (row + it.cell.x + (if it.cell.x < (g.nx : ℤ) - 1 then (1 : ℤ) else 0)).toNat <
      g.nx * g.ny * g.nz := by
    have := Int.toNat_of_nonneg he
    zify
    rw [this]
    exact hen
  have hse' := Int.toNat_le_toNat hse
  rw [rowEntries, if_pos (show InGrid g it.cell d from ⟨hz1, hz2, hy1, hy2⟩), slice, rowRange]
  simp only [hS]
  rw [h.starts _ hen', h.counts _ hen', h.starts _ (by omega), h.buffer]
  exact slice_flatMap _ _ _ _ hse' hen'

/-- The entries of a row are those in the three cells of the row. -/
theorem mem_rowEntries {b : Box ℝ} {pts : List (Vec3 ℝ)} {R : ℝ} {g : Grid} (h : Built b pts R g)
    (it : Iter) (hx : 0 ≤ it.cell.x ∧ it.cell.x < g.nx) (d : ℤ × ℤ) (t : Tagged) :
    t ∈ rowEntries g it d ↔ ∃ c, (c, t) ∈ mapping b pts R ∧
      (g.xyz t.p).z = it.cell.z + d.1 ∧ (g.xyz t.p).y = it.cell.y + d.2 ∧
      it.cell.x - 1 ≤ (g.xyz t.p).x ∧ (g.xyz t.p).x ≤ it.cell.x + 1 := by
  by_cases hd : InGrid g it.cell d
  · obtain ⟨s, e, hse, hr, hs, he⟩ := rowEntries_eq h it hx d hd
    obtain ⟨hz1, hz2, hy1, hy2⟩ := hd
    rw [hr, List.mem_flatMap]
    constructor
    · rintro ⟨c, hc, ht⟩
      rw [mem_cellList] at ht
      refine ⟨c, ht, ?_⟩
      rw [List.mem_range'_1] at hc
      obtain ⟨h1, h2, h3, h4⟩ := built_cell h ht
      simp only at h1 h2 h3 h4
      obtain ⟨x', hx', hx2, hcx⟩ : ∃ x', (0 ≤ x' ∧ x' < (g.nx : ℤ)) ∧
          (it.cell.x - 1 ≤ x' ∧ x' ≤ it.cell.x + 1) ∧
          (c : ℤ) = ((it.cell.z + d.1) * g.ny + (it.cell.y + d.2)) * g.nx + x' := by
        refine ⟨(c : ℤ) - ((it.cell.z + d.1) * g.ny + (it.cell.y + d.2)) * g.nx, ?_, ?_, by ring⟩
        · split at hs <;> split at he <;> omega
        · split at hs <;> split at he <;> omega
      obtain ⟨e1, e2, e3⟩ := idx_inj h1 h2 hx' ⟨hy1, hy2⟩ (h4.symm.trans hcx)
      exact ⟨e3, e2, by omega, by omega⟩
    · rintro ⟨c, hm, e3, e2, l, u⟩
      refine ⟨c, ?_, (mem_cellList _ _ _).mpr hm⟩
      rw [List.mem_range'_1]
      obtain ⟨h1, h2, h3, h4⟩ := built_cell h hm
      simp only at h1 h2 h3 h4
      rw [e2, e3] at h4
      split at hs <;> split at he <;> omega
  · rw [rowEntries, if_neg hd]
    constructor
    · intro h; cases h
    · rintro ⟨c, hm, e3, e2, -⟩
      obtain ⟨h1, h2, h3, h4⟩ := built_cell h hm
      simp only at h1 h2 h3 h4
      exact absurd ⟨by omega, by omega, by omega, by omega⟩ hd

theorem mem_nine (d : ℤ × ℤ) : d ∈ nine ↔ (-1 ≤ d.1 ∧ d.1 ≤ 1) ∧ (-1 ≤ d.2 ∧ d.2 ≤ 1) := by
  obtain ⟨a, c⟩ := d
  simp only [nine, List.mem_cons, List.not_mem_nil, or_false, Prod.mk.injEq]
  omega

/-- The bonds around a query point come from the entries in neighboring cells. -/
theorem mem_around {b : Box ℝ} {pts : List (Vec3 ℝ)} {R : ℝ} {g : Grid} (h : Built b pts R g)
    (q : Vec3 ℝ) (qi : ℕ) (r rMin : ℝ) (excl : Bool) (bd : Bond ℝ) :
    bd ∈ around g q qi r rMin excl ↔
      (∃ c, cellIdxSafe g.minPos g.inv ⟨g.nx, g.ny, g.nz⟩ q = some c) ∧
      ∃ e ∈ mapping b pts R,
        (|(g.xyz e.2.p).x - (g.xyz q).x| ≤ 1 ∧ |(g.xyz e.2.p).y - (g.xyz q).y| ≤ 1 ∧
          |(g.xyz e.2.p).z - (g.xyz q).z| ≤ 1) ∧
        test ⟨q, qi, r, rMin, excl, ⟨0, 0, 0⟩, 0, 0, none, 0, none, false⟩ e.2 = some bd := by
  unfold around
  cases hc : cellIdxSafe g.minPos g.inv ⟨g.nx, g.ny, g.nz⟩ q with
  | none => simp
  | some c =>
    have hq := ((cellIdxSafe_some _ _ _ _ _).mp hc).1
    simp only [List.mem_flatMap, rowBonds, List.mem_filterMap, Option.some.injEq, exists_eq',
      true_and]
    simp only [abs_le]
    constructor
    · rintro ⟨d, hd, t, ht, htest⟩
      obtain ⟨c', hm, e3, e2, l, u⟩ := (mem_rowEntries h _ hq d t).mp ht
      rw [mem_nine] at hd
      refine ⟨(c', t), hm, ?_, htest⟩
      simp only [Grid.xyz] at *
      omega
    · rintro ⟨⟨c', t⟩, hm, hnear, htest⟩
      simp only at hnear htest
      refine ⟨((g.xyz t.p).z - (g.xyz q).z, (g.xyz t.p).y - (g.xyz q).y), ?_, t, ?_, htest⟩
      · rw [mem_nine]; simp only; omega
      · apply (mem_rowEntries h _ hq _ t).mpr
        refine ⟨c', hm, ?_⟩
        simp only [Grid.xyz] at *
        omega

/-! ### Ghosts -/

/-- The images for which a ghost is made. -/
structure GhostImage (b : Box ℝ) (R : ℝ) (p : Vec3 ℝ) (n : Vec3 ℤ) : Prop where
  x : n.x = 0 ∨ n.x = ghostStep (b.makeFractional p).x (R / b.getNearestPlaneDistance.x)
  y : n.y = 0 ∨ n.y = ghostStep (b.makeFractional p).y (R / b.getNearestPlaneDistance.y)
  z : n.z = 0 ∨ (b.is2D = false ∧
    n.z = ghostStep (b.makeFractional p).z (R / b.getNearestPlaneDistance.z))

theorem ghostStep_range (f fr : ℝ) : -1 ≤ ghostStep f fr ∧ ghostStep f fr ≤ 1 := by
  unfold ghostStep; split <;> split <;> simp

theorem mem_ghostSites (dx dy dz i j k : ℤ) : (i, j, k) ∈ ghostSites dx dy dz ↔
    (i = 0 ∨ i = dx) ∧ (j = 0 ∨ j = dy) ∧ (k = 0 ∨ k = dz) ∧ ¬ (i = 0 ∧ j = 0 ∧ k = 0) := by
  unfold ghostSites
  by_cases hx : dx = 0 <;> by_cases hy : dy = 0 <;> by_cases hz : dz = 0 <;>
    simp [hx, hy, hz] <;> omega

theorem ghostSites_nodup (dx dy dz : ℤ) : (ghostSites dx dy dz).Nodup := by
  unfold ghostSites
  by_cases hx : dx = 0 <;> by_cases hy : dy = 0 <;> by_cases hz : dz = 0 <;>
    simp [hx, hy, hz] <;> omega

theorem newSite_eq (b : Box ℝ) (i j k : ℤ) (hi : -1 ≤ i ∧ i ≤ 1) (hj : -1 ≤ j ∧ j ≤ 1)
    (hk : -1 ≤ k ∧ k ≤ 1) (h2 : b.is2D = true → k = 0) :
    newSite b i j k = lattice b ⟨i, j, k⟩ := by
  obtain ⟨hi1, hi2⟩ := hi
  obtain ⟨hj1, hj2⟩ := hj
  obtain ⟨hk1, hk2⟩ := hk
  cases h : b.is2D with
  | true =>
    have := h2 h
    subst this
    interval_cases i <;> interval_cases j <;> ext <;>
      simp [newSite, lattice, comb, a1, a2, a3] <;> ring
  | false =>
    interval_cases i <;> interval_cases j <;> interval_cases k <;> ext <;>
      simp [newSite, lattice, comb, a1, a2, a3, h] <;> ring

theorem ghostImage_range {b : Box ℝ} {R : ℝ} {p : Vec3 ℝ} {n : Vec3 ℤ} (h : GhostImage b R p n) :
    (-1 ≤ n.x ∧ n.x ≤ 1) ∧ (-1 ≤ n.y ∧ n.y ≤ 1) ∧ (-1 ≤ n.z ∧ n.z ≤ 1) ∧
      (b.is2D = true → n.z = 0) := by
  have hx := ghostStep_range (b.makeFractional p).x (R / b.getNearestPlaneDistance.x)
  have hy := ghostStep_range (b.makeFractional p).y (R / b.getNearestPlaneDistance.y)
  have hz := ghostStep_range (b.makeFractional p).z (R / b.getNearestPlaneDistance.z)
  obtain ⟨h1, h2, h3⟩ := h
  refine ⟨by omega, by omega, ?_, ?_⟩
  · rcases h3 with h3 | ⟨-, h3⟩ <;> omega
  · intro e
    rcases h3 with h3 | ⟨h3, -⟩
    · exact h3
    · rw [e] at h3; cases h3

theorem ghost_steps (b : Box ℝ) (R : ℝ) (p : Vec3 ℝ) :
    ∃ dx dy dz, generateGhosts b R p =
        (ghostSites dx dy dz).map (fun s => newSite b s.1 s.2.1 s.2.2) ∧
      ∀ n : Vec3 ℤ, GhostImage b R p n ↔ (n.x = 0 ∨ n.x = dx) ∧ (n.y = 0 ∨ n.y = dy) ∧
        (n.z = 0 ∨ n.z = dz) := by
  refine ⟨_, _, _, rfl, ?_⟩
  intro n
  constructor
  · rintro ⟨h1, h2, h3⟩
    refine ⟨h1, h2, ?_⟩
    rcases h3 with h3 | ⟨h3, h4⟩
    · exact Or.inl h3
    · rw [h3]; exact Or.inr h4
  · rintro ⟨h1, h2, h3⟩
    refine ⟨h1, h2, ?_⟩
    cases h : b.is2D with
    | true => rw [h] at h3; simp only [if_true, or_self] at h3; exact Or.inl h3
    | false =>
      rw [h] at h3
      rcases h3 with h3 | h3
      · exact Or.inl h3
      · exact Or.inr ⟨rfl, h3⟩

theorem mem_generateGhosts (b : Box ℝ) (R : ℝ) (p s : Vec3 ℝ) :
    s ∈ generateGhosts b R p ↔ ∃ n, GhostImage b R p n ∧ n ≠ ⟨0, 0, 0⟩ ∧ s = lattice b n := by
  obtain ⟨dx, dy, dz, he, hi⟩ := ghost_steps b R p
  rw [he, List.mem_map]
  constructor
  · rintro ⟨⟨i, j, k⟩, hm, rfl⟩
    rw [mem_ghostSites] at hm
    have hg : GhostImage b R p ⟨i, j, k⟩ := (hi _).mpr ⟨hm.1, hm.2.1, hm.2.2.1⟩
    have hr := ghostImage_range hg
    refine ⟨⟨i, j, k⟩, hg, fun e => hm.2.2.2 ?_, newSite_eq b i j k hr.1 hr.2.1 hr.2.2.1 hr.2.2.2⟩
    simpa using e
  · rintro ⟨n, hg, hn, rfl⟩
    have hr := ghostImage_range hg
    refine ⟨(n.x, n.y, n.z), ?_, newSite_eq b _ _ _ hr.1 hr.2.1 hr.2.2.1 hr.2.2.2⟩
    rw [mem_ghostSites]
    obtain ⟨h1, h2, h3⟩ := (hi _).mp hg
    refine ⟨h1, h2, h3, fun e => hn ?_⟩
    ext
    · exact e.1
    · exact e.2.1
    · exact e.2.2

theorem realId_ghost (i : ℕ) : realId (ghostTag i) = i := by
  have h : ghostTag i < 0 := by rw [ghostTag]; omega
  rw [realId, if_pos h, ghostTag]
  omega

theorem realId_real (i : ℕ) : realId (i : ℤ) = i := by
  simp only [realId]
  rw [if_neg (by omega)]
  omega

/-- Where an entry comes from: an image of a point. -/
theorem mem_mapping (b : Box ℝ) (pts : List (Vec3 ℝ)) (R : ℝ) (c : ℕ) (t : Tagged) :
    (c, t) ∈ mapping b pts R ↔
      cellIdxSafe (gridMin b R) (1 / R) (gridDims b R) t.p = some c ∧
      ∃ (i : ℕ) (p : Vec3 ℝ) (n : Vec3 ℤ), pts[i]? = some p ∧ GhostImage b R p n ∧ t.p = p + lattice b n ∧
        t.idx = (if n = ⟨0, 0, 0⟩ then (i : ℤ) else ghostTag i) := by
  have h0 : lattice b ⟨0, 0, 0⟩ = 0 := by ext <;> simp [lattice, comb]
  constructor
  · intro h
    refine ⟨mapping_lt b pts R (c, t) h, ?_⟩
    obtain ⟨⟨p, i⟩, hpi, he⟩ := List.mem_flatMap.mp h
    have hp := List.mk_mem_zipIdx_iff_getElem?.mp hpi
    rcases List.mem_append.mp he with he | he
    · obtain ⟨s, hs, he⟩ := List.mem_filterMap.mp he
      obtain ⟨c', -, he⟩ := Option.map_eq_some_iff.mp he
      obtain ⟨-, rfl⟩ := Prod.mk.inj he
      obtain ⟨n, hn, hne, rfl⟩ := (mem_generateGhosts b R p s).mp hs
      exact ⟨i, p, n, hp, hn, rfl, by rw [if_neg hne]⟩
    · rw [Option.mem_toList] at he
      obtain ⟨c', -, he⟩ := Option.map_eq_some_iff.mp he
      obtain ⟨-, rfl⟩ := Prod.mk.inj he
      refine ⟨i, p, ⟨0, 0, 0⟩, hp, ⟨Or.inl rfl, Or.inl rfl, Or.inl rfl⟩, ?_, by rw [if_pos rfl]⟩
      rw [h0]; ext <;> simp
  · rintro ⟨hc, i, p, n, hp, hn, htp, hti⟩
    refine List.mem_flatMap.mpr ⟨(p, i), List.mk_mem_zipIdx_iff_getElem?.mpr hp, ?_⟩
    obtain ⟨tp, ti⟩ := t
    simp only at hc htp hti
    apply List.mem_append.mpr
    by_cases hz : n = ⟨0, 0, 0⟩
    · right
      rw [if_pos hz] at hti
      have hpp : tp = p := by rw [htp, hz, h0]; ext <;> simp
      rw [Option.mem_toList]
      rw [← hpp, hc, hti]
      rfl
    · left
      rw [if_neg hz] at hti
      refine List.mem_filterMap.mpr ⟨lattice b n, (mem_generateGhosts b R p _).mpr ⟨n, hn, hz, rfl⟩, ?_⟩
      simp only [← htp, hc, hti, Option.map_some]

end CellQuery
end Freud
