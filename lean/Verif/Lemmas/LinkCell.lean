import Verif.Model.LinkCell
import Verif.Props.CellShell
import Verif.Props.BallQuery

/-!
# Lemmas on cell lists
-/

namespace Freud
namespace LinkCell
open Spec

/-! ### The linked lists -/

/-- From index `cur` the list leads through `js` to the terminator. -/
def Chain (l : List (Option ℕ)) : ℕ → List ℕ → Prop
  | cur, [] => l[cur]? = some none
  | cur, j :: js => l[cur]? = some (some j) ∧ Chain l j js

theorem walk_chain {l : List (Option ℕ)} : ∀ {js : List ℕ} {cur fuel : ℕ}, Chain l cur js →
    js.length < fuel → walk l fuel cur = some js := by
  intro js
  induction js with
  | nil =>
    intro cur fuel h hf
    obtain ⟨fuel, rfl⟩ : ∃ f, fuel = f + 1 := ⟨fuel - 1, by simp only [List.length_nil] at hf; omega⟩
    rw [walk, h]; rfl
  | cons j js ih =>
    intro cur fuel h hf
    obtain ⟨fuel, rfl⟩ : ∃ f, fuel = f + 1 := ⟨fuel - 1, by omega⟩
    rw [walk, h.1, Option.bind_some]
    simp only
    rw [ih h.2 (by simp only [List.length_cons] at hf; omega)]
    rfl

theorem chain_congr {l l' : List (Option ℕ)} : ∀ {js : List ℕ} {cur cur' : ℕ}, Chain l cur js →
    l[cur]? = l'[cur']? → (∀ j ∈ js, l[j]? = l'[j]?) → Chain l' cur' js := by
  intro js
  induction js with
  | nil => intro cur cur' h he _; rw [Chain] at *; rw [← he, h]
  | cons j js ih =>
    intro cur cur' h he hj
    rw [Chain] at *
    exact ⟨by rw [← he, h.1], ih h.2 (hj j (by simp)) fun j' h' => hj j' (by simp [h'])⟩

/-- The indices from `k` on whose entry is `cell`. -/
def sel (cell : ℕ) (cs : List ℕ) (k : ℕ) : List ℕ :=
  ((cs.zipIdx k).filter fun ci => decide (ci.1 = cell)).map Prod.snd

theorem mem_sel {cell k j : ℕ} {cs : List ℕ} :
    j ∈ sel cell cs k ↔ k ≤ j ∧ cs[j - k]? = some cell := by
  unfold sel
  simp only [List.mem_map, List.mem_filter, decide_eq_true_eq, Prod.exists]
  constructor
  · rintro ⟨c, i, ⟨h1, rfl⟩, rfl⟩
    rw [List.mk_mem_zipIdx_iff_le_and_getElem?_sub] at h1
    exact h1
  · rintro ⟨h1, h2⟩
    exact ⟨cell, j, ⟨List.mk_mem_zipIdx_iff_le_and_getElem?_sub.mpr ⟨h1, h2⟩, rfl⟩, rfl⟩

theorem sel_sublist (cell : ℕ) (cs : List ℕ) (k : ℕ) :
    (sel cell cs k).Sublist (List.range' k cs.length) := by
  unfold sel
  have : (cs.zipIdx k).map Prod.snd = List.range' k cs.length := by
    rw [List.zipIdx_map_snd]
  rw [← this]
  exact List.filter_sublist.map _

theorem fold_inv (n nc : ℕ) : ∀ (cs : List ℕ) (k : ℕ), (∀ c ∈ cs, c < nc) → k + cs.length = n →
    ∃ l, (cs.zipIdx k).foldr (fun ci acc => acc.bind (insertPoint n ci.2 ci.1))
        (some (List.replicate (n + nc) none)) = some l ∧ l.length = n + nc ∧
      ∀ cell < nc, Chain l (n + cell) (sel cell cs k) := by
  intro cs
  induction cs with
  | nil =>
    intro k _ _
    refine ⟨_, rfl, by simp, fun cell hc => ?_⟩
    simp only [sel, List.zipIdx_nil, List.filter_nil, List.map_nil]
    rw [Chain, List.getElem?_replicate, if_pos (by omega)]
  | cons c cs ih =>
    intro k hc hn
    simp only [List.length_cons] at hn
    obtain ⟨l, h1, h2, h3⟩ := ih (k + 1) (fun c' h' => hc c' (by simp [h'])) (by omega)
    have hcn : c < nc := hc c (by simp)
    have hlt : n + c < l.length := by omega
    have hget : l[n + c]? = some l[n + c] := List.getElem?_eq_getElem hlt
    refine ⟨(l.set k l[n + c]).set (n + c) (some k), ?_, by simp [h2], fun cell hcell => ?_⟩
    · rw [List.zipIdx_cons, List.foldr_cons, h1, Option.bind_some, insertPoint, hget,
        Option.bind_some, put, if_pos (by omega), Option.bind_some, put,
        if_pos (by rw [List.length_set]; omega)]
    · have hsel : sel cell (c :: cs) k =
          if c = cell then k :: sel cell cs (k + 1) else sel cell cs (k + 1) := by
        unfold sel
        rw [List.zipIdx_cons]
        by_cases h : c = cell
        · rw [List.filter_cons_of_pos (by simpa using h), if_pos h]; rfl
        · rw [List.filter_cons_of_neg (by simpa using h), if_neg h]
      have hne : ∀ j ∈ sel cell cs (k + 1), j ≠ k ∧ j ≠ n + c := by
        intro j hj
        obtain ⟨g1, g2⟩ := mem_sel.mp hj
        obtain ⟨g3, -⟩ := List.getElem?_eq_some_iff.mp g2
        omega
      have hkeep : ∀ j, j ≠ k → j ≠ n + c →
          l[j]? = ((l.set k l[n + c]).set (n + c) (some k))[j]? := by
        intro j j1 j2
        rw [List.getElem?_set_ne (Ne.symm j2), List.getElem?_set_ne (Ne.symm j1)]
      rw [hsel]
      by_cases h : c = cell
      · subst h
        rw [if_pos rfl, Chain]
        refine ⟨by rw [List.getElem?_set_self (by rw [List.length_set]; omega)], ?_⟩
        refine chain_congr (h3 c hcn) ?_ fun j hj => hkeep j (hne j hj).1 (hne j hj).2
        rw [List.getElem?_set_ne (by omega), List.getElem?_set_self (by omega), hget]
      · rw [if_neg h]
        exact chain_congr (h3 cell hcell) (hkeep _ (by omega) (by omega))
          fun j hj => hkeep j (hne j hj).1 (hne j hj).2

theorem computeCellList_spec (cs : List ℕ) (nc : ℕ) (h : ∀ c ∈ cs, c < nc) :
    ∃ l, computeCellList cs nc = some l ∧
      ∀ cell < nc, walk l (cs.length + 1) (cs.length + cell) = some (sel cell cs 0) := by
  obtain ⟨l, h1, h2, h3⟩ := fold_inv cs.length nc cs 0 h (by omega)
  refine ⟨l, h1, fun cell hc => walk_chain (h3 cell hc) ?_⟩
  have := (sel_sublist cell cs 0).length_le
  rw [List.length_range'] at this
  omega

/-! ### Cell indices -/

theorem coordToIndex_eq (dim : Vec3 ℕ) (x y z : ℕ) :
    coordToIndex dim x y z = x + dim.x * (y + dim.y * z) := by
  simp [coordToIndex, MArray.linIndex]; ring

theorem coordToIndex_lt {dim : Vec3 ℕ} {x y z : ℕ} (hx : x < dim.x) (hy : y < dim.y)
    (hz : z < dim.z) : coordToIndex dim x y z < dim.x * dim.y * dim.z := by
  rw [coordToIndex_eq]
  have h1 : y + dim.y * z + 1 ≤ dim.y * dim.z := by
    calc y + dim.y * z + 1 ≤ dim.y * z + dim.y := by omega
      _ = dim.y * (z + 1) := by ring
      _ ≤ dim.y * dim.z := Nat.mul_le_mul_left _ hz
  calc x + dim.x * (y + dim.y * z) < dim.x + dim.x * (y + dim.y * z) := by omega
    _ = dim.x * (y + dim.y * z + 1) := by ring
    _ ≤ dim.x * (dim.y * dim.z) := Nat.mul_le_mul_left _ h1
    _ = dim.x * dim.y * dim.z := by ring

theorem coordToIndex_inj {dim : Vec3 ℕ} {x y z x' y' z' : ℕ} (hx : x < dim.x) (hy : y < dim.y)
    (hx' : x' < dim.x) (hy' : y' < dim.y)
    (h : coordToIndex dim x y z = coordToIndex dim x' y' z') : x = x' ∧ y = y' ∧ z = z' := by
  rw [coordToIndex_eq, coordToIndex_eq] at h
  have e1 : x = x' := by
    have := congrArg (· % dim.x) h
    simpa [Nat.add_mul_mod_self_left, Nat.mod_eq_of_lt hx, Nat.mod_eq_of_lt hx'] using this
  subst e1
  have e2 : y + dim.y * z = y' + dim.y * z' :=
    Nat.eq_of_mul_eq_mul_left (by omega : 0 < dim.x) (by omega)
  have e3 : y = y' := by
    have := congrArg (· % dim.y) e2
    simpa [Nat.add_mul_mod_self_left, Nat.mod_eq_of_lt hy, Nat.mod_eq_of_lt hy'] using this
  subst e3
  exact ⟨rfl, rfl, Nat.eq_of_mul_eq_mul_left (by omega : 0 < dim.y) (by omega)⟩

theorem wrapCoord_eq (c : ℤ) (w : ℕ) (hw : 0 < w) : (wrapCoord c w : ℤ) = c % w := by
  unfold wrapCoord
  have h1 : Int.tmod c w = c % w ∨ (Int.tmod c w < 0 ∧ Int.tmod c w + w = c % w) := by
    rw [Int.tmod_eq_emod]
    have := Int.emod_lt_of_pos c (by omega : (0 : ℤ) < w)
    have := Int.emod_nonneg c (by omega : (w : ℤ) ≠ 0)
    split
    · left; omega
    · right
      rename_i h
      simp only [Int.natAbs_natCast]
      omega
  have := Int.emod_nonneg c (by omega : (w : ℤ) ≠ 0)
  simp only
  rcases h1 with h1 | ⟨h1, h2⟩
  · rw [h1, if_neg (by omega)]; omega
  · rw [if_pos h1]; omega

theorem wrapCoord_lt (c : ℤ) (w : ℕ) (hw : 0 < w) : wrapCoord c w < w := by
  have := wrapCoord_eq c w hw
  have := Int.emod_lt_of_pos c (by omega : (0 : ℤ) < w)
  omega

/-! ### A constructed cell list -/

/-- What the constructor guarantees. -/
structure Good (lc : LinkCell) : Prop where
  wpos : 0 < lc.width
  dx : 0 < lc.dim.x
  dy : 0 < lc.dim.y
  dz : 0 < lc.dim.z
  px : (lc.dim.x : ℝ) * lc.width ≤ lc.box.getNearestPlaneDistance.x
  py : (lc.dim.y : ℝ) * lc.width ≤ lc.box.getNearestPlaneDistance.y
  pz : lc.box.is2D = false → (lc.dim.z : ℝ) * lc.width ≤ lc.box.getNearestPlaneDistance.z
  z1 : lc.box.is2D = true → lc.dim.z = 1
  cells : ∀ cell < lc.dim.x * lc.dim.y * lc.dim.z,
    lc.iterCell cell = some (sel cell (lc.pts.map (getCell lc.box lc.dim)) 0)

theorem getCell_lt {b : Box ℝ} {dim : Vec3 ℕ} (hx : 0 < dim.x) (hy : 0 < dim.y) (hz : 0 < dim.z)
    (p : Vec3 ℝ) : getCell b dim p < dim.x * dim.y * dim.z :=
  coordToIndex_lt (Nat.mod_lt _ hx) (Nat.mod_lt _ hy) (Nat.mod_lt _ hz)

theorem one_pos (n : ℕ) : 0 < (if n = 0 then 1 else n) := by split <;> omega

theorem dim_mul {L w : ℝ} (hw : 0 < w) (h : w * 2 ≤ L) :
    (((if ⌊L / w⌋₊ = 0 then 1 else ⌊L / w⌋₊ : ℕ)) : ℝ) * w ≤ L := by
  have h1 : 1 ≤ ⌊L / w⌋₊ := by
    rw [Nat.one_le_floor_iff, le_div_iff₀ hw]
    linarith
  rw [if_neg (by omega), ← le_div_iff₀ hw]
  exact Nat.floor_le (div_nonneg (by linarith) hw.le)

/-- The width the constructor uses. -/
noncomputable def autoWidth (b : Box ℝ) (n : ℕ) (cw : ℝ) : ℝ :=
  if cw = 0 then (b.getVolume / (max (n / 10) 1 : ℕ)) ^ (1 / 3 : ℝ) else cw

theorem autoWidth_pos {b : Box ℝ} (h : PositiveLengths b) (n : ℕ) {cw : ℝ} (hc : 0 ≤ cw) :
    0 < autoWidth b n cw := by
  unfold autoWidth
  split
  · refine Real.rpow_pos_of_pos (div_pos (volume_pos h) ?_) _
    have : 1 ≤ max (n / 10) 1 := le_max_right _ _
    exact_mod_cast this
  · rename_i h0
    exact lt_of_le_of_ne hc (Ne.symm h0)

theorem new_eq (b : Box ℝ) (pts : List (Vec3 ℝ)) (cw : ℝ) :
    new b pts cw =
      if pts = [] then none
      else if b.is2D = true ∧ ∃ p ∈ pts, |p.z| > 1 / 1000000 then none
      else if autoWidth b pts.length cw * 2 > b.getNearestPlaneDistance.x ∨
        autoWidth b pts.length cw * 2 > b.getNearestPlaneDistance.y ∨
        (b.is2D = false ∧ autoWidth b pts.length cw * 2 > b.getNearestPlaneDistance.z) then none
      else some ⟨b, pts, autoWidth b pts.length cw,
        computeDimensions b (autoWidth b pts.length cw),
        ((computeCellList (pts.map (getCell b (computeDimensions b (autoWidth b pts.length cw))))
          ((computeDimensions b (autoWidth b pts.length cw)).x *
          (computeDimensions b (autoWidth b pts.length cw)).y *
          (computeDimensions b (autoWidth b pts.length cw)).z)).getD [])⟩ := by
  unfold new
  by_cases h1 : pts = []
  · rw [if_pos h1, if_pos h1]
  rw [if_neg h1, if_neg h1]
  by_cases h2 : b.is2D = true ∧ ∃ p ∈ pts, |p.z| > 1 / 1000000
  · rw [if_pos h2, if_pos h2]
  rw [if_neg h2, if_neg h2]
  change (if autoWidth b pts.length cw * 2 > b.getNearestPlaneDistance.x ∨
        autoWidth b pts.length cw * 2 > b.getNearestPlaneDistance.y ∨
        (b.is2D = false ∧ autoWidth b pts.length cw * 2 > b.getNearestPlaneDistance.z) then none
      else if (computeDimensions b (autoWidth b pts.length cw)).x *
          (computeDimensions b (autoWidth b pts.length cw)).y *
          (computeDimensions b (autoWidth b pts.length cw)).z < 1 then none
      else (computeCellList (pts.map (getCell b (computeDimensions b (autoWidth b pts.length cw))))
          ((computeDimensions b (autoWidth b pts.length cw)).x *
          (computeDimensions b (autoWidth b pts.length cw)).y *
          (computeDimensions b (autoWidth b pts.length cw)).z)).map fun l =>
            (⟨b, pts, autoWidth b pts.length cw,
              computeDimensions b (autoWidth b pts.length cw), l⟩ : LinkCell)) = _
  generalize autoWidth b pts.length cw = w
  by_cases h3 : w * 2 > b.getNearestPlaneDistance.x ∨ w * 2 > b.getNearestPlaneDistance.y ∨
        (b.is2D = false ∧ w * 2 > b.getNearestPlaneDistance.z)
  · rw [if_pos h3, if_pos h3]
  rw [if_neg h3, if_neg h3]
  have hx : 0 < (computeDimensions b w).x := one_pos _
  have hy : 0 < (computeDimensions b w).y := one_pos _
  have hz : 0 < (computeDimensions b w).z := one_pos _
  rw [if_neg (by have := Nat.mul_pos (Nat.mul_pos hx hy) hz; omega)]
  obtain ⟨l, hl, -⟩ := computeCellList_spec (pts.map (getCell b (computeDimensions b w)))
    ((computeDimensions b w).x * (computeDimensions b w).y * (computeDimensions b w).z)
    (by
      intro c hc
      obtain ⟨p, -, rfl⟩ := List.mem_map.mp hc
      exact getCell_lt hx hy hz p)
  rw [hl]; rfl

theorem new_spec {b : Box ℝ} (hb : PositiveLengths b) {pts : List (Vec3 ℝ)} {cw : ℝ} (hc : 0 ≤ cw)
    {lc : LinkCell} (h : new b pts cw = some lc) :
    lc.box = b ∧ lc.pts = pts ∧ lc.width = autoWidth b pts.length cw ∧ Good lc := by
  have hw := autoWidth_pos hb pts.length hc
  rw [new_eq] at h
  split_ifs at h with h1 h2 h3
  simp only [Option.some.injEq] at h
  subst h
  refine ⟨rfl, rfl, rfl, ?_⟩
  generalize autoWidth b pts.length cw = w at *
  have hx : 0 < (computeDimensions b w).x := one_pos _
  have hy : 0 < (computeDimensions b w).y := one_pos _
  have hz : 0 < (computeDimensions b w).z := one_pos _
  push Not at h3
  refine ⟨hw, hx, hy, hz, dim_mul hw h3.1, dim_mul hw h3.2.1, fun h2d => ?_, fun h2d => ?_, ?_⟩
  · simp only at h2d
    have := dim_mul hw (h3.2.2 h2d)
    simpa [computeDimensions, h2d] using this
  · simp only at h2d
    simp [computeDimensions, h2d]
  · intro cell hcell
    obtain ⟨l, hl, hw⟩ := computeCellList_spec (pts.map (getCell b (computeDimensions b w)))
      ((computeDimensions b w).x * (computeDimensions b w).y * (computeDimensions b w).z)
      (by
        intro c hc
        obtain ⟨p, -, rfl⟩ := List.mem_map.mp hc
        exact getCell_lt hx hy hz p)
    have := hw cell hcell
    rw [List.length_map] at this
    simp only [iterCell, hl, Option.getD_some]
    exact this

/-! ### Cells around a query point -/

theorem floor_close (a c : ℝ) : (((⌊a⌋ - ⌊c⌋).natAbs : ℤ) : ℝ) - 1 < |a - c| := by
  have h1 := Int.floor_le a
  have h2 := Int.lt_floor_add_one a
  have h3 := Int.floor_le c
  have h4 := Int.lt_floor_add_one c
  rw [Int.natCast_natAbs, Int.cast_abs]
  push_cast
  rcases abs_cases ((⌊a⌋ : ℝ) - ⌊c⌋) with ⟨e, -⟩ | ⟨e, -⟩ <;> rw [e]
  · linarith [le_abs_self (a - c)]
  · linarith [neg_le_abs (a - c)]

theorem axis_bound {a c n w L N : ℝ} {d : ℕ} (hw : 0 < w) (hd : d * w ≤ L)
    (hN : |a + n - c| * L ≤ N) :
    ((((⌊(a + n) * d⌋ - ⌊c * d⌋).natAbs : ℤ) : ℝ) - 1) * w < N ∨
      ⌊(a + n) * d⌋ - ⌊c * d⌋ = 0 := by
  by_cases h0 : ⌊(a + n) * d⌋ - ⌊c * d⌋ = 0
  · exact Or.inr h0
  left
  have h1 := floor_close ((a + n) * d) (c * d)
  rw [← sub_mul, abs_mul, Nat.abs_cast] at h1
  calc ((((⌊(a + n) * d⌋ - ⌊c * d⌋).natAbs : ℤ) : ℝ) - 1) * w < (|a + n - c| * d) * w :=
        mul_lt_mul_of_pos_right h1 hw
    _ = |a + n - c| * (d * w) := by ring
    _ ≤ |a + n - c| * L := mul_le_mul_of_nonneg_left hd (abs_nonneg _)
    _ ≤ N := hN

theorem axis_cell {g f : ℝ} (hg : 0 ≤ g) (hf : 0 ≤ f) (n : ℤ) {d : ℕ} (hd : 0 < d) :
    wrapCoord (((⌊f * d⌋.toNat % d : ℕ) : ℤ) + (⌊(g + n) * d⌋ - ⌊f * d⌋)) d =
      ⌊g * d⌋.toNat % d := by
  have e1 : ⌊(g + n) * d⌋ = ⌊g * d⌋ + n * d := by
    rw [show (g + (n : ℝ)) * d = g * d + ((n * d : ℤ) : ℝ) by push_cast; ring, Int.floor_add_intCast]
  have p1 : 0 ≤ ⌊g * d⌋ := Int.floor_nonneg.mpr (by positivity)
  have p2 : 0 ≤ ⌊f * d⌋ := Int.floor_nonneg.mpr (by positivity)
  have := wrapCoord_eq (((⌊f * d⌋.toNat % d : ℕ) : ℤ) + (⌊(g + n) * d⌋ - ⌊f * d⌋)) d hd
  apply Nat.cast_injective (R := ℤ)
  rw [this, e1, Int.natCast_mod, Int.natCast_mod, Int.toNat_of_nonneg p1, Int.toNat_of_nonneg p2]
  rw [show ⌊f * (d : ℝ)⌋ % (d : ℤ) + (⌊g * (d : ℝ)⌋ + n * d - ⌊f * (d : ℝ)⌋) =
    ⌊g * (d : ℝ)⌋ + d * (n - ⌊f * (d : ℝ)⌋ / d) by
      have := Int.mul_ediv_add_emod ⌊f * (d : ℝ)⌋ d
      linarith, Int.add_mul_emod_self_left]

/-- Every image of a point lies in a cell that the walk reaches: its offset from the cell of the
query point is `o`, and it is at least `chebyshev o - 1` cell widths away. -/
theorem exists_cell {lc : LinkCell} (hg : Good lc) (hb : Spec.Valid lc.box)
    (hL : PositiveLengths lc.box) {p q : Vec3 ℝ} (hp : InCell lc.box p) (hq : InCell lc.box q)
    (n : Vec3 ℤ) (hn : AllowedShift lc.box n) :
    ∃ o : Vec3 ℤ, (lc.box.is2D = true → o.z = 0) ∧
      getCellIndex lc.dim (lc.pointCell q + o) = getCell lc.box lc.dim p ∧
      ((chebyshev o : ℝ) - 1) * lc.width < Vec3.norm (p - q + lattice lc.box n) := by
  obtain ⟨g, hg1, gx, gy, gz⟩ := hp
  obtain ⟨f, hf1, fx, fy, fz⟩ := hq
  have eg := hasCoords_frac hb hg1
  have ef := hasCoords_frac hb hf1
  have hv : p - q + lattice lc.box n =
      comb lc.box (g.x + n.x - f.x) (g.y + n.y - f.y) (g.z + n.z - f.z) := by
    rw [hg1.1, hf1.1, lattice]
    ext <;> simp [comb] <;> ring
  have hcp := comb_plane hL (g.x + n.x - f.x) (g.y + n.y - f.y) (g.z + n.z - f.z)
  rw [← hv] at hcp
  refine ⟨⟨⌊(g.x + n.x) * lc.dim.x⌋ - ⌊f.x * lc.dim.x⌋, ⌊(g.y + n.y) * lc.dim.y⌋ - ⌊f.y * lc.dim.y⌋,
    ⌊(g.z + n.z) * lc.dim.z⌋ - ⌊f.z * lc.dim.z⌋⟩, ?_, ?_, ?_⟩
  · intro h
    simp only [hg1.2 h, hf1.2 h, hn.2.2 (Or.inr h)]
    simp
  · unfold getCellIndex getCell pointCell getCellCoord
    simp only [← eg, ← ef, Vec3.add_x, Vec3.add_y, Vec3.add_z]
    rw [axis_cell gx.1 fx.1 n.x hg.dx, axis_cell gy.1 fy.1 n.y hg.dy, axis_cell gz.1 fz.1 n.z hg.dz]
  · have hz : ∀ i : ℤ, i = 0 ∨ (((i.natAbs : ℤ) : ℝ) - 1) * lc.width <
        Vec3.norm (p - q + lattice lc.box n) → (((i.natAbs : ℤ) : ℝ) - 1) * lc.width <
        Vec3.norm (p - q + lattice lc.box n) := by
      rintro i (rfl | h)
      · have := hg.wpos
        have := norm_nonneg' (p - q + lattice lc.box n)
        have e : ((((0 : ℤ).natAbs : ℤ) : ℝ) - 1) * lc.width = -lc.width := by simp
        rw [e]; linarith
      · exact h
    have bx := hz _ (axis_bound hg.wpos hg.px hcp.1).symm
    have byy := hz _ (axis_bound hg.wpos hg.py hcp.2.1).symm
    have bz : (((((⌊(g.z + n.z) * lc.dim.z⌋ - ⌊f.z * lc.dim.z⌋).natAbs : ℤ) : ℝ)) - 1) * lc.width <
        Vec3.norm (p - q + lattice lc.box n) := by
      cases h2d : lc.box.is2D with
      | true =>
        apply hz _ (Or.inl _)
        simp only [hg1.2 h2d, hf1.2 h2d, hn.2.2 (Or.inr h2d)]
        simp
      | false => exact hz _ (axis_bound hg.wpos (hg.pz h2d) hcp.2.2).symm
    simp only [Int.cast_natCast] at bx byy bz
    unfold chebyshev
    simp only
    rw [Nat.cast_max, Nat.cast_max]
    rcases max_choice ((⌊(g.x + n.x) * lc.dim.x⌋ - ⌊f.x * lc.dim.x⌋).natAbs : ℝ)
      (max ((⌊(g.y + n.y) * lc.dim.y⌋ - ⌊f.y * lc.dim.y⌋).natAbs : ℝ)
        ((⌊(g.z + n.z) * lc.dim.z⌋ - ⌊f.z * lc.dim.z⌋).natAbs : ℝ)) with e | e <;> rw [e]
    · exact bx
    · rcases max_choice ((⌊(g.y + n.y) * lc.dim.y⌋ - ⌊f.y * lc.dim.y⌋).natAbs : ℝ)
        ((⌊(g.z + n.z) * lc.dim.z⌋ - ⌊f.z * lc.dim.z⌋).natAbs : ℝ) with e | e <;> rw [e]
      · exact byy
      · exact bz

/-! ### Points and bonds of cells -/

/-- The points in a cell. -/
noncomputable def members (lc : LinkCell) (cell : ℕ) : List ℕ :=
  sel cell (lc.pts.map (getCell lc.box lc.dim)) 0

theorem mem_members {lc : LinkCell} {cell j : ℕ} :
    j ∈ lc.members cell ↔ ∃ p, lc.pts[j]? = some p ∧ getCell lc.box lc.dim p = cell := by
  unfold members
  rw [mem_sel]
  simp only [Nat.zero_le, true_and, Nat.sub_zero, List.getElem?_map, Option.map_eq_some_iff]

theorem members_nodup (lc : LinkCell) (cell : ℕ) : (lc.members cell).Nodup :=
  (sel_sublist _ _ _).nodup List.nodup_range'

/-- The bonds found in a cell. -/
noncomputable def found (lc : LinkCell) (q : Vec3 ℝ) (qi : ℕ) (rMax : WithTop ℝ) (rMin : ℝ)
    (excl : Bool) (cell : ℕ) : List (Bond ℝ) :=
  (lc.members cell).filterMap (lc.test q qi rMax rMin excl)

theorem test_p {lc : LinkCell} {q : Vec3 ℝ} {qi : ℕ} {rMax : WithTop ℝ} {rMin : ℝ} {excl : Bool}
    {j : ℕ} {bd : Bond ℝ} (h : lc.test q qi rMax rMin excl j = some bd) : bd.p = j := by
  unfold test at h
  simp only at h
  split at h
  · cases h
  · split at h
    · cases h; rfl
    · cases h

theorem cellBonds_eq {lc : LinkCell} (hg : Good lc) (q : Vec3 ℝ) (qi : ℕ) (rMax : WithTop ℝ)
    (rMin : ℝ) (excl : Bool) {cell : ℕ} (hc : cell < lc.dim.x * lc.dim.y * lc.dim.z) :
    lc.cellBonds q qi rMax rMin excl cell = some (lc.found q qi rMax rMin excl cell) := by
  unfold cellBonds
  rw [hg.cells cell hc]
  rfl

theorem found_map_p (lc : LinkCell) (q : Vec3 ℝ) (qi : ℕ) (rMax : WithTop ℝ) (rMin : ℝ)
    (excl : Bool) (cell : ℕ) :
    ((lc.found q qi rMax rMin excl cell).map Bond.p).Sublist (lc.members cell) := by
  unfold found
  generalize lc.members cell = l
  induction l with
  | nil => simp
  | cons a l ih =>
    rw [List.filterMap_cons]
    cases h : lc.test q qi rMax rMin excl a with
    | none => exact ih.cons a
    | some bd =>
      simp only [List.map_cons]
      rw [test_p h]
      exact ih.cons_cons a

theorem flatMap_nodup (lc : LinkCell) (q : Vec3 ℝ) (qi : ℕ) (rMax : WithTop ℝ) (rMin : ℝ)
    (excl : Bool) {cells : List ℕ} (h : cells.Nodup) :
    ((cells.flatMap (lc.found q qi rMax rMin excl)).map Bond.p).Nodup := by
  rw [List.map_flatMap, List.nodup_flatMap]
  refine ⟨fun c _ => (found_map_p lc q qi rMax rMin excl c).nodup (members_nodup lc c), ?_⟩
  refine h.imp ?_
  intro c c' hne j h1 h2
  obtain ⟨p, hp, hc⟩ := mem_members.mp ((found_map_p lc q qi rMax rMin excl c).subset h1)
  obtain ⟨p', hp', hc'⟩ := mem_members.mp ((found_map_p lc q qi rMax rMin excl c').subset h2)
  rw [hp] at hp'
  cases hp'
  exact hne (hc.symm.trans hc')

theorem mem_flatMap_found {lc : LinkCell} {q : Vec3 ℝ} {qi : ℕ} {rMax : WithTop ℝ} {rMin : ℝ}
    {excl : Bool} {cells : List ℕ} {bd : Bond ℝ} :
    bd ∈ cells.flatMap (lc.found q qi rMax rMin excl) ↔
      ∃ p, lc.pts[bd.p]? = some p ∧ getCell lc.box lc.dim p ∈ cells ∧
        lc.test q qi rMax rMin excl bd.p = some bd := by
  rw [List.mem_flatMap]
  unfold found
  constructor
  · rintro ⟨c, hc, hbd⟩
    obtain ⟨j, hj, ht⟩ := List.mem_filterMap.mp hbd
    obtain ⟨p, hp, rfl⟩ := mem_members.mp hj
    obtain rfl := test_p ht
    exact ⟨p, hp, hc, ht⟩
  · rintro ⟨p, hp, hc, ht⟩
    exact ⟨_, hc, List.mem_filterMap.mpr ⟨bd.p, mem_members.mpr ⟨p, hp, rfl⟩, ht⟩⟩

/-! ### The walk of a query -/

/-- The cell the walk is at after `t` steps. -/
noncomputable def seq (lc : LinkCell) (q : Vec3 ℝ) (t : ℕ) : ℕ :=
  lc.cellAt q (CellShell.at' lc.box.is2D t)

theorem seq_lt {lc : LinkCell} (hg : Good lc) (q : Vec3 ℝ) (t : ℕ) :
    lc.seq q t < lc.dim.x * lc.dim.y * lc.dim.z :=
  coordToIndex_lt (wrapCoord_lt _ _ hg.dx) (wrapCoord_lt _ _ hg.dy) (wrapCoord_lt _ _ hg.dz)

theorem wrapCoord_small {c w : ℕ} (h : c < w) : wrapCoord (c : ℤ) w = c := by
  have := wrapCoord_eq c w (by omega)
  rw [Int.emod_eq_of_lt (by omega) (by omega)] at this
  exact_mod_cast this

theorem seq_zero {lc : LinkCell} (hg : Good lc) (q : Vec3 ℝ) :
    lc.seq q 0 = getCell lc.box lc.dim q := by
  have e : (CellShell.at' lc.box.is2D 0).offset = ⟨0, 0, 0⟩ := rfl
  unfold seq cellAt getCellIndex getCell
  rw [e]
  unfold pointCell
  simp only [Vec3.add_x, Vec3.add_y, Vec3.add_z, add_zero]
  have h1 : (getCellCoord lc.box lc.dim q).x < lc.dim.x := Nat.mod_lt _ hg.dx
  have h2 : (getCellCoord lc.box lc.dim q).y < lc.dim.y := Nat.mod_lt _ hg.dy
  have h3 : (getCellCoord lc.box lc.dim q).z < lc.dim.z := Nat.mod_lt _ hg.dz
  rw [wrapCoord_small h1, wrapCoord_small h2, wrapCoord_small h3]

theorem at_step (d : Bool) (t : ℕ) : (CellShell.at' d t).step = CellShell.at' d (t + 1) := by
  unfold CellShell.at'
  rw [Function.iterate_succ_apply']

/-- The first shell out of range. -/
theorem ball_limit {lc : LinkCell} (hg : Good lc) (rMax : ℝ) (hr : 0 < rMax) :
    ∃ T, 0 < T ∧ (∀ u, u < T ↔
      ¬ rMax < (((CellShell.at' lc.box.is2D u).range - lc.extra rMax : ℤ) : ℝ) * lc.width) ∧
    ∀ u, ((chebyshev (CellShell.at' lc.box.is2D u).offset : ℝ) - 1) * lc.width < rMax → u < T := by
  have hw := hg.wpos
  have hex : ∃ n : ℕ, rMax < (((n : ℤ) - lc.extra rMax : ℤ) : ℝ) * lc.width := by
    obtain ⟨m, hm⟩ := exists_nat_gt (rMax / lc.width)
    refine ⟨m + 1, ?_⟩
    rw [div_lt_iff₀ hw] at hm
    unfold extra
    split
    · push_cast; nlinarith
    · push_cast; linarith
  classical
  have hN := Nat.find_spec hex
  have hmin := fun m => Nat.find_min hex (m := m)
  generalize Nat.find hex = N at *
  obtain ⟨T, -, hT⟩ := CellShell.C24_shell_start lc.box.is2D N
  have key : ∀ u, u < T ↔
      ¬ rMax < (((CellShell.at' lc.box.is2D u).range - lc.extra rMax : ℤ) : ℝ) * lc.width := by
    intro u
    rw [hT u, ← (CellShell.C24_outwards lc.box.is2D u).1]
    constructor
    · intro h; exact hmin _ h
    · intro h
      by_contra hge
      push Not at hge
      refine h (hN.trans_le (mul_le_mul_of_nonneg_right ?_ hw.le))
      push_cast
      have : (N : ℝ) ≤ chebyshev (CellShell.at' lc.box.is2D u).offset := by exact_mod_cast hge
      linarith
  refine ⟨T, ?_, key, fun u hu => ?_⟩
  · rw [key 0]
    have e : (CellShell.at' lc.box.is2D 0).range = 0 := rfl
    rw [e]
    unfold extra
    split
    · simp; linarith
    · simp; linarith
  · rw [key u, ← (CellShell.C24_outwards lc.box.is2D u).1]
    generalize chebyshev (CellShell.at' lc.box.is2D u).offset = c at *
    unfold extra
    split
    · rename_i he
      rw [he] at hu ⊢
      have h2 : (c : ℝ) - 1 < 1 := by
        by_contra hc
        push Not at hc
        nlinarith
      have h3 : (c : ℝ) < 2 := by linarith
      have h4 : c < 2 := by exact_mod_cast h3
      have h5 : (c : ℝ) ≤ 1 := by exact_mod_cast (by omega : c ≤ 1)
      push_cast
      nlinarith
    · push_cast
      linarith

theorem ballLoop_spec {lc : LinkCell} (hg : Good lc) (q : Vec3 ℝ) (qi : ℕ) (rMax rMin : ℝ)
    (excl : Bool) {T : ℕ} (hT : ∀ u, u < T ↔
      ¬ rMax < (((CellShell.at' lc.box.is2D u).range - lc.extra rMax : ℤ) : ℝ) * lc.width) :
    ∀ (fuel t : ℕ) (S : Finset ℕ) (out : List (Bond ℝ)),
    lc.ballLoop q qi rMax rMin excl fuel (CellShell.at' lc.box.is2D t) S = some out →
    ∃ cells : List ℕ, cells.Nodup ∧
      (∀ c, c ∈ cells ↔ c ∉ S ∧ ∃ u, t < u ∧ u < T ∧ lc.seq q u = c) ∧
      out = cells.flatMap (lc.found q qi rMax rMin excl) := by
  intro fuel
  induction fuel with
  | zero => intro t S out h; cases h
  | succ fuel ih =>
    intro t S out h
    rw [ballLoop] at h
    simp only [at_step] at h
    by_cases hr : rMax < (((CellShell.at' lc.box.is2D (t + 1)).range - lc.extra rMax : ℤ) : ℝ) *
        lc.width
    · rw [if_pos hr] at h
      cases h
      refine ⟨[], List.nodup_nil, fun c => ?_, rfl⟩
      have : ¬ t + 1 < T := by rw [hT]; simpa using hr
      constructor
      · intro h; cases h
      · rintro ⟨-, u, h1, h2, -⟩
        omega
    · rw [if_neg hr] at h
      have htT : t + 1 < T := (hT _).mpr hr
      change (if lc.seq q (t + 1) ∈ S then _ else _) = some out at h
      by_cases hc : lc.seq q (t + 1) ∈ S
      · rw [if_pos hc] at h
        obtain ⟨cells, h1, h2, h3⟩ := ih _ _ _ h
        refine ⟨cells, h1, fun c => ?_, h3⟩
        rw [h2]
        constructor
        · rintro ⟨g1, u, g2, g3, g4⟩
          exact ⟨g1, u, by omega, g3, g4⟩
        · rintro ⟨g1, u, g2, g3, g4⟩
          refine ⟨g1, u, ?_, g3, g4⟩
          rcases Nat.lt_or_ge (t + 1) u with hlt | hge
          · exact hlt
          · obtain rfl : u = t + 1 := by omega
            rw [g4] at hc
            exact absurd hc g1
      · rw [if_neg hc] at h
        change (lc.cellBonds q qi rMax rMin excl (lc.seq q (t + 1))).bind (fun bonds =>
          (lc.ballLoop q qi rMax rMin excl fuel (CellShell.at' lc.box.is2D (t + 1))
            (insert (lc.seq q (t + 1)) S)).map (bonds ++ ·)) = some out at h
        rw [cellBonds_eq hg _ _ _ _ _ (seq_lt hg q (t + 1)), Option.bind_some,
          Option.map_eq_some_iff] at h
        obtain ⟨rest, hr2, rfl⟩ := h
        obtain ⟨cells, h1, h2, rfl⟩ := ih _ _ _ hr2
        refine ⟨lc.seq q (t + 1) :: cells, List.nodup_cons.mpr ⟨?_, h1⟩, fun c => ?_, rfl⟩
        · rw [h2]
          simp
        · rw [List.mem_cons, h2]
          constructor
          · rintro (rfl | ⟨g1, u, g2, g3, g4⟩)
            · exact ⟨hc, t + 1, by omega, htT, rfl⟩
            · exact ⟨fun h => g1 (Finset.mem_insert_of_mem h), u, by omega, g3, g4⟩
          · rintro ⟨g1, u, g2, g3, g4⟩
            by_cases he : c = lc.seq q (t + 1)
            · exact Or.inl he
            · right
              refine ⟨?_, u, ?_, g3, g4⟩
              · rw [Finset.mem_insert, not_or]; exact ⟨he, g1⟩
              · rcases Nat.lt_or_ge (t + 1) u with hlt | hge
                · exact hlt
                · obtain rfl : u = t + 1 := by omega
                  exact absurd g4.symm he

theorem ballLoop_isSome {lc : LinkCell} (hg : Good lc) (q : Vec3 ℝ) (qi : ℕ) (rMax rMin : ℝ)
    (excl : Bool) {T : ℕ} (hT : ∀ u, u < T ↔
      ¬ rMax < (((CellShell.at' lc.box.is2D u).range - lc.extra rMax : ℤ) : ℝ) * lc.width) :
    ∀ (fuel t : ℕ) (S : Finset ℕ), t < T → T ≤ fuel + t →
    ∃ out, lc.ballLoop q qi rMax rMin excl fuel (CellShell.at' lc.box.is2D t) S = some out := by
  intro fuel
  induction fuel with
  | zero => intro t S h1 h2; omega
  | succ fuel ih =>
    intro t S h1 h2
    rw [ballLoop]
    simp only [at_step]
    by_cases hr : rMax < (((CellShell.at' lc.box.is2D (t + 1)).range - lc.extra rMax : ℤ) : ℝ) *
        lc.width
    · rw [if_pos hr]; exact ⟨_, rfl⟩
    · rw [if_neg hr]
      have htT : t + 1 < T := (hT _).mpr hr
      change ∃ out, (if lc.seq q (t + 1) ∈ S then _ else
        (lc.cellBonds q qi rMax rMin excl (lc.seq q (t + 1))).bind (fun bonds =>
          (lc.ballLoop q qi rMax rMin excl fuel (CellShell.at' lc.box.is2D (t + 1))
            (insert (lc.seq q (t + 1)) S)).map (bonds ++ ·))) = some out
      by_cases hc : lc.seq q (t + 1) ∈ S
      · rw [if_pos hc]; exact ih _ _ htT (by omega)
      · rw [if_neg hc, cellBonds_eq hg _ _ _ _ _ (seq_lt hg q (t + 1)), Option.bind_some]
        obtain ⟨o, ho⟩ := ih (t + 1) (insert (lc.seq q (t + 1)) S) htT (by omega)
        rw [ho]; exact ⟨_, rfl⟩

/-- A point whose wrapped separation is short lies in a cell within reach. -/
theorem exists_seq {lc : LinkCell} (hg : Good lc) (hb : Spec.Valid lc.box)
    (hL : PositiveLengths lc.box) {p q : Vec3 ℝ} (hp : InCell lc.box p) (hq : InCell lc.box q) :
    ∃ u, lc.seq q u = getCell lc.box lc.dim p ∧
      ((chebyshev (CellShell.at' lc.box.is2D u).offset : ℝ) - 1) * lc.width <
        Vec3.norm (lc.box.wrap (p - q)) := by
  have hpl := planar_sub (inCell_planar hb hp) (inCell_planar hb hq)
  obtain ⟨o, h1, h2, h3⟩ := exists_cell hg hb hL hp hq _ (wrapShift_allowed lc.box (p - q))
  rw [← wrap_eq_add_lattice hb _ hpl] at h3
  obtain ⟨u, hu, -⟩ := CellShell.C24_every_offset_once lc.box.is2D o h1
  exact ⟨u, by unfold seq cellAt; rw [hu, h2], by rw [hu]; exact h3⟩

end LinkCell
end Freud
