import Verif.Spec.Voxel
import Verif.Lemmas.Box
import Verif.Props.BoxMinImage

/-! # Lemmas on voxel grids -/

namespace Freud
open Spec Voxel
variable {K : Type*} [Field K] [LinearOrder K] [IsStrictOrderedRing K] [FloorRing K]

set_option linter.unusedSectionVars false

/-! ### One axis -/

theorem mem_axisLoop (per : Bool) (w : ℕ) (bin cut i : ℤ) (hc : 0 ≤ cut) :
    i ∈ axisLoop per w bin cut ↔
      (bin - cut ≤ i ∧ i ≤ bin + cut) ∧ (per = false → 0 ≤ i ∧ i < w) := by
  unfold axisLoop
  simp only [List.mem_filter, List.mem_map, List.mem_range]
  constructor
  · rintro ⟨⟨t, ht, rfl⟩, h⟩
    refine ⟨⟨by omega, by omega⟩, fun hp => ?_⟩
    subst hp
    simp at h
    omega
  · rintro ⟨⟨h1, h2⟩, h3⟩
    refine ⟨⟨(i - (bin - cut)).toNat, by omega, by omega⟩, ?_⟩
    cases per
    · have := h3 rfl
      simp; omega
    · simp

theorem nodup_axisLoop (per : Bool) (w : ℕ) (bin cut : ℤ) : (axisLoop per w bin cut).Nodup := by
  unfold axisLoop
  refine List.Nodup.filter _ (List.Nodup.map ?_ List.nodup_range)
  intro a b h
  simp only at h
  omega

theorem store_eq (i : ℤ) (w : ℕ) (h1 : -(w : ℤ) ≤ i) (h2 : i + w < 2 ^ 32) (hw : 1 ≤ w) :
    (store i w : ℤ) = i % w := by
  unfold store
  rw [Int.emod_eq_of_lt (by omega) h2]
  push_cast
  rw [Int.toNat_of_nonneg (by omega)]
  exact Int.add_emod_right ..

/-- The bin of a coordinate inside the box. -/
theorem bin_spec (L x : K) (w : ℕ) (hL : 0 < L) (hw : 1 ≤ w) (h1 : -(L / 2) ≤ x) (h2 : x < L / 2) :
    let g := L / (w : K)
    let bin := trunc ((x + L / 2) / g)
    0 ≤ bin ∧ bin < w ∧ (bin : K) * g ≤ x + L / 2 ∧ x + L / 2 < ((bin : K) + 1) * g := by
  intro g bin
  have hwp : (0 : K) < w := by exact_mod_cast hw
  have hg : 0 < g := div_pos hL hwp
  have hq : 0 ≤ (x + L / 2) / g := div_nonneg (by linarith) hg.le
  have e : bin = ⌊(x + L / 2) / g⌋ := trunc_of_nonneg hq
  have hgw : (w : K) * g = L := by simp only [g]; field_simp
  refine ⟨e ▸ Int.floor_nonneg.mpr hq, ?_, ?_, ?_⟩
  · rw [e, Int.floor_lt, div_lt_iff₀ hg]
    push_cast; rw [hgw]; linarith
  · rw [e, ← le_div_iff₀ hg]; exact Int.floor_le _
  · rw [e, ← div_lt_iff₀ hg]; exact Int.lt_floor_add_one _

theorem cut_spec (L r : K) (w : ℕ) (hL : 0 < L) (hw : 1 ≤ w) (hr : 0 < r) (hrL : r ≤ L) :
    let g := L / (w : K)
    let cut := trunc (r / g)
    cut = ⌊r / g⌋ ∧ 0 ≤ cut ∧ cut ≤ w ∧ (2 * r < L → 2 * cut < w) := by
  intro g cut
  have hwp : (0 : K) < w := by exact_mod_cast hw
  have hg : 0 < g := div_pos hL hwp
  have hq : 0 ≤ r / g := div_nonneg hr.le hg.le
  have e : cut = ⌊r / g⌋ := trunc_of_nonneg hq
  have hgw : (w : K) * g = L := by simp only [g]; field_simp
  have hf : (cut : K) ≤ r / g := e ▸ Int.floor_le _
  refine ⟨e, e ▸ Int.floor_nonneg.mpr hq, ?_, fun h2 => ?_⟩
  · have : (cut : K) ≤ w := hf.trans (by rw [div_le_iff₀ hg, hgw]; exact hrL)
    exact_mod_cast this
  · have h3 : r / g < (w : K) / 2 := by rw [div_lt_iff₀ hg]; linarith
    have : (2 * cut : K) < w := by linarith
    exact_mod_cast this

/-- On one axis: a cell whose center is nearer than `r` is among those visited, provided the
radius fits. -/
theorem axis_complete (L x r : K) (w : ℕ) (hL : 0 < L) (hw : 1 ≤ w) (h1 : -(L / 2) ≤ x)
    (h2 : x < L / 2) (hr : 0 < r) (hfit : Int.fract (r / (L / (w : K))) ≤ 1 / 2) (i : ℤ)
    (hi : offset (L / (w : K)) i x L ^ 2 < r ^ 2) :
    trunc ((x + L / 2) / (L / (w : K))) - trunc (r / (L / (w : K))) ≤ i ∧
    i ≤ trunc ((x + L / 2) / (L / (w : K))) + trunc (r / (L / (w : K))) := by
  have hwp : (0 : K) < w := by exact_mod_cast hw
  obtain ⟨hb0, hbw, hb1, hb2⟩ := bin_spec L x w hL hw h1 h2
  set g := L / (w : K) with hg
  set bin := trunc ((x + L / 2) / g)
  have hgp : 0 < g := div_pos hL hwp
  have hcut : trunc (r / g) = ⌊r / g⌋ := trunc_of_nonneg (div_nonneg hr.le hgp.le)
  rw [hcut]
  have habs : |offset g i x L| < r := by
    rw [← abs_of_pos hr]; exact sq_lt_sq.mp hi
  obtain ⟨ha, hb⟩ := abs_lt.mp habs
  unfold offset at ha hb
  have hfl : r / g = ⌊r / g⌋ + Int.fract (r / g) := (Int.floor_add_fract _).symm
  have hrg : r = (⌊r / g⌋ + Int.fract (r / g)) * g := by rw [← hfl]; field_simp
  have hfg : Int.fract (r / g) * g ≤ 1 / 2 * g := mul_le_mul_of_nonneg_right hfit hgp.le
  constructor
  · have : ((bin : K) - ⌊r / g⌋ - 1) * g < (i : K) * g := by nlinarith
    have := lt_of_mul_lt_mul_right this hgp.le
    have h3 : bin - ⌊r / g⌋ - 1 < i := by exact_mod_cast this
    omega
  · have : (i : K) * g < ((bin : K) + ⌊r / g⌋ + 1) * g := by nlinarith
    have := lt_of_mul_lt_mul_right this hgp.le
    have h3 : i < bin + ⌊r / g⌋ + 1 := by exact_mod_cast this
    omega

/-- The center of cell `n + m w` is the center of cell `n`, moved by `m` box lengths. -/
theorem offset_shift (L x : K) (w : ℕ) (hw : 1 ≤ w) (n m : ℤ) :
    offset (L / (w : K)) (n + m * w) x L =
      -(L / 2) + ((n : K) + 1 / 2) * (L / (w : K)) - x + m * L := by
  have hwp : (w : K) ≠ 0 := by exact_mod_cast (by omega : w ≠ 0)
  unfold offset
  push_cast
  field_simp
  ring

/-! ### The cells reached by one point -/

section hits
variable {b : Box K} {w : Vec3 ℕ} {r : K} {p : Vec3 K}

/-- What the proofs use of one axis: `l` are the values of the loop variable. -/
structure AxisFacts (per : Bool) (w : ℕ) (l : List ℤ) : Prop where
  store : ∀ i ∈ l, (store i w : ℤ) = i % w
  shift : per = false → ∀ i ∈ l, i / (w : ℤ) = 0

theorem axisFacts_of (per : Bool) (w : ℕ) (bin cut : ℤ) (hw : 1 ≤ w) (h3 : 3 * w ≤ 2 ^ 32)
    (hb : 0 ≤ bin ∧ bin < w) (hc : 0 ≤ cut ∧ cut ≤ w) :
    AxisFacts per w (axisLoop per w bin cut) := by
  constructor
  · intro i hi
    obtain ⟨⟨h1, h2⟩, -⟩ := (mem_axisLoop per w bin cut i hc.1).mp hi
    exact store_eq i w (by omega) (by push_cast at h3 ⊢; omega) hw
  · intro hp i hi
    obtain ⟨-, h2⟩ := (mem_axisLoop per w bin cut i hc.1).mp hi
    exact Int.ediv_eq_zero_of_lt (h2 hp).1 (h2 hp).2

theorem axis_inj (per : Bool) (w : ℕ) (bin cut : ℤ) (hw : 1 ≤ w) (h3 : 3 * w ≤ 2 ^ 32)
    (hb : 0 ≤ bin ∧ bin < w) (hc : 0 ≤ cut ∧ 2 * cut < w) (i j : ℤ)
    (hi : i ∈ axisLoop per w bin cut) (hj : j ∈ axisLoop per w bin cut)
    (h : store i w = store j w) : i = j := by
  have hF := axisFacts_of per w bin cut hw h3 hb ⟨hc.1, by omega⟩
  have e : i % w = j % w := by rw [← hF.store i hi, ← hF.store j hj, h]
  obtain ⟨⟨h1, h2⟩, -⟩ := (mem_axisLoop per w bin cut i hc.1).mp hi
  obtain ⟨⟨h4, h5⟩, -⟩ := (mem_axisLoop per w bin cut j hc.1).mp hj
  have hd : (w : ℤ) ∣ i - j := Int.ModEq.dvd (n := (w : ℤ)) (a := j) (b := i) e.symm
  have := Int.eq_zero_of_abs_lt_dvd hd (by rw [abs_lt]; omega)
  omega

/-- The loop over `x`, and so on. -/
abbrev loopX (b : Box K) (w : Vec3 ℕ) (r : K) (p : Vec3 K) : List ℤ :=
  axisLoop b.px w.x (pointBin b w p).x (binCut b w r).x
abbrev loopY (b : Box K) (w : Vec3 ℕ) (r : K) (p : Vec3 K) : List ℤ :=
  axisLoop b.py w.y (pointBin b w p).y (binCut b w r).y
abbrev loopZ (b : Box K) (w : Vec3 ℕ) (r : K) (p : Vec3 K) : List ℤ :=
  axisLoop b.pz w.z (pointBin b w p).z (binCut b w r).z

theorem factsX (h : GridOK b w r) (hp : InGridBox b p) : AxisFacts b.px w.x (loopX b w r p) := by
  obtain ⟨h1, h2, -, -⟩ := bin_spec b.L.x p.x w.x h.posx h.wx hp.x.1 hp.x.2
  obtain ⟨-, h3, h4, -⟩ := cut_spec b.L.x r w.x h.posx h.wx h.rpos h.rx
  exact axisFacts_of _ _ _ _ h.wx h.small.1 ⟨h1, h2⟩ ⟨h3, h4⟩

theorem factsY (h : GridOK b w r) (hp : InGridBox b p) : AxisFacts b.py w.y (loopY b w r p) := by
  obtain ⟨h1, h2, -, -⟩ := bin_spec b.L.y p.y w.y h.posy h.wy hp.y.1 hp.y.2
  obtain ⟨-, h3, h4, -⟩ := cut_spec b.L.y r w.y h.posy h.wy h.rpos h.ry
  exact axisFacts_of _ _ _ _ h.wy h.small.2.1 ⟨h1, h2⟩ ⟨h3, h4⟩

theorem binCut_z_2D (h2 : b.is2D = true) : (binCut b w r).z = 0 := by simp [binCut, h2]
theorem pointBin_z_2D (h2 : b.is2D = true) : (pointBin b w p).z = 0 := by simp [pointBin, h2]
theorem binCut_z_3D (h2 : b.is2D = false) :
    (binCut b w r).z = trunc (r / (b.L.z / (w.z : K))) := by simp [binCut, gridSize, h2]
theorem pointBin_z_3D (h2 : b.is2D = false) :
    (pointBin b w p).z = trunc ((p.z + b.L.z / 2) / (b.L.z / (w.z : K))) := by
  simp [pointBin, gridSize, h2]

theorem factsZ (h : GridOK b w r) (hp : InGridBox b p) : AxisFacts b.pz w.z (loopZ b w r p) := by
  cases h2 : b.is2D with
  | true =>
    refine axisFacts_of _ _ _ _ h.wz h.small.2.2 ?_ ?_
    · rw [pointBin_z_2D h2]; have := h.wz; omega
    · rw [binCut_z_2D h2]; have := h.wz; omega
  | false =>
    obtain ⟨h1, h3, -, -⟩ := bin_spec b.L.z p.z w.z (h.posz h2) h.wz (hp.z h2).1 (hp.z h2).2
    obtain ⟨-, h4, h5, -⟩ := cut_spec b.L.z r w.z (h.posz h2) h.wz h.rpos (h.rz h2)
    refine axisFacts_of _ _ _ _ h.wz h.small.2.2 ?_ ?_
    · rw [pointBin_z_3D h2]; exact ⟨h1, h3⟩
    · rw [binCut_z_3D h2]; exact ⟨h4, h5⟩

/-- In 2D the loop over `z` runs over one layer. -/
theorem loopZ_2D (h : GridOK b w r) (h2 : b.is2D = true) (k : ℤ) :
    k ∈ loopZ b w r p ↔ k = 0 := by
  unfold loopZ
  rw [mem_axisLoop _ _ _ _ _ (by rw [binCut_z_2D h2]), binCut_z_2D h2, pointBin_z_2D h2, h.wz2D h2]
  constructor
  · rintro ⟨⟨_, _⟩, _⟩; omega
  · rintro rfl; simp

/-- The displacement computed for cell `(i, j, k)`. -/
def delta (b : Box K) (w : Vec3 ℕ) (p : Vec3 K) (i j k : ℤ) : Vec3 K :=
  ⟨offset (gridSize b w).x i p.x b.L.x, offset (gridSize b w).y j p.y b.L.y,
    offset (gridSize b w).z k p.z b.L.z⟩

theorem mem_hits (idx : List ℕ) (d : K) :
    (idx, d) ∈ hits b w r p ↔ ∃ i ∈ loopX b w r p, ∃ j ∈ loopY b w r p, ∃ k ∈ loopZ b w r p,
      idx = [store i w.x, store j w.y, store k w.z] ∧
      d = Vec3.dot (b.wrap (delta b w p i j k)) (b.wrap (delta b w p i j k)) ∧ d < r * r := by
  unfold hits
  simp only [List.mem_flatMap, List.mem_filterMap]
  constructor
  · rintro ⟨k, hk, j, hj, i, hi, h⟩
    split_ifs at h with hlt
    · simp only [Option.some.injEq, Prod.mk.injEq] at h
      obtain ⟨rfl, rfl⟩ := h
      exact ⟨i, hi, j, hj, k, hk, rfl, rfl, hlt⟩
  · rintro ⟨i, hi, j, hj, k, hk, rfl, rfl, hlt⟩
    refine ⟨k, hk, j, hj, i, hi, ?_⟩
    exact if_pos hlt

theorem lattice_ortho (ht : b.xy = 0 ∧ b.xz = 0 ∧ b.yz = 0) (m : Vec3 ℤ) :
    lattice b m = ⟨m.x * b.L.x, m.y * b.L.y, m.z * b.L.z⟩ := by
  obtain ⟨h1, h2, h3⟩ := ht
  ext <;> simp [lattice, comb, a1, a2, a3, h1, h2, h3]

theorem delta_eq (h : GridOK b w r) (hp : InGridBox b p) (n : Vec3 ℕ) (m : Vec3 ℤ)
    (hn : b.is2D = true → n.z = 0 ∧ m.z = 0) :
    delta b w p (n.x + m.x * w.x) (n.y + m.y * w.y) (n.z + m.z * w.z) =
      voxelCenter b w n - p + lattice b m := by
  rw [lattice_ortho h.ortho]
  unfold delta voxelCenter
  have hx := offset_shift b.L.x p.x w.x h.wx n.x m.x
  have hy := offset_shift b.L.y p.y w.y h.wy n.y m.y
  ext
  · simpa [gridSize] using hx
  · simpa [gridSize] using hy
  · cases h2 : b.is2D with
    | true =>
      have := h.valid.Lz_2D h2
      have h4 := hp.plane h2
      simp [gridSize, h2, offset, this, h4]
    | false =>
      have hz := offset_shift b.L.z p.z w.z h.wz n.z m.z
      simpa [gridSize, h2] using hz

theorem planar_center (h : GridOK b w r) (hp : InGridBox b p) (n : Vec3 ℕ) :
    Planar b (voxelCenter b w n - p) := by
  intro h2
  simp [voxelCenter, h2, hp.plane h2]

/-- The wrapped displacement has the minimum-image length. -/
theorem wrap_isMinDistSq (h : GridOK b w r) (hp : InGridBox b p) (n : Vec3 ℕ) (m : Vec3 ℤ)
    (hm : AllowedShift b m) :
    IsMinDistSq b (voxelCenter b w n) p
      (Vec3.dot (b.wrap (voxelCenter b w n - p + lattice b m))
        (b.wrap (voxelCenter b w n - p + lattice b m))) := by
  have hpl := planar_center h hp n
  rw [wrap_add_lattice h.valid _ hpl m hm]
  obtain ⟨⟨k, hk, e⟩, -⟩ := C01_wrap_in_box b h.valid _ hpl
  refine ⟨⟨k, hk, by rw [e]⟩, fun m' hm' => ?_⟩
  exact C06_orthorhombic_min_image b h.valid _ hpl h.ortho m' hm'

theorem isMinDistSq_unique (c : Vec3 K) (d d' : K) (h : IsMinDistSq b c p d)
    (h' : IsMinDistSq b c p d') : d = d' := by
  obtain ⟨⟨m, hm, e⟩, hle⟩ := h
  obtain ⟨⟨m', hm', e'⟩, hle'⟩ := h'
  refine le_antisymm ?_ ?_
  · rw [e']; exact hle m' hm'
  · rw [e]; exact hle' m hm

/-- A cell that is reached is a voxel whose center is nearer than `r`, recorded with its
minimum-image distance. -/
theorem hits_sound (h : GridOK b w r) (hp : InGridBox b p) (idx : List ℕ) (d : K)
    (hm : (idx, d) ∈ hits b w r p) :
    ∃ n : Vec3 ℕ, IsVoxel w n ∧ idx = [n.x, n.y, n.z] ∧ IsMinDistSq b (voxelCenter b w n) p d ∧
      d < r ^ 2 := by
  obtain ⟨i, hi, j, hj, k, hk, rfl, hd, hlt⟩ := (mem_hits idx d).mp hm
  have fx := factsX h hp
  have fy := factsY h hp
  have fz := factsZ h hp
  have ex := fx.store i hi
  have ey := fy.store j hj
  have ez := fz.store k hk
  have hx : (0 : ℤ) < w.x := by have := h.wx; omega
  have hy : (0 : ℤ) < w.y := by have := h.wy; omega
  have hz : (0 : ℤ) < w.z := by have := h.wz; omega
  set n : Vec3 ℕ := ⟨store i w.x, store j w.y, store k w.z⟩ with hn
  set m : Vec3 ℤ := ⟨i / w.x, j / w.y, k / w.z⟩ with hmm
  have hallow : AllowedShift b m := by
    refine ⟨fun hpx => fx.shift hpx i hi, fun hpy => fy.shift hpy j hj, ?_⟩
    rintro (hpz | h2)
    · exact fz.shift hpz k hk
    · have := (loopZ_2D h h2 k).mp hk
      simp [hmm, this]
  have hn2 : b.is2D = true → n.z = 0 ∧ m.z = 0 := by
    intro h2
    have hk0 := (loopZ_2D h h2 k).mp hk
    refine ⟨?_, by simp [hmm, hk0]⟩
    have : (n.z : ℤ) = 0 := by rw [hn, ez, hk0]; simp
    exact_mod_cast this
  have e1 : (n.x : ℤ) + m.x * w.x = i := by rw [hn, hmm, ex]; exact Int.emod_add_ediv_mul i w.x
  have e2 : (n.y : ℤ) + m.y * w.y = j := by rw [hn, hmm, ey]; exact Int.emod_add_ediv_mul j w.y
  have e3 : (n.z : ℤ) + m.z * w.z = k := by rw [hn, hmm, ez]; exact Int.emod_add_ediv_mul k w.z
  have hde := delta_eq h hp n m hn2
  rw [e1, e2, e3] at hde
  refine ⟨n, ⟨?_, ?_, ?_⟩, rfl, ?_, by rw [pow_two]; exact hlt⟩
  · have : (n.x : ℤ) < w.x := by rw [hn, ex]; exact Int.emod_lt_of_pos _ hx
    exact_mod_cast this
  · have : (n.y : ℤ) < w.y := by rw [hn, ey]; exact Int.emod_lt_of_pos _ hy
    exact_mod_cast this
  · have : (n.z : ℤ) < w.z := by rw [hn, ez]; exact Int.emod_lt_of_pos _ hz
    exact_mod_cast this
  · rw [hd, hde]
    exact wrap_isMinDistSq h hp n m hallow

theorem dot_component (v : Vec3 K) (c : K) (h : Vec3.dot v v < c) :
    v.x ^ 2 < c ∧ v.y ^ 2 < c ∧ v.z ^ 2 < c := by
  simp only [Vec3.dot] at h
  refine ⟨?_, ?_, ?_⟩ <;> nlinarith [sq_nonneg v.x, sq_nonneg v.y, sq_nonneg v.z]

/-- When the radius fits the grid, every voxel whose center is nearer than `r` is reached. -/
theorem hits_complete (h : GridOK b w r) (hfit : RadiusFits b w r) (hp : InGridBox b p)
    (n : Vec3 ℕ) (hn : IsVoxel w n) (d : K) (hd : IsMinDistSq b (voxelCenter b w n) p d)
    (hlt : d < r ^ 2) : ([n.x, n.y, n.z], d) ∈ hits b w r p := by
  obtain ⟨⟨m, hm, e⟩, -⟩ := id hd
  have hn2 : b.is2D = true → n.z = 0 ∧ m.z = 0 := fun h2 =>
    ⟨by have := hn.2.2; rw [h.wz2D h2] at this; omega, hm.2.2 (Or.inr h2)⟩
  have hde := delta_eq h hp n m hn2
  rw [← hde] at e
  rw [e] at hlt
  obtain ⟨cx, cy, cz⟩ := dot_component _ _ hlt
  have stx : ∀ (nn : ℕ) (mm : ℤ) (ww : ℕ), nn < ww → ((nn : ℤ) + mm * ww) % ww = nn := by
    intro nn mm ww hlt
    rw [Int.add_mul_emod_self_right]
    exact Int.emod_eq_of_lt (by omega) (by omega)
  have inside : ∀ (per : Bool) (nn : ℕ) (mm : ℤ) (ww : ℕ), nn < ww → (per = false → mm = 0) →
      (per = false → 0 ≤ (nn : ℤ) + mm * ww ∧ (nn : ℤ) + mm * ww < ww) := by
    intro per nn mm ww h1 h2 h3
    rw [h2 h3]; omega
  have hxl : (n.x : ℤ) + m.x * w.x ∈ loopX b w r p := by
    obtain ⟨-, h3, -, -⟩ := cut_spec b.L.x r w.x h.posx h.wx h.rpos h.rx
    refine (mem_axisLoop _ _ _ _ _ h3).mpr ⟨?_, inside _ _ _ _ hn.1 hm.1⟩
    exact axis_complete b.L.x p.x r w.x h.posx h.wx hp.x.1 hp.x.2 h.rpos hfit.1 _ cx
  have hyl : (n.y : ℤ) + m.y * w.y ∈ loopY b w r p := by
    obtain ⟨-, h3, -, -⟩ := cut_spec b.L.y r w.y h.posy h.wy h.rpos h.ry
    refine (mem_axisLoop _ _ _ _ _ h3).mpr ⟨?_, inside _ _ _ _ hn.2.1 hm.2.1⟩
    exact axis_complete b.L.y p.y r w.y h.posy h.wy hp.y.1 hp.y.2 h.rpos hfit.2.1 _ cy
  have hzl : (n.z : ℤ) + m.z * w.z ∈ loopZ b w r p := by
    cases h2 : b.is2D with
    | true =>
      obtain ⟨h3, h4⟩ := hn2 h2
      rw [loopZ_2D h h2, h3, h4]; simp
    | false =>
      obtain ⟨-, h3, -, -⟩ := cut_spec b.L.z r w.z (h.posz h2) h.wz h.rpos (h.rz h2)
      have := binCut_z_3D (w := w) (r := r) h2
      refine (mem_axisLoop _ _ _ _ _ (by rw [this]; exact h3)).mpr ⟨?_, inside _ _ _ _ hn.2.2
        (fun hpz => hm.2.2 (Or.inl hpz))⟩
      rw [this, pointBin_z_3D h2]
      refine axis_complete b.L.z p.z r w.z (h.posz h2) h.wz (hp.z h2).1 (hp.z h2).2 h.rpos
        (hfit.2.2 h2) _ ?_
      have e4 : (gridSize b w).z = b.L.z / (w.z : K) := by simp [gridSize, h2]
      simpa [delta, e4] using cz
  refine (mem_hits _ _).mpr ⟨_, hxl, _, hyl, _, hzl, ?_, ?_, ?_⟩
  · have f1 := (factsX h hp).store _ hxl
    have f2 := (factsY h hp).store _ hyl
    have f3 := (factsZ h hp).store _ hzl
    rw [stx _ _ _ hn.1] at f1
    rw [stx _ _ _ hn.2.1] at f2
    rw [stx _ _ _ hn.2.2] at f3
    rw [Nat.cast_inj.mp f1, Nat.cast_inj.mp f2, Nat.cast_inj.mp f3]
  · refine isMinDistSq_unique _ _ _ hd ?_
    rw [hde]
    exact wrap_isMinDistSq h hp n m hm
  · rw [← pow_two]; rw [e]; exact hlt

/-- With a radius below half of the box, no voxel is reached twice by one point. -/
theorem hits_nodup (h : GridOK b w r) (hp : InGridBox b p) (h2x : 2 * r < b.L.x)
    (h2y : 2 * r < b.L.y) (h2z : b.is2D = false → 2 * r < b.L.z) :
    ((hits b w r p).map (·.1)).Nodup := by
  have hX : ∀ i ∈ loopX b w r p, ∀ j ∈ loopX b w r p, store i w.x = store j w.x → i = j := by
    obtain ⟨h1, h2, -, -⟩ := bin_spec b.L.x p.x w.x h.posx h.wx hp.x.1 hp.x.2
    obtain ⟨-, h3, -, h4⟩ := cut_spec b.L.x r w.x h.posx h.wx h.rpos h.rx
    intro i hi j hj
    exact axis_inj _ _ _ _ h.wx h.small.1 ⟨h1, h2⟩ ⟨h3, h4 h2x⟩ i j hi hj
  have hY : ∀ i ∈ loopY b w r p, ∀ j ∈ loopY b w r p, store i w.y = store j w.y → i = j := by
    obtain ⟨h1, h2, -, -⟩ := bin_spec b.L.y p.y w.y h.posy h.wy hp.y.1 hp.y.2
    obtain ⟨-, h3, -, h4⟩ := cut_spec b.L.y r w.y h.posy h.wy h.rpos h.ry
    intro i hi j hj
    exact axis_inj _ _ _ _ h.wy h.small.2.1 ⟨h1, h2⟩ ⟨h3, h4 h2y⟩ i j hi hj
  have hZ : ∀ i ∈ loopZ b w r p, ∀ j ∈ loopZ b w r p, store i w.z = store j w.z → i = j := by
    intro i hi j hj hij
    cases h2 : b.is2D with
    | true => rw [(loopZ_2D h h2 i).mp hi, (loopZ_2D h h2 j).mp hj]
    | false =>
      obtain ⟨h1, h3, -, -⟩ := bin_spec b.L.z p.z w.z (h.posz h2) h.wz (hp.z h2).1 (hp.z h2).2
      obtain ⟨-, h4, -, h5⟩ := cut_spec b.L.z r w.z (h.posz h2) h.wz h.rpos (h.rz h2)
      refine axis_inj _ _ _ _ h.wz h.small.2.2 ?_ ?_ i j hi hj hij
      · rw [pointBin_z_3D h2]; exact ⟨h1, h3⟩
      · rw [binCut_z_3D h2]; exact ⟨h4, h5 (h2z h2)⟩
  unfold hits
  simp only [List.map_flatMap]
  rw [List.nodup_flatMap]
  have nX : (loopX b w r p).Nodup := nodup_axisLoop _ _ _ _
  have nY : (loopY b w r p).Nodup := nodup_axisLoop _ _ _ _
  have nZ : (loopZ b w r p).Nodup := nodup_axisLoop _ _ _ _
  have key : ∀ (idx : List ℕ) (j k : ℤ), idx ∈ List.map (fun x => x.1) ((loopX b w r p).filterMap
      fun i => if Vec3.dot (b.wrap (delta b w p i j k)) (b.wrap (delta b w p i j k)) < r * r then
        some ([store i w.x, store j w.y, store k w.z],
          Vec3.dot (b.wrap (delta b w p i j k)) (b.wrap (delta b w p i j k))) else none) →
      ∃ i ∈ loopX b w r p, idx = [store i w.x, store j w.y, store k w.z] := by
    intro idx j k hmem
    obtain ⟨⟨x1, x2⟩, hx, rfl⟩ := List.mem_map.mp hmem
    obtain ⟨i, hi, e⟩ := List.mem_filterMap.mp hx
    split_ifs at e
    simp only [Option.some.injEq, Prod.mk.injEq] at e
    exact ⟨i, hi, e.1.symm⟩
  refine ⟨fun k hk => ?_, ?_⟩
  · rw [List.nodup_flatMap]
    refine ⟨fun j hj => ?_, ?_⟩
    · rw [List.map_filterMap]
      refine List.pairwise_filterMap.mpr ?_
      refine List.Pairwise.imp_of_mem ?_ nX
      intro i i' hi hi' hne c hc c' hc' hcc
      apply hne
      simp only [Option.map_eq_some_iff] at hc hc'
      obtain ⟨u, hu, rfl⟩ := hc
      obtain ⟨u', hu', rfl⟩ := hc'
      split_ifs at hu hu'
      simp only [Option.some.injEq] at hu hu'
      subst hu; subst hu'
      simp only [List.cons.injEq] at hcc
      exact hX i hi i' hi' hcc.1
    · refine List.Pairwise.imp_of_mem ?_ nY
      intro j j' hj hj' hne
      refine List.disjoint_left.mpr fun idx h1 h2 => hne ?_
      obtain ⟨i, -, rfl⟩ := key idx j k h1
      obtain ⟨i', -, e⟩ := key _ j' k h2
      simp only [List.cons.injEq] at e
      exact hY j hj j' hj' e.2.1
  · refine List.Pairwise.imp_of_mem ?_ nZ
    intro k k' hk hk' hne
    refine List.disjoint_left.mpr fun idx h1 h2 => hne ?_
    obtain ⟨j, -, h1⟩ := List.mem_flatMap.mp h1
    obtain ⟨j', -, h2⟩ := List.mem_flatMap.mp h2
    obtain ⟨i, -, rfl⟩ := key idx j k h1
    obtain ⟨i', -, e⟩ := key _ j' k' h2
    simp only [List.cons.injEq] at e
    exact hZ k hk k' hk' e.2.2.1

end hits
end Freud
