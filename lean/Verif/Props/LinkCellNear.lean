import Verif.Lemmas.LinkCellNear
import Verif.Props.LinkCell
import Verif.Props.QueryArgs

/-!
# Property C26: nearest-neighbor queries of cell lists
-/

namespace Freud

/-- Point `j` is a possible neighbor of the query point at distance `d`, as
`Box.compute_distances` reports it. -/
def Spec.Eligible (b : Box ℝ) (pts : List (Vec3 ℝ)) (q : Vec3 ℝ) (qi : ℕ) (rMax : WithTop ℝ)
    (rMin : ℝ) (excl : Bool) (j : ℕ) (d : ℝ) : Prop :=
  ∃ p, pts[j]? = some p ∧ (excl = true → j ≠ qi) ∧ d = b.computeDistance q p ∧ rMin ≤ d ∧
    (d : WithTop ℝ) < rMax

/-- `out` holds at most `k` eligible neighbors, nearest first, each once; and every eligible point
up to distance `limit` is among them unless there are `k` that are no farther. -/
structure Spec.NearestUpTo (b : Box ℝ) (pts : List (Vec3 ℝ)) (q : Vec3 ℝ) (qi k : ℕ)
    (rMax : WithTop ℝ) (rMin : ℝ) (excl : Bool) (limit : WithTop ℝ) (out : List (Bond ℝ)) :
    Prop where
  length_le : out.length ≤ k
  sorted : (out.map Bond.dist).Pairwise (· ≤ ·)
  nodup : (out.map Bond.p).Nodup
  bonds : ∀ bd ∈ out, bd.q = qi ∧ bd.weight = 1 ∧ Eligible b pts q qi rMax rMin excl bd.p bd.dist ∧
    ∃ p, pts[bd.p]? = some p ∧ bd.vec = b.wrap (p - q)
  nearest : ∀ j d, Eligible b pts q qi rMax rMin excl j d → (d : WithTop ℝ) ≤ limit →
    j ∈ out.map Bond.p ∨ (out.length = k ∧ ∀ bd ∈ out, bd.dist ≤ d)

namespace LinkCell
open Spec

theorem near_cells {lc : LinkCell} (hg : Good lc) {q : Vec3 ℝ} {qi k : ℕ} {rMax : WithTop ℝ}
    {rMin : ℝ} {excl : Bool} {out : List (Bond ℝ)} (h : lc.Nearest q qi k rMax rMin excl out)
    {T : ℕ} (hT0 : 0 < T)
    (hT : CellShell.at' lc.box.is2D T = CellShell.reset lc.box.is2D lc.maxRange)
    (hne : ∀ u, u < T → CellShell.at' lc.box.is2D u ≠ CellShell.reset lc.box.is2D lc.maxRange) :
    ∃ (cells : List ℕ) (sorted : List (Bond ℝ)) (t' : ℕ), cells.Nodup ∧
      sorted.Perm (cells.flatMap (lc.found q qi rMax rMin excl)) ∧
      (sorted.map Bond.dist).Pairwise (· ≤ ·) ∧
      out = (sorted.take k).takeWhile (fun nb => decide ((nb.dist : WithTop ℝ) ≤ rMax)) ∧
      t' ≤ T ∧ (∀ x, x ∈ cells ↔ ∃ u < t', lc.seq q u = x) ∧
      (t' = T ∨ (k ≤ sorted.length ∧ ∀ bd ∈ sorted.take k, bd.dist <
          (((CellShell.at' lc.box.is2D t').range - 1 : ℤ) : ℝ) * lc.width)) := by
  obtain ⟨-, -, -, hk, fuel, cur, sorted, h1, h2, rfl⟩ := h
  rw [← seq_zero hg q] at h1
  have e : ([] : List (Bond ℝ)) = ([] : List ℕ).flatMap (lc.found q qi rMax rMin excl) := rfl
  rw [e] at h1
  obtain ⟨cells, h3, rfl, t', h4, h5, h6⟩ := nearLoop_spec hg q qi k rMax rMin excl hT hne fuel 0
    {lc.seq q 0} [] (lc.seq q 0) cur hT0 ⟨List.nodup_nil, rfl, by simp, fun x => by simp, fun x => by
      rw [Finset.mem_singleton]
      constructor
      · rintro rfl; exact ⟨0, le_rfl, rfl⟩
      · rintro ⟨u, hu, rfl⟩
        obtain rfl : u = 0 := by omega
        rfl⟩ h1
  have hso := lessDist_sorted h2
  refine ⟨cells, sorted, t', h3, h2.1, hso, rfl, h4, h5, h6.imp_right ?_⟩
  rintro ⟨g1, d, g2, g3⟩
  refine ⟨by rw [h2.1.length_eq]; exact g1, fun bd hbd => ?_⟩
  exact (kthDist_spec hk h2.1 hso g2 bd hbd).trans_lt g3

theorem elig_of_found {lc : LinkCell} {q : Vec3 ℝ} {qi : ℕ} {rMax : WithTop ℝ} {rMin : ℝ}
    (h0 : ((0 : ℝ) : WithTop ℝ) ≤ rMax) (hmin : 0 ≤ rMin) {excl : Bool} {cells : List ℕ}
    {bd : Bond ℝ} (h : bd ∈ cells.flatMap (lc.found q qi rMax rMin excl)) :
    bd.q = qi ∧ bd.weight = 1 ∧ Eligible lc.box lc.pts q qi rMax rMin excl bd.p bd.dist ∧
      ∃ p, lc.pts[bd.p]? = some p ∧ bd.vec = lc.box.wrap (p - q) := by
  obtain ⟨p, hp, -, ht⟩ := mem_flatMap_found.mp h
  obtain ⟨h1, h2, h3, h4, h5, h6, h7⟩ := (test_iff_top h0 hmin hp).mp ht
  rw [← h3] at h5 h6
  exact ⟨h1, h2, ⟨p, hp, h4, by rw [h3, h7]; rfl, h5, h6⟩, p, hp, h7⟩

theorem found_of_elig {lc : LinkCell} {q : Vec3 ℝ} {qi : ℕ} {rMax : WithTop ℝ} {rMin : ℝ}
    (h0 : ((0 : ℝ) : WithTop ℝ) ≤ rMax) (hmin : 0 ≤ rMin) {excl : Bool} {cells : List ℕ}
    {j : ℕ} {d : ℝ} {p : Vec3 ℝ} (h : Eligible lc.box lc.pts q qi rMax rMin excl j d)
    (hp : lc.pts[j]? = some p) (hc : getCell lc.box lc.dim p ∈ cells) :
    ∃ bd ∈ cells.flatMap (lc.found q qi rMax rMin excl), bd.p = j ∧ bd.dist = d := by
  obtain ⟨p', hp', h1, h2, h3, h4⟩ := h
  rw [hp] at hp'
  cases hp'
  refine ⟨⟨qi, j, d, 1, lc.box.wrap (p - q)⟩, mem_flatMap_found.mpr ⟨p, hp, hc, ?_⟩, rfl, rfl⟩
  exact (test_iff_top h0 hmin hp).mpr ⟨rfl, rfl, h2, h1, by rw [← computeDistance_eq, ← h2]; exact h3,
    by rw [← computeDistance_eq, ← h2]; exact h4, rfl⟩

/-- The general result: points not met by the walk are farther than `limit`. -/
theorem nearest_core {lc : LinkCell} (hg : Good lc) (hv : Spec.Valid lc.box)
    (hb : PositiveLengths lc.box) (hpts : ∀ p ∈ lc.pts, InCell lc.box p) {q : Vec3 ℝ}
    (hq : InCell lc.box q) {qi k : ℕ} {rMax : WithTop ℝ} {rMin : ℝ} (hmin : 0 ≤ rMin)
    {excl : Bool} {out : List (Bond ℝ)} (h : lc.Nearest q qi k rMax rMin excl out)
    {T : ℕ} (hT0 : 0 < T)
    (hT : CellShell.at' lc.box.is2D T = CellShell.reset lc.box.is2D lc.maxRange)
    (hne : ∀ u, u < T → CellShell.at' lc.box.is2D u ≠ CellShell.reset lc.box.is2D lc.maxRange)
    (limit : WithTop ℝ)
    (hfar : ∀ p ∈ lc.pts, (∀ u < T, lc.seq q u ≠ getCell lc.box lc.dim p) →
      limit < ((lc.box.computeDistance q p : ℝ) : WithTop ℝ)) :
    NearestUpTo lc.box lc.pts q qi k rMax rMin excl limit out := by
  obtain ⟨cells, sorted, t', h1, h2, h3, rfl, h4, h5, h6⟩ := near_cells hg h hT0 hT hne
  have h0 : ((0 : ℝ) : WithTop ℝ) ≤ rMax := (not_le.mp h.2.1).le
  have helig : ∀ bd ∈ sorted, _ := fun bd hbd => elig_of_found h0 hmin (h2.subset hbd)
  have htw : (sorted.take k).takeWhile (fun nb => decide ((nb.dist : WithTop ℝ) ≤ rMax)) =
      sorted.take k := by
    apply takeWhile_self
    intro bd hbd
    obtain ⟨-, -, ⟨p, -, -, -, -, hlt⟩, -⟩ := helig bd (List.mem_of_mem_take hbd)
    simpa using hlt.le
  rw [htw]
  have hnd : (sorted.map Bond.p).Nodup :=
    (h2.map Bond.p).nodup_iff.mpr (flatMap_nodup lc q qi rMax rMin excl h1)
  refine ⟨List.length_take_le _ _, ?_, ?_, fun bd hbd => helig bd (List.mem_of_mem_take hbd), ?_⟩
  · rw [List.map_take]; exact h3.sublist (List.take_sublist _ _)
  · rw [List.map_take]; exact hnd.sublist (List.take_sublist _ _)
  · intro j d hj hd
    have hj' := hj
    obtain ⟨p, hp, g1, g2, g3, g4⟩ := hj'
    have hpm := List.mem_of_getElem? hp
    by_cases hc : getCell lc.box lc.dim p ∈ cells
    · obtain ⟨bd, hbd, rfl, rfl⟩ := found_of_elig h0 hmin hj hp hc
      have hbs := h2.symm.subset hbd
      rw [← List.take_append_drop k sorted, List.mem_append] at hbs
      rcases hbs with hbs | hbs
      · exact Or.inl (List.mem_map.mpr ⟨bd, hbs, rfl⟩)
      · right
        refine ⟨?_, fun bd' hbd' => ?_⟩
        · have := List.length_pos_of_mem hbs
          rw [List.length_drop] at this
          rw [List.length_take]; omega
        · rw [← List.take_append_drop k sorted, List.map_append, List.pairwise_append] at h3
          exact h3.2.2 _ (List.mem_map.mpr ⟨bd', hbd', rfl⟩) _ (List.mem_map.mpr ⟨bd, hbs, rfl⟩)
    · rcases h6 with rfl | ⟨g5, g6⟩
      · exfalso
        have hf := hfar p hpm fun u hu he => hc ((h5 _).mpr ⟨u, hu, he⟩)
        rw [← g2] at hf
        exact absurd hd (not_le.mpr hf)
      · right
        refine ⟨by rw [List.length_take]; omega, fun bd hbd => ?_⟩
        obtain ⟨u, hu, hlt⟩ := exists_seq hg hv hb (hpts p hpm) hq
        have htu : t' ≤ u := by
          by_contra hl
          exact hc ((h5 _).mpr ⟨u, by omega, hu⟩)
        have hch := (CellShell.C24_outwards lc.box.is2D t').2.2 u htu
        have hr := (CellShell.C24_outwards lc.box.is2D t').1
        have g7 := g6 bd hbd
        rw [← hr] at g7
        have hch' : (chebyshev (CellShell.at' lc.box.is2D t').offset : ℝ) ≤
          chebyshev (CellShell.at' lc.box.is2D u).offset := by exact_mod_cast hch
        have hw := hg.wpos
        push_cast at g7
        have : (((chebyshev (CellShell.at' lc.box.is2D t').offset : ℝ)) - 1) * lc.width ≤
          (((chebyshev (CellShell.at' lc.box.is2D u).offset : ℝ)) - 1) * lc.width :=
          mul_le_mul_of_nonneg_right (by linarith) hw.le
        rw [g2, computeDistance_eq]
        linarith

/-- **C26, partial**: what is returned is nearest first, each point once; and it is right about all
points up to half the smallest distance of opposite faces: none of them is left out in favour of a
farther one, nor when fewer than `num_neighbors` are returned. Missing: points farther away than
that may be left out, see `C26_long_box_counterexample`. -/
theorem C26_nearest_partial (b : Box ℝ) (hv : Spec.Valid b) (hb : PositiveLengths b)
    (pts : List (Vec3 ℝ)) (cw : ℝ) (hc : 0 ≤ cw) (lc : LinkCell) (h : new b pts cw = some lc)
    (hpts : ∀ p ∈ pts, InCell b p) (q : Vec3 ℝ) (hq : InCell b q) (qi k : ℕ) (rMax : WithTop ℝ)
    (rMin : ℝ) (hmin : 0 ≤ rMin) (excl : Bool) (out : List (Bond ℝ))
    (ho : lc.Nearest q qi k rMax rMin excl out) :
    NearestUpTo b pts q qi k rMax rMin excl ((minPlane b / 2 : ℝ) : WithTop ℝ) out := by
  obtain ⟨rfl, rfl, -, hg⟩ := new_spec hb hc h
  obtain ⟨T, hT0, hT, hne, hfar⟩ := near_limit hg
  refine nearest_core hg hv hb hpts hq hmin ho hT0 hT hne _ fun p hp hu => ?_
  rw [WithTop.coe_lt_coe, computeDistance_eq]
  obtain ⟨u, hue, hlt⟩ := exists_seq hg hv hb (hpts p hp) hq
  have : T ≤ u := by
    by_contra hl
    exact hu u (by omega) hue
  exact (hfar u this).trans_lt hlt

/-- **C26, partial**: if at least `k` eligible points are within half the smallest distance of
opposite faces, the result is right without a limit. -/
theorem C26_enough_near_partial (b : Box ℝ) (hv : Spec.Valid b) (hb : PositiveLengths b)
    (pts : List (Vec3 ℝ)) (cw : ℝ) (hc : 0 ≤ cw) (lc : LinkCell) (h : new b pts cw = some lc)
    (hpts : ∀ p ∈ pts, InCell b p) (q : Vec3 ℝ) (hq : InCell b q) (qi k : ℕ) (rMax : WithTop ℝ)
    (rMin : ℝ) (hmin : 0 ≤ rMin) (excl : Bool) (out : List (Bond ℝ))
    (ho : lc.Nearest q qi k rMax rMin excl out) (js : List ℕ) (hjs : js.Nodup) (hk : k ≤ js.length)
    (hnear : ∀ j ∈ js, ∃ d, Eligible b pts q qi rMax rMin excl j d ∧ d ≤ minPlane b / 2) :
    out.length = k ∧ NearestUpTo b pts q qi k rMax rMin excl ⊤ out := by
  have H := C26_nearest_partial b hv hb pts cw hc lc h hpts q hq qi k rMax rMin hmin excl out ho
  have hlen : out.length = k := by
    by_contra hne
    have hsub : ∀ j ∈ js, j ∈ out.map Bond.p := by
      intro j hj
      obtain ⟨d, h1, h2⟩ := hnear j hj
      rcases H.nearest j d h1 (WithTop.coe_le_coe.mpr h2) with h3 | h3
      · exact h3
      · exact absurd h3.1 hne
    have := (List.subperm_of_subset hjs hsub).length_le
    rw [List.length_map] at this
    have := H.length_le
    omega
  refine ⟨hlen, H.length_le, H.sorted, H.nodup, H.bonds, fun j d hj _ => ?_⟩
  by_cases hd : d ≤ minPlane b / 2
  · exact H.nearest j d hj (WithTop.coe_le_coe.mpr hd)
  · by_cases hin : j ∈ out.map Bond.p
    · exact Or.inl hin
    right
    refine ⟨hlen, fun bd hbd => ?_⟩
    by_contra hlt
    push Not at hlt hd
    have hsub : ∀ i ∈ js, i ∈ (out.map Bond.p).erase bd.p := by
      intro i hi
      obtain ⟨d', h1, h2⟩ := hnear i hi
      have hne : i ≠ bd.p := by
        rintro rfl
        obtain ⟨-, -, ⟨p, hp, -, e, -⟩, -⟩ := H.bonds bd hbd
        obtain ⟨p', hp', -, e', -⟩ := h1
        rw [hp] at hp'
        cases hp'
        linarith
      rcases H.nearest i d' h1 (WithTop.coe_le_coe.mpr h2) with h3 | h3
      · exact (List.mem_erase_of_ne hne).mpr h3
      · have := h3.2 bd hbd
        linarith
    have := (List.subperm_of_subset hjs hsub).length_le
    rw [List.length_erase_of_mem (List.mem_map.mpr ⟨bd, hbd, rfl⟩), List.length_map] at this
    have := List.length_pos_of_mem hbd
    omega

theorem axis_cover {Q c : ℕ} {d m : ℕ} (hc : c < d) (hd : d ≤ 2 * m + 1) :
    ∃ o : ℤ, o.natAbs ≤ m ∧ wrapCoord ((Q : ℤ) + o) d = c := by
  have h1 := Int.emod_nonneg ((c : ℤ) - Q) (by omega : (d : ℤ) ≠ 0)
  have h2 := Int.emod_lt_of_pos ((c : ℤ) - Q) (by omega : (0 : ℤ) < d)
  have h3 := Int.mul_ediv_add_emod ((c : ℤ) - Q) d
  generalize ((c : ℤ) - Q) % d = r at *
  generalize ((c : ℤ) - Q) / d = s at *
  have key : ∀ t : ℤ, wrapCoord ((Q : ℤ) + (r + d * t)) d = c := by
    intro t
    have := wrapCoord_eq ((Q : ℤ) + (r + d * t)) d (by omega)
    rw [show (Q : ℤ) + (r + d * t) = c + d * (t - s) by rw [mul_sub]; omega,
      Int.add_mul_emod_self_left, Int.emod_eq_of_lt (by omega) (by omega)] at this
    rw [show (Q : ℤ) + (r + d * t) = c + d * (t - s) by rw [mul_sub]; omega]
    exact_mod_cast this
  by_cases hr : r ≤ m
  · exact ⟨r, by omega, by have := key 0; simpa using this⟩
  · refine ⟨r - d, by omega, ?_⟩
    have := key (-1)
    rwa [show r + (d : ℤ) * (-1) = r - d by ring] at this

/-- **C26, partial**: in a box whose faces are about equally far apart (their distances differ by
at most a cell width) the result is right. -/
theorem C26_equal_planes_partial (b : Box ℝ) (hv : Spec.Valid b) (hb : PositiveLengths b)
    (pts : List (Vec3 ℝ)) (cw : ℝ) (hc : 0 ≤ cw) (lc : LinkCell) (h : new b pts cw = some lc)
    (hpts : ∀ p ∈ pts, InCell b p) (q : Vec3 ℝ) (hq : InCell b q) (qi k : ℕ) (rMax : WithTop ℝ)
    (rMin : ℝ) (hmin : 0 ≤ rMin) (excl : Bool) (out : List (Bond ℝ))
    (ho : lc.Nearest q qi k rMax rMin excl out) (heq : maxPlane b ≤ minPlane b + lc.width) :
    NearestUpTo b pts q qi k rMax rMin excl ⊤ out := by
  obtain ⟨rfl, rfl, -, hg⟩ := new_spec hb hc h
  obtain ⟨T, hT0, hT, hne, -⟩ := near_limit hg
  have hw := hg.wpos
  have hcover : ∀ (d : ℕ) (L : ℝ), (d : ℝ) * lc.width ≤ L → L ≤ maxPlane lc.box →
      d ≤ 2 * (lc.maxRange - 1) + 1 := by
    intro d L h1 h2
    have h3 : (d : ℝ) ≤ minPlane lc.box / lc.width + 1 := by
      rw [div_add_one hw.ne', le_div_iff₀ hw]; linarith
    have h4 := Nat.le_ceil (minPlane lc.box / (2 * lc.width))
    have h5 : minPlane lc.box / lc.width = 2 * (minPlane lc.box / (2 * lc.width)) := by
      field_simp
    unfold maxRange
    rw [Nat.add_sub_cancel]
    have : (d : ℝ) ≤ (2 * ⌈minPlane lc.box / (2 * lc.width)⌉₊ + 1 : ℕ) := by
      push_cast; linarith
    exact_mod_cast this
  have hmx : lc.box.getNearestPlaneDistance.x ≤ maxPlane lc.box := by
    unfold maxPlane; simp only; split
    · exact le_max_left _ _
    · exact (le_max_left _ _).trans (le_max_left _ _)
  have hmy : lc.box.getNearestPlaneDistance.y ≤ maxPlane lc.box := by
    unfold maxPlane; simp only; split
    · exact le_max_right _ _
    · exact (le_max_right _ _).trans (le_max_left _ _)
  have hdz : lc.dim.z ≤ 2 * (lc.maxRange - 1) + 1 := by
    cases h2 : lc.box.is2D with
    | true => rw [hg.z1 h2]; omega
    | false =>
      refine hcover _ _ (hg.pz h2) ?_
      unfold maxPlane; simp only [h2, Bool.false_eq_true, if_false]
      exact le_max_right _ _
  refine nearest_core hg hv hb hpts hq hmin ho hT0 hT hne ⊤ fun p hp hu => ?_
  exfalso
  have hx : (getCellCoord lc.box lc.dim p).x < lc.dim.x := Nat.mod_lt _ hg.dx
  have hy : (getCellCoord lc.box lc.dim p).y < lc.dim.y := Nat.mod_lt _ hg.dy
  have hz : (getCellCoord lc.box lc.dim p).z < lc.dim.z := Nat.mod_lt _ hg.dz
  obtain ⟨ox, h1, h1'⟩ := axis_cover (Q := (getCellCoord lc.box lc.dim q).x) hx
    (hcover _ _ hg.px hmx)
  obtain ⟨oy, h2, h2'⟩ := axis_cover (Q := (getCellCoord lc.box lc.dim q).y) hy
    (hcover _ _ hg.py hmy)
  obtain ⟨oz, h3, h3', h3''⟩ : ∃ o : ℤ, o.natAbs ≤ lc.maxRange - 1 ∧
      wrapCoord (((getCellCoord lc.box lc.dim q).z : ℤ) + o) lc.dim.z =
        (getCellCoord lc.box lc.dim p).z ∧ (lc.box.is2D = true → o = 0) := by
    cases h2 : lc.box.is2D with
    | true =>
      refine ⟨0, by omega, ?_, fun _ => rfl⟩
      have e := hg.z1 h2
      rw [e] at hz ⊢
      have := wrapCoord_lt (((getCellCoord lc.box lc.dim q).z : ℤ) + 0) 1 (by omega)
      omega
    | false =>
      obtain ⟨o, g1, g2⟩ := axis_cover (Q := (getCellCoord lc.box lc.dim q).z) hz hdz
      exact ⟨o, g1, g2, fun h => by cases h⟩
  obtain ⟨u, hue, -⟩ := CellShell.C24_every_offset_once lc.box.is2D ⟨ox, oy, oz⟩ h3''
  refine hu u ?_ ?_
  · obtain ⟨T', hT', hlt⟩ := CellShell.C24_shell_start lc.box.is2D lc.maxRange
    have hTT : T ≤ T' := by
      by_contra hl
      exact hne T' (by omega) hT'
    have : u < T' := by
      rw [hlt u, hue]
      have : 0 < lc.maxRange := by unfold maxRange; omega
      unfold chebyshev
      simp only
      omega
    have hTT' : T' ≤ T := by
      by_contra hl
      have g1 := (hlt T).mp (by omega)
      have g2 := (hlt T').not.mp (lt_irrefl _)
      rw [hT] at g1
      rw [hT'] at g2
      exact g2 g1
    omega
  · unfold seq cellAt getCellIndex getCell
    rw [hue]
    simp only [pointCell, Vec3.add_x, Vec3.add_y, Vec3.add_z]
    rw [h1', h2', h3']

/-- **C26**: the query returns for every valid request. -/
theorem C26_returns (b : Box ℝ) (hb : PositiveLengths b) (hper : FullyPeriodic b)
    (pts : List (Vec3 ℝ)) (cw : ℝ) (hc : 0 ≤ cw) (lc : LinkCell) (h : new b pts cw = some lc)
    (q : Vec3 ℝ) (qi k : ℕ) (hk : 0 < k) (rMax : WithTop ℝ) (rMin : ℝ)
    (h1 : ((0 : ℝ) : WithTop ℝ) < rMax) (h2 : (rMin : WithTop ℝ) < rMax) (excl : Bool) :
    ∃ out, lc.Nearest q qi k rMax rMin excl out := by
  obtain ⟨rfl, rfl, -, hg⟩ := new_spec hb hc h
  obtain ⟨T, hT0, hT, hne, -⟩ := near_limit hg
  obtain ⟨cur, hcur⟩ := nearLoop_isSome hg q qi k rMax rMin excl hT hne (T + 1) 0 {lc.seq q 0}
    (getCell lc.box lc.dim q) [] (by omega) (by omega) (fun _ => (seq_zero hg q).symm)
  exact ⟨_, hper, not_le.mpr h1, not_le.mpr h2, hk, _, cur, _, hcur, mergeSort_sorted cur, rfl⟩

theorem new_dim {b : Box ℝ} {pts : List (Vec3 ℝ)} {cw : ℝ} {lc : LinkCell}
    (h : new b pts cw = some lc) : lc.dim = computeDimensions b lc.width := by
  rw [new_eq] at h
  split_ifs at h
  cases h
  rfl

/-- A long box. -/
noncomputable def longBox : Box ℝ := Box.mk' 100 10 10 0 0 0 false

theorem longBox_valid : Spec.Valid longBox := by
  constructor <;> simp [longBox, Box.mk', Box.setL]

theorem longBox_lengths : PositiveLengths longBox := by
  simp [PositiveLengths, longBox, Box.mk', Box.setL]

theorem longBox_planes : longBox.getNearestPlaneDistance = ⟨100, 10, 10⟩ := by
  simp [longBox, Box.mk', Box.setL, Box.getNearestPlaneDistance]

theorem longBox_frac (v : Vec3 ℝ) :
    longBox.makeFractional v = ⟨(v.x + 50) / 100, (v.y + 5) / 10, (v.z + 5) / 10⟩ := by
  simp [longBox, Box.mk', Box.setL, Box.makeFractional]
  norm_num

theorem longBox_wrap (x : ℝ) (h1 : -50 ≤ x) (h2 : x < 50) :
    longBox.wrap ⟨x, 0, 0⟩ = ⟨x, 0, 0⟩ := by
  apply wrap_eq_self_of_coords longBox_valid (fun _ => rfl) <;> intro _ <;> rw [longBox_frac] <;>
    constructor <;> norm_num <;> linarith

theorem longBox_dist (x y : ℝ) (h1 : -50 ≤ y - x) (h2 : y - x < 50) :
    longBox.computeDistance ⟨x, 0, 0⟩ ⟨y, 0, 0⟩ = |y - x| := by
  rw [computeDistance_eq]
  have e : (⟨y, 0, 0⟩ : Vec3 ℝ) - ⟨x, 0, 0⟩ = ⟨y - x, 0, 0⟩ := by ext <;> simp
  rw [e, longBox_wrap _ h1 h2, Vec3.norm, Vec3.dot]
  simp only [mul_zero, add_zero]
  exact Real.sqrt_mul_self_eq_abs _

theorem longBox_dims : computeDimensions longBox 5 = ⟨20, 2, 2⟩ := by
  unfold computeDimensions
  rw [longBox_planes]
  have e1 : ⌊(100 : ℝ) / 5⌋₊ = 20 := by norm_num
  have e2 : ⌊(10 : ℝ) / 5⌋₊ = 2 := by norm_num
  simp only [e1, e2]
  simp [longBox, Box.mk', Box.setL]

theorem longBox_cell (x : ℝ) (c : ℕ) (hc : c < 20) (h1 : (c : ℝ) * 5 ≤ x + 50)
    (h2 : x + 50 < (c + 1) * 5) :
    getCellCoord longBox ⟨20, 2, 2⟩ ⟨x, 0, 0⟩ = ⟨c, 1, 1⟩ := by
  unfold getCellCoord
  rw [longBox_frac]
  have e1 : ⌊(x + 50) / 100 * (20 : ℕ)⌋ = (c : ℤ) := by
    rw [Int.floor_eq_iff]
    push_cast
    constructor <;> linarith
  have e2 : ⌊(0 + 5 : ℝ) / 10 * (2 : ℕ)⌋ = 1 := by norm_num
  simp only [e1, e2]
  simp [Nat.mod_eq_of_lt hc]

/-- **C26 fails in long boxes**: the search ends at a number of cells computed from the shortest
side of the box. For the first of these three points, a query for its nearest neighbor returns the
third, at distance 9.8, although the second is at distance 5.2. -/
theorem C26_long_box_counterexample : ∃ lc,
    new longBox [⟨49 / 10, 0, 0⟩, ⟨101 / 10, 0, 0⟩, ⟨-(49 / 10), 0, 0⟩] 5 = some lc ∧
    (∃ out, lc.Nearest ⟨49 / 10, 0, 0⟩ 0 1 ⊤ 0 true out) ∧
    (∀ out, lc.Nearest ⟨49 / 10, 0, 0⟩ 0 1 ⊤ 0 true out → out.map Bond.p = [2]) ∧
    longBox.computeDistance ⟨49 / 10, 0, 0⟩ ⟨101 / 10, 0, 0⟩ = 52 / 10 ∧
    longBox.computeDistance ⟨49 / 10, 0, 0⟩ ⟨-(49 / 10), 0, 0⟩ = 98 / 10 := by
  obtain ⟨lc, hlc, hbox, hpts, hw⟩ := C25_constructed longBox
    [⟨49 / 10, 0, 0⟩, ⟨101 / 10, 0, 0⟩, ⟨-(49 / 10), 0, 0⟩] (by simp)
    (fun h => by simp [longBox, Box.mk', Box.setL] at h) 5 (by norm_num) (by rw [longBox_planes]; norm_num)
    (by rw [longBox_planes]; norm_num) (fun _ => by rw [longBox_planes]; norm_num)
  have dA : longBox.computeDistance ⟨49 / 10, 0, 0⟩ ⟨101 / 10, 0, 0⟩ = 52 / 10 := by
    rw [longBox_dist] <;> norm_num
  have dB : longBox.computeDistance ⟨49 / 10, 0, 0⟩ ⟨-(49 / 10), 0, 0⟩ = 98 / 10 := by
    rw [longBox_dist] <;> norm_num [abs_of_neg]
  refine ⟨lc, hlc, ?_, ?_, dA, dB⟩
  · exact C26_returns longBox longBox_lengths (by simp [FullyPeriodic, longBox, Box.mk', Box.setL]) _ 5
      (by norm_num) lc hlc _ 0 1 Nat.one_pos ⊤ 0 (WithTop.coe_lt_top _) (WithTop.coe_lt_top _) true
  intro out ho
  obtain ⟨-, -, -, hg⟩ := new_spec longBox_lengths (by norm_num) hlc
  have hdim := new_dim hlc
  rw [hw, longBox_dims] at hdim
  have h2d : lc.box.is2D = false := by rw [hbox]; rfl
  have hmr : lc.maxRange = 2 := by
    unfold maxRange minPlane
    simp only [h2d]
    rw [hbox, longBox_planes, hw]
    norm_num
  obtain ⟨T, hT0, hT, hne, -⟩ := near_limit hg
  have hTlt : ∀ u, u < T ↔ chebyshev (CellShell.at' lc.box.is2D u).offset < 2 := by
    obtain ⟨T', hT', hlt⟩ := CellShell.C24_shell_start lc.box.is2D lc.maxRange
    have h1 : T ≤ T' := by
      by_contra hl
      exact hne T' (by omega) hT'
    have h2 : T' ≤ T := by
      by_contra hl
      have g1 := (hlt T).mp (by omega)
      have g2 := (hlt T').not.mp (lt_irrefl _)
      rw [hT] at g1
      rw [hT'] at g2
      exact g2 g1
    obtain rfl : T = T' := by omega
    rw [hmr] at hlt
    exact hlt
  obtain ⟨cells, sorted, t', h1, h2, h3, rfl, h4, h5, h6⟩ := near_cells hg ho hT0 hT hne
  have hcq : getCellCoord lc.box lc.dim ⟨49 / 10, 0, 0⟩ = ⟨10, 1, 1⟩ := by
    rw [hbox, hdim]; exact longBox_cell _ 10 (by norm_num) (by norm_num) (by norm_num)
  have hcA : getCellCoord lc.box lc.dim ⟨101 / 10, 0, 0⟩ = ⟨12, 1, 1⟩ := by
    rw [hbox, hdim]; exact longBox_cell _ 12 (by norm_num) (by norm_num) (by norm_num)
  have hcB : getCellCoord lc.box lc.dim ⟨-(49 / 10), 0, 0⟩ = ⟨9, 1, 1⟩ := by
    rw [hbox, hdim]; exact longBox_cell _ 9 (by norm_num) (by norm_num) (by norm_num)
  have hA : getCell lc.box lc.dim ⟨101 / 10, 0, 0⟩ ∉ cells := by
    rw [h5]
    rintro ⟨u, hu, he⟩
    have hch := (hTlt u).mp (by omega)
    unfold seq cellAt getCellIndex getCell pointCell at he
    rw [hcq, hcA] at he
    simp only [Vec3.add_x, Vec3.add_y, Vec3.add_z, hdim] at he
    have := (coordToIndex_inj (wrapCoord_lt _ _ (by norm_num)) (wrapCoord_lt _ _ (by norm_num))
      (by norm_num) (by norm_num) he).1
    have e := wrapCoord_eq (10 + (CellShell.at' lc.box.is2D u).offset.x) 20 (by norm_num)
    unfold chebyshev at hch
    simp only [Nat.cast_ofNat] at this e
    rw [this] at e
    omega
  have hp0 : lc.pts[0]? = some ⟨49 / 10, 0, 0⟩ := by rw [hpts]; rfl
  have hp1 : lc.pts[1]? = some ⟨101 / 10, 0, 0⟩ := by rw [hpts]; rfl
  have hp2 : lc.pts[2]? = some ⟨-(49 / 10), 0, 0⟩ := by rw [hpts]; rfl
  have honly : ∀ bd ∈ sorted, bd.p = 2 := by
    intro bd hbd
    have hbd := h2.subset hbd
    obtain ⟨-, -, ⟨p, hp, hex, -⟩, -⟩ := elig_of_found (by simp) le_rfl hbd
    obtain ⟨p', hp', hc, -⟩ := mem_flatMap_found.mp hbd
    have hlt := (List.getElem?_eq_some_iff.mp hp).1
    rw [hpts] at hlt
    simp only [List.length_cons, List.length_nil] at hlt
    have h0 := hex rfl
    by_contra hne
    have e1 : bd.p = 1 := by omega
    rw [e1, hp1] at hp'
    cases hp'
    exact hA hc
  have hne : sorted ≠ [] := by
    rcases h6 with rfl | ⟨h6, -⟩
    · have hB : getCell lc.box lc.dim ⟨-(49 / 10), 0, 0⟩ ∈ cells := by
        rw [h5]
        obtain ⟨u, hu, -⟩ := CellShell.C24_every_offset_once lc.box.is2D ⟨-1, 0, 0⟩ (fun _ => rfl)
        refine ⟨u, (hTlt u).mpr (by rw [hu]; decide), ?_⟩
        unfold seq cellAt getCellIndex getCell pointCell
        rw [hu, hcq, hcB]
        simp only [Vec3.add_x, Vec3.add_y, Vec3.add_z, hdim]
        decide
      obtain ⟨bd, hbd, -⟩ := found_of_elig (lc := lc) (q := ⟨49 / 10, 0, 0⟩) (qi := 0) (rMax := ⊤)
        (rMin := 0) (by simp) le_rfl (excl := true) (cells := cells) (j := 2) (d := 98 / 10)
        ⟨_, hp2, fun _ => by norm_num, by rw [hbox, dB], by norm_num, WithTop.coe_lt_top _⟩ hp2 hB
      intro he
      rw [he] at h2
      have := h2.symm.subset hbd
      cases this
    · intro he
      rw [he] at h6
      simp at h6
  cases hs : sorted with
  | nil => exact absurd hs hne
  | cons bd rest =>
    have := honly bd (by rw [hs]; simp)
    simp [this]

/-- The hypotheses of C25 and C26 hold for this cell list, and the bonds are those expected. -/
example : ∃ lc, new longBox [⟨49 / 10, 0, 0⟩, ⟨101 / 10, 0, 0⟩, ⟨-(49 / 10), 0, 0⟩] 5 = some lc ∧
    ∃ out, lc.Ball ⟨49 / 10, 0, 0⟩ 0 6 0 true out ∧ out.map Bond.p = [1] := by
  obtain ⟨lc, hlc, hbox, hpts, hw⟩ := C25_constructed longBox
    [⟨49 / 10, 0, 0⟩, ⟨101 / 10, 0, 0⟩, ⟨-(49 / 10), 0, 0⟩] (by simp)
    (fun h => by simp [longBox, Box.mk', Box.setL] at h) 5 (by norm_num) (by rw [longBox_planes]; norm_num)
    (by rw [longBox_planes]; norm_num) (fun _ => by rw [longBox_planes]; norm_num)
  obtain ⟨out, ho⟩ := (C25_ball_returns_iff longBox longBox_lengths _ 5 (by norm_num) lc hlc
    ⟨49 / 10, 0, 0⟩ 0 6 0 true).mpr
    ⟨by simp [FullyPeriodic, longBox, Box.mk', Box.setL], by norm_num, by norm_num⟩
  refine ⟨lc, hlc, out, ho, ?_⟩
  have hin : ∀ x : ℝ, |x| ≤ 50 → InCell longBox ⟨x, 0, 0⟩ := by
    intro x hx
    rw [abs_le] at hx
    refine ⟨⟨(x + 50) / 100, 1 / 2, 1 / 2⟩, ⟨?_, by simp [longBox, Box.mk', Box.setL]⟩, ⟨?_, ?_⟩, ⟨?_, ?_⟩,
      ⟨?_, ?_⟩⟩
    · ext <;> simp [comb, a1, a2, a3, longBox, Box.mk', Box.setL]; ring
    all_goals simp only
    all_goals first | linarith | norm_num
  have hcell : ∀ p ∈ ([⟨49 / 10, 0, 0⟩, ⟨101 / 10, 0, 0⟩, ⟨-(49 / 10), 0, 0⟩] : List (Vec3 ℝ)),
      InCell longBox p := by
    intro p hp
    simp only [List.mem_cons, List.not_mem_nil, or_false] at hp
    rcases hp with rfl | rfl | rfl <;> apply hin <;> norm_num [abs_le]
  have hex := C25_ball_exact longBox longBox_valid longBox_lengths _ 5 (by norm_num) lc hlc hcell
    ⟨49 / 10, 0, 0⟩ (hin _ (by norm_num [abs_le])) 0 6 0 le_rfl true out ho
  have hnd := C25_ball_nodup longBox longBox_lengths _ 5 (by norm_num) lc hlc _ 0 6 0 true out ho
  have hmem : ∀ j, j ∈ out.map Bond.p ↔ j = 1 := by
    intro j
    rw [List.mem_map]
    constructor
    · rintro ⟨bd, hbd, rfl⟩
      obtain ⟨-, -, h1, p, hp, -, -, -, h2⟩ := (hex bd).mp hbd
      have hlt := (List.getElem?_eq_some_iff.mp hp).1
      simp only [List.length_cons, List.length_nil] at hlt
      have h0 := h1 rfl
      by_contra hne
      have e : bd.p = 2 := by omega
      rw [e] at hp
      cases hp
      rw [longBox_dist _ _ (by norm_num) (by norm_num)] at h2
      norm_num [abs_of_neg] at h2
    · rintro rfl
      have dA : longBox.computeDistance ⟨49 / 10, 0, 0⟩ ⟨101 / 10, 0, 0⟩ = 52 / 10 := by
        rw [longBox_dist] <;> norm_num
      refine ⟨⟨0, 1, 52 / 10, 1, longBox.wrap ((⟨101 / 10, 0, 0⟩ : Vec3 ℝ) - ⟨49 / 10, 0, 0⟩)⟩,
        (hex _).mpr ⟨rfl, rfl, fun _ => by norm_num, (⟨101 / 10, 0, 0⟩ : Vec3 ℝ), by simp, rfl,
          dA.symm, ?_, ?_⟩, rfl⟩ <;> rw [dA] <;> norm_num
  exact List.perm_singleton.mp ((List.perm_ext_iff_of_nodup hnd (by simp)).mpr fun j => by
    rw [hmem, List.mem_singleton])

/-- In a cube the hypotheses of `C26_equal_planes_partial` hold. -/
example : ∃ lc out, new (Box.mk' 10 10 10 0 0 0 false) [⟨0, 0, 0⟩, ⟨4, 4, 4⟩] 3 = some lc ∧
    lc.Nearest ⟨0, 0, 0⟩ 0 1 ⊤ 0 true out ∧
    NearestUpTo (Box.mk' 10 10 10 0 0 0 false) [⟨0, 0, 0⟩, ⟨4, 4, 4⟩] ⟨0, 0, 0⟩ 0 1 ⊤ 0 true ⊤ out := by
  have hpl : (Box.mk' 10 10 10 0 0 0 false : Box ℝ).getNearestPlaneDistance = ⟨10, 10, 10⟩ := by
    simp [Box.mk', Box.setL, Box.getNearestPlaneDistance]
  have hL : PositiveLengths (Box.mk' 10 10 10 0 0 0 false : Box ℝ) := by
    simp [PositiveLengths, Box.mk', Box.setL]
  obtain ⟨lc, hlc, hbox, hpts, hw⟩ := C25_constructed (Box.mk' 10 10 10 0 0 0 false)
    [⟨0, 0, 0⟩, ⟨4, 4, 4⟩] (by simp) (fun h => by simp [Box.mk', Box.setL] at h) 3 (by norm_num)
    (by rw [hpl]; norm_num) (by rw [hpl]; norm_num) (fun _ => by rw [hpl]; norm_num)
  obtain ⟨out, ho⟩ := C26_returns _ hL (by simp [FullyPeriodic, Box.mk', Box.setL]) _ 3
    (by norm_num) lc hlc ⟨0, 0, 0⟩ 0 1 Nat.one_pos ⊤ 0 (WithTop.coe_lt_top _) (WithTop.coe_lt_top _) true
  refine ⟨lc, out, hlc, ho, ?_⟩
  refine C26_equal_planes_partial _ cube_valid hL _ 3 (by norm_num) lc hlc ?_ _
    (cube_inCell (by simp) (by simp) (by simp)) 0 1 ⊤ 0 le_rfl true out ho ?_
  · intro p hp
    simp only [List.mem_cons, List.not_mem_nil, or_false] at hp
    rcases hp with rfl | rfl <;> apply cube_inCell <;> norm_num
  · rw [cube_planes.1, cube_planes.2, hw]; norm_num

end LinkCell
end Freud
