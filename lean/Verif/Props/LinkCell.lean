import Verif.Lemmas.LinkCell

/-!
# Property C25: cell lists and their ball queries
-/

namespace Freud
namespace LinkCell
open Spec

theorem computeDistance_eq (b : Box ℝ) (p q : Vec3 ℝ) :
    b.computeDistance q p = Vec3.norm (b.wrap (p - q)) := rfl

/-- **C25**: the iterators over all cells together yield every point exactly once. -/
theorem C25_cells_partition (b : Box ℝ) (hb : PositiveLengths b) (pts : List (Vec3 ℝ)) (cw : ℝ)
    (hc : 0 ≤ cw) (lc : LinkCell) (h : new b pts cw = some lc) :
    ∃ cells : List (List ℕ),
      (List.range (lc.dim.x * lc.dim.y * lc.dim.z)).map lc.iterCell = cells.map some ∧
      cells.flatten.Perm (List.range pts.length) := by
  obtain ⟨-, rfl, -, hg⟩ := new_spec hb hc h
  refine ⟨(List.range (lc.dim.x * lc.dim.y * lc.dim.z)).map lc.members, ?_, ?_⟩
  · rw [List.map_map]
    refine List.map_congr_left fun c hc => ?_
    exact hg.cells c (List.mem_range.mp hc)
  · rw [← List.flatMap_def]
    refine (List.perm_ext_iff_of_nodup ?_ List.nodup_range).mpr fun j => ?_
    · rw [List.nodup_flatMap]
      refine ⟨fun c _ => members_nodup lc c, List.nodup_range.imp ?_⟩
      intro c c' hne j h1 h2
      obtain ⟨p, hp, e⟩ := mem_members.mp h1
      obtain ⟨p', hp', e'⟩ := mem_members.mp h2
      rw [hp] at hp'
      cases hp'
      exact hne (e.symm.trans e')
    · rw [List.mem_flatMap, List.mem_range]
      constructor
      · rintro ⟨c, -, hj⟩
        obtain ⟨p, hp, -⟩ := mem_members.mp hj
        exact (List.getElem?_eq_some_iff.mp hp).1
      · intro hj
        exact ⟨_, List.mem_range.mpr (getCell_lt hg.dx hg.dy hg.dz _),
          mem_members.mpr ⟨lc.pts[j], List.getElem?_eq_getElem hj, rfl⟩⟩

/-- **C25**: a point is listed in the cell that contains it. Cells divide the box evenly along each
box vector, at least one cell width thick; the upper faces of the box belong to the first cells. -/
theorem C25_cell_contains_point (b : Box ℝ) (hv : Spec.Valid b) (hb : PositiveLengths b)
    (pts : List (Vec3 ℝ)) (cw : ℝ) (hc : 0 ≤ cw) (lc : LinkCell) (h : new b pts cw = some lc)
    (x y z : ℕ) (hx : x < lc.dim.x) (hy : y < lc.dim.y) (hz : z < lc.dim.z) (js : List ℕ)
    (hjs : lc.iterCell (x + lc.dim.x * (y + lc.dim.y * z)) = some js) (j : ℕ) (p f : Vec3 ℝ)
    (hp : pts[j]? = some p) (hf : HasCoords b p f) (fx : 0 ≤ f.x ∧ f.x ≤ 1)
    (fy : 0 ≤ f.y ∧ f.y ≤ 1) (fz : 0 ≤ f.z ∧ f.z ≤ 1) :
    (j ∈ js ↔
      ((x : ℝ) ≤ f.x * lc.dim.x ∧ f.x * lc.dim.x < x + 1 ∨ f.x = 1 ∧ x = 0) ∧
      ((y : ℝ) ≤ f.y * lc.dim.y ∧ f.y * lc.dim.y < y + 1 ∨ f.y = 1 ∧ y = 0) ∧
      ((z : ℝ) ≤ f.z * lc.dim.z ∧ f.z * lc.dim.z < z + 1 ∨ f.z = 1 ∧ z = 0)) ∧
    lc.width ≤ b.getNearestPlaneDistance.x / lc.dim.x ∧
    lc.width ≤ b.getNearestPlaneDistance.y / lc.dim.y ∧
    (b.is2D = false → lc.width ≤ b.getNearestPlaneDistance.z / lc.dim.z) := by
  obtain ⟨rfl, rfl, -, hg⟩ := new_spec hb hc h
  have hdx : (0 : ℝ) < lc.dim.x := by exact_mod_cast hg.dx
  have hdy : (0 : ℝ) < lc.dim.y := by exact_mod_cast hg.dy
  have hdz : (0 : ℝ) < lc.dim.z := by exact_mod_cast hg.dz
  refine ⟨?_, by rw [le_div_iff₀ hdx, mul_comm]; exact hg.px,
    by rw [le_div_iff₀ hdy, mul_comm]; exact hg.py,
    fun h2 => by rw [le_div_iff₀ hdz, mul_comm]; exact hg.pz h2⟩
  have hcell := coordToIndex_lt hx hy hz
  rw [coordToIndex_eq] at hcell
  rw [hg.cells _ hcell] at hjs
  cases hjs
  change j ∈ lc.members _ ↔ _
  rw [mem_members, ← coordToIndex_eq]
  have key : ∀ (g : ℝ) (d c : ℕ), 0 ≤ g ∧ g ≤ 1 → c < d →
      (⌊g * d⌋.toNat % d = c ↔ ((c : ℝ) ≤ g * d ∧ g * d < c + 1 ∨ g = 1 ∧ c = 0)) := by
    intro g d c hg0 hcd
    have hd : (0 : ℝ) < d := by exact_mod_cast (by omega : 0 < d)
    have hf0 : 0 ≤ ⌊g * d⌋ := Int.floor_nonneg.mpr (by have := hg0.1; positivity)
    rcases hg0.2.lt_or_eq with hlt | rfl
    · have h1 : ⌊g * d⌋ < d := by
        rw [Int.floor_lt]; push_cast; nlinarith
      rw [Nat.mod_eq_of_lt (by omega)]
      have : ⌊g * d⌋.toNat = c ↔ ⌊g * d⌋ = (c : ℤ) := by omega
      rw [this, Int.floor_eq_iff]
      push_cast
      constructor
      · intro h; exact Or.inl h
      · rintro (h | ⟨h, -⟩)
        · exact h
        · exact absurd h hlt.ne
    · rw [one_mul, Int.floor_natCast, Int.toNat_natCast, Nat.mod_self]
      constructor
      · rintro rfl; exact Or.inr ⟨rfl, rfl⟩
      · rintro (⟨-, h⟩ | ⟨-, h⟩)
        · have : d < c + 1 := by exact_mod_cast h
          omega
        · exact h.symm
  rw [← key f.x _ x fx hx, ← key f.y _ y fy hy, ← key f.z _ z fz hz]
  have e := hasCoords_frac hv hf
  constructor
  · rintro ⟨p', hp', he⟩
    rw [hp] at hp'
    cases hp'
    have := coordToIndex_inj (Nat.mod_lt _ hg.dx) (Nat.mod_lt _ hg.dy) hx hy he
    rw [e]
    exact this
  · rintro ⟨h1, h2, h3⟩
    refine ⟨p, hp, ?_⟩
    unfold getCell getCellCoord
    simp only [← e]
    rw [h1, h2, h3]

theorem ball_cells {lc : LinkCell} (hg : Good lc) {q : Vec3 ℝ} {qi : ℕ} {rMax rMin : ℝ}
    {excl : Bool} {out : List (Bond ℝ)} (h : lc.Ball q qi rMax rMin excl out) :
    ∃ cells : List ℕ, cells.Nodup ∧ out = cells.flatMap (lc.found q qi rMax rMin excl) ∧
      ∀ u, ((chebyshev (CellShell.at' lc.box.is2D u).offset : ℝ) - 1) * lc.width < rMax →
        lc.seq q u ∈ cells := by
  obtain ⟨-, hr, -, first, fuel, rest, h1, h2, rfl⟩ := h
  obtain ⟨T, hT0, hT, hreach⟩ := ball_limit hg rMax (by linarith)
  rw [← seq_zero hg q, cellBonds_eq hg _ _ _ _ _ (seq_lt hg q 0)] at h1
  cases h1
  obtain ⟨cells, g1, g2, rfl⟩ := ballLoop_spec hg q qi rMax rMin excl hT fuel 0 _ _ h2
  refine ⟨lc.seq q 0 :: cells, List.nodup_cons.mpr ⟨?_, g1⟩, rfl, fun u hu => ?_⟩
  · rw [g2]
    rintro ⟨g3, -⟩
    exact g3 (Finset.mem_singleton.mpr rfl)
  · rw [List.mem_cons, g2]
    by_cases he : lc.seq q u = lc.seq q 0
    · exact Or.inl he
    · right
      refine ⟨?_, u, ?_, hreach u hu, rfl⟩
      · intro hm
        exact he (Finset.mem_singleton.mp hm)
      · rcases Nat.eq_zero_or_pos u with rfl | hp
        · exact absurd rfl he
        · exact hp

theorem sq_lt_iff {rMax : WithTop ℝ} (h0 : ((0 : ℝ) : WithTop ℝ) ≤ rMax) (v : Vec3 ℝ) :
    ((Vec3.dot v v : ℝ) : WithTop ℝ) < rMax.map (fun r => r * r) ↔
      ((Vec3.norm v : ℝ) : WithTop ℝ) < rMax := by
  cases rMax with
  | top => simp
  | coe r =>
    rw [WithTop.coe_le_coe] at h0
    rw [WithTop.map_coe, WithTop.coe_lt_coe, WithTop.coe_lt_coe, norm_lt_iff _ _ h0]

theorem test_iff_top {lc : LinkCell} {q : Vec3 ℝ} {qi : ℕ} {rMax : WithTop ℝ} {rMin : ℝ}
    (h0 : ((0 : ℝ) : WithTop ℝ) ≤ rMax) (hmin : 0 ≤ rMin) {excl : Bool} {bd : Bond ℝ} {p : Vec3 ℝ}
    (hp : lc.pts[bd.p]? = some p) :
    lc.test q qi rMax rMin excl bd.p = some bd ↔
      bd.q = qi ∧ bd.weight = 1 ∧ bd.dist = Vec3.norm bd.vec ∧ (excl = true → bd.p ≠ qi) ∧
      rMin ≤ Vec3.norm bd.vec ∧ ((Vec3.norm bd.vec : ℝ) : WithTop ℝ) < rMax ∧
      bd.vec = lc.box.wrap (p - q) := by
  unfold test
  rw [List.getD_eq_getElem?_getD, hp, Option.getD_some]
  simp only
  have hiff := and_congr (sq_lt_iff h0 (lc.box.wrap (p - q)))
    (le_norm_iff (lc.box.wrap (p - q)) rMin hmin).symm
  by_cases hx : excl = true ∧ qi = bd.p
  · rw [if_pos (by simpa using hx)]
    constructor
    · intro h; cases h
    · rintro ⟨-, -, -, h, -⟩
      exact absurd hx.2.symm (h hx.1)
  · rw [if_neg (by simpa using hx)]
    split
    · rename_i hc
      have hc := hiff.mp hc
      constructor
      · intro h
        have e := Option.some.inj h
        rw [← e]
        refine ⟨rfl, rfl, rfl, ?_, hc.2, hc.1, rfl⟩
        intro hex he
        exact hx ⟨hex, he.symm⟩
      · rintro ⟨h1, h2, h3, -, -, -, h4⟩
        cases bd
        simp only at h1 h2 h3 h4
        subst h1 h2 h4
        rw [h3]; rfl
    · rename_i hc
      constructor
      · intro h; cases h
      · rintro ⟨-, -, -, -, h1, h2, h4⟩
        rw [h4] at h1 h2
        exact absurd (hiff.mpr ⟨h2, h1⟩) hc

theorem test_iff {lc : LinkCell} {q : Vec3 ℝ} {qi : ℕ} {rMax : ℝ} {rMin : ℝ} (h0 : 0 ≤ rMax)
    (hmin : 0 ≤ rMin) {excl : Bool} {bd : Bond ℝ} {p : Vec3 ℝ} (hp : lc.pts[bd.p]? = some p) :
    lc.test q qi rMax rMin excl bd.p = some bd ↔
      bd.q = qi ∧ bd.weight = 1 ∧ bd.dist = Vec3.norm bd.vec ∧ (excl = true → bd.p ≠ qi) ∧
      rMin ≤ Vec3.norm bd.vec ∧ Vec3.norm bd.vec < rMax ∧ bd.vec = lc.box.wrap (p - q) := by
  rw [test_iff_top (WithTop.coe_le_coe.mpr h0) hmin hp, WithTop.coe_lt_coe]

/-- **C25**: a ball query returns exactly the points whose distance, as `Box.compute_distances`
reports it, lies in `[r_min, r_max)`, with the wrapped separation; there is no condition on the
cell width or on `r_max`. -/
theorem C25_ball_exact (b : Box ℝ) (hv : Spec.Valid b) (hb : PositiveLengths b)
    (pts : List (Vec3 ℝ)) (cw : ℝ) (hc : 0 ≤ cw) (lc : LinkCell) (h : new b pts cw = some lc)
    (hpts : ∀ p ∈ pts, InCell b p) (q : Vec3 ℝ) (hq : InCell b q) (qi : ℕ) (rMax rMin : ℝ)
    (hmin : 0 ≤ rMin) (excl : Bool) (out : List (Bond ℝ)) (ho : lc.Ball q qi rMax rMin excl out)
    (bd : Bond ℝ) :
    bd ∈ out ↔ bd.q = qi ∧ bd.weight = 1 ∧ (excl = true → bd.p ≠ qi) ∧
      ∃ p, pts[bd.p]? = some p ∧ bd.vec = b.wrap (p - q) ∧ bd.dist = b.computeDistance q p ∧
        rMin ≤ b.computeDistance q p ∧ b.computeDistance q p < rMax := by
  obtain ⟨rfl, rfl, -, hg⟩ := new_spec hb hc h
  have hr : 0 ≤ rMax := by have := ho.2.1; linarith
  obtain ⟨cells, -, rfl, hin⟩ := ball_cells hg ho
  rw [mem_flatMap_found]
  simp only [computeDistance_eq]
  constructor
  · rintro ⟨p, hp, -, ht⟩
    obtain ⟨h1, h2, h3, h4, h5, h6, h7⟩ := (test_iff hr hmin hp).mp ht
    rw [h7] at h3 h5 h6
    exact ⟨h1, h2, h4, p, hp, h7, h3, h5, h6⟩
  · rintro ⟨h1, h2, h4, p, hp, h7, h3, h5, h6⟩
    refine ⟨p, hp, ?_, (test_iff hr hmin hp).mpr ⟨h1, h2, by rw [h7]; exact h3, h4,
      by rw [h7]; exact h5, by rw [h7]; exact h6, h7⟩⟩
    obtain ⟨u, hu, hlt⟩ := exists_seq hg hv hb (hpts p (List.mem_of_getElem? hp)) hq
    rw [← hu]
    exact hin u (hlt.trans h6)

/-- **C25**: each point is returned at most once. -/
theorem C25_ball_nodup (b : Box ℝ) (hb : PositiveLengths b)
    (pts : List (Vec3 ℝ)) (cw : ℝ) (hc : 0 ≤ cw) (lc : LinkCell) (h : new b pts cw = some lc)
    (q : Vec3 ℝ) (qi : ℕ) (rMax rMin : ℝ) (excl : Bool) (out : List (Bond ℝ))
    (ho : lc.Ball q qi rMax rMin excl out) : (out.map Bond.p).Nodup := by
  obtain ⟨rfl, rfl, -, hg⟩ := new_spec hb hc h
  obtain ⟨cells, h1, rfl, -⟩ := ball_cells hg ho
  exact flatMap_nodup lc q qi rMax rMin excl h1

/-- **C25**: the query returns, for every valid range, exactly when the box is periodic. -/
theorem C25_ball_returns_iff (b : Box ℝ) (hb : PositiveLengths b)
    (pts : List (Vec3 ℝ)) (cw : ℝ) (hc : 0 ≤ cw) (lc : LinkCell) (h : new b pts cw = some lc)
    (q : Vec3 ℝ) (qi : ℕ) (rMax rMin : ℝ) (excl : Bool) :
    (∃ out, lc.Ball q qi rMax rMin excl out) ↔ FullyPeriodic b ∧ 0 < rMax ∧ rMin < rMax := by
  obtain ⟨rfl, rfl, -, hg⟩ := new_spec hb hc h
  constructor
  · rintro ⟨out, h1, h2, h3, -⟩
    exact ⟨h1, not_le.mp h2, not_le.mp h3⟩
  · rintro ⟨h1, h2, h3⟩
    obtain ⟨T, hT0, hT, -⟩ := ball_limit hg rMax h2
    obtain ⟨rest, hr⟩ := ballLoop_isSome hg q qi rMax rMin excl hT T 0 {lc.seq q 0} hT0 (by omega)
    exact ⟨_, h1, not_le.mpr h2, not_le.mpr h3, _, T, rest,
      cellBonds_eq hg _ _ _ _ _ (getCell_lt hg.dx hg.dy hg.dz q), hr, rfl⟩

/-- **C25**: the constructor accepts every cell width up to half the distance of opposite faces. -/
theorem C25_constructed (b : Box ℝ) (pts : List (Vec3 ℝ)) (hne : pts ≠ [])
    (hpl : b.is2D = true → ∀ p ∈ pts, |p.z| ≤ 1 / 1000000) (cw : ℝ) (hc : 0 < cw)
    (hx : 2 * cw ≤ b.getNearestPlaneDistance.x) (hy : 2 * cw ≤ b.getNearestPlaneDistance.y)
    (hz : b.is2D = false → 2 * cw ≤ b.getNearestPlaneDistance.z) :
    ∃ lc, new b pts cw = some lc ∧ lc.box = b ∧ lc.pts = pts ∧ lc.width = cw := by
  rw [new_eq]
  have hw : autoWidth b pts.length cw = cw := if_neg hc.ne'
  rw [if_neg hne, if_neg (by
    rintro ⟨h1, p, hp, h2⟩
    have := hpl h1 p hp
    linarith), hw, if_neg (by
    rintro (h1 | h1 | ⟨h2, h1⟩)
    · linarith
    · linarith
    · have := hz h2; linarith)]
  exact ⟨_, rfl, rfl, rfl, rfl⟩

/-- **C25**: below half the plane distances the bonds are those a brute-force search over all
periodic images finds. -/
theorem C25_ball_brute_force (b : Box ℝ) (hv : Spec.Valid b) (hb : PositiveLengths b)
    (pts : List (Vec3 ℝ)) (cw : ℝ) (hc : 0 ≤ cw) (lc : LinkCell) (h : new b pts cw = some lc)
    (hpts : ∀ p ∈ pts, InCell b p) (q : Vec3 ℝ) (hq : InCell b q) (qi : ℕ) (rMax rMin : ℝ)
    (hmin : 0 ≤ rMin) (hhalf : BelowHalf b rMax) (excl : Bool) (out : List (Bond ℝ))
    (ho : lc.Ball q qi rMax rMin excl out) (bd : Bond ℝ) :
    bd ∈ out ↔ IsBallBond b pts q qi rMax rMin excl bd := by
  rw [C25_ball_exact b hv hb pts cw hc lc h hpts q hq qi rMax rMin hmin excl out ho]
  unfold IsBallBond
  have hplq := inCell_planar hv hq
  constructor
  · rintro ⟨h1, h2, h3, p, hp, h4, h5, h6, h7⟩
    have hpl := planar_sub (inCell_planar hv (hpts p (List.mem_of_getElem? hp))) hplq
    rw [computeDistance_eq, ← h4] at h5 h6 h7
    exact ⟨h1, h2, h5, h3, h6, h7, p, hp, _, wrapShift_allowed b (p - q),
      h4.trans (wrap_eq_add_lattice hv _ hpl)⟩
  · rintro ⟨h1, h2, h5, h3, h6, h7, p, hp, him⟩
    have hpl := planar_sub (inCell_planar hv (hpts p (List.mem_of_getElem? hp))) hplq
    have hw := (wrap_of_short hv hhalf hpl him h7).1
    rw [← hw] at h5 h6 h7
    exact ⟨h1, h2, h3, p, hp, hw.symm, h5, h6, h7⟩

/-- **C25**: the two neighbor searches agree: same bonds, up to order. -/
theorem C25_agrees_with_AABBQuery (b : Box ℝ) (hv : Spec.Valid b) (hb : PositiveLengths b)
    (pts : List (Vec3 ℝ)) (cw : ℝ) (hc : 0 ≤ cw) (lc : LinkCell) (h : new b pts cw = some lc)
    (aq : AABBQuery) (haq : AABBQuery.new b pts = some aq)
    (hpts : ∀ p ∈ pts, InCell b p) (q : Vec3 ℝ) (hq : InCell b q) (qi : ℕ) (rMax rMin : ℝ)
    (hmin : 0 ≤ rMin) (excl : Bool) (out out' : List (Bond ℝ))
    (ho : lc.Ball q qi rMax rMin excl out) (ho' : aq.ball q qi rMax rMin excl = some out') :
    out.Perm out' := by
  have hs := ((C22_ball_raises_iff aq q qi rMax rMin excl out').mp ho').2
  have hhalf := ((C22_single_raises_iff aq q qi rMax rMin excl).mp ⟨_, hs⟩).2.2
  rw [new_box haq] at hhalf
  refine (List.perm_ext_iff_of_nodup ?_ ?_).mpr fun bd => ?_
  · exact (C25_ball_nodup b hb pts cw hc lc h q qi rMax rMin excl out ho).of_map _
  · exact (C22_ball_nodup b hv pts aq haq hpts q hq qi rMax rMin hmin excl out' hs).of_map _
  · rw [C25_ball_brute_force b hv hb pts cw hc lc h hpts q hq qi rMax rMin hmin hhalf excl out ho,
      C22_ball_exact b hv pts aq haq hpts q hq qi rMax rMin hmin excl out' hs]

end LinkCell
end Freud
