import Verif.Lemmas.CellGeom

/-!
# Property C27: the ball query of CellQuery
-/

namespace Freud
open Spec CellQuery

/-- What a query for several query points should contain. -/
def Spec.IsQueryBond (b : Box ℝ) (pts qpts : List (Vec3 ℝ)) (rMax rMin : ℝ) (excl : Bool)
    (bd : Bond ℝ) : Prop :=
  ∃ q, qpts[bd.q]? = some q ∧ IsBallBond b pts q bd.q rMax rMin excl bd

/-- The conditions on a system: a box with positive lengths and points in the box. -/
structure Spec.InBox (b : Box ℝ) (pts : List (Vec3 ℝ)) : Prop where
  valid : Valid b
  pos : PositiveLengths b
  inside : ∀ p ∈ pts, InCell b p

theorem validate_iff (b : Box ℝ) (rMax rMin : ℝ) :
    validate b rMax rMin = true ↔ 0 < rMax ∧ rMin < rMax ∧ BelowHalf (allPeriodic b) rMax := by
  have hh : BelowHalf (allPeriodic b) rMax ↔ CellQuery.Small b rMax :=
    ⟨fun h => ⟨h.1 rfl, h.2.1 rfl, h.2.2 rfl⟩, small_half⟩
  rw [hh]
  unfold validate CellQuery.Small
  simp only [Bool.and_eq_true, Bool.not_eq_true', Bool.or_eq_false_iff, decide_eq_false_iff_not, not_le,
    Bool.and_eq_false_iff, mul_comm rMax]
  constructor
  · rintro ⟨⟨⟨⟨h1, h2⟩, h3⟩, h4⟩, h5⟩
    refine ⟨h4, h5, h1, h2, fun h => ?_⟩
    rcases h3 with h3 | h3
    · rw [h] at h3; cases h3
    · exact h3
  · rintro ⟨h4, h5, h1, h2, h3⟩
    refine ⟨⟨⟨⟨h1, h2⟩, ?_⟩, h4⟩, h5⟩
    cases h : b.is2D with
    | true => exact Or.inl rfl
    | false => exact Or.inr (h3 h)

theorem small_of_half {b : Box ℝ} {r : ℝ} (h : BelowHalf (allPeriodic b) r) : CellQuery.Small b r :=
  ⟨h.1 rfl, h.2.1 rfl, h.2.2 rfl⟩

theorem buildGrid_isSome (b : Box ℝ) (pts : List (Vec3 ℝ)) (r : ℝ) (hr : 0 < r) :
    ∃ g, buildGrid b pts r = some g := by
  unfold buildGrid
  rw [if_neg (by linarith)]
  exact ⟨_, rfl⟩

theorem query_some {o o' : CellQuery} {qpts : List (Vec3 ℝ)} {rMax rMin : ℝ} {excl : Bool}
    {r : Result} (h : o.query qpts rMax rMin excl = some (o', r)) :
    (0 < rMax ∧ rMin < rMax ∧ BelowHalf (allPeriodic o.box) rMax) ∧
    ∃ g, buildGrid o.box o.pts rMax = some g ∧ o' = ⟨o.box, o.pts, some g⟩ ∧
      r = ⟨qpts, rMax, rMin, excl, 0, Iter.new g (qpts.getD 0 0) 0 rMax rMin excl, false⟩ := by
  unfold CellQuery.query at h
  split at h
  · rename_i hv
    refine ⟨(validate_iff _ _ _).mp hv, ?_⟩
    obtain ⟨g, hg, h⟩ := Option.bind_eq_some_iff.mp h
    split at h
    · cases h
    · simp only [Option.some.injEq, Prod.mk.injEq] at h
      exact ⟨g, hg, h.1.symm, h.2.symm⟩
  · cases h

theorem buffer_ne {b : Box ℝ} {pts : List (Vec3 ℝ)} (hb : InBox b pts) (hne : pts ≠ []) {r : ℝ}
    (hr : 0 < r) {g : Grid} (hg : Built b pts r g) : g.buffer.isEmpty = false := by
  obtain ⟨p, rest, rfl⟩ := List.exists_cons_of_ne_nil hne
  have hp := hb.inside p (by simp)
  obtain ⟨⟨c, hc⟩, -⟩ := near_grid hb.valid hb.pos hr hp (t := p) (by
    have : Vec3.norm (p - p) = 0 := by simp [Vec3.norm, Vec3.dot]
    rw [this]; exact hr)
  have hm : (c, (⟨p, ((0 : ℕ) : ℤ)⟩ : Tagged)) ∈ mapping b (p :: rest) r := by
    rw [mem_mapping]
    refine ⟨hc, 0, p, ⟨0, 0, 0⟩, rfl, ⟨Or.inl rfl, Or.inl rfl, Or.inl rfl⟩, ?_, by simp⟩
    ext <;> simp [lattice, comb]
  obtain ⟨h1, h2, h3, h4⟩ := built_cell hg hm
  have hlt := idx_lt h1 h2 h3
  rw [← h4] at hlt
  have hin : (⟨p, ((0 : ℕ) : ℤ)⟩ : Tagged) ∈ g.buffer := by
    rw [hg.buffer, List.mem_flatMap]
    refine ⟨c, List.mem_range.mpr (by exact_mod_cast hlt), (mem_cellList _ _ _).mpr hm⟩
  cases hbuf : g.buffer with
  | nil => rw [hbuf] at hin; cases hin
  | cons _ _ => rfl

/-- **C27**, when a query succeeds: exactly for positive cutoffs above `rMin` and below half of every
plane distance. Unlike in `AABBQuery`, the periodicity of the box plays no role. -/
theorem C27_raises_iff (o : CellQuery) (hb : InBox o.box o.pts) (hne : o.pts ≠ [])
    (qpts : List (Vec3 ℝ)) (rMax rMin : ℝ) (excl : Bool) :
    (∃ res, o.query qpts rMax rMin excl = some res) ↔
      0 < rMax ∧ rMin < rMax ∧ BelowHalf (allPeriodic o.box) rMax := by
  constructor
  · rintro ⟨⟨o', r⟩, h⟩
    exact (query_some h).1
  · intro h
    obtain ⟨g, hg⟩ := buildGrid_isSome o.box o.pts rMax h.1
    refine ⟨(⟨o.box, o.pts, some g⟩,
      ⟨qpts, rMax, rMin, excl, 0, Iter.new g (qpts.getD 0 0) 0 rMax rMin excl, false⟩), ?_⟩
    unfold CellQuery.query
    rw [if_pos ((validate_iff _ _ _).mpr h), hg, Option.bind_some,
      if_neg (by rw [buffer_ne hb hne h.1 (built hg)]; simp)]

theorem yields_query {b : Box ℝ} {pts : List (Vec3 ℝ)} {g : Grid} {R : ℝ} (hg : Built b pts R g)
    (qpts : List (Vec3 ℝ)) (hq : qpts ≠ []) (rMax rMin : ℝ) (excl : Bool) :
    Result.Yields g ⟨qpts, rMax, rMin, excl, 0, Iter.new g (qpts.getD 0 0) 0 rMax rMin excl, false⟩
      ((List.range qpts.length).flatMap fun i => around g (qpts.getD i 0) i rMax rMin excl) := by
  have hl : 0 < qpts.length := List.length_pos_of_ne_nil hq
  refine Or.inr ⟨rfl, _, yields_new g (qpts.getD 0 0) 0 rMax rMin excl (built_rows hg), hl, ?_⟩
  simp only
  obtain ⟨k, hk⟩ : ∃ k, qpts.length = k + 1 := ⟨qpts.length - 1, by omega⟩
  rw [hk, List.range_eq_range', List.range'_succ, List.flatMap_cons]
  rfl

/-- **C27**: a loop over the result of a query ends and yields exactly the neighbors in range, with
separation vectors and distances, each pair once — where all axes are treated as periodic. This holds
whatever was queried before on the same object: `o` may have any old grid. -/
theorem C27_ball_exact (o o' : CellQuery) (hb : InBox o.box o.pts) (qpts : List (Vec3 ℝ))
    (hne : qpts ≠ []) (hq : ∀ q ∈ qpts, InCell o.box q) (rMax rMin : ℝ) (hmin : 0 ≤ rMin)
    (excl : Bool) (r : Result) (h : o.query qpts rMax rMin excl = some (o', r)) :
    ∃ g fuel bonds, o'.grid = some g ∧ r.collect g fuel = some bonds ∧
      (∀ bd, bd ∈ bonds ↔ IsQueryBond (allPeriodic o.box) o.pts qpts rMax rMin excl bd) ∧
      (bonds.map fun bd => (bd.q, bd.p)).Nodup := by
  obtain ⟨⟨hpos, -, hhalf⟩, g, hg, rfl, rfl⟩ := query_some h
  have hg' := built hg
  obtain ⟨fuel, hf⟩ := result_collect (built_rows hg') (yields_query hg' qpts hne rMax rMin excl)
  have hex : ∀ i < qpts.length, ∀ bd, bd ∈ around g (qpts.getD i 0) i rMax rMin excl ↔
      IsBallBond (allPeriodic o.box) o.pts (qpts.getD i 0) i rMax rMin excl bd := by
    intro i hi bd
    have hin : InCell o.box (qpts.getD i 0) := by
      rw [List.getD_eq_getElem?_getD, List.getElem?_eq_getElem hi, Option.getD_some]
      exact hq _ (List.getElem_mem hi)
    exact around_exact hb.valid hb.pos hb.inside hpos (small_of_half hhalf) hg' hin i hpos le_rfl hmin
      excl bd
  refine ⟨g, fuel, _, rfl, hf, ?_, ?_⟩
  · intro bd
    rw [List.mem_flatMap]
    constructor
    · rintro ⟨i, hi, hbd⟩
      rw [List.mem_range] at hi
      have := (hex i hi bd).mp hbd
      obtain rfl : bd.q = i := this.1
      refine ⟨qpts.getD bd.q 0, ?_, this⟩
      rw [List.getD_eq_getElem?_getD, List.getElem?_eq_getElem hi, Option.getD_some]
    · rintro ⟨q, hq', hbd⟩
      have hi : bd.q < qpts.length := (List.getElem?_eq_some_iff.mp hq').1
      refine ⟨bd.q, List.mem_range.mpr hi, (hex _ hi bd).mpr ?_⟩
      rw [List.getD_eq_getElem?_getD, hq', Option.getD_some]
      exact hbd
  · rw [List.map_flatMap, List.nodup_flatMap]
    refine ⟨fun i hi => ?_, List.nodup_range.imp_of_mem ?_⟩
    · rw [List.mem_range] at hi
      have hin : InCell o.box (qpts.getD i 0) := by
        rw [List.getD_eq_getElem?_getD, List.getElem?_eq_getElem hi, Option.getD_some]
        exact hq _ (List.getElem_mem hi)
      have := around_nodup hb.valid hb.inside (small_of_half hhalf) hg' hin i hpos le_rfl hmin excl
      rw [List.Nodup, List.pairwise_map] at this ⊢
      exact this.imp fun hne e => hne (Prod.mk.inj e).2
    · intro i j hi hj hij
      rw [List.mem_range] at hi hj
      rw [Function.onFun, List.disjoint_left]
      intro x h1 h2
      obtain ⟨b1, hb1, rfl⟩ := List.mem_map.mp h1
      obtain ⟨b2, hb2, e⟩ := List.mem_map.mp h2
      have e1 := ((hex i hi b1).mp hb1).1
      have e2 := ((hex j hj b2).mp hb2).1
      exact hij (e1.symm.trans ((Prod.mk.inj e).1.symm.trans e2))

/-- **C27**: in fully periodic boxes these are the bonds of the brute-force definition. -/
theorem C27_ball_brute_force (o o' : CellQuery) (hb : InBox o.box o.pts) (hp : FullyPeriodic o.box)
    (qpts : List (Vec3 ℝ)) (hne : qpts ≠ []) (hq : ∀ q ∈ qpts, InCell o.box q) (rMax rMin : ℝ)
    (hmin : 0 ≤ rMin) (excl : Bool) (r : Result)
    (h : o.query qpts rMax rMin excl = some (o', r)) :
    ∃ g fuel bonds, o'.grid = some g ∧ r.collect g fuel = some bonds ∧
      (∀ bd, bd ∈ bonds ↔ IsQueryBond o.box o.pts qpts rMax rMin excl bd) ∧
      (bonds.map fun bd => (bd.q, bd.p)).Nodup := by
  have := C27_ball_exact o o' hb qpts hne hq rMax rMin hmin excl r h
  rw [allPeriodic_eq hp] at this
  exact this

/-- **C27**: in fully periodic boxes, the bonds of a query point are those that `AABBQuery` finds. -/
theorem C27_agrees_with_AABBQuery (o o' : CellQuery) (hb : InBox o.box o.pts)
    (hp : FullyPeriodic o.box) (qpts : List (Vec3 ℝ)) (hne : qpts ≠ [])
    (hq : ∀ q ∈ qpts, InCell o.box q) (rMax rMin : ℝ) (hmin : 0 ≤ rMin) (excl : Bool) (r : Result)
    (h : o.query qpts rMax rMin excl = some (o', r)) (aq : AABBQuery)
    (haq : AABBQuery.new o.box o.pts = some aq) :
    ∃ g fuel bonds, o'.grid = some g ∧ r.collect g fuel = some bonds ∧
      ∀ (i : ℕ) (q : Vec3 ℝ), qpts[i]? = some q →
        ∃ abonds, aq.ball q i rMax rMin excl = some abonds ∧
          ∀ bd, (bd ∈ bonds ∧ bd.q = i) ↔ bd ∈ abonds := by
  obtain ⟨g, fuel, bonds, h1, h2, h3, -⟩ :=
    C27_ball_brute_force o o' hb hp qpts hne hq rMax rMin hmin excl r h
  refine ⟨g, fuel, bonds, h1, h2, fun i q hiq => ?_⟩
  obtain ⟨⟨hpos, hlt, hhalf⟩, -⟩ := query_some h
  rw [allPeriodic_eq hp] at hhalf
  have hbox := new_box haq
  obtain ⟨abonds, ha⟩ := (C22_single_raises_iff aq q i rMax rMin excl).mpr
    ⟨hpos, hlt, by rw [hbox]; exact hhalf⟩
  refine ⟨abonds, (C22_ball_raises_iff _ _ _ _ _ _ _).mpr ⟨by rw [hbox]; exact hp, ha⟩, fun bd => ?_⟩
  rw [C22_ball_exact o.box hb.valid o.pts aq haq hb.inside q (hq q (List.mem_of_getElem? hiq)) i rMax
    rMin hmin excl abonds ha bd, h3]
  constructor
  · rintro ⟨⟨q', hq', hbd⟩, rfl⟩
    obtain rfl : q = q' := Option.some.inj (hiq.symm.trans hq')
    exact hbd
  · intro hbd
    have hqi : bd.q = i := hbd.1
    subst hqi
    exact ⟨⟨q, hiq, hbd⟩, rfl⟩

/-- **C27**: a query keeps the box and the points of the object, so the theorems above apply to each
of any sequence of queries, each of which is looped over before the next. -/
theorem C27_sequence (o o' : CellQuery) (qpts : List (Vec3 ℝ)) (rMax rMin : ℝ) (excl : Bool)
    (r : Result) (h : o.query qpts rMax rMin excl = some (o', r)) :
    o'.box = o.box ∧ o'.pts = o.pts ∧
    ∀ qpts' rMax' rMin' excl', (o'.query qpts' rMax' rMin' excl') = (o.query qpts' rMax' rMin' excl') := by
  obtain ⟨-, g, -, rfl, -⟩ := query_some h
  exact ⟨rfl, rfl, fun _ _ _ _ => rfl⟩

/-- **C27, interleaving, partial**: a loop is not disturbed by another query on the object if that
query has the same cutoff. Missing: other cutoffs, for which it is false, see below. -/
theorem C27_interleaved_partial (o o1 o2 : CellQuery) (qpts qpts' : List (Vec3 ℝ))
    (rMax rMin rMin' : ℝ) (excl excl' : Bool) (r1 r2 : Result) (g1 g2 : Grid)
    (h1 : o.query qpts rMax rMin excl = some (o1, r1)) (hg1 : o1.grid = some g1)
    (h2 : o1.query qpts' rMax rMin' excl' = some (o2, r2)) (hg2 : o2.grid = some g2)
    (r : Result) (fuel : ℕ) :
    r.next g2 = r.next g1 ∧ r.collect g2 fuel = r.collect g1 fuel := by
  obtain ⟨-, g, hg, rfl, -⟩ := query_some h1
  obtain ⟨-, g', hg', rfl, -⟩ := query_some h2
  simp only at hg1 hg2 hg'
  rw [hg] at hg'
  obtain rfl := Option.some.inj hg'
  obtain rfl := Option.some.inj hg1
  obtain rfl := Option.some.inj hg2
  exact ⟨rfl, rfl⟩

/-! ### Interleaved queries with different cutoffs -/

theorem yields_nil {g : Grid} {it : Iter} (h : Yields g it []) (g' : Grid) :
    (it.next g').1 = none := by
  rcases h.2 with ⟨hf, -⟩ | ⟨hf, ⟨hc, -⟩ | ⟨b, i, -, -, hl, -⟩⟩
  · simp [Iter.next, hf]
  · simp [Iter.next, hf, hc]
  · cases hl

theorem cube_small {r : ℝ} (h : r < 5) : CellQuery.Small (Box.mk' 10 10 10 0 0 0 false : Box ℝ) r :=
  small_of_half (by
    have : allPeriodic (Box.mk' 10 10 10 0 0 0 false : Box ℝ) = Box.mk' 10 10 10 0 0 0 false :=
      allPeriodic_eq ⟨rfl, rfl, rfl⟩
    rw [this]; exact cube_half h)

theorem cube_positive : PositiveLengths (Box.mk' 10 10 10 0 0 0 false : Box ℝ) := by
  refine ⟨?_, ?_, fun _ => ?_⟩ <;> simp [Box.mk', Box.setL]

theorem cube_frac (v : Vec3 ℝ) : (Box.mk' 10 10 10 0 0 0 false : Box ℝ).makeFractional v =
    ⟨(v.x + 5) / 10, (v.y + 5) / 10, (v.z + 5) / 10⟩ := by
  ext <;> simp [Box.makeFractional, Box.mk', Box.setL] <;> norm_num

theorem cube_plane : (Box.mk' 10 10 10 0 0 0 false : Box ℝ).getNearestPlaneDistance = ⟨10, 10, 10⟩ := by
  ext <;> simp [Box.getNearestPlaneDistance, Box.mk', Box.setL]

theorem cube_gridMin (r : ℝ) : gridMin (Box.mk' 10 10 10 0 0 0 false : Box ℝ) r =
    ⟨-5 - r, -5 - r, -5 - r⟩ := by
  ext <;> simp [gridMin, Box.makeAbsolute, Box.mk', Box.setL, Vec3.cmul] <;> norm_num <;> ring

theorem cube_lattice (n : Vec3 ℤ) : lattice (Box.mk' 10 10 10 0 0 0 false : Box ℝ) n =
    ⟨n.x * 10, n.y * 10, n.z * 10⟩ := by
  ext <;> simp [lattice, comb, a1, a2, a3, Box.mk', Box.setL]

theorem single_of_nodup {l : List (Bond ℝ)} (hn : (l.map (·.p)).Nodup) (h0 : ∀ b ∈ l, b.p = 0)
    (hne : l ≠ []) : ∃ b, l = [b] := by
  cases l with
  | nil => exact absurd rfl hne
  | cons a l =>
    cases l with
    | nil => exact ⟨a, rfl⟩
    | cons c l =>
      simp only [List.map_cons, List.nodup_cons, List.mem_cons, not_or] at hn
      exact absurd ((h0 a (by simp)).trans (h0 c (by simp)).symm) hn.1.1

/-- **C27 fails for interleaved queries**: a loop over a query with cutoff 2 is under way, and has
returned the bond of the first query point. If nothing else happens, it goes on with a bond of the
second query point. If another query with cutoff 1 is made on the same object before, it ends
without that bond. -/
theorem C27_interleaved_counterexample :
    ∃ (o o1 o2 : CellQuery) (r1 r1' r2 : Result) (g1 g2 : Grid) (bd0 bd1 : Bond ℝ) (f f' : ℕ),
      CellQuery.new (Box.mk' 10 10 10 0 0 0 false) [⟨21 / 10, 0, 0⟩] = some o ∧
      InBox o.box o.pts ∧
      o.query [⟨21 / 10, 0, 0⟩, ⟨9 / 10, 0, 0⟩] 2 0 false = some (o1, r1) ∧ o1.grid = some g1 ∧
      r1.next g1 = (some bd0, r1') ∧ bd1.q = 1 ∧ r1'.collect g1 f = some [bd1] ∧
      o1.query [⟨0, 0, 0⟩] 1 0 false = some (o2, r2) ∧ o2.grid = some g2 ∧
      r1'.collect g2 f' = some [] := by
  set p : Vec3 ℝ := ⟨21 / 10, 0, 0⟩ with hp
  set q : Vec3 ℝ := ⟨9 / 10, 0, 0⟩ with hq
  set b : Box ℝ := Box.mk' 10 10 10 0 0 0 false with hbdef
  have hpin : InCell b p := cube_inCell (by norm_num [hp, abs_le]) (by simp [hp]) (by simp [hp])
  have hqin : InCell b q := cube_inCell (by norm_num [hq, abs_le]) (by simp [hq]) (by simp [hq])
  have hall : allPeriodic b = b := allPeriodic_eq ⟨rfl, rfl, rfl⟩
  have hin : InBox b [p] := ⟨cube_valid, cube_positive, by simpa using hpin⟩
  have hnew : CellQuery.new b [p] = some ⟨b, [p], none⟩ := by
    unfold CellQuery.new
    rw [if_neg (by simp), if_neg (by simp [hp])]
  obtain ⟨⟨o1, r1⟩, h1⟩ := (C27_raises_iff ⟨b, [p], none⟩ hin (by simp) [p, q] 2 0 false).mpr
    ⟨by norm_num, by norm_num, by rw [hall]; exact cube_half (by norm_num)⟩
  obtain ⟨-, g1, hg1, ho1, hr1⟩ := query_some h1
  simp only at hg1 ho1
  have ho1b : o1.box = b ∧ o1.pts = [p] := by rw [ho1]; exact ⟨rfl, rfl⟩
  obtain ⟨⟨o2, r2⟩, h2⟩ := (C27_raises_iff o1 (by rw [ho1b.1, ho1b.2]; exact hin)
    (by rw [ho1b.2]; simp) [⟨0, 0, 0⟩] 1 0 false).mpr
    ⟨by norm_num, by norm_num, by rw [ho1b.1, hall]; exact cube_half (by norm_num)⟩
  obtain ⟨-, g2, hg2, ho2, -⟩ := query_some h2
  rw [ho1b.1, ho1b.2] at hg2
  have hB1 := built hg1
  have hB2 := built hg2
  -- the first grid
  have hex : ∀ (x : Vec3 ℝ) (i : ℕ), InCell b x → Vec3.norm (p - x) < 2 →
      ∃ bd, around g1 x i 2 0 false = [bd] ∧ bd.q = i := by
    intro x i hx hn
    have hbond : (⟨i, 0, Vec3.norm (p - x), 1, p - x⟩ : Bond ℝ) ∈ around g1 x i 2 0 false := by
      rw [around_exact hin.valid hin.pos hin.inside (by norm_num) (cube_small (by norm_num)) hB1 hx i
        (by norm_num) le_rfl le_rfl]
      refine ⟨rfl, rfl, rfl, by simp, norm_nonneg' _, hn, p, rfl, ⟨0, 0, 0⟩,
        ⟨fun _ => rfl, fun _ => rfl, fun _ => rfl⟩, ?_⟩
      ext <;> simp [lattice, comb]
    have h0 : ∀ bd ∈ around g1 x i 2 0 false, bd.p = 0 := by
      intro bd hbd
      rw [around_exact hin.valid hin.pos hin.inside (by norm_num) (cube_small (by norm_num)) hB1 hx i
        (by norm_num) le_rfl le_rfl] at hbd
      obtain ⟨-, -, -, -, -, -, p', hp', -⟩ := hbd
      have := (List.getElem?_eq_some_iff.mp hp').1
      simpa using this
    obtain ⟨bd, hbd⟩ := single_of_nodup (around_nodup hin.valid hin.inside (cube_small (by norm_num))
      hB1 hx i (by norm_num) le_rfl le_rfl false) h0 (fun e => by rw [e] at hbond; cases hbond)
    refine ⟨bd, hbd, ?_⟩
    have hm : bd ∈ around g1 x i 2 0 false := by rw [hbd]; simp
    rw [around_exact hin.valid hin.pos hin.inside (by norm_num) (cube_small (by norm_num)) hB1 hx i
        (by norm_num) le_rfl le_rfl] at hm
    exact hm.1
  obtain ⟨bd0, hb0, hq0⟩ := hex p 0 hpin (by
    have : Vec3.norm (p - p) = 0 := by simp [Vec3.norm, Vec3.dot]
    rw [this]; norm_num)
  obtain ⟨bd1, hb1, hq1⟩ := hex q 1 hqin (by
    rw [norm_lt_iff _ _ (by norm_num)]
    simp only [hp, hq, Vec3.dot, Vec3.sub_x, Vec3.sub_y, Vec3.sub_z]
    norm_num)
  -- the second grid
  have hnil : around g2 q 1 2 0 false = [] := by
    rw [List.eq_nil_iff_forall_not_mem]
    intro bd hbd
    rw [mem_around hB2] at hbd
    obtain ⟨-, ⟨c, t⟩, hm, ⟨hx, -⟩, -⟩ := hbd
    obtain ⟨-, i, p', n, hp', hn, htp, -⟩ := (mem_mapping b [p] 1 c t).mp hm
    have hpp : p' = p := by
      have := List.mem_of_getElem? hp'
      simpa using this
    subst hpp
    have hnx : n.x = 0 := by
      have := hn.x
      rw [cube_frac, cube_plane] at this
      simp only [hp, ghostStep] at this
      rw [if_neg (by norm_num), if_neg (by norm_num)] at this
      simpa using this
    have htx : t.p.x = 21 / 10 := by
      rw [htp, cube_lattice]; simp [hp, hnx]
    simp only [Grid.xyz, cellXYZ, hB2.inv, hB2.minPos, hbdef, cube_gridMin, htx, hq] at hx
    have f1 : ⌊((21 : ℝ) / 10 - (-5 - 1)) * (1 / 1)⌋ = 8 := by rw [Int.floor_eq_iff]; norm_num
    have f2 : ⌊((9 : ℝ) / 10 - (-5 - 1)) * (1 / 1)⌋ = 6 := by rw [Int.floor_eq_iff]; norm_num
    rw [f1, f2] at hx
    norm_num at hx
  -- the loop
  have hit := yields_new g1 p 0 2 0 false (built_rows hB1)
  rw [hb0] at hit
  rcases yields_next hit with ⟨hn, -⟩ | ⟨bd, l', hl, hnext, hnf, hy⟩
  · cases hn
  · obtain ⟨rfl, rfl⟩ := List.cons.inj hl
    have hr1' : r1.next g1 = (some bd0, ⟨[p, q], 2, 0, false, 0,
        ((Iter.new g1 p 0 2 0 false).next g1).2, false⟩) := by
      rw [hr1]
      simp only [Result.next, Bool.false_eq_true, if_false, List.getD_cons_zero, hnext]
    have hy1 : Result.Yields g1 ⟨[p, q], 2, 0, false, 0, ((Iter.new g1 p 0 2 0 false).next g1).2, false⟩
        [bd1] := by
      refine Or.inr ⟨rfl, [], hy, by simp, ?_⟩
      simp [hb1]
    obtain ⟨f, hf⟩ := result_collect (built_rows hB1) hy1
    refine ⟨_, o1, o2, r1, _, r2, g1, g2, bd0, bd1, f, 1, hnew, hin, h1, by rw [ho1], hr1', hq1, hf, h2,
      by rw [ho2], ?_⟩
    have hn2 := yields_nil hy g2
    rw [Result.collect]
    have hnone : (Result.next g2 ⟨[p, q], 2, 0, false, 0, ((Iter.new g1 p 0 2 0 false).next g1).2,
        false⟩).1 = none := by
      simp only [Result.next, Bool.false_eq_true, if_false, hn2]
      rcases advance_yields g2 (built_rows hB2) 2 ⟨[p, q], 2, 0, false, 0,
        (((Iter.new g1 p 0 2 0 false).next g1).2.next g2).2, false⟩ (by simp) rfl (by simp) []
        (by simp [hnil]) with ⟨-, h, -⟩ | ⟨b', l', h, -⟩
      · exact h
      · cases h
    rw [hnone]

-- a bond through the face of a fully periodic cube, in a query with two query points
example : ∃ (o o' : CellQuery) (r : Result) (g : Grid) (fuel : ℕ) (bonds : List (Bond ℝ)) (bd : Bond ℝ),
    CellQuery.new (Box.mk' 10 10 10 0 0 0 false) [⟨-49 / 10, 0, 0⟩, ⟨0, 1, 2⟩] = some o ∧
    o.query [⟨3, 0, 0⟩, ⟨49 / 10, 0, 0⟩] 1 0 false = some (o', r) ∧ o'.grid = some g ∧
    r.collect g fuel = some bonds ∧ bd ∈ bonds ∧ bd.q = 1 ∧ bd.p = 0 ∧ bd.vec = ⟨1 / 5, 0, 0⟩ := by
  have hin : InBox (Box.mk' 10 10 10 0 0 0 false) [⟨-49 / 10, 0, 0⟩, ⟨0, 1, 2⟩] := by
    refine ⟨cube_valid, cube_positive, ?_⟩
    intro p hp
    simp only [List.mem_cons, List.not_mem_nil, or_false] at hp
    rcases hp with rfl | rfl <;> apply cube_inCell <;> norm_num [abs_le]
  obtain ⟨⟨o', r⟩, h⟩ := (C27_raises_iff ⟨Box.mk' 10 10 10 0 0 0 false,
    [⟨-49 / 10, 0, 0⟩, ⟨0, 1, 2⟩], none⟩ hin (by simp)
    [⟨3, 0, 0⟩, ⟨49 / 10, 0, 0⟩] 1 0 false).mpr
    ⟨by norm_num, by norm_num, by
      simp only [allPeriodic_eq (b := Box.mk' 10 10 10 0 0 0 false) ⟨rfl, rfl, rfl⟩]
      exact cube_half (by norm_num)⟩
  obtain ⟨g, fuel, bonds, h1, h2, h3, -⟩ := C27_ball_brute_force _ o' hin ⟨rfl, rfl, rfl⟩
    [⟨3, 0, 0⟩, ⟨49 / 10, 0, 0⟩] (by simp) (by
      intro p hp
      simp only [List.mem_cons, List.not_mem_nil, or_false] at hp
      rcases hp with rfl | rfl <;> apply cube_inCell <;> norm_num [abs_le])
    1 0 le_rfl false r h
  refine ⟨⟨Box.mk' 10 10 10 0 0 0 false, [⟨-49 / 10, 0, 0⟩, ⟨0, 1, 2⟩], none⟩, o', r, g, fuel, bonds, ⟨1, 0, Vec3.norm ⟨1 / 5, 0, 0⟩, 1, ⟨1 / 5, 0, 0⟩⟩, ?_, h, h1, h2,
    (h3 _).mpr ⟨⟨49 / 10, 0, 0⟩, rfl, rfl, rfl, rfl, by simp, norm_nonneg' _, ?_,
      ⟨-49 / 10, 0, 0⟩, rfl, ⟨1, 0, 0⟩, ⟨by simp [Box.mk', Box.setL], by simp, by simp⟩, ?_⟩, rfl, rfl, rfl⟩
  · unfold CellQuery.new
    rw [if_neg (by simp), if_neg (by simp [Box.mk', Box.setL])]
  · rw [norm_lt_iff _ _ (by norm_num)]; norm_num [Vec3.dot]
  · rw [cube_lattice]
    ext <;> simp <;> norm_num

/-! ### Boxes that are not periodic -/

/-- **C27 fails for boxes that are not fully periodic**: in a cube that is not periodic along x, two
points at opposite faces are not neighbors, but the query succeeds and returns the bond through the
faces. -/
theorem C27_aperiodic_counterexample :
    ∃ (o o' : CellQuery) (r : Result) (g : Grid) (fuel : ℕ) (bonds : List (Bond ℝ)) (bd : Bond ℝ),
      CellQuery.new { (Box.mk' 10 10 10 0 0 0 false : Box ℝ) with px := false } [⟨-49 / 10, 0, 0⟩] =
        some o ∧ InBox o.box o.pts ∧
      o.query [⟨49 / 10, 0, 0⟩] 1 0 false = some (o', r) ∧ o'.grid = some g ∧
      r.collect g fuel = some bonds ∧ bd ∈ bonds ∧
      ¬ IsQueryBond o.box o.pts [⟨49 / 10, 0, 0⟩] 1 0 false bd := by
  set b : Box ℝ := { (Box.mk' 10 10 10 0 0 0 false : Box ℝ) with px := false } with hb
  have hall : allPeriodic b = Box.mk' 10 10 10 0 0 0 false := rfl
  have hpin : ∀ x : ℝ, |x| ≤ 5 → InCell b ⟨x, 0, 0⟩ := fun x hx =>
    cube_inCell (v := ⟨x, 0, 0⟩) hx (by simp) (by simp)
  have hin : InBox b [⟨-49 / 10, 0, 0⟩] := by
    refine ⟨⟨cube_valid.1, cube_valid.2, cube_valid.3, cube_valid.4, cube_valid.5⟩, cube_positive, ?_⟩
    intro p hp
    rw [List.mem_singleton] at hp
    subst hp
    exact hpin _ (by norm_num [abs_le])
  have hnew : CellQuery.new b [⟨-49 / 10, 0, 0⟩] = some ⟨b, [⟨-49 / 10, 0, 0⟩], none⟩ := by
    unfold CellQuery.new
    rw [if_neg (by simp), if_neg (by simp)]
  obtain ⟨⟨o', r⟩, h⟩ := (C27_raises_iff ⟨b, [⟨-49 / 10, 0, 0⟩], none⟩ hin (by simp)
    [⟨49 / 10, 0, 0⟩] 1 0 false).mpr
    ⟨by norm_num, by norm_num, by simp only [hall]; exact cube_half (by norm_num)⟩
  obtain ⟨g, fuel, bonds, h1, h2, h3, -⟩ := C27_ball_exact _ o' hin [⟨49 / 10, 0, 0⟩] (by simp)
    (by intro q hq; rw [List.mem_singleton] at hq; subst hq; exact hpin _ (by norm_num [abs_le]))
    1 0 le_rfl false r h
  refine ⟨_, o', r, g, fuel, bonds, ⟨0, 0, Vec3.norm ⟨1 / 5, 0, 0⟩, 1, ⟨1 / 5, 0, 0⟩⟩, hnew, hin, h, h1, h2,
    (h3 _).mpr ⟨⟨49 / 10, 0, 0⟩, rfl, rfl, rfl, rfl, by simp, norm_nonneg' _, ?_,
      ⟨-49 / 10, 0, 0⟩, rfl, ⟨1, 0, 0⟩, ?_, ?_⟩, ?_⟩
  · rw [norm_lt_iff _ _ (by norm_num)]; norm_num [Vec3.dot]
  · exact allowed_all (by simp)
  · simp only [hall, cube_lattice]
    ext <;> simp <;> norm_num
  · rintro ⟨q, hq, -, -, -, -, -, -, p, hp, n, hn, hv⟩
    simp only [List.getElem?_cons_zero, Option.some.injEq] at hq hp
    subst hq hp
    have hnx : n.x = 0 := hn.1 rfl
    have hx := congrArg Vec3.x hv
    have hl : lattice b n = lattice (Box.mk' 10 10 10 0 0 0 false : Box ℝ) n := rfl
    simp only [hl, cube_lattice, hnx, Vec3.add_x, Vec3.sub_x] at hx
    norm_num at hx

end Freud
