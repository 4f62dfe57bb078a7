import Verif.Model.SourcesNearest
import Verif.Lemmas.NearestCopies
import Verif.Props.Sources
import Verif.Props.LinkCellNear
import Verif.Props.QueryArgs
import Verif.Props.Cells
import Verif.Props.Scaling

/-!
# Property C124: nearest-neighbor queries do not depend on the engine and the description of the system
-/

set_option linter.unusedSectionVars false

namespace Freud

/-- The arguments ask for the `k` nearest neighbors not nearer than `rMin`; `r_max` and `r_guess` are not given,
and `scale` is not given or at most 2. -/
structure Spec.AsksFor (p : PyArgs) (k : ℕ) (rMin : ℝ) (excl : Bool) : Prop where
  number : p.numNeighbors = some k
  rMin : p.rMin.getD 0 = rMin
  excl : p.excludeII.getD false = excl
  rMax : p.rMax = none
  rGuess : p.rGuess = none
  scale : ∀ s, p.scale = some s → s ≤ 2

/-- The points with a periodic image whose distance from the query point is in `[rMin, r)`. -/
def Spec.pointsWithin (b : Box ℝ) (pts : List (Vec3 ℝ)) (q : Vec3 ℝ) (qi : ℕ) (r rMin : ℝ) (excl : Bool) : Set ℕ :=
  {j | (excl = true → j ≠ qi) ∧ ∃ p w, pts[j]? = some p ∧ Spec.IsImage b (p - q) w ∧ rMin ≤ Vec3.norm w ∧
    Vec3.norm w < r}

/-- For each query point `i`, exactly `k` points are nearer than `R i`, which is below half of the distance of
opposite faces. -/
def Spec.ClearShell (b : Box ℝ) (pts qpts : List (Vec3 ℝ)) (k : ℕ) (rMin : ℝ) (excl : Bool) (R : ℕ → ℝ) : Prop :=
  ∀ i q, qpts[i]? = some q → Spec.BelowHalf b (R i) ∧
    (Spec.pointsWithin b pts q i (R i) rMin excl).ncard = k

/-- A way to pass the neighbors to a compute class: query arguments for nearest neighbors, or a list made from
such a query; with any kind of system and any schedule. -/
def Spec.IsNearSource (b : Box ℝ) (pts qpts : List (Vec3 ℝ)) (p : PyArgs) (src : Source) : Prop :=
  ∃ s found, MadeFrom s b pts ∧ s.FindsNear qpts p found ∧
    (src = .query found qpts.length ∨
      ∃ d ev nl, IsExecution qpts.length ev ∧ ToNeighborList found qpts.length pts.length d ev nl ∧ src = .list nl)

open Spec Bond

namespace NearestShell

theorem belowHalf_minPlane {b : Box ℝ} {r : ℝ} (hper : FullyPeriodic b) (h : BelowHalf b r) :
    r < minPlane b / 2 := by
  obtain ⟨h1, h2, h3⟩ := h
  have h1 := h1 hper.1
  have h2 := h2 hper.2.1
  have h3 := h3 hper.2.2
  unfold minPlane
  simp only
  split_ifs with hd
  · rcases min_choice b.getNearestPlaneDistance.x b.getNearestPlaneDistance.y with e | e <;> rw [e] <;> linarith
  · have h3 := h3 (by simpa using hd)
    rcases min_choice (min b.getNearestPlaneDistance.x b.getNearestPlaneDistance.y) b.getNearestPlaneDistance.z with
      e | e <;> rw [e]
    · rcases min_choice b.getNearestPlaneDistance.x b.getNearestPlaneDistance.y with e | e <;> rw [e] <;> linarith
    · linarith

theorem minPlane_le_maxPlane (b : Box ℝ) : minPlane b ≤ maxPlane b := by
  unfold minPlane maxPlane
  simp only
  split_ifs
  · exact (min_le_left _ _).trans (le_max_left _ _)
  · exact ((min_le_left _ _).trans (min_le_left _ _)).trans ((le_max_left _ _).trans (le_max_left _ _))

theorem within_finite (b : Box ℝ) (pts : List (Vec3 ℝ)) (q : Vec3 ℝ) (qi : ℕ) (r rMin : ℝ) (excl : Bool) :
    (pointsWithin b pts q qi r rMin excl).Finite := by
  refine (Finset.range pts.length).finite_toSet.subset ?_
  rintro j ⟨-, p, w, hp, -⟩
  simpa using (List.getElem?_eq_some_iff.mp hp).1

/-- Counting: `k` points that are nearer than `r`, at most `k` answers. -/
theorem core {out : List (Bond ℝ)} {C : Set ℕ} {k : ℕ} {r : ℝ} (hfin : C.Finite) (hC : C.ncard = k)
    (hlen : out.length ≤ k) (hnd : (out.map Bond.p).Nodup) (h1 : out.length < k → ∀ j ∈ C, j ∈ out.map Bond.p)
    (h2 : ∀ j ∈ C, j ∉ out.map Bond.p → ∀ bd ∈ out, bd.dist < r) (h4 : ∀ bd ∈ out, bd.dist < r → bd.p ∈ C) (j : ℕ) :
    j ∈ C ↔ j ∈ out.map Bond.p := by
  classical
  set P : Finset ℕ := (out.map Bond.p).toFinset with hP
  have hPc : P.card = out.length := by rw [hP, List.toFinset_card_of_nodup hnd, List.length_map]
  have hPm : ∀ j, j ∈ P ↔ j ∈ out.map Bond.p := fun j => by rw [hP, List.mem_toFinset]
  set F : Finset ℕ := hfin.toFinset with hF
  have hFm : ∀ j, j ∈ F ↔ j ∈ C := fun j => by rw [hF, Set.Finite.mem_toFinset]
  have hFc : F.card = k := by rw [hF, ← hC, Set.ncard_eq_toFinset_card _ hfin]
  have e : P = F := by
    by_cases hsub : F ⊆ P
    · exact (Finset.eq_of_subset_of_card_le hsub (by omega)).symm
    · obtain ⟨i, hi, hi'⟩ := Finset.not_subset.mp hsub
      have hlen' : out.length = k := by
        by_contra hne
        exact hi' ((hPm i).mpr (h1 (by omega) i ((hFm i).mp hi)))
      have hsub' : P ⊆ F := by
        intro x hx
        obtain ⟨bd, hbd, rfl⟩ := List.mem_map.mp ((hPm x).mp hx)
        exact (hFm _).mpr (h4 bd hbd (h2 i ((hFm i).mp hi) (fun h => hi' ((hPm i).mpr h)) bd hbd))
      exact Finset.eq_of_subset_of_card_le hsub' (by omega)
  rw [← hFm, ← hPm, e]

theorem tree_nearest {raw : Bool} {b : Box ℝ} {pts : List (Vec3 ℝ)} {aq : AABBQuery}
    (haq : AABBQuery.new b pts = some aq) {p : PyArgs} {k : ℕ} {rMin : ℝ} {excl : Bool}
    (hp : AsksFor p k rMin excl) {q : Vec3 ℝ} {i : ℕ} {out : List (Bond ℝ)} (h : aq.Query raw p q i out) :
    ∃ rGuess scale, rGuess ≤ minPlane b / 2 ∧ scale ≤ 2 ∧ aq.Nearest q i k ⊤ rMin rGuess scale excl out := by
  obtain ⟨-, a, a', ha, ha', hq⟩ := h
  rw [new_box haq] at ha'
  obtain ⟨t1, t2, t3, t4, t5, t6, t7, t8⟩ := toArgs_some ha
  obtain ⟨v1, v2, v3, v4, v5⟩ := validateAABB_some ha'
  rw [hp.rMax] at t4
  rw [hp.rGuess] at t6
  rcases v5 with ⟨-, e, -⟩ | ⟨e0, -, e1, -, e2, -, -, e3⟩
  · exact absurd t4 e
  · rw [e0] at hq
    simp only at hq
    rw [v2, t3, hp.number, e1, t4, v3, t5, hp.rMin, v4, t8, hp.excl] at hq
    refine ⟨_, _, e3 t6, ?_, by simpa using hq⟩
    rw [e2]
    split_ifs with c
    · norm_num
    · rw [t7] at c ⊢
      cases hs : p.scale with
      | none => rw [hs] at c; exact absurd rfl c
      | some s => exact hp.scale s hs

theorem link_nearest {p : PyArgs} {k : ℕ} {rMin : ℝ} {excl : Bool} (hp : AsksFor p k rMin excl) {a a' : QueryArgs}
    (ha : p.toArgs = some a) (ha' : validateQueryArgs a = some a') (hm : a'.mode = .nearest) :
    a'.numNeighbors = k ∧ a'.rMax = ⊤ ∧ a'.rMin = rMin ∧ a'.excludeII = excl := by
  obtain ⟨t1, t2, t3, t4, t5, t6, t7, t8⟩ := toArgs_some ha
  obtain ⟨i1, i2, i3, i4, i5, i6⟩ := inferMode_fields a
  rw [hp.rMax] at t4
  rw [hp.number] at t3
  unfold validateQueryArgs at ha'
  simp only at ha'
  cases hmd : (inferMode a).mode with
  | none => rw [hmd] at ha'; simp at ha'
  | ball =>
    rw [hmd] at ha'
    simp only [i1, i2] at ha'
    rw [if_pos (show a.rMax = DEFAULT_R_MAX from t4)] at ha'
    cases ha'
  | nearest =>
    rw [hmd] at ha'
    simp only [i1, i2] at ha'
    split_ifs at ha' with c1 c2
    · cases ha'
      exact ⟨t3, rfl, i3.trans (t5.trans hp.rMin), i4.trans (t8.trans hp.excl)⟩
    · exact absurd t4 c2

theorem cell_not_nearest {b : Box ℝ} {a a' : QueryArgs} (ha' : validateCellQuery b a = some a')
    (hmode : a'.mode = .nearest) : False := by
  unfold validateCellQuery at ha'
  obtain ⟨a1, h1, h2⟩ := Option.bind_eq_some_iff.mp ha'
  by_cases c1 : a1.mode = .nearest
  · rw [if_pos c1] at h2; cases h2
  · rw [if_neg c1] at h2
    simp only at h2
    split_ifs at h2
    cases h2
    exact c1 hmode

end NearestShell

open NearestShell

/-- **C124**: if exactly `k` points are nearer than some radius `r`, which is below half of the distance of
opposite faces, then a query for the `k` nearest neighbors finds, in every engine that has such queries and for
every cell width, exactly the bonds of a ball query with the radius `r`, each once, the shortest first. The box
may be tilted in any way. -/
theorem C124_ball (s : System) (b : Box ℝ) (pts qpts : List (Vec3 ℝ)) (hm : MadeFrom s b pts)
    (hs : PeriodicSystem b pts qpts) (p : PyArgs) (k : ℕ) (rMin : ℝ) (hmin : 0 ≤ rMin) (excl : Bool)
    (hp : AsksFor p k rMin excl) (i : ℕ) (q : Vec3 ℝ) (hq : qpts[i]? = some q)
    (r : ℝ) (hhalf : BelowHalf b r) (hk : (pointsWithin b pts q i r rMin excl).ncard = k) (out : List (Bond ℝ))
    (h : s.NearQuery p i q out) :
    (∀ bd, bd ∈ out ↔ IsBallBond b pts q i r rMin excl bd) ∧ (out.map Bond.p).Nodup ∧
      (out.map Bond.dist).Pairwise (· ≤ ·) := by
  have hqc : InCell b q := hs.query q (List.mem_of_getElem? hq)
  have hv := hs.inBox.valid
  have hlt := belowHalf_minPlane hs.periodic hhalf
  have hpl : ∀ j x, pts[j]? = some x → Planar b (x - q) := fun j x hx => planar_sub
    (inCell_planar hv (hs.inBox.inside x (List.mem_of_getElem? hx))) (inCell_planar hv hqc)
  have hfin := within_finite b pts q i r rMin excl
  have huniq : ∀ j x w w', pts[j]? = some x → IsImage b (x - q) w → IsImage b (x - q) w' → Vec3.norm w < r →
      Vec3.norm w' < r → w = w' := fun j x w w' hx h1 h2 h3 h4 =>
    ((wrap_of_short hv hhalf (hpl j x hx) h1 h3).1).symm.trans (wrap_of_short hv hhalf (hpl j x hx) h2 h4).1
  -- from the points to the bonds
  have fin : (∀ j, j ∈ pointsWithin b pts q i r rMin excl ↔ j ∈ out.map Bond.p) →
      (∀ bd ∈ out, bd.p ∈ pointsWithin b pts q i r rMin excl → IsBallBond b pts q i r rMin excl bd) →
      ∀ bd, bd ∈ out ↔ IsBallBond b pts q i r rMin excl bd := by
    intro g1 g2 bd
    constructor
    · intro hbd
      exact g2 bd hbd ((g1 _).mpr (List.mem_map_of_mem hbd))
    · intro hb
      obtain ⟨c1, c2, c3, c4, c5, c6, x, hx, him⟩ := hb
      obtain ⟨bd', hbd', e⟩ := List.mem_map.mp ((g1 bd.p).mp ⟨c4, x, bd.vec, hx, him, c5, c6⟩)
      obtain ⟨d1, d2, d3, d4, d5, d6, x', hx', him'⟩ := g2 bd' hbd' ((g1 _).mpr (List.mem_map_of_mem hbd'))
      rw [e, hx] at hx'
      obtain rfl := Option.some.inj hx'
      have ev := huniq _ _ _ _ hx him him' c6 d6
      have : bd = bd' := by
        cases bd; cases bd'
        simp only at *
        subst c1 d1 c2 d2 e ev
        rw [c3, d3]
      rw [this]; exact hbd'
  -- the tree engines
  have tree : ∀ (raw : Bool) (aq : AABBQuery), AABBQuery.new b pts = some aq → aq.Query raw p q i out →
      (∀ bd, bd ∈ out ↔ IsBallBond b pts q i r rMin excl bd) ∧ (out.map Bond.p).Nodup ∧
        (out.map Bond.dist).Pairwise (· ≤ ·) := by
    intro raw aq haq hqu
    obtain ⟨rGuess, scale, g1, g2, g3⟩ := tree_nearest haq hp hqu
    obtain ⟨hK, hfew⟩ := nearest_copies b hv pts aq haq hs.inBox.inside q hqc i k ⊤ rMin rGuess scale g1 excl
      out g3
    have hcand : ∀ j ∈ pointsWithin b pts q i r rMin excl, ∃ d, CandidateC b pts q i rMin excl j d ∧ d < r := by
      rintro j ⟨hx, x, w, hxj, him, h1, h2⟩
      exact ⟨_, ⟨x, w, hxj, hx, closest_of_short hv hhalf (hs.inBox.inside x (List.mem_of_getElem? hxj)) hqc him h2,
        rfl, h1⟩, h2⟩
    have hshort : ∀ bd ∈ out, bd.dist < r → IsBallBond b pts q i r rMin excl bd := by
      intro bd hbd hd
      obtain ⟨c1, c2, c3, -, ⟨x, w, hx, hex, hn, e, hm⟩, x', hx', hn'⟩ := hK.bonds bd hbd
      obtain ⟨n, hn, e⟩ := hn'.1
      exact ⟨c1, c2, c3, hex, by rw [← c3]; exact hm, by rw [← c3]; exact hd, x', hx', n, hn.1, e⟩
    refine ⟨fin (core (r := r) hfin hk hK.length_le hK.nodup ?_ ?_ ?_) ?_, hK.nodup, hK.sorted⟩
    · intro hl j hj
      obtain ⟨d, hc, hd⟩ := hcand j hj
      obtain ⟨rl, -, h2, h3⟩ := hfew hl
      refine h3 j d hc ?_ (WithTop.coe_lt_top _)
      rcases h2 with h2 | h2
      · exact absurd (top_le_iff.mp h2) (WithTop.coe_ne_top)
      · have e1 := minPlane_le_maxPlane b
        have hd0 : 0 ≤ d := by
          obtain ⟨x, w, -, -, -, rfl, -⟩ := hc
          exact Real.sqrt_nonneg _
        by_contra hle
        have hsc : 0 ≤ scale := by
          by_contra hneg
          have hrl : rl ≤ d := not_lt.mp hle
          obtain ⟨-, -, -, cur, sorted, hcur, -⟩ := g3
          have := (search_pos hcur).2
          simp only at this
          linarith
        nlinarith [mul_le_mul_of_nonneg_right (not_lt.mp hle) hsc]
    · intro j hj hjn bd hbd
      obtain ⟨d, hc, hd⟩ := hcand j hj
      exact lt_of_le_of_lt (hK.nearest j d hc hjn bd hbd) hd
    · intro bd hbd hd
      obtain ⟨-, -, -, c4, c5, c6, x, hx, him⟩ := hshort bd hbd hd
      exact ⟨c4, x, _, hx, him, c5, c6⟩
    · intro bd hbd hin
      refine hshort bd hbd ?_
      obtain ⟨d, ⟨x, w, hx, -, hn, rfl, -⟩, hd⟩ := hcand _ hin
      obtain ⟨-, -, c3, -, -, x', hx', hn'⟩ := hK.bonds bd hbd
      rw [hx] at hx'
      obtain rfl := Option.some.inj hx'
      rw [c3, closest_norm hn' hn]
      exact hd
  cases s with
  | raw aq => exact tree true aq hm h
  | aabb aq => exact tree false aq hm h
  | linkCell lc =>
    obtain ⟨cw, hc, hlc⟩ := hm
    obtain ⟨a, a', ha, ha', hmode, hn⟩ := h
    obtain ⟨e1, e2, e3, e4⟩ := link_nearest hp ha ha' hmode
    rw [e1, e2, e3, e4] at hn
    have hK := LinkCell.C26_nearest_partial b hv hs.inBox.pos pts cw hc lc hlc hs.inBox.inside q hqc i k ⊤ rMin hmin
      excl out hn
    have hel : ∀ j ∈ pointsWithin b pts q i r rMin excl, ∃ d, Eligible b pts q i ⊤ rMin excl j d ∧ d < r := by
      rintro j ⟨hx, x, w, hxj, him, h1, h2⟩
      have ew := (wrap_of_short hv hhalf (hpl j x hxj) him h2).1
      refine ⟨Vec3.norm w, ⟨x, hxj, hx, ?_, h1, WithTop.coe_lt_top _⟩, h2⟩
      rw [LinkCell.computeDistance_eq, ew]
    have hshort : ∀ bd ∈ out, bd.dist < r → IsBallBond b pts q i r rMin excl bd := by
      intro bd hbd hd
      obtain ⟨c1, c2, ⟨x, hx, hex, ed, hm, -⟩, x', hx', ev⟩ := hK.bonds bd hbd
      rw [hx] at hx'
      obtain rfl := Option.some.inj hx'
      rw [LinkCell.computeDistance_eq, ← ev] at ed
      exact ⟨c1, c2, ed, hex, by rw [← ed]; exact hm, by rw [← ed]; exact hd, x, hx, by
        rw [ev]; exact ⟨_, wrapShift_allowed b _, wrap_eq_add_lattice hv _ (hpl _ _ hx)⟩⟩
    refine ⟨fin (core (r := r) hfin hk hK.length_le hK.nodup ?_ ?_ ?_) ?_, hK.nodup, hK.sorted⟩
    · intro hl j hj
      obtain ⟨d, h1, h2⟩ := hel j hj
      rcases hK.nearest j d h1 (WithTop.coe_le_coe.mpr (h2.le.trans hlt.le)) with h3 | h3
      · exact h3
      · omega
    · intro j hj hjn bd hbd
      obtain ⟨d, h1, h2⟩ := hel j hj
      rcases hK.nearest j d h1 (WithTop.coe_le_coe.mpr (h2.le.trans hlt.le)) with h3 | h3
      · exact absurd h3 hjn
      · exact lt_of_le_of_lt (h3.2 bd hbd) h2
    · intro bd hbd hd
      obtain ⟨-, -, -, c4, c5, c6, x, hx, him⟩ := hshort bd hbd hd
      exact ⟨c4, x, _, hx, him, c5, c6⟩
    · intro bd hbd hin
      refine hshort bd hbd ?_
      obtain ⟨d, ⟨x, hx, -, ed, -⟩, hd⟩ := hel _ hin
      obtain ⟨-, -, ⟨x', hx', -, ed', -⟩, -⟩ := hK.bonds bd hbd
      rw [hx] at hx'
      obtain rfl := Option.some.inj hx'
      rw [ed', ← ed]
      exact hd
  | cell o =>
    exfalso
    obtain ⟨a, a', ha, ha', hmode⟩ := h
    exact cell_not_nearest ha' hmode

/-- The bonds of the shells: for each query point `i` the points nearer than `R i`. -/
def Spec.IsShellBond (b : Box ℝ) (pts qpts : List (Vec3 ℝ)) (R : ℕ → ℝ) (rMin : ℝ) (excl : Bool) (bd : Bond ℝ) :
    Prop :=
  ∃ q, qpts[bd.q]? = some q ∧ IsBallBond b pts q bd.q (R bd.q) rMin excl bd

namespace NearestShell

theorem found_all {b : Box ℝ} {pts qpts : List (Vec3 ℝ)} {R : ℕ → ℝ} {rMin : ℝ} {excl : Bool}
    {found : ℕ → List (Bond ℝ)} (h : ∀ i q, qpts[i]? = some q →
      (∀ bd, bd ∈ found i ↔ IsBallBond b pts q i (R i) rMin excl bd) ∧ ((found i).map Bond.p).Nodup) :
    (∀ bd, bd ∈ (List.range qpts.length).flatMap found ↔ IsShellBond b pts qpts R rMin excl bd) ∧
    (((List.range qpts.length).flatMap found).map fun bd => (bd.q, bd.p)).Nodup := by
  have hget : ∀ i, i < qpts.length → ∃ q, qpts[i]? = some q := fun i hi => ⟨_, List.getElem?_eq_getElem hi⟩
  refine ⟨fun bd => ?_, ?_⟩
  · rw [List.mem_flatMap]
    constructor
    · rintro ⟨i, hi, hbd⟩
      obtain ⟨q, hq⟩ := hget i (List.mem_range.mp hi)
      have := ((h i q hq).1 bd).mp hbd
      obtain rfl : bd.q = i := this.1
      exact ⟨q, hq, this⟩
    · rintro ⟨q, hq, hbd⟩
      exact ⟨bd.q, List.mem_range.mpr (List.getElem?_eq_some_iff.mp hq).1, ((h _ q hq).1 bd).mpr hbd⟩
  · rw [List.map_flatMap, List.nodup_flatMap]
    refine ⟨fun i hi => ?_, List.nodup_range.imp_of_mem ?_⟩
    · obtain ⟨q, hq⟩ := hget i (List.mem_range.mp hi)
      have := (h i q hq).2
      rw [List.Nodup, List.pairwise_map] at this ⊢
      exact this.imp fun hne e => hne (Prod.mk.inj e).2
    · intro i j hi hj hij
      obtain ⟨q, hq⟩ := hget i (List.mem_range.mp hi)
      obtain ⟨q', hq'⟩ := hget j (List.mem_range.mp hj)
      rw [Function.onFun, List.disjoint_left]
      intro x h1 h2
      obtain ⟨b1, hb1, rfl⟩ := List.mem_map.mp h1
      obtain ⟨b2, hb2, e⟩ := List.mem_map.mp h2
      have e1 := (((h i q hq).1 b1).mp hb1).1
      have e2 := (((h j q' hq').1 b2).mp hb2).1
      exact hij (e1.symm.trans ((Prod.mk.inj e).1.symm.trans e2))

theorem shell_stored {b : Box ℝ} {pts qpts : List (Vec3 ℝ)} {R : ℕ → ℝ} {rMin : ℝ} {excl : Bool} {bd : Bond ℝ}
    (h : IsShellBond b pts qpts R rMin excl bd) : stored bd = bd := by
  obtain ⟨q, h1, h2⟩ := h
  exact stored_self ⟨q, h1, h2⟩

theorem near_exact {s : System} {b : Box ℝ} {pts qpts : List (Vec3 ℝ)} (hm : MadeFrom s b pts)
    (hs : PeriodicSystem b pts qpts) {p : PyArgs} {k : ℕ} {rMin : ℝ} (hmin : 0 ≤ rMin) {excl : Bool}
    (hp : AsksFor p k rMin excl) {R : ℕ → ℝ} (hR : ClearShell b pts qpts k rMin excl R)
    {found : ℕ → List (Bond ℝ)} (h : s.FindsNear qpts p found) (i : ℕ) (q : Vec3 ℝ) (hq : qpts[i]? = some q) :
    (∀ bd, bd ∈ found i ↔ IsBallBond b pts q i (R i) rMin excl bd) ∧ ((found i).map Bond.p).Nodup := by
  obtain ⟨h1, h3⟩ := hR i q hq
  obtain ⟨a, c, -⟩ := C124_ball s b pts qpts hm hs p k rMin hmin excl hp i q hq _ h1 h3 _ (h i q hq)
  exact ⟨a, c⟩

/-- Lists with the same bonds, each once, are sorted into the same neighbor list. -/
theorem same_list {found found' : ℕ → List (Bond ℝ)} {nq np : ℕ}
    (n : (((List.range nq).flatMap found).map fun bd => (bd.q, bd.p)).Nodup)
    (hp : ((List.range nq).flatMap found).Perm ((List.range nq).flatMap found')) {d : Bool} {ev ev' : List (ℕ × ℕ)}
    (hev : IsExecution nq ev) (hev' : IsExecution nq ev') {nl nl' : NList ℝ} (hnl : ToNeighborList found nq np d ev nl)
    (hnl' : ToNeighborList found' nq np d ev' nl') : nl = nl' := by
  obtain ⟨p1, s1, -⟩ := C20_holds_found_bonds found _ _ d ev hev nl hnl
  obtain ⟨p2, s2, -⟩ := C20_holds_found_bonds found' _ _ d ev' hev' nl' hnl'
  have hk : KeysDetermine (((List.range nq).flatMap found).map stored) := by
    intro x hx y hy h1 h2 _ _
    obtain ⟨x', hx', rfl⟩ := List.mem_map.mp hx
    obtain ⟨y', hy', rfl⟩ := List.mem_map.mp hy
    have : x' = y' := List.inj_on_of_nodup_map n hx' hy' (by
      simp only [stored] at h1 h2
      rw [h1, h2])
    rw [this]
  have e : nl.bonds = nl'.bonds := C19_deterministic d _ _ _ _ (hp.map stored) ⟨p1, s1⟩ ⟨p2, s2⟩ hk
  obtain ⟨t, -, out, -, rfl⟩ := hnl
  obtain ⟨t', -, out', -, rfl⟩ := hnl'
  simp only at e
  rw [e]

end NearestShell

/-- **C124**: what a compute class is given, when neighbors are specified by their number: the bonds of the
shells, each once. -/
theorem C124_bonds (b : Box ℝ) (pts qpts : List (Vec3 ℝ)) (hs : PeriodicSystem b pts qpts) (p : PyArgs) (k : ℕ)
    (rMin : ℝ) (hmin : 0 ≤ rMin) (excl : Bool) (hp : AsksFor p k rMin excl) (R : ℕ → ℝ)
    (hR : ClearShell b pts qpts k rMin excl R) (src : Source) (h : IsNearSource b pts qpts p src) :
    (∀ i < src.iterations, ∃ l, src.bonds i = some l) ∧
    (∀ bd, bd ∈ bondsFrom src ↔ IsShellBond b pts qpts R rMin excl bd) ∧
    ((bondsFrom src).map fun bd => (bd.q, bd.p)).Nodup := by
  obtain ⟨s, found, hm, hf, rfl | ⟨d, ev, nl, hev, hnl, rfl⟩⟩ := h
  · have e : ∀ i, Source.bonds (.query found qpts.length) i = some (found i) := fun i => C85_for_loop (found i)
    refine ⟨fun i _ => ⟨_, e i⟩, ?_⟩
    unfold bondsFrom
    simp only [e, Option.getD_some, Source.iterations]
    exact found_all (near_exact hm hs hmin hp hR hf)
  · obtain ⟨p1, -⟩ := C20_holds_found_bonds found _ _ d ev hev nl hnl
    obtain ⟨m, n⟩ := found_all (near_exact hm hs hmin hp hR hf)
    refine ⟨fun i hi => by
      simp only [Source.iterations] at hi
      simp [Source.bonds, List.getElem?_eq_getElem hi], ?_⟩
    have e2 : ((List.range qpts.length).flatMap found).map stored = (List.range qpts.length).flatMap found := by
      conv_rhs => rw [← List.map_id ((List.range qpts.length).flatMap found)]
      exact List.map_congr_left fun bd hbd => shell_stored ((m bd).mp hbd)
    rw [e2] at p1
    rw [bondsFrom_list]
    exact ⟨fun bd => (p1.mem_iff).trans (m bd), (p1.map _).nodup_iff.mpr n⟩

/-- **C124**: the same bonds, with the same vectors and distances, from every engine, every cell width of a
`LinkCell`, and from query arguments or a list. -/
theorem C124_engines (b : Box ℝ) (pts qpts : List (Vec3 ℝ)) (hs : PeriodicSystem b pts qpts) (p p' : PyArgs) (k : ℕ)
    (rMin : ℝ) (hmin : 0 ≤ rMin) (excl : Bool) (hp : AsksFor p k rMin excl) (hp' : AsksFor p' k rMin excl)
    (R : ℕ → ℝ) (hR : ClearShell b pts qpts k rMin excl R) (src src' : Source) (h : IsNearSource b pts qpts p src)
    (h' : IsNearSource b pts qpts p' src') : (bondsFrom src).Perm (bondsFrom src') := by
  obtain ⟨-, m, n⟩ := C124_bonds b pts qpts hs p k rMin hmin excl hp R hR src h
  obtain ⟨-, m', n'⟩ := C124_bonds b pts qpts hs p' k rMin hmin excl hp' R hR src' h'
  exact (List.perm_ext_iff_of_nodup (n.of_map _) (n'.of_map _)).mpr fun bd => (m bd).trans (m' bd).symm

/-- **C124**: the neighbor list is the same for every engine, every thread schedule and every outcome of the
unstable sort. -/
theorem C124_same_neighbor_list (s s' : System) (b : Box ℝ) (pts qpts : List (Vec3 ℝ)) (hm : MadeFrom s b pts)
    (hm' : MadeFrom s' b pts) (hs : PeriodicSystem b pts qpts) (p p' : PyArgs) (k : ℕ) (rMin : ℝ) (hmin : 0 ≤ rMin)
    (excl : Bool) (hp : AsksFor p k rMin excl) (hp' : AsksFor p' k rMin excl) (R : ℕ → ℝ)
    (hR : ClearShell b pts qpts k rMin excl R) (found found' : ℕ → List (Bond ℝ)) (h : s.FindsNear qpts p found)
    (h' : s'.FindsNear qpts p' found') (d : Bool) (ev ev' : List (ℕ × ℕ)) (hev : IsExecution qpts.length ev)
    (hev' : IsExecution qpts.length ev') (nl nl' : NList ℝ) (hnl : ToNeighborList found qpts.length pts.length d ev nl)
    (hnl' : ToNeighborList found' qpts.length pts.length d ev' nl') : nl = nl' := by
  obtain ⟨m, n⟩ := found_all (near_exact hm hs hmin hp hR h)
  obtain ⟨m', n'⟩ := found_all (near_exact hm' hs hmin hp' hR h')
  exact same_list n ((List.perm_ext_iff_of_nodup (n.of_map _) (n'.of_map _)).mpr fun bd =>
    (m bd).trans (m' bd).symm) hev hev' hnl hnl'

/-- **C124**: if one radius separates the `k` nearest neighbors of all query points from the other points, the
list of the `k` nearest neighbors is the list of a ball query with that radius. -/
theorem C124_ball_list (b : Box ℝ) (pts qpts : List (Vec3 ℝ)) (hs : PeriodicSystem b pts qpts) (p : PyArgs) (k : ℕ)
    (rMin : ℝ) (hmin : 0 ≤ rMin) (excl : Bool) (hp : AsksFor p k rMin excl) (r : ℝ) (hr : rMin < r)
    (hhalf : BelowHalf b r) (hR : ClearShell b pts qpts k rMin excl fun _ => r) (nl : NList ℝ)
    (h : IsNearSource b pts qpts p (.list nl)) : IsSource b pts qpts r rMin excl (.list nl) := by
  obtain ⟨s, found, hm, hf, h | ⟨d, ev, nl, hev, hnl, e⟩⟩ := h
  · cases h
  cases e
  obtain ⟨found', hf'⟩ : ∃ found', s.Finds qpts r rMin excl found' := by
    by_cases hq : qpts = []
    · exact ⟨fun _ => [], fun i q h => by rw [hq] at h; simp at h⟩
    · exact (C85_accepted_iff s b pts qpts hm hs hq r rMin excl).mpr ⟨lt_of_le_of_lt hmin hr, hr, Or.inr hhalf⟩
  obtain ⟨nl', hnl'⟩ := C20_result_exists found' qpts.length pts.length d ev
  obtain ⟨m, n⟩ := found_all (near_exact hm hs hmin hp hR hf)
  obtain ⟨m', n'⟩ := C85_found_bonds s b pts qpts hm hs r rMin hmin hhalf excl found' hf'
  have e : nl = nl' := same_list n ((List.perm_ext_iff_of_nodup (n.of_map _) (n'.of_map _)).mpr fun bd =>
    (m bd).trans (m' bd).symm) hev hev hnl hnl'
  rw [e]
  exact ⟨s, found', hm, hf', Or.inr ⟨d, ev, nl', hev, hnl', rfl⟩⟩

/-- **C124**: the same for query arguments: the bonds of a ball query with that radius. -/
theorem C124_ball_bonds (b : Box ℝ) (pts qpts : List (Vec3 ℝ)) (hs : PeriodicSystem b pts qpts) (p : PyArgs) (k : ℕ)
    (rMin : ℝ) (hmin : 0 ≤ rMin) (excl : Bool) (hp : AsksFor p k rMin excl) (r : ℝ)
    (hhalf : BelowHalf b r) (hR : ClearShell b pts qpts k rMin excl fun _ => r) (src src' : Source)
    (h : IsNearSource b pts qpts p src) (h' : IsSource b pts qpts r rMin excl src') :
    (bondsFrom src).Perm (bondsFrom src') := by
  obtain ⟨-, m, n⟩ := C124_bonds b pts qpts hs p k rMin hmin excl hp _ hR src h
  obtain ⟨-, a, p', m', n'⟩ := source_perm hs hmin hhalf h'
  exact ((List.perm_ext_iff_of_nodup (n.of_map _) (n'.of_map _)).mpr fun bd => (m bd).trans (m' bd).symm).trans p'.symm

/-! ### Other descriptions of the system -/

namespace NearestShell

theorem within_turned {b b' : Box ℝ} {Q : Vec3 ℝ → Vec3 ℝ} (hQ : Rigid Q) (hl : SameLattice Q b b')
    {t : Vec3 ℝ} {σ τ : Equiv.Perm ℕ} {pts pts' qpts qpts' : List (Vec3 ℝ)} (hp : Turned b' Q t τ pts pts')
    (hq : Turned b' Q t σ qpts qpts') {r rMin : ℝ} {excl : Bool} (hex : excl = true → σ = τ) {i : ℕ} {q q' : Vec3 ℝ}
    (hqi : qpts[σ i]? = some q) (hqi' : qpts'[i]? = some q') :
    (pointsWithin b' pts' q' i r rMin excl).ncard = (pointsWithin b pts q (σ i) r rMin excl).ncard := by
  rw [← Set.ncard_image_of_injective _ τ.injective]
  congr 1
  have key : ∀ (Q : Vec3 ℝ → Vec3 ℝ) (b : Box ℝ) pts qpts r i q, qpts[i]? = some q → ∀ j,
      j ∈ pointsWithin b pts q i r rMin excl ↔ ∃ bd, bd.q = i ∧ bd.p = j ∧ IsQueryBond b pts qpts r rMin excl bd := by
    intro Q b pts qpts r i q hqi j
    constructor
    · rintro ⟨h1, x, w, h2, h3, h4, h5⟩
      exact ⟨⟨i, j, Vec3.norm w, 1, w⟩, rfl, rfl, q, hqi, rfl, rfl, rfl, h1, h4, h5, x, h2, h3⟩
    · rintro ⟨bd, rfl, rfl, q', hq', -, -, -, h3, h4, h5, x, h6, h7⟩
      rw [hqi] at hq'
      cases hq'
      exact ⟨h3, x, _, h6, h7, h4, h5⟩
  ext j
  rw [key Q b pts qpts r (σ i) q hqi, Set.mem_image]
  constructor
  · rintro ⟨j', hj', rfl⟩
    obtain ⟨bd', e1, e2, h⟩ := (key Q b' pts' qpts' r i q' hqi' j').mp hj'
    obtain ⟨bd, h1, h2⟩ := (queryBond_turned hQ hl hp hq hex bd').mp h
    simp only [turnedBond, relabel, Bond.mk.injEq] at h2
    exact ⟨bd, by rw [h2.1, e1], by rw [h2.2.1, e2], h1⟩
  · rintro ⟨bd, e1, e2, h⟩
    refine ⟨τ.symm j, (key Q b' pts' qpts' r i q' hqi' _).mpr
      ⟨relabel σ.symm τ.symm (turnedBond Q bd), ?_, ?_, (queryBond_turned hQ hl hp hq hex _).mpr ⟨bd, h, ?_⟩⟩, by simp⟩
    · simp [relabel, turnedBond, e1]
    · simp [relabel, turnedBond, e2]
    · cases bd; simp [relabel, turnedBond]

end NearestShell

/-- **C124**: if the system is described by another unit cell of its lattice, turned, reflected, moved or
renumbered, the same nearest neighbors are found, with the turned vectors, by every engine. -/
theorem C124_turned (Q : Vec3 ℝ → Vec3 ℝ) (hQ : Rigid Q) (b b' : Box ℝ) (hl : SameLattice Q b b') (t : Vec3 ℝ)
    (σ τ : Equiv.Perm ℕ) (pts pts' qpts qpts' : List (Vec3 ℝ)) (hs : PeriodicSystem b pts qpts)
    (hs' : PeriodicSystem b' pts' qpts') (hpt : Turned b' Q t τ pts pts') (hqt : Turned b' Q t σ qpts qpts')
    (p p' : PyArgs) (k : ℕ) (rMin : ℝ) (hmin : 0 ≤ rMin) (excl : Bool) (hex : excl = true → σ = τ)
    (hp : AsksFor p k rMin excl) (hp' : AsksFor p' k rMin excl) (R : ℕ → ℝ)
    (hR : ClearShell b pts qpts k rMin excl R)
    (hhalf' : ∀ i, i < qpts'.length → BelowHalf b' (R (σ i)))
    (src src' : Source) (h : IsNearSource b pts qpts p src) (h' : IsNearSource b' pts' qpts' p' src') :
    ((bondsFrom src').map (relabel σ τ)).Perm ((bondsFrom src).map (turnedBond Q)) := by
  have hR' : ClearShell b' pts' qpts' k rMin excl fun i => R (σ i) := by
    intro i q' hq'
    obtain ⟨q, hq, -⟩ := hqt.point _ _ hq'
    refine ⟨hhalf' i (List.getElem?_eq_some_iff.mp hq').1, ?_⟩
    rw [within_turned hQ hl hpt hqt hex hq hq']
    exact (hR _ q hq).2
  obtain ⟨-, m, n⟩ := C124_bonds b pts qpts hs p k rMin hmin excl hp R hR src h
  obtain ⟨-, m', n'⟩ := C124_bonds b' pts' qpts' hs' p' k rMin hmin excl hp' _ hR' src' h'
  refine (List.perm_ext_iff_of_nodup ((n'.of_map _).map (relabel_injective σ τ))
    ((n.of_map _).map (turnedBond_injective hQ))).mpr fun bd => ?_
  have e : ∀ bd : Bond ℝ, relabel σ τ (relabel σ.symm τ.symm (turnedBond Q bd)) = turnedBond Q bd := fun bd => by
    cases bd; simp [relabel, turnedBond]
  have key : ∀ bd', IsShellBond b' pts' qpts' (fun i => R (σ i)) rMin excl bd' ↔
      ∃ bd, IsShellBond b pts qpts R rMin excl bd ∧ turnedBond Q bd = relabel σ τ bd' := by
    intro bd'
    refine (queryBond_turned hQ hl hpt hqt hex bd').trans (exists_congr fun bd => and_congr_left fun e => ?_)
    have e1 : bd.q = σ bd'.q := congrArg Bond.q e
    show IsQueryBond b pts qpts (R (σ bd'.q)) rMin excl bd ↔ _
    rw [← e1]
    exact Iff.rfl
  rw [List.mem_map, List.mem_map]
  constructor
  · rintro ⟨bd', hbd', rfl⟩
    obtain ⟨bd, h1, h2⟩ := (key _).mp ((m' _).mp hbd')
    exact ⟨bd, (m _).mpr h1, h2⟩
  · rintro ⟨bd, hbd, rfl⟩
    exact ⟨_, (m' _).mpr ((key _).mpr ⟨bd, (m _).mp hbd, (e bd).symm⟩), e bd⟩

namespace NearestShell

theorem within_scaled {c : ℝ} (hc : 0 < c) {b b' : Box ℝ} (h : ScaledBox c b b') (pts : List (Vec3 ℝ)) (q : Vec3 ℝ)
    (i : ℕ) (r rMin : ℝ) (excl : Bool) :
    pointsWithin b' (scaledPoints c pts) (Vec3.smul c q) i (c * r) (c * rMin) excl =
      pointsWithin b pts q i r rMin excl := by
  ext j
  refine and_congr_right fun _ => ⟨?_, ?_⟩
  · rintro ⟨x, w, h1, h2, h3, h4⟩
    rw [scaledPoints_get] at h1
    obtain ⟨x, hx, rfl⟩ := Option.map_eq_some_iff.mp h1
    have e : Vec3.smul c (Vec3.smul c⁻¹ w) = w := by rw [smul_smul', mul_inv_cancel₀ hc.ne', smul_one']
    rw [← e, norm_smul' hc] at h3 h4
    rw [← smul_sub', ← e, h.isImage hc] at h2
    exact ⟨x, _, hx, h2, le_of_mul_le_mul_left h3 hc, lt_of_mul_lt_mul_left h4 hc.le⟩
  · rintro ⟨x, w, h1, h2, h3, h4⟩
    refine ⟨Vec3.smul c x, Vec3.smul c w, by rw [scaledPoints_get, h1]; rfl, ?_, ?_, ?_⟩
    · rw [← smul_sub', h.isImage hc]; exact h2
    · rw [norm_smul' hc]; exact mul_le_mul_of_nonneg_left h3 hc.le
    · rw [norm_smul' hc]; exact mul_lt_mul_of_pos_left h4 hc

end NearestShell

/-- **C124**: in another unit of length the same nearest neighbors are found; the number of neighbors, unlike a
cutoff, needs no conversion. -/
theorem C124_scaled (c : ℝ) (hc : 0 < c) (b b' : Box ℝ) (hb : ScaledBox c b b') (pts qpts : List (Vec3 ℝ))
    (hs : PeriodicSystem b pts qpts) (p p' : PyArgs) (k : ℕ) (rMin : ℝ) (hmin : 0 ≤ rMin) (excl : Bool)
    (hp : AsksFor p k rMin excl) (hp' : AsksFor p' k (c * rMin) excl) (R : ℕ → ℝ)
    (hR : ClearShell b pts qpts k rMin excl R)
    (src src' : Source) (h : IsNearSource b pts qpts p src)
    (h' : IsNearSource b' (scaledPoints c pts) (scaledPoints c qpts) p' src') :
    (bondsFrom src').Perm ((bondsFrom src).map (scaledBond c)) := by
  have hR' : ClearShell b' (scaledPoints c pts) (scaledPoints c qpts) k (c * rMin) excl fun i => c * R i := by
    intro i q' hq'
    rw [scaledPoints_get] at hq'
    obtain ⟨q, hq, rfl⟩ := Option.map_eq_some_iff.mp hq'
    obtain ⟨h1, h3⟩ := hR i q hq
    exact ⟨(hb.belowHalf hc _).mpr h1, by rw [within_scaled hc hb]; exact h3⟩
  obtain ⟨-, m, n⟩ := C124_bonds b pts qpts hs p k rMin hmin excl hp R hR src h
  obtain ⟨-, m', n'⟩ := C124_bonds b' _ _ (hb.system hc hs) p' k _ (mul_nonneg hc.le hmin) excl hp' _ hR' src' h'
  have key : ∀ bd, IsShellBond b' (scaledPoints c pts) (scaledPoints c qpts) (fun i => c * R i) (c * rMin) excl
      (scaledBond c bd) ↔ IsShellBond b pts qpts R rMin excl bd := fun bd =>
    queryBond_scaled hc hb pts qpts (R bd.q) rMin excl bd
  refine (List.perm_ext_iff_of_nodup (n'.of_map _) ((n.of_map _).map (scaledBond_injective hc))).mpr fun bd => ?_
  rw [m', List.mem_map]
  constructor
  · intro hbd
    have e : scaledBond c ⟨bd.q, bd.p, c⁻¹ * bd.dist, bd.weight, Vec3.smul c⁻¹ bd.vec⟩ = bd := by
      cases bd; simp [scaledBond, hc.ne']
    exact ⟨_, (m _).mpr ((key _).mp (by rw [e]; exact hbd)), e⟩
  · rintro ⟨bd', hbd', rfl⟩
    exact (key _).mpr ((m _).mp hbd')

/-- **C124**: every kind of system but a `CellQuery` answers such a query; a `CellQuery` raises an error. -/
theorem C124_accepted_iff (s : System) (b : Box ℝ) (pts qpts : List (Vec3 ℝ)) (hm : MadeFrom s b pts)
    (hs : PeriodicSystem b pts qpts) (hq : qpts ≠ []) (p : PyArgs) (k : ℕ) (rMin : ℝ) (excl : Bool)
    (hp : AsksFor p k rMin excl) (ho : p.other = [])
    (hmode : p.mode = none ∨ p.mode = some "none" ∨ p.mode = some "nearest") (hk0 : 0 < k) (hk1 : k < 0xffffffff)
    (hsc : ∀ s, p.scale = some s → 1 < s) :
    (∃ found, s.FindsNear qpts p found) ↔ ∀ o, s ≠ .cell o := by
  have pick : (∀ i q, qpts[i]? = some q → ∃ out, s.NearQuery p i q out) → ∃ found, s.FindsNear qpts p found := by
    intro h
    have : ∀ i, ∃ out, ∀ q, qpts[i]? = some q → s.NearQuery p i q out := by
      intro i
      cases e : qpts[i]? with
      | none => exact ⟨[], fun q h => by cases h⟩
      | some q =>
        obtain ⟨out, ho⟩ := h i q e
        exact ⟨out, fun q' h' => by cases h'; exact ho⟩
    choose found hf using this
    exact ⟨found, fun i q h => hf i q h⟩
  have tree : ∀ (raw : Bool) (aq : AABBQuery), AABBQuery.new b pts = some aq → ∀ i q, ∃ out, aq.Query raw p q i out :=
    fun raw aq haq i q => C28_valid_nearest_accepted raw b hs.inBox.pos pts aq haq (fun _ => hs.periodic) p q i k ho
      hmode hp.number hk0 hk1 hsc (fun g h => by rw [hp.rGuess] at h; cases h)
      (fun r h => by rw [hp.rMax] at h; cases h)
  cases s with
  | raw aq => exact ⟨fun _ o h => by { cases h }, fun _ => pick fun i q _ => tree true aq hm i q⟩
  | aabb aq => exact ⟨fun _ o h => by { cases h }, fun _ => pick fun i q _ => tree false aq hm i q⟩
  | linkCell lc =>
    refine ⟨fun _ o h => by { cases h }, fun _ => pick fun i q _ => ?_⟩
    obtain ⟨cw, hc, hlc⟩ := hm
    obtain ⟨m, hm1, hm2⟩ : ∃ m, modeOf p.mode = some m ∧ (m = .none ∨ m = .nearest) := by
      rcases hmode with hm | hm | hm <;> rw [hm] <;> simp [modeOf]
    obtain ⟨a, ha⟩ : ∃ a, p.toArgs = some a := by
      unfold PyArgs.toArgs
      rw [hm1, Option.bind_some, if_neg (by rw [ho]; simp)]
      exact ⟨_, rfl⟩
    obtain ⟨t1, t2, t3, t4, t5, t6, t7, t8⟩ := toArgs_some ha
    rw [hm1] at t2
    have hn : a.numNeighbors ≠ DEFAULT_NUM_NEIGHBORS := by
      rw [t3, hp.number]; simp only [Option.getD_some, DEFAULT_NUM_NEIGHBORS]; omega
    have hmd : (inferMode a).mode = .nearest := by
      unfold inferMode
      rcases hm2 with e | e
      · rw [if_pos (by rw [← Option.some.inj t2, e]), if_pos hn]
      · rw [if_neg (by rw [← Option.some.inj t2, e]; simp), ← Option.some.inj t2, e]
    obtain ⟨i1, i2, i3, i4, i5, i6⟩ := inferMode_fields a
    obtain ⟨a', ha', hm'⟩ : ∃ a', validateQueryArgs a = some a' ∧ a'.mode = .nearest := by
      unfold validateQueryArgs
      simp only
      rw [hmd]
      simp only [i1, i2]
      rw [if_neg hn, if_pos (by rw [t4, hp.rMax]; rfl)]
      exact ⟨_, rfl, rfl⟩
    obtain ⟨e1, e2, e3, e4⟩ := link_nearest hp ha ha' hm'
    obtain ⟨out, h⟩ := LinkCell.C26_returns b hs.inBox.pos hs.periodic pts cw hc lc hlc q i k hk0 ⊤ rMin
      (WithTop.coe_lt_top _) (WithTop.coe_lt_top _) excl
    exact ⟨out, a, a', ha, ha', hm', by rw [e1, e2, e3, e4]; exact h⟩
  | cell o =>
    refine ⟨fun ⟨found, h⟩ => ?_, fun h => absurd rfl (h o)⟩
    exfalso
    obtain ⟨q0, hq0⟩ : ∃ q, qpts[0]? = some q := ⟨_, List.getElem?_eq_getElem (List.length_pos_of_ne_nil hq)⟩
    obtain ⟨a, a', ha, ha', hmode⟩ := h 0 q0 hq0
    exact cell_not_nearest ha' hmode

/-! ### A concrete case -/

/-- `num_neighbors=1, exclude_ii=True`. -/
def oneNeighbor : PyArgs := { numNeighbors := some 1, excludeII := some true }

theorem oneNeighbor_asks : AsksFor oneNeighbor 1 0 true := by
  refine ⟨rfl, rfl, rfl, rfl, rfl, fun s h => nomatch h⟩

theorem facePair_shell : ClearShell (Box.mk' 10 10 10 0 0 0 false) facePair facePair 1 0 true fun _ => 2 := by
  intro i q hq
  refine ⟨cube_half (by norm_num), ?_⟩
  rw [Set.ncard_eq_one]
  have hn : ∀ x : ℝ, x ^ 2 < 4 → Vec3.norm (⟨x, 0, 0⟩ : Vec3 ℝ) < 2 := by
    intro x hx
    rw [norm_lt_iff _ _ (by norm_num)]; simp only [Vec3.dot]; nlinarith
  match i with
  | 0 =>
    obtain rfl : q = ⟨-49 / 10, 0, 0⟩ := by simpa [facePair] using hq.symm
    refine ⟨1, ?_⟩
    ext j
    constructor
    · rintro ⟨h1, p, w, h2, -⟩
      have hj := (List.getElem?_eq_some_iff.mp h2).1
      have := h1 rfl
      simp only [facePair, List.length_cons, List.length_nil] at hj
      simp only [Set.mem_singleton_iff]; omega
    · rintro rfl
      refine ⟨by simp, ⟨49 / 10, 0, 0⟩, ⟨-1 / 5, 0, 0⟩, rfl, ⟨⟨-1, 0, 0⟩,
        ⟨by simp [Box.mk', Box.setL], by simp, by simp⟩, ?_⟩, norm_nonneg' _, hn _ (by norm_num)⟩
      rw [cube_lattice]
      ext <;> simp <;> norm_num
  | 1 =>
    obtain rfl : q = ⟨49 / 10, 0, 0⟩ := by simpa [facePair] using hq.symm
    refine ⟨0, ?_⟩
    ext j
    constructor
    · rintro ⟨h1, p, w, h2, -⟩
      have hj := (List.getElem?_eq_some_iff.mp h2).1
      have := h1 rfl
      simp only [facePair, List.length_cons, List.length_nil] at hj
      simp only [Set.mem_singleton_iff]; omega
    · rintro rfl
      refine ⟨by simp, ⟨-49 / 10, 0, 0⟩, ⟨1 / 5, 0, 0⟩, rfl, ⟨⟨1, 0, 0⟩,
        ⟨by simp [Box.mk', Box.setL], by simp, by simp⟩, ?_⟩, norm_nonneg' _, hn _ (by norm_num)⟩
      rw [cube_lattice]
      ext <;> simp <;> norm_num
  | n + 2 => simp [facePair] at hq

-- the hypotheses of `C124_engines` and `C124_ball_list`: query arguments with a `LinkCell`, a list made by an
-- `AABBQuery` under a schedule with two threads; the bond through the face is given
example : ∃ found nl, IsNearSource (Box.mk' 10 10 10 0 0 0 false) facePair facePair oneNeighbor (.query found 2) ∧
    IsNearSource (Box.mk' 10 10 10 0 0 0 false) facePair facePair oneNeighbor (.list nl) ∧
    IsSource (Box.mk' 10 10 10 0 0 0 false) facePair facePair 2 0 true (.list nl) ∧
    (⟨1, 0, Vec3.norm ⟨1 / 5, 0, 0⟩, 1, ⟨1 / 5, 0, 0⟩⟩ : Bond ℝ) ∈ nl.bonds := by
  obtain ⟨aq, lc, o, -, h1, h2, -⟩ := facePair_systems
  have acc : ∀ s, MadeFrom s (Box.mk' 10 10 10 0 0 0 false) facePair → (∀ o, s ≠ .cell o) →
      ∃ found, s.FindsNear facePair oneNeighbor found := fun s hm h =>
    (C124_accepted_iff s _ _ _ hm facePair_system (by simp [facePair]) oneNeighbor 1 0 true oneNeighbor_asks rfl
      (Or.inl rfl) (by norm_num) (by norm_num) (fun s h => nomatch h)).mpr h
  obtain ⟨found, hf⟩ := acc _ h2 (fun o h => nomatch h)
  obtain ⟨found', hf'⟩ := acc _ h1 (fun o h => nomatch h)
  obtain ⟨nl, hnl⟩ := C20_result_exists found' 2 2 false [(1, 1), (0, 0)]
  have hev : IsExecution facePair.length [(1, 1), (0, 0)] := List.Perm.swap _ _ _
  have hsrc : IsNearSource (Box.mk' 10 10 10 0 0 0 false) facePair facePair oneNeighbor (.list nl) :=
    ⟨_, found', h1, hf', Or.inr ⟨false, _, nl, hev, hnl, rfl⟩⟩
  refine ⟨found, nl, ⟨_, found, h2, hf, Or.inl rfl⟩, hsrc, C124_ball_list _ _ _ facePair_system _ 1 0 le_rfl true
    oneNeighbor_asks 2 (by norm_num) (cube_half (by norm_num)) facePair_shell nl hsrc, ?_⟩
  have := (C124_bonds _ _ _ facePair_system _ 1 0 le_rfl true oneNeighbor_asks _ facePair_shell _ hsrc).2.1
  rw [bondsFrom_list] at this
  refine (this _).mpr ⟨⟨49 / 10, 0, 0⟩, rfl, rfl, rfl, rfl, by simp, norm_nonneg' _, ?_, ⟨-49 / 10, 0, 0⟩, rfl,
    ⟨1, 0, 0⟩, ⟨by simp [Box.mk', Box.setL], by simp, by simp⟩, ?_⟩
  · rw [norm_lt_iff _ _ (by norm_num)]; norm_num [Vec3.dot]
  · rw [cube_lattice]
    ext <;> simp <;> norm_num

end Freud
