import Verif.Props.Nearest

/-!
# Property C28: query arguments
-/

namespace Freud

/-- A number that is not given, or given as the value that stands for "not given". -/
def Spec.Unset {α : Type*} (default : α) (o : Option α) : Prop := o = none ∨ o = some default

open Spec NearIter

theorem getD_eq_default {α : Type*} (d : α) (o : Option α) : o.getD d = d ↔ Unset d o := by
  cases o <;> simp [Unset]

theorem toArgs_some {p : PyArgs} {a : QueryArgs} (h : p.toArgs = some a) :
    p.other = [] ∧ modeOf p.mode = some a.mode ∧
    a.numNeighbors = p.numNeighbors.getD DEFAULT_NUM_NEIGHBORS ∧
    a.rMax = p.rMax.getD DEFAULT_R_MAX ∧ a.rMin = p.rMin.getD 0 ∧
    a.rGuess = p.rGuess.getD DEFAULT_R_GUESS ∧ a.scale = p.scale.getD DEFAULT_SCALE ∧
    a.excludeII = p.excludeII.getD false := by
  unfold PyArgs.toArgs at h
  obtain ⟨m, hm, h⟩ := Option.bind_eq_some_iff.mp h
  split at h
  · simp at h
  · rename_i ho
    obtain rfl := Option.some.inj h
    exact ⟨not_not.mp ho, hm, rfl, rfl, rfl, rfl, rfl, rfl⟩

theorem inferMode_fields (a : QueryArgs) : (inferMode a).numNeighbors = a.numNeighbors ∧
    (inferMode a).rMax = a.rMax ∧ (inferMode a).rMin = a.rMin ∧
    (inferMode a).excludeII = a.excludeII ∧ (inferMode a).rGuess = a.rGuess ∧
    (inferMode a).scale = a.scale := by
  unfold inferMode
  split_ifs <;> exact ⟨rfl, rfl, rfl, rfl, rfl, rfl⟩

/-- The fields after validation. -/
theorem validateAABB_some {b : Box ℝ} {n : ℕ} {a a' : QueryArgs} (h : validateAABB b n a = some a') :
    a'.mode = (inferMode a).mode ∧ a'.numNeighbors = a.numNeighbors ∧ a'.rMin = a.rMin ∧
    a'.excludeII = a.excludeII ∧
    ((a'.mode = .ball ∧ a.rMax ≠ DEFAULT_R_MAX ∧ a.numNeighbors = DEFAULT_NUM_NEIGHBORS ∧
        a'.rMax = a.rMax) ∨
     (a'.mode = .nearest ∧ a.numNeighbors ≠ DEFAULT_NUM_NEIGHBORS ∧
        a'.rMax = (if a.rMax = DEFAULT_R_MAX then ⊤ else a.rMax) ∧
        (a.scale ≠ DEFAULT_SCALE → 1 < a.scale) ∧
        a'.scale = (if a.scale = DEFAULT_SCALE then 11 / 10 else a.scale) ∧
        (a.rGuess ≠ DEFAULT_R_GUESS → a'.rGuess = minTop a.rGuess a'.rMax) ∧
        (a'.rGuess : WithTop ℝ) ≤ a'.rMax ∧
        (a.rGuess = DEFAULT_R_GUESS → a'.rGuess ≤ minPlane b / 2))) := by
  obtain ⟨i1, i2, i3, i4, i5, i6⟩ := inferMode_fields a
  unfold validateAABB at h
  obtain ⟨a1, h1, h2⟩ := Option.bind_eq_some_iff.mp h
  unfold validateQueryArgs at h1
  simp only at h1
  cases hmd : (inferMode a).mode with
  | none => rw [hmd] at h1; simp at h1
  | ball =>
    rw [hmd] at h1
    simp only [i1, i2] at h1
    split_ifs at h1 with c1 c2
    obtain rfl := Option.some.inj h1
    rw [if_neg (by rw [hmd]; simp)] at h2
    obtain rfl := Option.some.inj h2
    exact ⟨hmd, i1, i3, i4, Or.inl ⟨hmd, c1, not_not.mp c2, i2⟩⟩
  | nearest =>
    rw [hmd] at h1
    simp only [i1, i2] at h1
    have hc : a.numNeighbors ≠ DEFAULT_NUM_NEIGHBORS ∧ a1.mode = .nearest ∧
        a1.numNeighbors = a.numNeighbors ∧
        a1.rMax = (if a.rMax = DEFAULT_R_MAX then ⊤ else a.rMax) ∧ a1.rMin = a.rMin ∧
        a1.excludeII = a.excludeII ∧ a1.rGuess = a.rGuess ∧ a1.scale = a.scale := by
      split_ifs at h1 with c1 c2
      · obtain rfl := Option.some.inj h1
        exact ⟨c1, rfl, rfl, by rw [if_pos c2], i3, i4, i5, i6⟩
      · obtain rfl := Option.some.inj h1
        exact ⟨c1, hmd, i1, by rw [if_neg c2]; exact i2, i3, i4, i5, i6⟩
    obtain ⟨d1, d2, d3, d4, d5, d6, d7, d8⟩ := hc
    rw [if_pos d2] at h2
    unfold validateNearestNeighborArgs at h2
    by_cases c1 : a1.scale ≠ DEFAULT_SCALE ∧ a1.scale ≤ 1
    · rw [if_pos c1] at h2; simp at h2
    rw [if_neg c1] at h2
    have hsc : a.scale ≠ DEFAULT_SCALE → 1 < a.scale := fun hne => by
      rw [d8] at c1
      exact not_le.mp fun hle => c1 ⟨hne, hle⟩
    by_cases c2 : a1.scale = DEFAULT_SCALE <;> by_cases c3 : a1.rGuess = DEFAULT_R_GUESS <;>
    · simp only [c2, c3, if_true, if_false] at h2
      obtain rfl := Option.some.inj h2
      refine ⟨d2, d3, d5, d6, Or.inr ⟨d2, d1, d4, hsc, ?_, ?_, minTop_le_top _ _, ?_⟩⟩
      · first
        | (rw [if_pos (by rw [← d8]; exact c2)])
        | (rw [if_neg (by rw [← d8]; exact c2)]; exact d8)
      · intro hne
        first
        | exact absurd (by rw [← d7]; exact c3) hne
        | (simp only [d7])
      · intro he
        first
        | exact (minTop_le _ _).trans (min_le_right _ _)
        | exact absurd (by rw [d7]; exact he) c3

/-- **C28**: without an explicit mode, the mode of an accepted query is `nearest` if
`num_neighbors` is given and `ball` otherwise, and then `r_max` is given; a query with neither
raises. -/
theorem C28_mode_inference (raw : Bool) (aq : AABBQuery) (p : PyArgs) (qp : Vec3 ℝ) (qi : ℕ)
    (out : List (Bond ℝ)) (hm : p.mode = none) (h : aq.Query raw p qp qi out) :
    ∃ a a', p.toArgs = some a ∧ validateAABB aq.box aq.pts.length a = some a' ∧
      (a'.mode = .nearest ↔ ¬ Unset DEFAULT_NUM_NEIGHBORS p.numNeighbors) ∧
      (a'.mode = .ball ↔ Unset DEFAULT_NUM_NEIGHBORS p.numNeighbors) ∧
      (a'.mode = .ball → ¬ Unset DEFAULT_R_MAX p.rMax) := by
  obtain ⟨-, a, a', ha, ha', -⟩ := h
  refine ⟨a, a', ha, ha', ?_⟩
  obtain ⟨-, t2, t3, t4, -⟩ := toArgs_some ha
  obtain ⟨v1, v2, v3, v4, v5⟩ := validateAABB_some ha'
  rw [hm] at t2
  have hmode : a.mode = .none := (Option.some.inj t2).symm
  rw [← getD_eq_default, ← t3, ← getD_eq_default, ← t4]
  rcases v5 with ⟨e1, e2, e3, -⟩ | ⟨e1, e2, -⟩
  · rw [e1]
    exact ⟨⟨fun h => (by cases h), fun h => absurd e3 h⟩, ⟨fun _ => e3, fun _ => rfl⟩, fun _ => e2⟩
  · rw [e1]
    exact ⟨⟨fun _ => e2, fun _ => rfl⟩, ⟨fun h => (by cases h), fun h => absurd h e2⟩,
      fun h => (by cases h)⟩

/-- **C28**: arguments that make every query raise: unknown names, unknown modes, neither
`num_neighbors` nor `r_max`, `mode='nearest'` without `num_neighbors`, `mode='ball'` without
`r_max` or with `num_neighbors`. -/
theorem C28_bad_combinations_raise (raw : Bool) (aq : AABBQuery) (p : PyArgs) (qp : Vec3 ℝ) (qi : ℕ)
    (h : p.other ≠ [] ∨ (∃ s, p.mode = some s ∧ s ∉ ["none", "ball", "nearest"]) ∨
      (Unset DEFAULT_NUM_NEIGHBORS p.numNeighbors ∧ Unset DEFAULT_R_MAX p.rMax) ∨
      (p.mode = some "nearest" ∧ Unset DEFAULT_NUM_NEIGHBORS p.numNeighbors) ∨
      (p.mode = some "ball" ∧
        (Unset DEFAULT_R_MAX p.rMax ∨ ¬ Unset DEFAULT_NUM_NEIGHBORS p.numNeighbors))) :
    ∀ out, ¬ aq.Query raw p qp qi out := by
  rintro out ⟨-, a, a', ha, ha', -⟩
  obtain ⟨t1, t2, t3, t4, -⟩ := toArgs_some ha
  obtain ⟨v1, -, -, -, v5⟩ := validateAABB_some ha'
  have hset : ∀ m, a.mode = m → m ≠ .none → a'.mode = m := by
    intro m hm hne
    rw [v1]; unfold inferMode; rw [if_neg (by rw [hm]; exact hne), hm]
  simp only [← getD_eq_default, ← t3, ← t4] at h
  rcases h with h | ⟨s, hs, hns⟩ | ⟨h1, h2⟩ | ⟨h1, h2⟩ | ⟨h1, h2⟩
  · exact h t1
  · rw [hs] at t2
    simp only [List.mem_cons, List.not_mem_nil, or_false, not_or] at hns
    simp [modeOf, hns] at t2
  · rcases v5 with ⟨-, e, -⟩ | ⟨-, e, -⟩
    · exact e h2
    · exact e h1
  · rw [h1] at t2
    have := hset .nearest (by simpa [modeOf] using t2.symm) (by simp)
    rcases v5 with ⟨e, -⟩ | ⟨-, e, -⟩
    · rw [this] at e; cases e
    · exact e h2
  · rw [h1] at t2
    have := hset .ball (by simpa [modeOf] using t2.symm) (by simp)
    rcases v5 with ⟨-, e1, e2, -⟩ | ⟨e, -⟩
    · rcases h2 with h2 | h2
      · exact e1 h2
      · exact h2 e2
    · rw [this] at e; cases e

/-- **C28**: numbers that make every query raise: `scale <= 1` or `r_guess <= 0` in a nearest
query, and `r_max <= 0` or `r_max <= r_min` (or above half of the box in a ball query, see C22).
The reserved value `-1` is excepted (see `C28_sentinel_counterexample`). -/
theorem C28_bad_numbers_raise_partial (raw : Bool) (aq : AABBQuery) (p : PyArgs) (qp : Vec3 ℝ)
    (qi : ℕ)
    (h : (¬ Unset DEFAULT_NUM_NEIGHBORS p.numNeighbors ∧ ∃ s, p.scale = some s ∧ s ≠ -1 ∧ s ≤ 1) ∨
      (¬ Unset DEFAULT_NUM_NEIGHBORS p.numNeighbors ∧ ∃ g, p.rGuess = some g ∧ g ≠ -1 ∧ g ≤ 0) ∨
      (∃ r : ℝ, p.rMax = some (r : WithTop ℝ) ∧ r ≠ -1 ∧ (r ≤ 0 ∨ r ≤ p.rMin.getD 0))) :
    ∀ out, ¬ aq.Query raw p qp qi out := by
  rintro out ⟨-, a, a', ha, ha', hq⟩
  obtain ⟨t1, t2, t3, t4, t5, t6, t7, -⟩ := toArgs_some ha
  obtain ⟨v1, v2, v3, v4, v5⟩ := validateAABB_some ha'
  simp only [← getD_eq_default, ← t3] at h
  rcases h with ⟨h1, s, h2, h3, h4⟩ | ⟨h1, g, h2, h3, h4⟩ | ⟨r, h1, h2, h3⟩
  · rcases v5 with ⟨-, -, e, -⟩ | ⟨-, -, -, e, -⟩
    · exact h1 e
    · rw [t7, h2] at e
      exact absurd (e h3) (not_lt.mpr h4)
  · rcases v5 with ⟨-, -, e, -⟩ | ⟨e0, -, -, -, -, e, -, -⟩
    · exact h1 e
    · rw [e0] at hq
      simp only at hq
      obtain ⟨-, -, -, cur, sorted, hs, -⟩ := hq
      have hpos := (search_pos hs).1
      rw [t6, h2] at e
      have := e h3
      have hle := minTop_le g a'.rMax
      simp only [Option.getD_some] at this
      linarith
  · have hne : a.rMax ≠ DEFAULT_R_MAX := by
      rw [t4, h1]
      simp only [Option.getD_some, DEFAULT_R_MAX, ne_eq, WithTop.coe_inj]
      exact h2
    have hr : a'.rMax = (r : WithTop ℝ) := by
      rcases v5 with ⟨-, -, -, e⟩ | ⟨-, -, e, -⟩
      · rw [e, t4, h1]; rfl
      · rw [e, if_neg hne, t4, h1]; rfl
    rw [← t5] at h3
    rcases v5 with ⟨e0, -⟩ | ⟨e0, -⟩
    · rw [e0] at hq
      simp only at hq
      obtain ⟨r', hr', hb⟩ := hq
      rw [hr, WithTop.coe_inj] at hr'
      subst hr'
      have := (C22_single_raises_iff aq qp qi r a'.rMin a'.excludeII).mp ⟨_, hb⟩
      rw [v3] at this
      rcases h3 with h3 | h3 <;> linarith [this.1, this.2.1]
    · rw [e0] at hq
      simp only at hq
      obtain ⟨n1, n2, -⟩ := hq
      rw [hr, WithTop.coe_le_coe] at n1 n2
      rw [v3] at n2
      rcases h3 with h3 | h3
      · exact n1 h3
      · exact n2 h3

/-- **C28**: an accepted query runs with the values the user gave, defaults only fill what is not
given, and `r_guess` never exceeds `r_max`. -/
theorem C28_user_values_kept_partial (raw : Bool) (aq : AABBQuery) (p : PyArgs) (qp : Vec3 ℝ)
    (qi : ℕ) (out : List (Bond ℝ)) (h : aq.Query raw p qp qi out) :
    ∃ a a', p.toArgs = some a ∧ validateAABB aq.box aq.pts.length a = some a' ∧
      a'.rMin = p.rMin.getD 0 ∧ a'.excludeII = p.excludeII.getD false ∧
      (∀ k, p.numNeighbors = some k → a'.numNeighbors = k) ∧
      (∀ r, p.rMax = some r → r ≠ DEFAULT_R_MAX → a'.rMax = r) ∧
      (a'.mode = .nearest →
        (Unset DEFAULT_R_MAX p.rMax → a'.rMax = ⊤) ∧
        (∀ s, p.scale = some s → s ≠ DEFAULT_SCALE → a'.scale = s) ∧
        (Unset DEFAULT_SCALE p.scale → a'.scale = 11 / 10) ∧
        (∀ g, p.rGuess = some g → g ≠ DEFAULT_R_GUESS → a'.rGuess = minTop g a'.rMax) ∧
        (a'.rGuess : WithTop ℝ) ≤ a'.rMax) := by
  obtain ⟨-, a, a', ha, ha', -⟩ := h
  refine ⟨a, a', ha, ha', ?_⟩
  obtain ⟨t1, t2, t3, t4, t5, t6, t7, t8⟩ := toArgs_some ha
  obtain ⟨v1, v2, v3, v4, v5⟩ := validateAABB_some ha'
  refine ⟨by rw [v3, t5], by rw [v4, t8], fun k hk => by rw [v2, t3, hk]; rfl, ?_, ?_⟩
  · intro r hr hne
    have e : a.rMax = r := by rw [t4, hr]; rfl
    rcases v5 with ⟨-, -, -, e'⟩ | ⟨-, -, e', -⟩
    · rw [e', e]
    · rw [e', e, if_neg hne]
  · intro hm
    rcases v5 with ⟨e, -⟩ | ⟨-, -, e1, -, e2, e3, e4, -⟩
    · rw [hm] at e; cases e
    · refine ⟨fun hu => ?_, fun s hs hne => ?_, fun hu => ?_, fun g hg hne => ?_, e4⟩
      · rw [e1, if_pos (by rw [t4]; exact (getD_eq_default _ _).mpr hu)]
      · have : a.scale = s := by rw [t7, hs]; rfl
        rw [e2, this, if_neg hne]
      · rw [e2, if_pos (by rw [t7]; exact (getD_eq_default _ _).mpr hu)]
      · have : a.rGuess = g := by rw [t6, hg]; rfl
        rw [← this]; exact e3 (by rw [this]; exact hne)

/-- A tuple `(box, points)` validates its arguments with the base class first and again with the
rules of `AABBQuery` (`freud/locality/RawPoints.h:49-60, 81-90`); the second pass gives the same as
a single one. -/
theorem C28_validated_twice (b : Box ℝ) (n : ℕ) (a : QueryArgs) :
    (validateQueryArgs a).bind (validateAABB b n) = validateAABB b n a := by
  have h : (validateQueryArgs a).bind validateQueryArgs = validateQueryArgs a := by
    obtain ⟨i1, i2, -⟩ := inferMode_fields a
    have hid : ∀ c : QueryArgs, c.mode ≠ .none → inferMode c = c := fun c hc => by
      unfold inferMode; rw [if_neg hc]
    cases hmd : (inferMode a).mode with
    | none => simp [validateQueryArgs, hmd]
    | ball =>
      by_cases c1 : a.rMax = DEFAULT_R_MAX
      · simp [validateQueryArgs, hmd, i2, c1]
      · by_cases c2 : a.numNeighbors = DEFAULT_NUM_NEIGHBORS
        · have : validateQueryArgs a = some (inferMode a) := by
            simp [validateQueryArgs, hmd, i1, i2, c1, c2]
          rw [this, Option.bind_some]
          simp [validateQueryArgs, hid _ (by rw [hmd]; simp : (inferMode a).mode ≠ .none), hmd, i1,
            i2, c1, c2]
        · simp [validateQueryArgs, hmd, i1, i2, c1, c2]
    | nearest =>
      by_cases c2 : a.numNeighbors = DEFAULT_NUM_NEIGHBORS
      · simp [validateQueryArgs, hmd, i1, c2]
      · by_cases c1 : a.rMax = DEFAULT_R_MAX
        · have : validateQueryArgs a = some ⟨.nearest, a.numNeighbors, ⊤, (inferMode a).rMin,
              (inferMode a).rGuess, (inferMode a).scale, (inferMode a).excludeII⟩ := by
            simp [validateQueryArgs, hmd, i1, i2, c1, c2]
          rw [this, Option.bind_some]
          have htop : (⊤ : WithTop ℝ) ≠ DEFAULT_R_MAX := by
            rw [DEFAULT_R_MAX]; exact WithTop.top_ne_coe
          unfold validateQueryArgs
          rw [hid _ (by simp)]
          simp only [c2, htop, if_false]
        · have : validateQueryArgs a = some (inferMode a) := by
            simp [validateQueryArgs, hmd, i1, i2, c1, c2]
          rw [this, Option.bind_some]
          simp [validateQueryArgs, hid _ (by rw [hmd]; simp : (inferMode a).mode ≠ .none), hmd, i1,
            i2, c1, c2]
  unfold validateAABB
  rw [show (fun a => (validateQueryArgs a).bind fun a =>
      if a.mode = .nearest then validateNearestNeighborArgs b n a else some a) =
    fun a => (validateQueryArgs a).bind fun a =>
      if a.mode = .nearest then validateNearestNeighborArgs b n a else some a from rfl,
    ← Option.bind_assoc, h]

/-- An `AABBQuery` validates in `query` and again in `querySingle`
(`freud/locality/NeighborQuery.h:137`, `freud/locality/AABBQuery.cc:31`): the second pass changes
nothing. -/
theorem C28_validation_idempotent (b : Box ℝ) (n : ℕ) (a a' : QueryArgs)
    (h : validateAABB b n a = some a') (hg : a'.rGuess ≠ DEFAULT_R_GUESS) :
    validateAABB b n a' = some a' := by
  obtain ⟨v1, v2, v3, v4, v5⟩ := validateAABB_some h
  have hid : a'.mode ≠ .none → inferMode a' = a' := fun hc => by
    unfold inferMode; rw [if_neg hc]
  rcases v5 with ⟨e1, e2, e3, e4⟩ | ⟨e1, e2, e3, e4, e5, e6, e7, e8⟩
  · unfold validateAABB validateQueryArgs
    rw [hid (by rw [e1]; simp)]
    simp only [e1]
    rw [if_neg (by rw [e4]; exact e2), if_neg (by rw [v2, e3]; simp), Option.bind_some,
      if_neg (by rw [e1]; simp)]
  · have hmax : a'.rMax ≠ DEFAULT_R_MAX := by
      rw [e3]; split
      · rw [DEFAULT_R_MAX]; exact WithTop.top_ne_coe
      · assumption
    have hsc : 1 < a'.scale := by
      rw [e5]; split
      · norm_num
      · rename_i h; exact e4 h
    have hsc' : a'.scale ≠ DEFAULT_SCALE := by rw [DEFAULT_SCALE]; linarith
    have hgm : minTop a'.rGuess a'.rMax = a'.rGuess := by
      cases hr : a'.rMax with
      | top => rfl
      | coe m => rw [hr] at e7; exact min_eq_left (WithTop.coe_le_coe.mp e7)
    unfold validateAABB validateQueryArgs
    rw [hid (by rw [e1]; simp)]
    simp only [e1]
    rw [if_neg (by rw [v2]; exact e2), if_neg hmax, Option.bind_some, if_pos e1]
    unfold validateNearestNeighborArgs
    rw [if_neg (fun h => absurd hsc (not_lt.mpr h.2))]
    simp only [hsc', hg, if_false]
    rw [hgm]

/-- **C28**: queries of an `AABBQuery` raise if some axis is not periodic. -/
theorem C28_non_periodic_raises (aq : AABBQuery) (p : PyArgs) (qp : Vec3 ℝ) (qi : ℕ)
    (h : ¬ FullyPeriodic aq.box) : ∀ out, ¬ aq.Query false p qp qi out :=
  fun _ hq => h (hq.1 rfl)

theorem search_isSome (it : NearIter) (hmax : ¬ it.rMax ≤ ((0 : ℝ) : WithTop ℝ))
    (hsc : 1 < it.scale) : ∀ (r : ℝ) (ext : Bool), 0 < r → ∃ cur, it.search r ext = some cur := by
  intro r
  induction hN : ⌊Real.logb it.scale (maxPlane it.aq.box / r)⌋₊ using Nat.strong_induction_on
    generalizing r with
  | _ N ih =>
    intro ext hr
    obtain ⟨ims, -, hbonds⟩ := ballAt_some it r (minTop_pos hr hmax)
    rw [search, dif_pos ⟨hr, hsc⟩, hbonds, Option.bind_some]
    generalize List.map _ _ = bonds
    cases ext <;> simp only [Bool.false_eq_true, if_false, if_true] <;>
    · split
      · exact ⟨_, rfl⟩
      · split
        · exact ⟨_, rfl⟩
        · rename_i h2
          split
          · exact ⟨_, rfl⟩
          · exact ih _ (by rw [← hN]; exact search_dec hr hsc h2) (r * it.scale) rfl _
              (by nlinarith)

theorem nearest_accepted (aq : AABBQuery) (qp : Vec3 ℝ) (qi k : ℕ) (rMax : WithTop ℝ)
    (rMin rGuess scale : ℝ) (excl : Bool)
    (hg : 0 < rGuess) (hsc : 1 < scale) (hmax : ¬ rMax ≤ ((0 : ℝ) : WithTop ℝ))
    (hmin : ¬ rMax ≤ (rMin : WithTop ℝ)) (hbox : BelowHalf aq.box 0) :
    ∃ out, aq.Nearest qp qi k rMax rMin rGuess scale excl out := by
  obtain ⟨cur, e⟩ := search_isSome ⟨aq, qp, qi, k, rMax, rMin, scale, excl⟩ hmax hsc rGuess false hg
  refine ⟨_, hmax, hmin, ?_, cur, _, e, mergeSort_sorted cur, rfl⟩
  unfold updateImageVectors
  rw [(rMaxTooLarge_iff aq.box 0).mpr hbox]
  rfl

theorem minPlane_pos {b : Box ℝ} (h : PositiveLengths b) : 0 < minPlane b := by
  obtain ⟨h1, h2, h3⟩ := planes_pos h
  unfold minPlane
  simp only
  split
  · exact lt_min h1 h2
  · rename_i h
    exact lt_min (lt_min h1 h2) (h3 (by simpa using h))

theorem validate_nearest (b : Box ℝ) (n : ℕ) (a : QueryArgs)
    (hm : a.mode = .none ∨ a.mode = .nearest) (hk : a.numNeighbors ≠ DEFAULT_NUM_NEIGHBORS)
    (hs : a.scale = DEFAULT_SCALE ∨ 1 < a.scale) :
    ∃ a', validateAABB b n a = some a' ∧ a'.mode = .nearest ∧
      (a.rGuess = DEFAULT_R_GUESS → a'.rGuess = minTop (min
        ((3 * (a.numNeighbors : ℝ) * b.getVolume / (4 * Real.pi * n)) ^ (1 / 3 : ℝ))
        (minPlane b / 2)) a'.rMax) := by
  have hinf : inferMode a = { a with mode := .nearest } := by
    unfold inferMode
    rcases hm with hm | hm
    · rw [if_pos hm, if_pos hk]
    · rw [if_neg (by rw [hm]; simp)]
      cases a; simp only at hm; subst hm; rfl
  have h1 : validateQueryArgs a = some { a with
      mode := .nearest, rMax := if a.rMax = DEFAULT_R_MAX then ⊤ else a.rMax } := by
    unfold validateQueryArgs
    rw [hinf]
    simp only
    rw [if_neg hk]
    split <;> rfl
  unfold validateAABB
  rw [h1, Option.bind_some, if_pos rfl]
  unfold validateNearestNeighborArgs
  simp only
  rw [if_neg (fun h => by rcases hs with hs | hs; exact h.1 hs; exact absurd hs (not_lt.mpr h.2))]
  by_cases c1 : a.scale = DEFAULT_SCALE <;> by_cases c2 : a.rGuess = DEFAULT_R_GUESS <;>
    simp [c1, c2]

/-- **C28**: valid nearest-neighbor arguments are accepted: a positive number of neighbors, and
for each of `scale`, `r_guess`, `r_max` no value or one that is above 1, positive, and positive and
above `r_min`. -/
theorem C28_valid_nearest_accepted (raw : Bool) (b : Box ℝ) (hb : PositiveLengths b)
    (pts : List (Vec3 ℝ)) (aq : AABBQuery) (haq : AABBQuery.new b pts = some aq)
    (hper : raw = false → FullyPeriodic b) (p : PyArgs) (qp : Vec3 ℝ) (qi k : ℕ)
    (ho : p.other = [])
    (hm : p.mode = none ∨ p.mode = some "none" ∨ p.mode = some "nearest")
    (hk : p.numNeighbors = some k) (hk0 : 0 < k) (hk1 : k < 0xffffffff)
    (hs : ∀ s, p.scale = some s → 1 < s) (hg : ∀ g, p.rGuess = some g → 0 < g)
    (hr : ∀ r : ℝ, p.rMax = some (r : WithTop ℝ) → 0 < r ∧ p.rMin.getD 0 < r) :
    ∃ out, aq.Query raw p qp qi out := by
  have hbox := new_box haq
  have hpts : aq.pts = pts := by
    unfold AABBQuery.new at haq
    split_ifs at haq
    obtain ⟨nodes, -, rfl⟩ := Option.map_eq_some_iff.mp haq
    rfl
  have hne : pts ≠ [] := by
    intro h
    rw [AABBQuery.new, if_pos h] at haq
    simp at haq
  have hn : 0 < pts.length := List.length_pos_iff.mpr hne
  have hmode : ∃ m, modeOf p.mode = some m ∧ (m = .none ∨ m = .nearest) := by
    rcases hm with hm | hm | hm <;> rw [hm] <;> simp [modeOf]
  obtain ⟨m, hm1, hm2⟩ := hmode
  obtain ⟨a, ha⟩ : ∃ a, p.toArgs = some a := by
    unfold PyArgs.toArgs
    rw [hm1, Option.bind_some, if_neg (by rw [ho]; simp)]
    exact ⟨_, rfl⟩
  obtain ⟨t1, t2, t3, t4, t5, t6, t7, t8⟩ := toArgs_some ha
  rw [hm1] at t2
  obtain ⟨a', ha', hm', hguess⟩ := validate_nearest aq.box aq.pts.length a
    (by rw [← Option.some.inj t2]; exact hm2)
    (by rw [t3, hk]; simp only [Option.getD_some, DEFAULT_NUM_NEIGHBORS]; omega)
    (by
      cases hsc : p.scale with
      | none => left; rw [t7, hsc]; rfl
      | some s => right; rw [t7, hsc]; exact hs s hsc)
  obtain ⟨v1, v2, v3, v4, v5⟩ := validateAABB_some ha'
  rcases v5 with ⟨e, -⟩ | ⟨-, -, e1, e2, e3, e4, e5, e6⟩
  · rw [hm'] at e; cases e
  have hmax : ¬ a'.rMax ≤ ((0 : ℝ) : WithTop ℝ) ∧ ¬ a'.rMax ≤ (a'.rMin : WithTop ℝ) := by
    rw [e1, v3, t5]
    split
    · exact ⟨by simp, by simp⟩
    · rw [t4] at *
      cases hrm : p.rMax with
      | none => rename_i h; rw [hrm] at h; exact absurd rfl h
      | some r =>
        cases r with
        | top => exact ⟨by simp, by simp⟩
        | coe r =>
          obtain ⟨h1, h2⟩ := hr r hrm
          simp only [Option.getD_some, WithTop.coe_le_coe, not_le]
          exact ⟨h1, h2⟩
  have hpg : 0 < a'.rGuess := by
    by_cases hgu : a.rGuess = DEFAULT_R_GUESS
    · rw [hguess hgu]
      refine minTop_pos (lt_min (Real.rpow_pos_of_pos ?_ _) ?_) hmax.1
      · rw [hpts, hbox, t3, hk]
        have h1 := volume_pos hb
        have h2 : (0 : ℝ) < pts.length := by exact_mod_cast hn
        have h3 : (0 : ℝ) < k := by exact_mod_cast hk0
        simp only [Option.getD_some]
        have := Real.pi_pos
        positivity
      · rw [hbox]; exact half_pos (minPlane_pos hb)
    · rw [e4 hgu]
      refine minTop_pos ?_ hmax.1
      rw [t6] at hgu ⊢
      cases hgg : p.rGuess with
      | none => rw [hgg] at hgu; exact absurd rfl hgu
      | some g => exact hg g hgg
  have hps : 1 < a'.scale := by
    rw [e3]; split
    · norm_num
    · rename_i h; exact e2 h
  obtain ⟨out, hout⟩ := nearest_accepted aq qp qi a'.numNeighbors a'.rMax a'.rMin a'.rGuess a'.scale
    a'.excludeII hpg hps hmax.1 hmax.2 (by
      rw [hbox]
      obtain ⟨h1, h2, h3⟩ := planes_pos hb
      exact ⟨fun _ => by linarith, fun _ => by linarith, fun _ h => by linarith [h3 h]⟩)
  refine ⟨out, fun h => by rw [hbox]; exact hper h, a, a', ha, ha', ?_⟩
  rw [hm']
  exact hout

/-- **C28**: valid ball arguments are accepted: `r_max` positive, above `r_min` and below half of
the box. -/
theorem C28_valid_ball_accepted (raw : Bool) (aq : AABBQuery)
    (hper : raw = false → FullyPeriodic aq.box) (p : PyArgs) (qp : Vec3 ℝ) (qi : ℕ) (r : ℝ)
    (ho : p.other = [])
    (hm : p.mode = none ∨ p.mode = some "none" ∨ p.mode = some "ball")
    (hk : p.numNeighbors = none) (hr : p.rMax = some (r : WithTop ℝ)) (hr0 : 0 < r)
    (hr1 : p.rMin.getD 0 < r) (hr2 : BelowHalf aq.box r) :
    ∃ out, aq.Query raw p qp qi out := by
  have hne : (r : WithTop ℝ) ≠ DEFAULT_R_MAX := by
    rw [DEFAULT_R_MAX, Ne, WithTop.coe_inj]; linarith
  have hmode : ∃ m, modeOf p.mode = some m ∧ (m = .none ∨ m = .ball) := by
    rcases hm with hm | hm | hm <;> rw [hm] <;> simp [modeOf]
  obtain ⟨m, hm1, hm2⟩ := hmode
  obtain ⟨a, ha⟩ : ∃ a, p.toArgs = some a := by
    unfold PyArgs.toArgs
    rw [hm1, Option.bind_some, if_neg (by rw [ho]; simp)]
    exact ⟨_, rfl⟩
  obtain ⟨t1, t2, t3, t4, t5, t6, t7, t8⟩ := toArgs_some ha
  rw [hm1] at t2
  rw [hk] at t3
  rw [hr] at t4
  simp only [Option.getD_some, Option.getD_none] at t3 t4
  have hinf : inferMode a = { a with mode := .ball } := by
    unfold inferMode
    have := Option.some.inj t2
    rcases hm2 with hm2 | hm2
    · rw [if_pos (by rw [← this]; exact hm2), if_neg (by rw [t3]; simp),
        if_pos (by rw [t4]; exact hne)]
    · rw [if_neg (by rw [← this, hm2]; simp)]
      cases a; simp only at this; rw [← this, hm2]
  obtain ⟨out, hout⟩ := (C22_single_raises_iff aq qp qi r a.rMin a.excludeII).mpr
    ⟨hr0, by rw [t5]; exact hr1, hr2⟩
  refine ⟨out, hper, a, { a with mode := .ball }, ha, ?_, r, t4, hout⟩
  unfold validateAABB validateQueryArgs
  rw [hinf]
  simp only
  rw [if_neg (by rw [t4]; exact hne), if_neg (by rw [t3]; simp)]
  rfl

/-- **C28 fails for the reserved values**: `num_neighbors=1, r_max=-1` and
`num_neighbors=1, scale=-1` are accepted, although a negative cutoff and a scale below 1 are
invalid, because `-1` stands for "not given". -/
theorem C28_sentinel_counterexample : ∃ aq : AABBQuery,
    AABBQuery.new (Box.mk' 10 10 10 0 0 0 false) [⟨0, 0, 0⟩, ⟨1, 0, 0⟩] = some aq ∧
    (∃ out, aq.Query false { numNeighbors := some 1, rMax := some ((-1 : ℝ) : WithTop ℝ) }
      ⟨0, 0, 0⟩ 0 out) ∧
    (∃ out, aq.Query false { numNeighbors := some 1, scale := some (-1) } ⟨0, 0, 0⟩ 0 out) := by
  obtain ⟨aq, haq⟩ := cube_new [⟨0, 0, 0⟩, ⟨1, 0, 0⟩] (by simp)
  obtain ⟨out, hp, a, a', ha, ha', h⟩ := C28_valid_nearest_accepted false _
    (by simp [PositiveLengths, Box.mk', Box.setL]) _ aq haq
    (fun _ => by simp [FullyPeriodic, Box.mk', Box.setL]) { numNeighbors := some 1 } ⟨0, 0, 0⟩ 0 1 rfl
    (Or.inl rfl) rfl one_pos (by norm_num) (by simp) (by simp) (by simp)
  exact ⟨aq, haq, ⟨out, hp, a, a', ha, ha', h⟩, ⟨out, hp, a, a', ha, ha', h⟩⟩

/-- **C28 fails for tuples**: the query that raises for an `AABBQuery` of a box that is not
periodic is accepted for the tuple `(box, points)`. -/
theorem C28_tuple_not_periodic_counterexample : ∃ (b : Box ℝ) (aq : AABBQuery),
    b.px = false ∧ AABBQuery.new b [⟨0, 0, 0⟩, ⟨1, 0, 0⟩] = some aq ∧
    (∃ out, aq.Query true { rMax := some ((2 : ℝ) : WithTop ℝ) } ⟨0, 0, 0⟩ 0 out) ∧
    ¬ ∃ out, aq.Query false { rMax := some ((2 : ℝ) : WithTop ℝ) } ⟨0, 0, 0⟩ 0 out := by
  let b : Box ℝ := { (Box.mk' 10 10 10 0 0 0 false : Box ℝ) with px := false }
  obtain ⟨nodes, hn, -⟩ := C21_every_point_once ([⟨0, 0, 0⟩, ⟨1, 0, 0⟩].map (flatten b))
  have haq : AABBQuery.new b [⟨0, 0, 0⟩, ⟨1, 0, 0⟩] = some ⟨b, [⟨0, 0, 0⟩, ⟨1, 0, 0⟩], nodes⟩ := by
    unfold AABBQuery.new
    rw [if_neg (by simp), if_neg (by simp [b, Box.mk', Box.setL]), hn]
    rfl
  refine ⟨b, _, rfl, haq, C28_valid_ball_accepted true _ (by simp) _ _ _ 2 rfl (Or.inl rfl) rfl rfl
    two_pos (by simp) ?_, ?_⟩
  · obtain ⟨-, h2, h3⟩ := cube_half (r := 2) (by norm_num)
    exact ⟨fun h => (by simp [b] at h), h2, h3⟩
  · rintro ⟨out, h⟩
    exact C28_non_periodic_raises _ _ _ _ (by simp [FullyPeriodic, b]) out h

/-- The first two theorems apply to a query that is accepted, `num_neighbors=1`. -/
example : ∃ (aq : AABBQuery) (out : List (Bond ℝ)),
    aq.Query false { numNeighbors := some 1, scale := some 2 } ⟨0, 0, 0⟩ 0 out := by
  obtain ⟨aq, haq⟩ := cube_new [⟨0, 0, 0⟩, ⟨1, 0, 0⟩] (by simp)
  obtain ⟨out, h⟩ := C28_valid_nearest_accepted false _
    (by simp [PositiveLengths, Box.mk', Box.setL]) _ aq haq
    (fun _ => by simp [FullyPeriodic, Box.mk', Box.setL])
    { numNeighbors := some 1, scale := some 2 } ⟨0, 0, 0⟩ 0 1 rfl
    (Or.inl rfl) rfl one_pos (by norm_num) (by rintro s ⟨rfl⟩; norm_num) (by simp) (by simp)
  exact ⟨aq, out, h⟩

end Freud
