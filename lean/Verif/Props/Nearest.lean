import Verif.Lemmas.Nearest

/-!
# Property C23: nearest-neighbor queries of AABBQuery
-/

namespace Freud

/-- Point `j` may be a neighbor of the query point, at minimum-image distance `d`. -/
def Spec.Candidate (b : Box ℝ) (pts : List (Vec3 ℝ)) (q : Vec3 ℝ) (qi : ℕ) (rMin : ℝ)
    (excl : Bool) (j : ℕ) (d : ℝ) : Prop :=
  ∃ p w, pts[j]? = some p ∧ (excl = true → j ≠ qi) ∧ NearestImage b (p - q) w ∧
    d = Vec3.norm w ∧ rMin ≤ d

/-- `out` holds at most `k` neighbors, nearest first, each once, with a shortest separation
vector, and no other point is nearer than one of them. -/
structure Spec.KNearest (b : Box ℝ) (pts : List (Vec3 ℝ)) (q : Vec3 ℝ) (qi k : ℕ)
    (rMax : WithTop ℝ) (rMin : ℝ) (excl : Bool) (out : List (Bond ℝ)) : Prop where
  length_le : out.length ≤ k
  sorted : (out.map (·.dist)).Pairwise (· ≤ ·)
  nodup : (out.map (·.p)).Nodup
  bonds : ∀ bd ∈ out, bd.q = qi ∧ bd.weight = 1 ∧ bd.dist = Vec3.norm bd.vec ∧
    (bd.dist : WithTop ℝ) ≤ rMax ∧ Candidate b pts q qi rMin excl bd.p bd.dist ∧
    ∃ p, pts[bd.p]? = some p ∧ NearestImage b (p - q) bd.vec
  nearest : ∀ j d, Candidate b pts q qi rMin excl j d → j ∉ out.map (·.p) →
    ∀ bd ∈ out, bd.dist ≤ d

open Spec NearIter

theorem nearestImage_norm {b : Box ℝ} {v w w' : Vec3 ℝ} (h : NearestImage b v w)
    (h' : NearestImage b v w') : Vec3.norm w = Vec3.norm w' :=
  le_antisymm (h.2 _ h'.1) (h'.2 _ h.1)

theorem lessDist_sorted {cur sorted : List (Bond ℝ)} (h : Bond.SortedBy lessDist cur sorted) :
    (sorted.map (·.dist)).Pairwise (· ≤ ·) := by
  rw [List.pairwise_map]
  refine h.2.imp ?_
  intro a b hab
  simpa [lessDist] using hab

theorem mergeSort_sorted (cur : List (Bond ℝ)) :
    Bond.SortedBy lessDist cur (cur.mergeSort (fun a b => !(lessDist b a))) := by
  refine ⟨List.mergeSort_perm _ _, ?_⟩
  have := List.pairwise_mergeSort (le := fun a b : Bond ℝ => !(lessDist b a)) (by
    intro a b c hab hbc
    simp only [lessDist, Bool.not_eq_true', decide_eq_false_iff_not, not_lt] at *
    exact hab.trans hbc) (by
    intro a b
    simp only [lessDist, Bool.or_eq_true, Bool.not_eq_true', decide_eq_false_iff_not, not_lt]
    exact le_total _ _) cur
  exact this.imp (fun h => by simpa using h)

theorem takeWhile_self {α : Type*} (p : α → Bool) (l : List α) (h : ∀ x ∈ l, p x = true) :
    l.takeWhile p = l := by
  induction l with
  | nil => rfl
  | cons a l ih =>
    rw [List.takeWhile_cons, if_pos (h a (by simp)), ih fun x hx => h x (List.mem_cons_of_mem _ hx)]

theorem kNearest_of_found {b : Box ℝ} {pts : List (Vec3 ℝ)} {it : NearIter} {R : ℝ}
    {cur sorted : List (Bond ℝ)} (hf : Found b pts it R cur) (hR : (R : WithTop ℝ) ≤ it.rMax)
    (hs : Bond.SortedBy lessDist cur sorted) :
    KNearest b pts it.qp it.qi it.k it.rMax it.rMin it.excludeII (it.emit sorted) ∧
    (it.emit sorted).length = min it.k cur.length ∧
    ((it.emit sorted).length < it.k → ∀ j d, Candidate b pts it.qp it.qi it.rMin it.excludeII j d →
      d < R → j ∈ (it.emit sorted).map (·.p)) := by
  have hlt : ∀ bd ∈ sorted, bd.dist < R := fun bd hbd => (hf.sound bd (hs.1.subset hbd)).2.2.2.2.2.1
  have he : it.emit sorted = sorted.take it.k := by
    unfold emit
    apply takeWhile_self
    intro bd hbd
    have := hlt bd (List.mem_of_mem_take hbd)
    rw [decide_eq_true_eq]
    exact (WithTop.coe_le_coe.mpr this.le).trans hR
  rw [he]
  have hsub : ∀ bd ∈ sorted.take it.k, bd ∈ cur := fun bd h => hs.1.subset (List.mem_of_mem_take h)
  have hcand : ∀ j d, Candidate b pts it.qp it.qi it.rMin it.excludeII j d → d < R →
      ∃ bd ∈ sorted, bd.p = j ∧ bd.dist = d := by
    rintro j d ⟨p, w, hp, hx, hn, rfl, hmin⟩ hd
    obtain ⟨bd, hbd, rfl⟩ := hf.complete j p w hp hx hn hmin hd
    refine ⟨bd, hs.1.symm.subset hbd, rfl, ?_⟩
    obtain ⟨-, -, e, -, -, -, p', hp', hn'⟩ := hf.sound bd hbd
    rw [hp] at hp'
    obtain rfl := Option.some.inj hp'
    rw [e]; exact nearestImage_norm hn' hn
  refine ⟨⟨List.length_take_le _ _, ?_, ?_, ?_, ?_⟩, ?_, ?_⟩
  · exact (lessDist_sorted hs).sublist ((List.take_sublist _ _).map _)
  · exact ((List.take_sublist _ _).map _).nodup ((hs.1.map _).nodup_iff.mpr hf.nodup)
  · intro bd hbd
    obtain ⟨h1, h2, h3, h4, h5, h6, p, hp, hn⟩ := hf.sound bd (hsub bd hbd)
    exact ⟨h1, h2, h3, (WithTop.coe_le_coe.mpr h6.le).trans hR,
      ⟨p, bd.vec, hp, h4, hn, h3, h5⟩, p, hp, hn⟩
  · intro j d hc hj bd hbd
    by_cases hd : d < R
    · obtain ⟨bd', hbd', rfl, rfl⟩ := hcand j d hc hd
      rw [← List.take_append_drop it.k sorted] at hbd'
      rcases List.mem_append.mp hbd' with h | h
      · exact absurd (List.mem_map_of_mem h) hj
      · have := lessDist_sorted hs
        rw [← List.take_append_drop it.k sorted, List.map_append, List.pairwise_append] at this
        exact this.2.2 _ (List.mem_map_of_mem hbd) _ (List.mem_map_of_mem h)
    · exact (hlt bd (List.mem_of_mem_take hbd)).le.trans (not_lt.mp hd)
  · rw [List.length_take, hs.1.length_eq]
  · intro hlen j d hc hd
    rw [List.length_take] at hlen
    have : sorted.take it.k = sorted := List.take_of_length_le (by omega)
    rw [this]
    obtain ⟨bd, hbd, rfl, -⟩ := hcand j d hc hd
    exact List.mem_map_of_mem hbd

theorem search_pos {it : NearIter} {r : ℝ} {ext : Bool} {cur : List (Bond ℝ)}
    (h : it.search r ext = some cur) : 0 < r ∧ 1 < it.scale := by
  rw [search] at h
  by_cases hc : 0 < r ∧ 1 < it.scale
  · exact hc
  · rw [dif_neg hc] at h; simp at h

/-- **C23**, what is true of every accepted query whose first radius is at most half of the
smallest nearest-plane distance (the default is): the result is a list of the nearest
neighbors, nearest first, each once, and no omitted point is nearer than a returned one. If fewer
than `k` are returned, all points nearer than some radius `rl` are, where one more multiplication
by `scale` takes `rl` to `r_max` or to the largest nearest-plane distance. Missing from the full
statement: that fewer than `k` neighbors are only returned when no more lie within `r_max`, which
is false (`C23_r_max_counterexample`, `C23_scale_counterexample`); larger first radii
(`C23_r_guess_counterexample`); boxes so tilted that the shortest image is more than one box away
(`C23_tilt_counterexample`). -/
theorem C23_nearest_partial (b : Box ℝ) (hb : Valid b) (pts : List (Vec3 ℝ)) (aq : AABBQuery)
    (haq : AABBQuery.new b pts = some aq) (hpts : ∀ p ∈ pts, InCell b p) (q : Vec3 ℝ)
    (hq : InCell b q) (hnear : NearestReachable b pts q) (qi k : ℕ) (rMax : WithTop ℝ)
    (rMin rGuess scale : ℝ) (hguess : rGuess ≤ minPlane b / 2) (excl : Bool)
    (out : List (Bond ℝ)) (h : aq.Nearest q qi k rMax rMin rGuess scale excl out) :
    KNearest b pts q qi k rMax rMin excl out ∧
    (out.length < k → ∃ rl, rGuess ≤ rl ∧
      (rMax ≤ ((rl * scale : ℝ) : WithTop ℝ) ∨ maxPlane b ≤ rl * scale) ∧
      ∀ j d, Candidate b pts q qi rMin excl j d → d < rl → (d : WithTop ℝ) < rMax →
        j ∈ out.map (·.p)) := by
  obtain ⟨h1, h2, h3, cur, sorted, hc, hsort, rfl⟩ := h
  obtain ⟨hr, hsc⟩ := search_pos hc
  obtain ⟨cur', rl, e, hle, hF, hD⟩ := search_spec (it := ⟨aq, q, qi, k, rMax, rMin, scale, excl⟩)
    ⟨hb, haq, hpts, hq, h1⟩ hnear hsc rGuess false hr (fun _ => hguess) (by simp)
  rw [hc] at e
  obtain rfl := Option.some.inj e
  obtain ⟨k1, k2, k3⟩ := kNearest_of_found hF (minTop_le_top _ _) hsort
  refine ⟨k1, fun hlt => ⟨rl, hle, ?_, ?_⟩⟩
  · rw [k2] at hlt
    rcases hD with hD | hD
    · simp only at hD hlt; omega
    · exact hD
  · intro j d hcd hd hdm
    refine k3 hlt j d hcd ?_
    simp only
    cases rMax with
    | top => exact hd
    | coe m => exact lt_min hd (WithTop.coe_lt_coe.mp hdm)

/-- **C23**: whenever `k` neighbors are returned they are the `k` nearest of all points, and the
query always ends. -/
theorem C23_returns (b : Box ℝ) (hb : Valid b) (pts : List (Vec3 ℝ)) (aq : AABBQuery)
    (haq : AABBQuery.new b pts = some aq) (hpts : ∀ p ∈ pts, InCell b p) (q : Vec3 ℝ)
    (hq : InCell b q) (hnear : NearestReachable b pts q) (qi k : ℕ) (rMax : WithTop ℝ)
    (rMin rGuess scale : ℝ) (hguess : rGuess ≤ minPlane b / 2) (excl : Bool)
    (hg : 0 < rGuess) (hsc : 1 < scale) (hmax : ¬ rMax ≤ ((0 : ℝ) : WithTop ℝ))
    (hmin : ¬ rMax ≤ (rMin : WithTop ℝ)) (hbox : BelowHalf b 0) :
    ∃ out, aq.Nearest q qi k rMax rMin rGuess scale excl out := by
  obtain ⟨cur, rl, e, -⟩ := search_spec (it := ⟨aq, q, qi, k, rMax, rMin, scale, excl⟩)
    ⟨hb, haq, hpts, hq, hmax⟩ hnear hsc rGuess false hg (fun _ => hguess) (by simp)
  have hsort := mergeSort_sorted cur
  refine ⟨_, hmax, hmin, ?_, cur, _, e, hsort, rfl⟩
  unfold updateImageVectors
  rw [new_box haq, (rMaxTooLarge_iff b 0).mpr hbox]
  rfl

/-- In an orthorhombic box the shortest image of a separation of two points in the box is at most
one box away. -/
theorem C23_orthorhombic_reachable (b : Box ℝ) (hxy : b.xy = 0) (hxz : b.xz = 0)
    (hyz : b.yz = 0) (pts : List (Vec3 ℝ)) (hpts : ∀ p ∈ pts, InCell b p) (q : Vec3 ℝ)
    (hq : InCell b q) : NearestReachable b pts q := by
  have key : ∀ (s t L : ℝ) (m : ℤ), 0 ≤ s → s ≤ 1 → 0 ≤ t → t ≤ 1 → ∃ n : ℤ, (m = 0 → n = 0) ∧
      (-1 ≤ n ∧ n ≤ 1) ∧ ((s - t) * L + n * L) * ((s - t) * L + n * L) ≤
        ((s - t) * L + m * L) * ((s - t) * L + m * L) := by
    intro s t L m s0 s1 t0 t1
    have hd : ∀ n m : ℤ, ((s - t) * L + m * L) * ((s - t) * L + m * L) -
        ((s - t) * L + n * L) * ((s - t) * L + n * L) =
        L * L * (((m : ℝ) - n) * (2 * (s - t) + m + n)) := by intro n m; ring
    have hL := mul_self_nonneg L
    rcases lt_trichotomy (-1) m with h | h | h
    · rcases lt_trichotomy m 1 with h' | h' | h'
      · exact ⟨m, fun h => h, by omega, le_rfl⟩
      · exact ⟨m, fun h => h, by omega, le_rfl⟩
      · refine ⟨1, by omega, by omega, ?_⟩
        have hm : (2 : ℝ) ≤ m := by exact_mod_cast h'
        have := hd 1 m
        have h3 : 0 ≤ ((m : ℝ) - (1 : ℤ)) * (2 * (s - t) + m + (1 : ℤ)) := by
          apply mul_nonneg <;> push_cast <;> linarith
        have := mul_nonneg hL h3
        linarith
    · exact ⟨m, fun h => h, by omega, le_rfl⟩
    · refine ⟨-1, by omega, by omega, ?_⟩
      have hm : (m : ℝ) ≤ -2 := by exact_mod_cast (by omega : m ≤ -2)
      have := hd (-1) m
      have h3 : 0 ≤ ((m : ℝ) - (-1 : ℤ)) * (2 * (s - t) + m + (-1 : ℤ)) := by
        apply mul_nonneg_of_nonpos_of_nonpos <;> push_cast <;> linarith
      have := mul_nonneg hL h3
      linarith
  rintro p hp w ⟨m, hm, rfl⟩
  obtain ⟨f, hf, fx, fy, fz⟩ := hpts p hp
  obtain ⟨g, hg, gx, gy, gz⟩ := hq
  obtain ⟨nx, x0, x1, x2⟩ := key f.x g.x b.L.x m.x fx.1 fx.2 gx.1 gx.2
  obtain ⟨ny, y0, y1, y2⟩ := key f.y g.y b.L.y m.y fy.1 fy.2 gy.1 gy.2
  obtain ⟨nz, z0, z1, z2⟩ := key f.z g.z b.L.z m.z fz.1 fz.2 gz.1 gz.2
  refine ⟨⟨nx, ny, nz⟩, ⟨fun h => x0 (hm.1 h), fun h => y0 (hm.2.1 h), fun h => z0 (hm.2.2 h)⟩,
    ⟨x1, y1, z1⟩, ?_⟩
  apply Real.sqrt_le_sqrt
  rw [hf.1, hg.1]
  simp only [Vec3.dot, comb, lattice, a1, a2, a3, hxy, hxz, hyz, Vec3.add_x, Vec3.add_y, Vec3.add_z,
    Vec3.sub_x, Vec3.sub_y, Vec3.sub_z]
  ring_nf at x2 y2 z2 ⊢
  linarith

/-- **C23** through the API: with the default `r_guess`, validation gives parameters to which
`C23_nearest_partial` applies, and a query with valid arguments returns. -/
theorem C23_query_partial (b : Box ℝ) (hb : Valid b) (pts : List (Vec3 ℝ)) (aq : AABBQuery)
    (haq : AABBQuery.new b pts = some aq) (hpts : ∀ p ∈ pts, InCell b p) (q : Vec3 ℝ)
    (hq : InCell b q) (hnear : NearestReachable b pts q) (qi : ℕ) (a : QueryArgs)
    (hg : a.rGuess = DEFAULT_R_GUESS) (out : List (Bond ℝ)) (h : aq.NearestQuery q qi a out) :
    KNearest b pts q qi a.numNeighbors (if a.rMax = DEFAULT_R_MAX then ⊤ else a.rMax) a.rMin
      a.excludeII out := by
  obtain ⟨a', hv, hm, h⟩ := h
  rw [new_box haq] at hv
  obtain ⟨h1, h2, h3, h4, h5⟩ : a'.numNeighbors = a.numNeighbors ∧
      a'.rMax = (if a.rMax = DEFAULT_R_MAX then ⊤ else a.rMax) ∧ a'.rMin = a.rMin ∧
      a'.excludeII = a.excludeII ∧ a'.rGuess ≤ minPlane b / 2 := by
    unfold validateAABB at hv
    obtain ⟨a1, hv1, hv2⟩ := Option.bind_eq_some_iff.mp hv
    have hmode : a1.mode = .nearest := by
      by_contra hne
      rw [if_neg hne] at hv2
      obtain rfl := Option.some.inj hv2
      exact hne hm
    rw [if_pos hmode] at hv2
    obtain ⟨m1, m2, m3, m4, m5⟩ : a1.numNeighbors = a.numNeighbors ∧
        a1.rMax = (if a.rMax = DEFAULT_R_MAX then ⊤ else a.rMax) ∧ a1.rMin = a.rMin ∧
        a1.excludeII = a.excludeII ∧ a1.rGuess = a.rGuess := by
      have hi : (inferMode a).numNeighbors = a.numNeighbors ∧ (inferMode a).rMax = a.rMax ∧
          (inferMode a).rMin = a.rMin ∧ (inferMode a).excludeII = a.excludeII ∧
          (inferMode a).rGuess = a.rGuess := by
        unfold inferMode
        split_ifs <;> exact ⟨rfl, rfl, rfl, rfl, rfl⟩
      obtain ⟨i1, i2, i3, i4, i5⟩ := hi
      unfold validateQueryArgs at hv1
      simp only at hv1
      cases hmd : (inferMode a).mode with
      | none => rw [hmd] at hv1; simp at hv1
      | ball =>
        rw [hmd] at hv1
        simp only at hv1
        split_ifs at hv1
        obtain rfl := Option.some.inj hv1
        rw [hmd] at hmode
        cases hmode
      | nearest =>
        rw [hmd] at hv1
        simp only [i2] at hv1
        split_ifs at hv1 with c1 c2
        · obtain rfl := Option.some.inj hv1
          exact ⟨i1, by rw [if_pos c2], i3, i4, i5⟩
        · obtain rfl := Option.some.inj hv1
          exact ⟨i1, by rw [if_neg c2]; exact i2, i3, i4, i5⟩
    unfold validateNearestNeighborArgs at hv2
    have hg' : a1.rGuess = DEFAULT_R_GUESS := by rw [m5, hg]
    by_cases c1 : a1.scale ≠ DEFAULT_SCALE ∧ a1.scale ≤ 1
    · rw [if_pos c1] at hv2; simp at hv2
    rw [if_neg c1] at hv2
    by_cases c2 : a1.scale = DEFAULT_SCALE
    · simp only [c2, if_true, hg'] at hv2
      obtain rfl := Option.some.inj hv2
      exact ⟨m1, m2, m3, m4, (minTop_le _ _).trans (min_le_right _ _)⟩
    · simp only [c2, if_false, hg', if_true] at hv2
      obtain rfl := Option.some.inj hv2
      exact ⟨m1, m2, m3, m4, (minTop_le _ _).trans (min_le_right _ _)⟩
  rw [h1, h2, h3, h4] at h
  exact (C23_nearest_partial b hb pts aq haq hpts q hq hnear qi _ _ _ _ _ h5 _ out h).1

/-! ### Counterexamples -/

theorem search_nil (it : NearIter) (r : ℝ) (ext : Bool) (hr : 0 < r) (hsc : 1 < it.scale)
    (hk : 0 < it.k) (h : it.ballAt r = some []) :
    it.search r ext = if maxPlane it.aq.box ≤ r * it.scale ∨
        it.rMax ≤ ((r * it.scale : ℝ) : WithTop ℝ) then some []
      else it.search (r * it.scale) (ext || decide (minPlane it.aq.box / 2 < r * it.scale)) := by
  rw [search, dif_pos ⟨hr, hsc⟩, h, Option.bind_some]
  have e1 : (if ext = true then ([] : List (Bond ℝ)) else
      [].filter (fun nb => decide (it.rMin ≤ nb.dist))) = [] := by split <;> rfl
  have e2 : (if ext = true then List.foldl (minStep it.rMin) (fun _ => none, ∅) []
      else ((fun _ => none, ∅) : MinState)) = (fun _ => none, ∅) := by split <;> rfl
  simp only [e2]
  rw [e1]
  have e3 : mapBonds it.aq.pts.length (fun _ => none) = [] := by simp [mapBonds]
  rw [e3]
  rw [if_neg (by rw [List.length_nil]; omega)]
  by_cases h1 : maxPlane it.aq.box ≤ r * it.scale
  · rw [dif_pos h1, if_pos (Or.inl h1)]; rfl
  · rw [dif_neg h1]
    by_cases h2 : it.rMax ≤ ((r * it.scale : ℝ) : WithTop ℝ)
    · rw [if_pos (Or.inl h2), if_pos (Or.inr h2)]; rfl
    · rw [if_neg (not_or.mpr ⟨h2, by rw [List.length_nil]; omega⟩), if_neg (not_or.mpr ⟨h1, h2⟩)]

theorem cube_planes : minPlane (Box.mk' 10 10 10 0 0 0 false : Box ℝ) = 10 ∧
    maxPlane (Box.mk' 10 10 10 0 0 0 false : Box ℝ) = 10 := by
  simp [minPlane, maxPlane, Box.getNearestPlaneDistance, Box.mk', Box.setL]

theorem cube_new (pts : List (Vec3 ℝ)) (h : pts ≠ []) : ∃ aq,
    AABBQuery.new (Box.mk' 10 10 10 0 0 0 false) pts = some aq := by
  obtain ⟨nodes, hn, -⟩ := C21_every_point_once
    (pts.map (flatten (Box.mk' 10 10 10 0 0 0 false : Box ℝ)))
  refine ⟨⟨Box.mk' 10 10 10 0 0 0 false, pts, nodes⟩, ?_⟩
  unfold AABBQuery.new
  rw [if_neg h, if_neg (by simp [Box.mk', Box.setL]), hn]
  rfl

theorem cube_copy (q p : Vec3 ℝ) (n : Vec3 ℤ) :
    copyVec (Box.mk' 10 10 10 0 0 0 false) q p n =
      ⟨p.x - q.x + 10 * n.x, p.y - q.y + 10 * n.y, p.z - q.z + 10 * n.z⟩ := by
  ext <;> simp [copyVec, lattice, comb, a1, a2, a3, Box.mk', Box.setL] <;> ring

/-- The searched copies of the second of two points, when the first is excluded. -/
theorem cube_ballAt_nil (p : Vec3 ℝ) (aq : AABBQuery) (k : ℕ) (rMax : WithTop ℝ) (scale r : ℝ)
    (haq : AABBQuery.new (Box.mk' 10 10 10 0 0 0 false) [⟨0, 0, 0⟩, p] = some aq)
    (hp : InCell (Box.mk' 10 10 10 0 0 0 false) p)
    (hmax : ¬ rMax ≤ ((0 : ℝ) : WithTop ℝ)) (hr : 0 < r)
    (hfar : ∀ n : Vec3 ℤ, r ≤ Vec3.norm (⟨p.x + 10 * n.x, p.y + 10 * n.y, p.z + 10 * n.z⟩ : Vec3 ℝ)) :
    Setting (Box.mk' 10 10 10 0 0 0 false) [⟨0, 0, 0⟩, p]
      ⟨aq, ⟨0, 0, 0⟩, 0, k, rMax, 0, scale, true⟩ ∧
    NearIter.ballAt ⟨aq, ⟨0, 0, 0⟩, 0, k, rMax, 0, scale, true⟩ r = some [] := by
  have hs : Setting (Box.mk' 10 10 10 0 0 0 false) [⟨0, 0, 0⟩, p]
      ⟨aq, ⟨0, 0, 0⟩, 0, k, rMax, 0, scale, true⟩ := by
    refine ⟨cube_valid, haq, ?_, cube_inCell (by simp) (by simp) (by simp), hmax⟩
    intro x hx
    simp only [List.mem_cons, List.not_mem_nil, or_false] at hx
    rcases hx with rfl | rfl
    · exact cube_inCell (by simp) (by simp) (by simp)
    · exact hp
  refine ⟨hs, ?_⟩
  obtain ⟨ims, -, hb⟩ := ballAt_some ⟨aq, ⟨0, 0, 0⟩, 0, k, rMax, 0, scale, true⟩ r
    (minTop_pos hr hmax)
  rw [hb]
  congr 1
  rw [List.eq_nil_iff_forall_not_mem]
  intro bd hbd
  obtain ⟨-, -, -, g4, g5, x, n, gp, -, gv⟩ := (mem_ballAt hs hr hb bd).mp hbd
  have h0 := g4 rfl
  simp only at h0 g5 gv
  have hx : x = p := by
    match hj : bd.p, gp with
    | 0, _ => exact absurd hj h0
    | 1, gp => exact (Option.some.inj gp).symm
    | n + 2, gp => simp at gp
  rw [hx, cube_copy] at gv
  have := hfar n
  simp only [sub_zero] at gv
  rw [← gv] at this
  linarith [minTop_le r rMax]

theorem far_of_coord {u v w r : ℝ} (hr : 0 ≤ r) (h : r * r ≤ u * u + v * v + w * w) :
    r ≤ Vec3.norm ⟨u, v, w⟩ := (le_norm_iff _ _ hr).mpr h

theorem cube_candidate (p : Vec3 ℝ) (hx : |p.x| ≤ 5) (hy : |p.y| ≤ 5) (hz : |p.z| ≤ 5) :
    Candidate (Box.mk' 10 10 10 0 0 0 false) [⟨0, 0, 0⟩, p] ⟨0, 0, 0⟩ 0 0 true 1 (Vec3.norm p) := by
  refine ⟨p, p, rfl, by simp, ⟨⟨⟨0, 0, 0⟩, ⟨by simp, by simp, by simp⟩, ?_⟩, ?_⟩, rfl,
    norm_nonneg' _⟩
  · ext <;> simp [lattice, comb]
  · rintro w ⟨n, -, rfl⟩
    apply Real.sqrt_le_sqrt
    have key : ∀ (u : ℝ) (m : ℤ), |u| ≤ 5 → u * u ≤ (u + m * 10) * (u + m * 10) := by
      intro u m hu
      rw [abs_le] at hu
      rcases lt_trichotomy m 0 with h | h | h
      · have : (m : ℝ) ≤ -1 := by exact_mod_cast (by omega : m ≤ -1)
        nlinarith
      · rw [h]; simp
      · have : (1 : ℝ) ≤ m := by exact_mod_cast h
        nlinarith
    have e1 := key p.x n.x hx
    have e2 := key p.y n.y hy
    have e3 := key p.z n.z hz
    simp only [Vec3.dot, lattice, comb, a1, a2, a3, Box.mk', Box.setL, Vec3.add_x, Vec3.add_y,
      Vec3.add_z, Vec3.sub_x, Vec3.sub_y, Vec3.sub_z, Bool.false_eq_true, if_false]
    ring_nf at e1 e2 e3 ⊢
    linarith

/-- **C23 fails with `r_max`**: in a cube of side 10, one neighbor within 1.05 is asked for, there
is one at 1.02, and nothing is returned, because after the first radius 1 the next one, 1.1, is
beyond `r_max` and the search stops without trying 1.05. -/
theorem C23_r_max_counterexample : ∃ aq : AABBQuery,
    AABBQuery.new (Box.mk' 10 10 10 0 0 0 false) [⟨0, 0, 0⟩, ⟨51 / 50, 0, 0⟩] = some aq ∧
    aq.Nearest ⟨0, 0, 0⟩ 0 1 ((21 / 20 : ℝ) : WithTop ℝ) 0 1 (11 / 10) true [] ∧
    Candidate (Box.mk' 10 10 10 0 0 0 false) [⟨0, 0, 0⟩, ⟨51 / 50, 0, 0⟩] ⟨0, 0, 0⟩ 0 0 true 1
      (51 / 50) := by
  obtain ⟨aq, haq⟩ := cube_new [⟨0, 0, 0⟩, ⟨51 / 50, 0, 0⟩] (by simp)
  have hmax : ¬ ((21 / 20 : ℝ) : WithTop ℝ) ≤ ((0 : ℝ) : WithTop ℝ) := by
    rw [WithTop.coe_le_coe]; norm_num
  obtain ⟨-, hball⟩ := cube_ballAt_nil ⟨51 / 50, 0, 0⟩ aq 1 _ (11 / 10) 1 haq
    (cube_inCell (by norm_num [abs_le]) (by simp) (by simp)) hmax one_pos (by
      intro n
      apply far_of_coord (by norm_num)
      have : (1 : ℝ) ≤ (51 / 50 + 10 * (n.x : ℝ)) * (51 / 50 + 10 * n.x) := by
        rcases lt_trichotomy n.x 0 with h | h | h
        · have : (n.x : ℝ) ≤ -1 := by exact_mod_cast (by omega : n.x ≤ -1)
          nlinarith
        · rw [h]; norm_num
        · have : (1 : ℝ) ≤ n.x := by exact_mod_cast h
          nlinarith
      nlinarith [mul_self_nonneg (0 + 10 * (n.y : ℝ)), mul_self_nonneg (0 + 10 * (n.z : ℝ))])
  refine ⟨aq, haq, ⟨hmax, hmax, ?_, [], [], ?_, ⟨List.Perm.refl _, List.Pairwise.nil⟩, rfl⟩, ?_⟩
  · unfold updateImageVectors
    rw [new_box haq, (rMaxTooLarge_iff _ 0).mpr (cube_half (by norm_num))]
    rfl
  · rw [search_nil _ 1 false one_pos (by norm_num) one_pos hball, if_pos]
    right; rw [WithTop.coe_le_coe]; norm_num
  · have := cube_candidate ⟨51 / 50, 0, 0⟩ (by norm_num [abs_le]) (by simp) (by simp)
    have e : Vec3.norm (⟨51 / 50, 0, 0⟩ : Vec3 ℝ) = 51 / 50 := by
      rw [Vec3.norm, Vec3.dot]
      rw [show (51 / 50 * (51 / 50) + 0 * 0 + 0 * 0 : ℝ) = (51 / 50) ^ 2 by norm_num]
      exact Real.sqrt_sq (by norm_num)
    rwa [e] at this

/-- **C23 fails without `r_max` for large `scale`**: in a cube of side 10 with a neighbor at
`(4.9, 4.9, 0)`, the radii 3 and 6 find nothing, and the next radius, 12, exceeds the side of the
box, so the query for one neighbor returns nothing. -/
theorem C23_scale_counterexample : ∃ aq : AABBQuery,
    AABBQuery.new (Box.mk' 10 10 10 0 0 0 false) [⟨0, 0, 0⟩, ⟨49 / 10, 49 / 10, 0⟩] = some aq ∧
    aq.Nearest ⟨0, 0, 0⟩ 0 1 ⊤ 0 3 2 true [] ∧
    ∃ d, Candidate (Box.mk' 10 10 10 0 0 0 false) [⟨0, 0, 0⟩, ⟨49 / 10, 49 / 10, 0⟩] ⟨0, 0, 0⟩ 0 0
      true 1 d := by
  obtain ⟨aq, haq⟩ := cube_new [⟨0, 0, 0⟩, ⟨49 / 10, 49 / 10, 0⟩] (by simp)
  have hmax : ¬ (⊤ : WithTop ℝ) ≤ ((0 : ℝ) : WithTop ℝ) := by simp
  have hfar : ∀ n : Vec3 ℤ, (6 : ℝ) ≤
      Vec3.norm ⟨49 / 10 + 10 * n.x, 49 / 10 + 10 * n.y, 0 + 10 * n.z⟩ := by
    intro n
    apply far_of_coord (by norm_num)
    have key : ∀ m : ℤ, (24 : ℝ) ≤ (49 / 10 + 10 * (m : ℝ)) * (49 / 10 + 10 * m) := by
      intro m
      rcases lt_trichotomy m 0 with h | h | h
      · have : (m : ℝ) ≤ -1 := by exact_mod_cast (by omega : m ≤ -1)
        nlinarith
      · rw [h]; norm_num
      · have : (1 : ℝ) ≤ m := by exact_mod_cast h
        nlinarith
    nlinarith [key n.x, key n.y, mul_self_nonneg (0 + 10 * (n.z : ℝ))]
  have hin : InCell (Box.mk' 10 10 10 0 0 0 false : Box ℝ) ⟨49 / 10, 49 / 10, 0⟩ :=
    cube_inCell (by norm_num [abs_le]) (by norm_num [abs_le]) (by simp)
  obtain ⟨-, hball3⟩ := cube_ballAt_nil ⟨49 / 10, 49 / 10, 0⟩ aq 1 ⊤ 2 3 haq hin hmax (by norm_num)
    (fun n => le_trans (by norm_num) (hfar n))
  obtain ⟨-, hball6⟩ := cube_ballAt_nil ⟨49 / 10, 49 / 10, 0⟩ aq 1 ⊤ 2 6 haq hin hmax (by norm_num)
    hfar
  refine ⟨aq, haq, ⟨hmax, by simp, ?_, [], [], ?_, ⟨List.Perm.refl _, List.Pairwise.nil⟩, rfl⟩,
    _, cube_candidate _ (by norm_num [abs_le]) (by norm_num [abs_le]) (by simp)⟩
  · unfold updateImageVectors
    rw [new_box haq, (rMaxTooLarge_iff _ 0).mpr (cube_half (by norm_num))]
    rfl
  · rw [search_nil _ 3 false (by norm_num) (by norm_num) one_pos hball3, if_neg
      (by rw [new_box haq, cube_planes.2]; norm_num)]
    simp only
    rw [show (3 : ℝ) * 2 = 6 by norm_num,
      search_nil _ 6 _ (by norm_num) (by norm_num) one_pos hball6, if_pos]
    left
    rw [new_box haq, cube_planes.2]; norm_num

/-- **C23 fails for a large `r_guess`**: the first ball query is not checked for repeated points
even if its radius exceeds half of the box. In a cube of side 10 with a single point, asking for two
neighbors with `r_guess = 11` returns the same point twice. -/
theorem C23_r_guess_counterexample : ∃ aq : AABBQuery,
    AABBQuery.new (Box.mk' 10 10 10 0 0 0 false) [⟨0, 0, 0⟩] = some aq ∧
    (∃ out, aq.Nearest ⟨0, 0, 0⟩ 0 2 ⊤ 0 11 (11 / 10) false out) ∧
    ∀ out, aq.Nearest ⟨0, 0, 0⟩ 0 2 ⊤ 0 11 (11 / 10) false out → out.map (·.p) = [0, 0] := by
  obtain ⟨aq, haq⟩ := cube_new [⟨0, 0, 0⟩] (by simp)
  have hmax : ¬ (⊤ : WithTop ℝ) ≤ ((0 : ℝ) : WithTop ℝ) := by simp
  have hin : InCell (Box.mk' 10 10 10 0 0 0 false : Box ℝ) ⟨0, 0, 0⟩ :=
    cube_inCell (by simp) (by simp) (by simp)
  have hs : Setting (Box.mk' 10 10 10 0 0 0 false) [⟨0, 0, 0⟩]
      ⟨aq, ⟨0, 0, 0⟩, 0, 2, ⊤, 0, 11 / 10, false⟩ :=
    ⟨cube_valid, haq, by simpa using hin, hin, hmax⟩
  obtain ⟨ims, -, hb⟩ := ballAt_some ⟨aq, ⟨0, 0, 0⟩, 0, 2, ⊤, 0, 11 / 10, false⟩ 11
    (minTop_pos (by norm_num) hmax)
  generalize List.map _ _ = bonds at hb
  have hmem := mem_ballAt hs (by norm_num) hb
  have h0 : (⟨0, 0, Vec3.norm ⟨0, 0, 0⟩, 1, ⟨0, 0, 0⟩⟩ : Bond ℝ) ∈ bonds := by
    refine (hmem _).mpr ⟨rfl, rfl, rfl, by simp, ?_, ⟨0, 0, 0⟩, ⟨0, 0, 0⟩, rfl,
      ⟨⟨by simp, by simp, by simp⟩, by simp⟩, ?_⟩
    · simp [minTop, Vec3.norm, Vec3.dot]
    · rw [cube_copy]; simp
  have h1 : (⟨0, 0, Vec3.norm ⟨10, 0, 0⟩, 1, ⟨10, 0, 0⟩⟩ : Bond ℝ) ∈ bonds := by
    refine (hmem _).mpr ⟨rfl, rfl, rfl, by simp, ?_, ⟨0, 0, 0⟩, ⟨1, 0, 0⟩, rfl,
      ⟨⟨by simp [Box.mk', Box.setL], by simp, by simp⟩, by simp⟩, ?_⟩
    · simp [minTop, Vec3.norm, Vec3.dot]; norm_num
    · rw [cube_copy]; simp
  have hall : bonds.filter (fun nb => decide ((0 : ℝ) ≤ nb.dist)) = bonds := by
    rw [List.filter_eq_self]
    intro bd hbd
    rw [((hmem bd).mp hbd).2.2.1]
    simpa using norm_nonneg' _
  have hlen : 2 ≤ bonds.length := by
    match bonds, h0, h1 with
    | [], h0, _ => simp at h0
    | [x], h0, h1 =>
      simp only [List.mem_singleton] at h0 h1
      rw [← h0] at h1
      simp at h1
    | _ :: _ :: _, _, _ => simp
  have hsearch : NearIter.search ⟨aq, ⟨0, 0, 0⟩, 0, 2, ⊤, 0, 11 / 10, false⟩ 11 false =
      some bonds := by
    rw [search, dif_pos ⟨by norm_num, by norm_num⟩, hb, Option.bind_some]
    simp only [Bool.false_eq_true, if_false]
    rw [hall, if_pos hlen]
  refine ⟨aq, haq, ⟨_, hmax, by simp, ?_, bonds, _, hsearch, mergeSort_sorted bonds, rfl⟩, ?_⟩
  · unfold updateImageVectors
    rw [new_box haq, (rMaxTooLarge_iff _ 0).mpr (cube_half (by norm_num))]
    rfl
  · rintro out ⟨-, -, -, cur, sorted, e, hsort, rfl⟩
    rw [hsearch] at e
    obtain rfl := Option.some.inj e
    have hl : 2 ≤ sorted.length := by rw [hsort.1.length_eq]; exact hlen
    have hp0 : ∀ bd ∈ sorted, bd.p = 0 := by
      intro bd hbd
      obtain ⟨-, -, -, -, -, p, n, gp, -⟩ := (hmem bd).mp (hsort.1.subset hbd)
      have := (List.getElem?_eq_some_iff.mp gp).1
      simpa using this
    have he : NearIter.emit ⟨aq, ⟨0, 0, 0⟩, 0, 2, ⊤, 0, 11 / 10, false⟩ sorted =
        sorted.take 2 := by
      unfold emit
      exact takeWhile_self _ _ (fun x _ => by simp)
    rw [he]
    match sorted, hl, hp0 with
    | x :: y :: l, _, hp0 => simp [hp0 x (by simp), hp0 y (by simp)]

/-- **C23 fails in strongly tilted boxes**: in the 2D box with sides 10 and tilt 4, the copy of the
point `(18, 4.5)` nearest to the origin is at `(-2, 4.5)`, two boxes away. Only copies one box away
are searched, and the query returns a bond of length above 8. -/
theorem C23_tilt_counterexample : ∃ aq : AABBQuery,
    AABBQuery.new (Box.mk' 10 10 0 4 0 0 true) [⟨0, 0, 0⟩, ⟨18, 9 / 2, 0⟩] = some aq ∧
    ∃ bd, aq.Nearest ⟨0, 0, 0⟩ 0 1 ⊤ 0 1 (19 / 2) true [bd] ∧ bd.p = 1 ∧ 8 ≤ bd.dist ∧
    IsImage (Box.mk' 10 10 0 4 0 0 true) (⟨18, 9 / 2, 0⟩ - ⟨0, 0, 0⟩) ⟨-2, 9 / 2, 0⟩ ∧
    Vec3.norm (⟨-2, 9 / 2, 0⟩ : Vec3 ℝ) < 5 := by
  have hvalid : Valid (Box.mk' 10 10 0 4 0 0 true : Box ℝ) := by
    constructor <;> simp [Box.mk', Box.setL]
  obtain ⟨nodes, hn, -⟩ := C21_every_point_once
    ([(⟨0, 0, 0⟩ : Vec3 ℝ), ⟨18, 9 / 2, 0⟩].map (flatten (Box.mk' 10 10 0 4 0 0 true : Box ℝ)))
  have haq : AABBQuery.new (Box.mk' 10 10 0 4 0 0 true) [⟨0, 0, 0⟩, ⟨18, 9 / 2, 0⟩] =
      some ⟨Box.mk' 10 10 0 4 0 0 true, [⟨0, 0, 0⟩, ⟨18, 9 / 2, 0⟩], nodes⟩ := by
    unfold AABBQuery.new
    rw [if_neg (by simp), if_neg (by simp), hn]
    rfl
  generalize hA : (⟨Box.mk' 10 10 0 4 0 0 true, [⟨0, 0, 0⟩, ⟨18, 9 / 2, 0⟩], nodes⟩ : AABBQuery) = aq
    at haq
  have hmax : ¬ (⊤ : WithTop ℝ) ≤ ((0 : ℝ) : WithTop ℝ) := by simp
  have hin0 : InCell (Box.mk' 10 10 0 4 0 0 true : Box ℝ) ⟨0, 0, 0⟩ := by
    refine ⟨⟨1 / 2, 1 / 2, 0⟩, ⟨?_, by simp⟩, by norm_num, by norm_num, by norm_num⟩
    ext <;> simp [comb, a1, a2, a3, Box.mk', Box.setL]
  have hin1 : InCell (Box.mk' 10 10 0 4 0 0 true : Box ℝ) ⟨18, 9 / 2, 0⟩ := by
    refine ⟨⟨1 / 2, 19 / 20, 0⟩, ⟨?_, by simp⟩, by norm_num, by norm_num, by norm_num⟩
    ext <;> simp [comb, a1, a2, a3, Box.mk', Box.setL] <;> norm_num
  have hs : Setting (Box.mk' 10 10 0 4 0 0 true) [⟨0, 0, 0⟩, ⟨18, 9 / 2, 0⟩]
      ⟨aq, ⟨0, 0, 0⟩, 0, 1, ⊤, 0, 19 / 2, true⟩ := by
    refine ⟨hvalid, haq, ?_, hin0, hmax⟩
    intro x hx
    simp only [List.mem_cons, List.not_mem_nil, or_false] at hx
    rcases hx with rfl | rfl
    · exact hin0
    · exact hin1
  have hcopy : ∀ n : Vec3 ℤ, copyVec (Box.mk' 10 10 0 4 0 0 true) ⟨0, 0, 0⟩ ⟨18, 9 / 2, 0⟩ n =
      ⟨18 + 10 * n.x + 40 * n.y, 9 / 2 + 10 * n.y, 0⟩ := by
    intro n
    ext <;> simp [copyVec, lattice, comb, a1, a2, a3, Box.mk', Box.setL] <;> ring
  have hfar : ∀ n : Vec3 ℤ, Searched (Box.mk' 10 10 0 4 0 0 true : Box ℝ) n →
      8 ≤ Vec3.norm (⟨18 + 10 * n.x + 40 * n.y, 9 / 2 + 10 * n.y, 0⟩ : Vec3 ℝ) := by
    rintro ⟨nx, ny, nz⟩ ⟨-, h1, h2, -⟩
    simp only at h1 h2
    apply far_of_coord (by norm_num)
    have hx : (64 : ℝ) ≤ (18 + 10 * (nx : ℝ) + 40 * ny) * (18 + 10 * (nx : ℝ) + 40 * ny) := by
      have hx' : nx = -1 ∨ nx = 0 ∨ nx = 1 := by omega
      have hy' : ny = -1 ∨ ny = 0 ∨ ny = 1 := by omega
      rcases hx' with rfl | rfl | rfl <;> rcases hy' with rfl | rfl | rfl <;> norm_num
    nlinarith [mul_self_nonneg (9 / 2 + 10 * (ny : ℝ))]
  have hidx : ∀ r : ℝ, 0 < r → ∀ bonds, NearIter.ballAt ⟨aq, ⟨0, 0, 0⟩, 0, 1, ⊤, 0, 19 / 2, true⟩ r =
      some bonds → ∀ bd ∈ bonds, bd.p = 1 ∧ 8 ≤ bd.dist ∧ bd.dist < r := by
    intro r hr bonds hb bd hbd
    obtain ⟨-, -, g3, g4, g5, x, n, gp, hn, gv⟩ := (mem_ballAt hs hr hb bd).mp hbd
    have h0 := g4 rfl
    simp only at h0 g5 gv
    have hj : bd.p = 1 := by
      have := (List.getElem?_eq_some_iff.mp gp).1
      simp only [List.length_cons, List.length_nil] at this
      omega
    rw [hj] at gp
    obtain rfl := Option.some.inj gp
    rw [hcopy] at gv
    rw [g3]
    exact ⟨hj, by rw [gv]; exact hfar n hn, g5⟩
  have hball1 : NearIter.ballAt ⟨aq, ⟨0, 0, 0⟩, 0, 1, ⊤, 0, 19 / 2, true⟩ 1 = some [] := by
    obtain ⟨ims, -, hb⟩ := ballAt_some ⟨aq, ⟨0, 0, 0⟩, 0, 1, ⊤, 0, 19 / 2, true⟩ 1
      (minTop_pos one_pos hmax)
    rw [hb]
    congr 1
    rw [List.eq_nil_iff_forall_not_mem]
    intro bd hbd
    have := hidx 1 one_pos _ hb bd hbd
    linarith [this.2.1, this.2.2]
  obtain ⟨ims, -, hb⟩ := ballAt_some ⟨aq, ⟨0, 0, 0⟩, 0, 1, ⊤, 0, 19 / 2, true⟩ (19 / 2)
    (minTop_pos (by norm_num) hmax)
  generalize List.map _ _ = bonds at hb
  have hmem : (⟨0, 1, Vec3.norm ⟨8, 9 / 2, 0⟩, 1, ⟨8, 9 / 2, 0⟩⟩ : Bond ℝ) ∈ bonds := by
    refine (mem_ballAt hs (by norm_num) hb _).mpr ⟨rfl, rfl, rfl, by simp, ?_, ⟨18, 9 / 2, 0⟩,
      ⟨-1, 0, 0⟩, rfl, ⟨⟨by simp [Box.mk', Box.setL], by simp, by simp⟩, by simp⟩, ?_⟩
    · simp only [minTop]
      rw [norm_lt_iff _ _ (by norm_num)]
      norm_num [Vec3.dot]
    · rw [hcopy]; norm_num
  have hinv := minInv_foldl 0 bonds
  generalize hS : bonds.foldl (minStep 0) (fun _ => none, ∅) = S at hinv
  have hS0 : S.1 0 = none := (hinv.none_iff 0).mpr fun bd hbd => by
    have := (hidx _ (by norm_num) _ hb bd hbd).1
    omega
  cases hS1 : S.1 1 with
  | none => exact absurd rfl ((hinv.none_iff 1).mp hS1 _ hmem)
  | some bd =>
  have hbd := (hinv.some_spec 1 bd hS1).1
  obtain ⟨b1, b2, b3⟩ := hidx _ (by norm_num) _ hb bd hbd
  have hbelow : S.2 = ∅ := by
    rw [Finset.eq_empty_iff_forall_notMem]
    intro j hj
    obtain ⟨bd', h1, h2⟩ := (hinv.below j).mp hj
    have := (hidx _ (by norm_num) _ hb bd' (hinv.some_spec j bd' h1).1).2.1
    linarith
  have hpts : aq.pts = [⟨0, 0, 0⟩, ⟨18, 9 / 2, 0⟩] := by rw [← hA]
  have hplane : maxPlane aq.box = 10 ∧ minPlane aq.box / 2 < 19 / 2 := by
    rw [new_box haq]
    have h17 : (1 : ℝ) ≤ Real.sqrt (1 + 4 * 4) := by rw [Real.one_le_sqrt]; norm_num
    have h10 : 10 / Real.sqrt (1 + 4 * 4) ≤ 10 := div_le_self (by norm_num) h17
    simp only [maxPlane, minPlane, Box.getNearestPlaneDistance, Box.mk', Box.setL, if_true,
      mul_zero, sub_zero, add_zero, Real.sqrt_one, div_one]
    exact ⟨max_eq_right h10, by rw [min_eq_left h10]; linarith⟩
  have hsearch : NearIter.search ⟨aq, ⟨0, 0, 0⟩, 0, 1, ⊤, 0, 19 / 2, true⟩ 1 false = some [bd] := by
    rw [search_nil _ 1 false one_pos (by norm_num) one_pos hball1, if_neg (by
      rw [hplane.1]; norm_num)]
    simp only [one_mul, hplane.2, decide_true, Bool.or_true]
    rw [search, dif_pos ⟨by norm_num, by norm_num⟩, hb, Option.bind_some]
    simp only [if_true, hS, hpts]
    have hall : mapBonds [(⟨0, 0, 0⟩ : Vec3 ℝ), ⟨18, 9 / 2, 0⟩].length S.1 = [bd] := by
      simp [mapBonds, List.range_succ, hS0, hS1]
    have hfil : [bd].filter (fun nb : Bond ℝ => decide ((0 : ℝ) ≤ nb.dist)) = [bd] := by
      rw [List.filter_eq_self]
      intro x hx
      rw [List.mem_singleton.mp hx, decide_eq_true_eq]
      linarith
    rw [hall, hbelow, if_neg (by simp), dif_pos (by rw [hplane.1]; norm_num), hfil]
    rfl
  refine ⟨aq, haq, bd, ⟨hmax, by simp, ?_, [bd], [bd], hsearch,
    ⟨List.Perm.refl _, List.pairwise_singleton _ _⟩, ?_⟩, b1, b2, ⟨⟨-2, 0, 0⟩, ⟨?_, ?_, ?_⟩, ?_⟩, ?_⟩
  · unfold updateImageVectors
    rw [new_box haq, (rMaxTooLarge_iff _ 0).mpr]
    · rfl
    · refine ⟨fun _ => ?_, fun _ => ?_, fun _ h => ?_⟩
      · simp only [Box.mk', Box.setL, Box.getNearestPlaneDistance, if_true, mul_zero]; positivity
      · simp only [Box.mk', Box.setL, Box.getNearestPlaneDistance, if_true, mul_zero]; positivity
      · simp [Box.mk', Box.setL] at h
  · simp [emit]
  · simp [Box.mk', Box.setL]
  · simp
  · simp
  · ext <;> simp [lattice, comb, a1, a2, a3, Box.mk', Box.setL] <;> norm_num
  · rw [norm_lt_iff _ _ (by norm_num)]
    norm_num [Vec3.dot]

-- the hypotheses of `C23_nearest_partial` and `C23_returns` are met by a cube with two points
example : ∃ (aq : AABBQuery) (out : List (Bond ℝ)),
    AABBQuery.new (Box.mk' 10 10 10 0 0 0 false) [⟨0, 0, 0⟩, ⟨1, 0, 0⟩] = some aq ∧
    NearestReachable (Box.mk' 10 10 10 0 0 0 false) [⟨0, 0, 0⟩, ⟨1, 0, 0⟩] ⟨0, 0, 0⟩ ∧
    (2 : ℝ) ≤ minPlane (Box.mk' 10 10 10 0 0 0 false) / 2 ∧
    aq.Nearest ⟨0, 0, 0⟩ 0 1 ⊤ 0 2 (11 / 10) true out := by
  obtain ⟨aq, haq⟩ := cube_new [⟨0, 0, 0⟩, ⟨1, 0, 0⟩] (by simp)
  have hin : ∀ p ∈ [(⟨0, 0, 0⟩ : Vec3 ℝ), ⟨1, 0, 0⟩],
      InCell (Box.mk' 10 10 10 0 0 0 false : Box ℝ) p := by
    intro p hp
    simp only [List.mem_cons, List.not_mem_nil, or_false] at hp
    rcases hp with rfl | rfl <;> apply cube_inCell <;> norm_num
  have hnear := C23_orthorhombic_reachable (Box.mk' 10 10 10 0 0 0 false) rfl rfl rfl _ hin
    ⟨0, 0, 0⟩ (hin _ (by simp))
  have hg : (2 : ℝ) ≤ minPlane (Box.mk' 10 10 10 0 0 0 false) / 2 := by
    rw [cube_planes.1]; norm_num
  obtain ⟨out, h⟩ := C23_returns _ cube_valid _ aq haq hin ⟨0, 0, 0⟩ (hin _ (by simp)) hnear 0 1 ⊤ 0
    2 (11 / 10) hg true (by norm_num) (by norm_num) (by simp) (by simp) (cube_half (by norm_num))
  exact ⟨aq, out, haq, hnear, hg, h⟩

end Freud
