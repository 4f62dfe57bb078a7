import Verif.Props.ClusterProps

/-!
# Property C119: the shape tensors of a cluster are consistent
-/

set_option linter.unusedSectionVars false

namespace Freud
open Spec ClusterProps

/-- `v · (t v)`. -/
def Spec.quad (t : Mat) (v : Vec3 ℝ) : ℝ := v.dot ⟨t.x.dot v, t.y.dot v, t.z.dot v⟩

/-- The matrix is its own transpose. -/
def Spec.Symmetric (t : Mat) : Prop := t.x.y = t.y.x ∧ t.x.z = t.z.x ∧ t.y.z = t.z.y

/-- The trace. -/
def Spec.trace (t : Mat) : ℝ := t.x.x + t.y.y + t.z.z

/-- A cross product. -/
def Spec.cross (a b : Vec3 ℝ) : Vec3 ℝ := ⟨a.y * b.z - a.z * b.y, a.z * b.x - a.x * b.z, a.x * b.y - a.y * b.x⟩

/-- The displacement of a point from a center, as the analysis sees it. -/
noncomputable def Spec.displacement (b : Box ℝ) (center : Vec3 ℝ) (e : Entry) : Vec3 ℝ := b.wrap (e.pos - center)

theorem quad_sum (l : List Mat) (v : Vec3 ℝ) : quad l.sum v = (l.map fun t => quad t v).sum := by
  induction l with
  | nil => simp [quad, Vec3.dot]
  | cons t l ih =>
    rw [List.sum_cons, List.map_cons, List.sum_cons, ← ih]
    simp only [quad, Vec3.dot, Vec3.add_x, Vec3.add_y, Vec3.add_z]
    ring

theorem symmetric_sum {l : List Mat} (h : ∀ t ∈ l, Symmetric t) : Symmetric l.sum := by
  induction l with
  | nil => exact ⟨rfl, rfl, rfl⟩
  | cons t l ih =>
    obtain ⟨a1, a2, a3⟩ := ih fun t ht => h t (List.mem_cons_of_mem _ ht)
    obtain ⟨b1, b2, b3⟩ := h t List.mem_cons_self
    rw [List.sum_cons]
    refine ⟨?_, ?_, ?_⟩ <;> simp only [Vec3.add_x, Vec3.add_y, Vec3.add_z]
    · rw [a1, b1]
    · rw [a2, b2]
    · rw [a3, b3]

theorem trace_sum (l : List Mat) : trace l.sum = (l.map trace).sum := by
  induction l with
  | nil => simp [trace]
  | cons t l ih =>
    rw [List.sum_cons, List.map_cons, List.sum_cons, ← ih]
    simp only [trace, Vec3.add_x, Vec3.add_y, Vec3.add_z]
    ring

/-- **C119**: the moment of inertia of a cluster is symmetric, and about any axis `v` it is the sum over exactly the
points of the cluster of mass times squared distance from the axis (through the reported center of mass). With masses
that are not negative it is never negative, and about one of three perpendicular axes it is at most the sum of those
about the other two. -/
theorem C119_inertia (b : Box ℝ) (es : List Entry) (c : ℕ) :
    Symmetric ((inertia b es).getD c 0) ∧
    (∀ v, quad ((inertia b es).getD c 0) v = ((members es c).map fun e =>
      let n := cross (displacement b (centerOfMass b es c) e) v
      e.m * n.dot n).sum) ∧
    ((∀ e ∈ es, 0 ≤ e.m) →
      (∀ v, 0 ≤ quad ((inertia b es).getD c 0) v) ∧
      (∀ u v w : Vec3 ℝ, u.dot u = 1 → v.dot v = 1 → w = cross u v → u.dot v = 0 →
        quad ((inertia b es).getD c 0) w ≤ quad ((inertia b es).getD c 0) u + quad ((inertia b es).getD c 0) v)) := by
  have hq : ∀ v, quad ((inertia b es).getD c 0) v = ((members es c).map fun e =>
      let n := cross (displacement b (centerOfMass b es c) e) v
      e.m * n.dot n).sum := by
    intro v
    rw [C34_inertia, quad_sum, List.map_map]
    congr 1
    refine List.map_congr_left fun e _ => ?_
    simp only [Function.comp_apply, quad, pointInertia, cross, Vec3.dot, displacement]
    ring
  have hsq : ∀ v : Vec3 ℝ, 0 ≤ v.dot v := fun v =>
    add_nonneg (add_nonneg (mul_self_nonneg _) (mul_self_nonneg _)) (mul_self_nonneg _)
  refine ⟨?_, hq, fun hm => ?_⟩
  · rw [C34_inertia]
    refine symmetric_sum fun t ht => ?_
    obtain ⟨e, -, rfl⟩ := List.mem_map.mp ht
    refine ⟨?_, ?_, ?_⟩ <;> simp only [pointInertia] <;> ring
  have hm' : ∀ e ∈ members es c, 0 ≤ e.m := fun e he => hm e (List.mem_filter.mp he).1
  refine ⟨fun v => ?_, ?_⟩
  · rw [hq]
    refine List.sum_nonneg fun x hx => ?_
    obtain ⟨e, he, rfl⟩ := List.mem_map.mp hx
    exact mul_nonneg (hm' e he) (hsq _)
  · rintro u v w hu hv rfl huv
    rw [hq, hq, hq, ← List.sum_map_add]
    refine List.sum_le_sum fun e he => ?_
    set d := displacement b (centerOfMass b es c) e
    simp only
    rw [← mul_add]
    refine mul_le_mul_of_nonneg_left ?_ (hm' e he)
    -- |d × w|² = |d|² - (d·w)², and |d|² = (d·u)² + (d·v)² + (d·w)²
    have lag : ∀ a : Vec3 ℝ, (cross d a).dot (cross d a) = d.dot d * a.dot a - d.dot a * d.dot a := by
      intro a; simp only [cross, Vec3.dot]; ring
    have hw : (cross u v).dot (cross u v) = 1 := by
      have : (cross u v).dot (cross u v) = u.dot u * v.dot v - u.dot v * u.dot v := by
        simp only [cross, Vec3.dot]; ring
      rw [this, hu, hv, huv]; ring
    have hgram : d.dot d = d.dot u * d.dot u + d.dot v * d.dot v + d.dot (cross u v) * d.dot (cross u v) := by
      have : d.dot (cross u v) * d.dot (cross u v) = d.dot d * (u.dot u * v.dot v - u.dot v * u.dot v)
          - d.dot u * d.dot u * v.dot v + 2 * (d.dot u * d.dot v * u.dot v) - d.dot v * d.dot v * u.dot u := by
        simp only [cross, Vec3.dot]; ring
      rw [this, hu, hv, huv]; ring
    rw [lag, lag, lag, hu, hv, hw]
    have := mul_self_nonneg (d.dot (cross u v))
    linarith

/-- **C119**: the gyration tensor of a cluster is symmetric, and along any axis `v` it is the mean over exactly the
points of the cluster of the squared component of the displacement from the reported center. It is never negative. -/
theorem C119_gyration (b : Box ℝ) (es : List Entry) (c : ℕ) (hne : members es c ≠ []) :
    Symmetric (gyration b es c) ∧
    (∀ v, quad (gyration b es c) v = ((members es c).map fun e =>
      displacement b (center b es c) e |>.dot v |> (· ^ 2)).sum / (members es c).length) ∧
    (∀ v, 0 ≤ quad (gyration b es c) v) := by
  have hdiv : ∀ t s v, quad (matDiv t s) v = quad t v / s := by
    intro t s v
    simp only [quad, matDiv, Vec3.dot]
    ring
  have hq : ∀ v, quad (gyration b es c) v = ((members es c).map fun e =>
      displacement b (center b es c) e |>.dot v |> (· ^ 2)).sum / (members es c).length := by
    intro v
    rw [C34_gyration b es c hne, hdiv, quad_sum, List.map_map]
    congr 2
    refine List.map_congr_left fun e _ => ?_
    simp only [Function.comp_apply, quad, gyrationTerm, Vec3.dot, displacement]
    ring
  refine ⟨?_, hq, fun v => ?_⟩
  · rw [C34_gyration b es c hne]
    obtain ⟨h1, h2, h3⟩ := symmetric_sum (l := (members es c).map fun e =>
        gyrationTerm (b.wrap (e.pos - center b es c))) fun t ht => by
      obtain ⟨e, -, rfl⟩ := List.mem_map.mp ht
      refine ⟨?_, ?_, ?_⟩ <;> simp only [gyrationTerm] <;> ring
    refine ⟨?_, ?_, ?_⟩ <;> simp only [matDiv]
    · rw [h1]
    · rw [h2]
    · rw [h3]
  · rw [hq]
    refine div_nonneg (List.sum_nonneg fun x hx => ?_) (Nat.cast_nonneg _)
    obtain ⟨e, -, rfl⟩ := List.mem_map.mp hx
    exact sq_nonneg _

/-- **C119**: the trace of the moment of inertia is twice the mass times the squared radius of gyration. -/
theorem C119_trace_inertia (b : Box ℝ) (es : List Entry) (hm : ∀ e ∈ es, 0 ≤ e.m) (c : ℕ)
    (hpos : (masses es).getD c 0 ≠ 0) :
    trace ((inertia b es).getD c 0) = 2 * (masses es).getD c 0 * radiusOfGyration b es c ^ 2 := by
  have hM : 0 ≤ (masses es).getD c 0 := by
    rw [(C34_sizes_and_masses es).2.1]
    refine List.sum_nonneg fun x hx => ?_
    obtain ⟨e, he, rfl⟩ := List.mem_map.mp hx
    exact hm e (List.mem_filter.mp he).1
  have ht : 0 ≤ trace ((inertia b es).getD c 0) := by
    have h := ((C119_inertia b es c).2.2 hm).1
    have hx := h ⟨1, 0, 0⟩
    have hy := h ⟨0, 1, 0⟩
    have hz := h ⟨0, 0, 1⟩
    simp only [quad, Vec3.dot, mul_one, mul_zero, add_zero, zero_add, one_mul, zero_mul] at hx hy hz
    exact add_nonneg (add_nonneg hx hy) hz
  show _ = 2 * (masses es).getD c 0 * Real.sqrt (trace ((inertia b es).getD c 0) / (2 * (masses es).getD c 0)) ^ 2
  rw [Real.sq_sqrt (div_nonneg ht (by linarith)), mul_div_cancel₀ _ (mul_ne_zero two_ne_zero hpos)]

theorem centerOfMass_scaled (b : Box ℝ) (l : List (Vec3 ℝ × ℝ)) {s : ℝ} (hs : 0 < s) (h : 0 < (l.map Prod.snd).sum) :
    b.centerOfMass (l.map fun p => (p.1, s * p.2)) = b.centerOfMass l := by
  have hsum : ((l.map fun p => (p.1, s * p.2)).map Prod.snd).sum = s * (l.map Prod.snd).sum := by
    rw [List.map_map, ← List.sum_map_mul_left]
    rfl
  rw [centerOfMass_eq b _ (by rw [hsum]; exact mul_pos hs h), centerOfMass_eq b l h]
  have hph : ∀ f : Vec3 ℝ → ℝ, (phases b (l.map fun p => (p.1, s * p.2)) f).arg = (phases b l f).arg := by
    intro f
    have : phases b (l.map fun p => (p.1, s * p.2)) f = (s : ℂ) * phases b l f := by
      unfold phases phaseSum
      rw [List.map_map, List.map_map, List.map_map, ← List.sum_map_mul_left]
      congr 1
      refine List.map_congr_left fun p _ => ?_
      simp only [Function.comp_apply]
      push_cast
      ring
    rw [this, Complex.arg_real_mul _ hs]
  rw [hph, hph, hph]

/-- **C119**: when all masses are equal, the center and the center of mass are the same, and the squared radius of
gyration is the trace of the gyration tensor. -/
theorem C119_equal_masses (b : Box ℝ) (es : List Entry) (m : ℝ) (hpos : 0 < m) (hm : ∀ e ∈ es, e.m = m) (c : ℕ)
    (hc : c < numClusters es) (hne : members es c ≠ []) :
    centerOfMass b es c = center b es c ∧ radiusOfGyration b es c ^ 2 = trace (gyration b es c) := by
  have hm' : ∀ e ∈ members es c, e.m = m := fun e he => hm e (List.mem_filter.mp he).1
  have hlen : 0 < ((members es c).length : ℝ) := by
    exact_mod_cast List.length_pos_iff.mpr hne
  have hcom : centerOfMass b es c = center b es c := by
    rw [C34_equal_masses_partial b es m hm c hc, C34_center]
    have e : (members es c).map (fun e => (e.pos, e.m)) =
        ((members es c).map fun e => (e.pos, (1 : ℝ))).map fun p => (p.1, m * p.2) := by
      rw [List.map_map]
      refine List.map_congr_left fun e he => ?_
      simp [hm' e he]
    rw [e, centerOfMass_scaled b _ hpos]
    rw [List.map_map]
    simpa [Function.comp_def] using hlen
  refine ⟨hcom, ?_⟩
  have hM : ((members es c).map (·.m)).sum = (members es c).length * m := by
    rw [List.map_congr_left (g := fun _ => m) fun e he => hm' e he]
    simp
  rw [C34_radius_of_gyration b es c (by rw [hM]; positivity), Real.sq_sqrt]
  · rw [hM, C34_gyration b es c hne, hcom]
    have h1 : ∀ t s, trace (matDiv t s) = trace t / s := by
      intro t s; simp only [trace, matDiv]; ring
    rw [h1, trace_sum, List.map_map,
      List.map_congr_left (g := fun e => m * (trace ∘ fun e : Entry => gyrationTerm (b.wrap (e.pos - center b es c))) e)
        fun e he => by
          rw [hm' e he]; simp only [Function.comp_apply, trace, gyrationTerm, Vec3.dot],
      List.sum_map_mul_left, mul_comm _ m, mul_div_mul_left _ _ hpos.ne']
  · refine div_nonneg (List.sum_nonneg fun x hx => ?_) (by rw [hM]; positivity)
    obtain ⟨e, he, rfl⟩ := List.mem_map.mp hx
    rw [hm' e he]
    exact mul_nonneg hpos.le
      (add_nonneg (add_nonneg (mul_self_nonneg _) (mul_self_nonneg _)) (mul_self_nonneg _))

theorem wrap_self_sub (b : Box ℝ) (hb : Valid b) (v : Vec3 ℝ) (hv : Planar b v) : b.wrap (v - b.wrap v) = 0 := by
  obtain ⟨n, hn, e⟩ := (C02_wrap_eq_iff b hb (b.wrap v) v (wrap_planar hb v hv) hv).mp (C02_wrap_idempotent b hb v hv)
  have h : Vec3.dot (b.wrap (v - b.wrap v)) (b.wrap (v - b.wrap v)) = 0 :=
    (C05_distance_zero_iff b hb (b.wrap v) v (wrap_planar hb v hv) hv).mpr ⟨n, hn, e⟩
  simp only [Vec3.dot] at h
  have hx := mul_self_nonneg (b.wrap (v - b.wrap v)).x
  have hy := mul_self_nonneg (b.wrap (v - b.wrap v)).y
  have hz := mul_self_nonneg (b.wrap (v - b.wrap v)).z
  ext
  · simpa using mul_self_eq_zero.mp (by linarith : (b.wrap (v - b.wrap v)).x * _ = 0)
  · simpa using mul_self_eq_zero.mp (by linarith : (b.wrap (v - b.wrap v)).y * _ = 0)
  · simpa using mul_self_eq_zero.mp (by linarith : (b.wrap (v - b.wrap v)).z * _ = 0)

/-- **C119**: in a fully periodic box, a cluster of one point has its center at the point (wrapped into the box), and
its gyration tensor is zero. -/
theorem C119_single (b : Box ℝ) (hb : Valid b) (hp : b.px = true ∧ b.py = true ∧ b.pz = true) (es : List Entry) (c : ℕ)
    (e : Entry) (hv : Planar b e.pos) (h : members es c = [e]) :
    center b es c = b.wrap e.pos ∧ ∀ v, quad (gyration b es c) v = 0 := by
  have hc : center b es c = b.wrap e.pos := by
    rw [C34_center, h]
    exact C62_com_coincident b hb hp e.pos hv [1] (by simp)
  refine ⟨hc, fun v => ?_⟩
  rw [(C119_gyration b es c (by simp [h])).2.1, h, hc]
  simp [displacement, wrap_self_sub b hb e.pos hv, Vec3.dot]

/-- The same points with all masses in another unit. -/
def Spec.inMassUnit (s : ℝ) (es : List Entry) : List Entry := es.map fun e => { e with m := s * e.m }

theorem numClusters_unit (s : ℝ) (es : List Entry) : numClusters (inMassUnit s es) = numClusters es := by
  unfold numClusters inMassUnit
  rw [List.map_map]
  rfl

theorem members_unit (s : ℝ) (es : List Entry) (c : ℕ) : members (inMassUnit s es) c = inMassUnit s (members es c) := by
  unfold members inMassUnit
  rw [List.filter_map]
  rfl

theorem sizes_unit (s : ℝ) (es : List Entry) : sizes (inMassUnit s es) = sizes es := by
  unfold sizes
  rw [numClusters_unit]
  unfold inMassUnit
  rw [List.foldl_map]
  rfl

theorem clusterPoints_unit (s : ℝ) (es : List Entry) : clusterPoints (inMassUnit s es) = clusterPoints es := by
  unfold clusterPoints
  rw [numClusters_unit]
  unfold inMassUnit
  rw [List.foldl_map]
  rfl

/-- **C119**: with all masses in another unit (multiplied by a positive number `s`), centers, centers of mass, gyration
tensors and radii of gyration are the same; masses and moments of inertia are multiplied by `s`. -/
theorem C119_mass_unit (b : Box ℝ) (es : List Entry) (hm : ∀ e ∈ es, 0 < e.m) (s : ℝ) (hs : 0 < s) (c : ℕ)
    (hc : c < numClusters es) (hne : members es c ≠ []) :
    center b (inMassUnit s es) c = center b es c ∧
    centerOfMass b (inMassUnit s es) c = centerOfMass b es c ∧
    (masses (inMassUnit s es)).getD c 0 = s * (masses es).getD c 0 ∧
    (∀ v, quad (gyration b (inMassUnit s es) c) v = quad (gyration b es c) v) ∧
    (∀ v, quad ((inertia b (inMassUnit s es)).getD c 0) v = s * quad ((inertia b es).getD c 0) v) ∧
    radiusOfGyration b (inMassUnit s es) c = radiusOfGyration b es c := by
  have hcen : center b (inMassUnit s es) c = center b es c := by
    unfold center
    rw [clusterPoints_unit]
  have hlen : massOffset es c + (sizes es).getD c 0 ≤ es.length := by
    rw [massOffset, ← (C34_sizes_and_masses es).2.2.1]
    have hl : c < (sizes es).length := by
      by_contra h
      have h0 : (sizes es).getD c 0 = 0 := by
        rw [List.getD_eq_getElem?_getD, List.getElem?_eq_none (not_lt.mp h), Option.getD_none]
      rw [(C34_sizes_and_masses es).1] at h0
      exact hne (List.eq_nil_of_length_eq_zero h0)
    conv_rhs => rw [← List.take_append_drop (c + 1) (sizes es), List.sum_append,
      ← List.take_concat_get' _ _ hl, List.sum_append]
    rw [List.getD_eq_getElem?_getD, List.getElem?_eq_getElem hl]
    simp
  have hcom : centerOfMass b (inMassUnit s es) c = centerOfMass b es c := by
    unfold centerOfMass massOffset
    rw [clusterPoints_unit, sizes_unit]
    dsimp only
    have e : (inMassUnit s es).map (·.m) = (es.map (·.m)).map (s * ·) := by
      unfold inMassUnit
      rw [List.map_map, List.map_map]
      rfl
    rw [e, ← List.map_drop, ← List.map_take, List.zip_map_right]
    refine centerOfMass_scaled b _ hs ?_
    have hsz : 0 < (sizes es).getD c 0 := by
      rw [(C34_sizes_and_masses es).1]
      exact List.length_pos_iff.mpr hne
    have hpts : ((clusterPoints es).getD c []).length = (sizes es).getD c 0 := by
      rw [clusterPoints_spec, List.length_map, (C34_sizes_and_masses es).1]
    unfold massOffset at hlen
    have hlen2 : (((es.map (·.m)).drop ((sizes es).take c).sum).take ((sizes es).getD c 0)).length =
        (sizes es).getD c 0 := by
      rw [List.length_take, List.length_drop, List.length_map]
      omega
    rw [List.map_snd_zip (by rw [hpts, hlen2])]
    refine List.sum_pos _ (fun x hx => ?_) ?_
    · obtain ⟨e, he, rfl⟩ := List.mem_map.mp (List.mem_of_mem_drop (List.mem_of_mem_take hx))
      exact hm e he
    · intro h
      rw [h, List.length_nil] at hlen2
      omega
  have hne' : members (inMassUnit s es) c ≠ [] := by
    rw [members_unit]
    unfold inMassUnit
    simpa using hne
  have hmass : (masses (inMassUnit s es)).getD c 0 = s * (masses es).getD c 0 := by
    rw [(C34_sizes_and_masses _).2.1, (C34_sizes_and_masses _).2.1, members_unit]
    unfold inMassUnit
    rw [List.map_map, ← List.sum_map_mul_left]
    rfl
  have hin : ∀ v, quad ((inertia b (inMassUnit s es)).getD c 0) v = s * quad ((inertia b es).getD c 0) v := by
    intro v
    rw [(C119_inertia b _ c).2.1, (C119_inertia b _ c).2.1, members_unit, hcom]
    unfold inMassUnit
    rw [List.map_map, ← List.sum_map_mul_left]
    congr 1
    refine List.map_congr_left fun e _ => ?_
    simp only [Function.comp_apply, displacement]
    ring
  refine ⟨hcen, hcom, hmass, fun v => ?_, hin, ?_⟩
  · rw [(C119_gyration b _ c hne').2.1, (C119_gyration b _ c hne).2.1, members_unit, hcen]
    unfold inMassUnit
    rw [List.map_map, List.length_map]
    rfl
  · have htr : trace ((inertia b (inMassUnit s es)).getD c 0) = s * trace ((inertia b es).getD c 0) := by
      have hx := hin ⟨1, 0, 0⟩
      have hy := hin ⟨0, 1, 0⟩
      have hz := hin ⟨0, 0, 1⟩
      simp only [quad, Vec3.dot, mul_one, mul_zero, add_zero, zero_add, one_mul, zero_mul] at hx hy hz
      unfold trace
      rw [hx, hy, hz]
      ring
    show Real.sqrt (trace _ / _) = Real.sqrt (trace _ / _)
    rw [htr, hmass, show 2 * (s * (masses es).getD c 0) = s * (2 * (masses es).getD c 0) by ring,
      mul_div_mul_left _ _ hs.ne']

/-- Three points in two clusters meet the hypotheses. -/
example : let es : List Entry := [⟨0, ⟨-2, -2, -2⟩, 1⟩, ⟨1, ⟨-1, -2, -2⟩, 1⟩, ⟨1, ⟨0, 0, 0⟩, 1⟩]
    (∀ e ∈ es, e.m = 1) ∧ 1 < numClusters es ∧ members es 1 ≠ [] ∧ (masses es).getD 1 0 ≠ 0 ∧ (∀ e ∈ es, 0 ≤ e.m) ∧ (∀ e ∈ es, 0 < e.m) ∧
      members es 0 = [⟨0, ⟨-2, -2, -2⟩, 1⟩] := by
  refine ⟨by simp, by simp [numClusters], by simp [members], ?_, by simp, by simp, by simp [members]⟩
  rw [(C34_sizes_and_masses _).2.1]
  simp [members]

end Freud
