import Verif.Spec.Linear
import Verif.Props.CorrelationFunction
import Verif.Props.Voxel
import Verif.Props.Hexatic
import Verif.Props.RenumberSteinhardt
import Verif.Model.Diffraction

/-!
# Property C112: results are linear in the values and see only the ratios of the weights
-/

set_option linter.unusedSectionVars false

namespace Freud
open Spec

/-! ### CorrelationFunction -/

namespace Linear

theorem getD_combine {V : Type*} [Field V] (c d : V) {l l' : List V} (h : l.length = l'.length) (i : ℕ) :
    (combine c d l l').getD i 0 = c * l.getD i 0 + d * l'.getD i 0 := by
  unfold combine
  by_cases hi : i < l.length
  · have hi' : i < l'.length := by omega
    have hz : i < (List.zipWith (fun x y => c * x + d * y) l l').length := by
      rw [List.length_zipWith]; omega
    simp [List.getD_eq_getElem?_getD, List.getElem?_eq_getElem hi, List.getElem?_eq_getElem hi',
      List.getElem?_eq_getElem hz]
  · have hz : (List.zipWith (fun x y => c * x + d * y) l l').length ≤ i := by
      rw [List.length_zipWith]; omega
    simp [List.getD_eq_getElem?_getD, List.getElem?_eq_none (not_lt.mp hi), List.getElem?_eq_none hz,
      List.getElem?_eq_none (show l'.length ≤ i by omega)]

variable {K : Type*} [Field K] [LinearOrder K] [IsStrictOrderedRing K] [FloorRing K]
variable {V : Type*} [Field V] [StarRing V]

theorem meanIn_map {α : Type*} (lo hi : K) (m : List α) (t : α → K) (x y : α → V) (c d : V) :
    meanIn lo hi (m.map fun b => (t b, c * x b + d * y b)) =
      c * meanIn lo hi (m.map fun b => (t b, x b)) + d * meanIn lo hi (m.map fun b => (t b, y b)) := by
  classical
  unfold meanIn
  simp only [List.filter_map, List.map_eq_nil_iff, List.map_map, List.length_map, Function.comp_def]
  split_ifs with h
  · simp
  · rw [List.sum_map_add, List.sum_map_mul_left, List.sum_map_mul_left]
    ring

/-- The products of three combined histories. -/
def Products (c d : V) (l1 l2 l3 : List (K × V)) : Prop :=
  ∃ m : List (K × V × V), l1 = m.map (fun b => (b.1, b.2.1)) ∧ l2 = m.map (fun b => (b.1, b.2.2)) ∧
    l3 = m.map fun b => (b.1, c * b.2.1 + d * b.2.2)

theorem Products.append {c d : V} {l1 l2 l3 : List (K × V)} (h : Products c d l1 l2 l3) {α : Type*} (m : List α)
    (t : α → K) (x y z : α → V) (hz : ∀ b, z b = c * x b + d * y b) :
    Products c d (l1 ++ m.map fun b => (t b, x b)) (l2 ++ m.map fun b => (t b, y b))
      (l3 ++ m.map fun b => (t b, z b)) := by
  obtain ⟨m0, rfl, rfl, rfl⟩ := h
  refine ⟨m0 ++ m.map (fun b => (t b, x b, y b)), ?_, ?_, ?_⟩ <;>
    simp [List.map_append, List.map_map, Function.comp_def, hz]

theorem flatMap_frames {α : Type*} (n : ℕ) (bonds : ℕ → List (CFBond K)) (g : CFBond K → α) :
    (List.range n).flatMap (fun i => (bonds i).map g) = ((List.range n).flatMap bonds).map g := by
  rw [List.map_flatMap]

theorem products_query {c d : V} {a b e : List (CorrelationFunction.Op K V)} (h : QueryCombined c d a b e)
    (l1 l2 l3 : List (K × V)) (hl : Products c d l1 l2 l3) :
    Products c d (cfProducts a l1) (cfProducts b l2) (cfProducts e l3) := by
  induction h generalizing l1 l2 l3 with
  | nil => exact hl
  | reset _ ih => exact ih _ _ _ ⟨[], rfl, rfl, rfl⟩
  | read _ _ _ _ ih => exact ih _ _ _ hl
  | frame v w w' hw n bonds ev ev' ev'' _ ih =>
    refine ih _ _ _ ?_
    rw [flatMap_frames, flatMap_frames, flatMap_frames]
    refine hl.append _ _ _ _ _ fun b => ?_
    rw [getD_combine c d hw]
    ring

theorem products_values {c d : V} {a b e : List (CorrelationFunction.Op K V)} (h : ValuesCombined c d a b e)
    (l1 l2 l3 : List (K × V)) (hl : Products (star c) (star d) l1 l2 l3) :
    Products (star c) (star d) (cfProducts a l1) (cfProducts b l2) (cfProducts e l3) := by
  induction h generalizing l1 l2 l3 with
  | nil => exact hl
  | reset _ ih => exact ih _ _ _ ⟨[], rfl, rfl, rfl⟩
  | read _ _ _ _ ih => exact ih _ _ _ hl
  | frame v v' w hv n bonds ev ev' ev'' _ ih =>
    refine ih _ _ _ ?_
    rw [flatMap_frames, flatMap_frames, flatMap_frames]
    refine hl.append _ _ _ _ _ fun b => ?_
    rw [getD_combine c d hv, star_add, star_mul', star_mul']
    ring

theorem combine_means {c d : V} {l1 l2 l3 : List (K × V)} (h : Products c d l1 l2 l3) (bins : ℕ) (r : K) :
    ((List.range bins).map fun i => meanIn (edge 0 r bins i) (edge 0 r bins (i + 1)) l3) =
      combine c d ((List.range bins).map fun i => meanIn (edge 0 r bins i) (edge 0 r bins (i + 1)) l1)
        ((List.range bins).map fun i => meanIn (edge 0 r bins i) (edge 0 r bins (i + 1)) l2) := by
  obtain ⟨m, rfl, rfl, rfl⟩ := h
  unfold combine
  rw [List.zipWith_map, List.zipWith_self]
  exact List.map_congr_left fun i _ => meanIn_map _ _ m _ _ _ _ _

end Linear

section
variable {K : Type*} [Field K] [LinearOrder K] [IsStrictOrderedRing K] [FloorRing K]
variable {V : Type*} [Field V] [StarRing V] [CharZero V] [DecidableEq V]

/-- **C112**: the correlation function is linear in `query_values`, after any history of calls. -/
theorem C112_correlation_query (bins : ℕ) (rMax : K) (a : RegularAxis K)
    (ha : CorrelationFunction.mkAxis bins rMax = some a) (hb : bins ≤ OVERFLOW_BIN) (c d : V)
    (h1 h2 h3 : List (CorrelationFunction.Op K V)) (h : QueryCombined c d h1 h2 h3)
    (l1 : ∀ o ∈ h1, CFLegal bins o) (l2 : ∀ o ∈ h2, CFLegal bins o) (l3 : ∀ o ∈ h3, CFLegal bins o)
    (order : List ℕ) (hord : order.Perm (List.range bins)) :
    ∃ s1 s2 s3 t1 t2 t3, (CorrelationFunction.new a : CorrelationFunction K V).run h1 = some s1 ∧
      s1.getCorrelation order = some t1 ∧
      (CorrelationFunction.new a : CorrelationFunction K V).run h2 = some s2 ∧
      s2.getCorrelation order = some t2 ∧
      (CorrelationFunction.new a : CorrelationFunction K V).run h3 = some s3 ∧
      s3.getCorrelation order = some t3 ∧
      t3.output = combine c d t1.output t2.output := by
  obtain ⟨s1, t1, a1, b1, e1⟩ := C36_correlation bins rMax a ha hb h1 l1 order hord
  obtain ⟨s2, t2, a2, b2, e2⟩ := C36_correlation bins rMax a ha hb h2 l2 order hord
  obtain ⟨s3, t3, a3, b3, e3⟩ := C36_correlation bins rMax a ha hb h3 l3 order hord
  refine ⟨s1, s2, s3, t1, t2, t3, a1, b1, a2, b2, a3, b3, ?_⟩
  rw [e1, e2, e3]
  exact Linear.combine_means (Linear.products_query h [] [] [] ⟨[], rfl, rfl, rfl⟩) bins rMax

/-- **C112**: the correlation function is linear in `values`, with the conjugate factors. -/
theorem C112_correlation_values (bins : ℕ) (rMax : K) (a : RegularAxis K)
    (ha : CorrelationFunction.mkAxis bins rMax = some a) (hb : bins ≤ OVERFLOW_BIN) (c d : V)
    (h1 h2 h3 : List (CorrelationFunction.Op K V)) (h : ValuesCombined c d h1 h2 h3)
    (l1 : ∀ o ∈ h1, CFLegal bins o) (l2 : ∀ o ∈ h2, CFLegal bins o) (l3 : ∀ o ∈ h3, CFLegal bins o)
    (order : List ℕ) (hord : order.Perm (List.range bins)) :
    ∃ s1 s2 s3 t1 t2 t3, (CorrelationFunction.new a : CorrelationFunction K V).run h1 = some s1 ∧
      s1.getCorrelation order = some t1 ∧
      (CorrelationFunction.new a : CorrelationFunction K V).run h2 = some s2 ∧
      s2.getCorrelation order = some t2 ∧
      (CorrelationFunction.new a : CorrelationFunction K V).run h3 = some s3 ∧
      s3.getCorrelation order = some t3 ∧
      t3.output = combine (star c) (star d) t1.output t2.output := by
  obtain ⟨s1, t1, a1, b1, e1⟩ := C36_correlation bins rMax a ha hb h1 l1 order hord
  obtain ⟨s2, t2, a2, b2, e2⟩ := C36_correlation bins rMax a ha hb h2 l2 order hord
  obtain ⟨s3, t3, a3, b3, e3⟩ := C36_correlation bins rMax a ha hb h3 l3 order hord
  refine ⟨s1, s2, s3, t1, t2, t3, a1, b1, a2, b2, a3, b3, ?_⟩
  rw [e1, e2, e3]
  exact Linear.combine_means (Linear.products_values h [] [] [] ⟨[], rfl, rfl, rfl⟩) bins rMax

end

/-! ### GaussianDensity -/

section
variable {K : Type*} [Field K] [LinearOrder K] [IsStrictOrderedRing K] [FloorRing K]

/-- **C112**: the density is linear in the values of the points. -/
theorem C112_gaussian (gauss : ℕ → K → K) (s : GaussianDensity K) (b : Box K)
    (points : List (Vec3 K)) (c d : K) (v v' : List K) (hv : v.length = points.length)
    (hv' : v'.length = points.length) (ev ev' ev'' : List (ℕ × ℕ)) (order order' order'' : List ℕ)
    (hdim : SameDim s.box b) (hg : GridOK b (Voxel.effWidth b s.width) s.rMax)
    (hhalf : BelowHalfBox b s.rMax) (hp : ∀ p ∈ points, InGridBox b p)
    (hev : IsExecution points.length ev) (hev' : IsExecution points.length ev')
    (hev'' : IsExecution points.length ev'')
    (hord : let w := Voxel.effWidth b s.width; order.Perm (List.range (w.x * w.y * w.z)))
    (hord' : let w := Voxel.effWidth b s.width; order'.Perm (List.range (w.x * w.y * w.z)))
    (hord'' : let w := Voxel.effWidth b s.width; order''.Perm (List.range (w.x * w.y * w.z))) :
    ∃ s1 s2 s3, s.compute gauss b points (some v) ev order = some s1 ∧
      s.compute gauss b points (some v') ev' order' = some s2 ∧
      s.compute gauss b points (some (combine c d v v')) ev'' order'' = some s3 ∧
      s2.width = s1.width ∧ s3.width = s1.width ∧
      ∀ n, IsVoxel s1.width n → ∃ x y, s1.density.at? [n.x, n.y, n.z] = some x ∧
        s2.density.at? [n.x, n.y, n.z] = some y ∧
        s3.density.at? [n.x, n.y, n.z] = some (c * x + d * y) := by
  classical
  obtain ⟨s1, e1, w1, -, f1⟩ := density_hits gauss s b points (some v) ev order hdim hg hhalf hp hev hord
  obtain ⟨s2, e2, w2, -, f2⟩ := density_hits gauss s b points (some v') ev' order' hdim hg hhalf hp hev' hord'
  obtain ⟨s3, e3, w3, -, f3⟩ := density_hits gauss s b points (some (combine c d v v')) ev'' order'' hdim hg hhalf
    hp hev'' hord''
  refine ⟨s1, s2, s3, e1, e2, e3, by rw [w1, w2], by rw [w1, w3], fun n hn => ?_⟩
  have hD : ∀ i : ℕ, ∃ D, ∀ p, points[i]? = some p →
      IsMinDistSq b (voxelCenter b (Voxel.effWidth b s.width) n) p D := by
    intro i
    cases h : points[i]? with
    | none => exact ⟨0, fun p hp => by cases hp⟩
    | some p =>
      obtain ⟨D, hD, -⟩ := C38_distance_exists b (Voxel.effWidth b s.width) s.rMax hg n p
        (hp p (List.mem_of_getElem? h))
      exact ⟨D, fun p' hp' => by cases hp'; exact hD⟩
  choose D hD using hD
  rw [w1] at hn f1
  rw [w2] at f2
  rw [w3] at f3
  refine ⟨_, _, f1 n hn D hD, f2 n hn D hD, ?_⟩
  rw [f3 n hn D hD, ← List.sum_map_mul_left, ← List.sum_map_mul_left, ← List.sum_map_add]
  congr 2
  refine List.map_congr_left fun i _ => ?_
  have : pointValue (some (combine c d v v')) i = c * pointValue (some v) i + d * pointValue (some v') i :=
    Linear.getD_combine c d (by omega) i
  rw [this]
  by_cases hcond : ∃ p, points[i]? = some p ∧
      ([n.x, n.y, n.z], D i) ∈ Voxel.hits b (Voxel.effWidth b s.width) s.rMax p
  · rw [if_pos hcond, if_pos hcond, if_pos hcond]
    ring
  · rw [if_neg hcond, if_neg hcond, if_neg hcond]
    ring

end

/-! ### Weights -/

theorem weights_filter {c : ℕ → ℝ} {l l' : List (Bond ℝ)} (h : Reweighted c l l') (i : ℕ) :
    l'.filter (fun nb => nb.q = i) =
      (l.filter (fun nb => nb.q = i)).map fun nb => { nb with weight := c i * nb.weight } := by
  induction h with
  | nil => rfl
  | @cons nb nb' l l' h1 _ ih =>
    subst h1
    by_cases hq : nb.q = i
    · subst hq
      simpa using ih
    · simpa [hq] using ih

/-- **C112**: with weights, the k-atic order of a point depends only on the ratios of the weights of its
bonds. -/
theorem C112_hexatic (p : Hexatic.Params) (b : Box ℝ) (h2 : b.is2D = true) (points : List (Vec3 ℝ))
    (nlist nlist' : NList ℝ) (h : ListFor nlist points.length) (h' : ListFor nlist' points.length)
    (c : ℕ → ℝ) (hc : ∀ i, c i ≠ 0) (hw : Reweighted c nlist.bonds nlist'.bonds) (order order' : List ℕ)
    (hord : order.Perm (List.range points.length)) (hord' : order'.Perm (List.range points.length)) :
    ∃ r, Hexatic.compute p b points nlist order = some r ∧ Hexatic.compute p b points nlist' order' = some r := by
  refine ⟨_, C75_value p b h2 points nlist h order hord, ?_⟩
  rw [C75_value p b h2 points nlist' h' order' hord']
  refine congrArg some (List.map_congr_left fun i _ => ?_)
  unfold weightedBonds katic
  rw [weights_filter hw]
  cases p.weighted with
  | false => simp [List.map_map, Function.comp_def]
  | true =>
    simp only [List.map_map, Function.comp_def, if_true, List.sum_map_mul_left, mul_eq_zero, hc i, false_or]
    split_ifs with h0
    · rfl
    · congr 1
      have hci : (c i : ℂ) ≠ 0 := by exact_mod_cast hc i
      push_cast
      simp only [mul_assoc, List.sum_map_mul_left]
      rw [mul_div_mul_left _ _ hci]

theorem normalized_scaled (k : ℝ) (hk : k ≠ 0) (ds : List (ℝ × Vec3 ℝ)) :
    normalized (ds.map fun d => (k * d.1, d.2)) = normalized ds := by
  unfold normalized
  simp only [List.map_map, Function.comp_def, List.sum_map_mul_left, mul_eq_zero, hk, false_or]
  split_ifs
  · rfl
  · simp only [mul_div_mul_left _ _ hk]

theorem directions_weights {c : ℕ → ℝ} {l l' : List (Bond ℝ)} (h : Reweighted c l l') (b : Box ℝ)
    (points : List (Vec3 ℝ)) (w : Bool) (hc : ∀ i, c i ≠ 0) (i : ℕ) :
    normalized (directions b points w l' i) = normalized (directions b points w l i) := by
  have : directions b points w l' i =
      (directions b points w l i).map fun d => ((if w then c i else 1) * d.1, d.2) := by
    unfold directions
    rw [weights_filter h]
    cases w <;> simp [List.map_map, Function.comp_def, bondVector]
  rw [this]
  refine normalized_scaled _ ?_ _
  cases w
  · simp
  · simpa using hc i

/-- **C112**: with weights, the Steinhardt order of a particle, plain or averaged, `q_l` or `w_l`, and that
of the system, after any histories, depends only on the ratios of the weights of the bonds of each
particle. -/
theorem C112_steinhardt {sph : Steinhardt.Sph} {p : Steinhardt.Params} {Y : ℤ → Vec3 ℝ → ℂ}
    (hf : FsphOK sph p.l Y) (hl : p.wl = true → p.l ≤ 20) {history history' : List Steinhardt.Call}
    (hh : ∀ c ∈ history, LegalSteinhardt p.l c) (hh' : ∀ c ∈ history', LegalSteinhardt p.l c)
    {c c' : Steinhardt.Call} (hc : LegalSteinhardt p.l c) (hc' : LegalSteinhardt p.l c')
    (hbox : c'.box = c.box) (hpts : c'.points = c.points) (k : ℕ → ℝ) (hk : ∀ i, k i ≠ 0)
    (hw : Reweighted k c.nlist.bonds c'.nlist.bonds) :
    ∃ r r', Steinhardt.resultAfter sph p history c = some r ∧
      Steinhardt.resultAfter sph p history' c' = some r' ∧
      (∀ i < c.points.length, r'.qli[i]? = r.qli[i]? ∧ (r'.getQl p)[i]? = (r.getQl p)[i]? ∧
        (r'.particleOrder p)[i]? = (r.particleOrder p)[i]?) ∧ r'.order = r.order := by
  have hd : ∀ av i, Steinhardt.dist p c' av i = Steinhardt.dist p c av i := by
    intro av i
    unfold Steinhardt.dist distribution
    simp only [hbox, hpts, directions_weights hw c.box c.points p.weighted hk, weights_filter hw, List.map_map,
      Function.comp_def]
  obtain ⟨r, r', e, e', h1, h2⟩ := steinhardt_local hf hl hh hh' hc hc'
  refine ⟨r, r', e, e', fun i hi => h1 i (by rw [hpts]; exact hi) i hi (by rw [hd]) (by rw [hd]), h2 fun row h => ?_⟩
  have e2 : Steinhardt.dist p c' p.average = Steinhardt.dist p c p.average := funext (hd p.average)
  rwa [e2, hpts] at h

/-- **C112**: a diffraction pattern depends only on the ratios of the weights of the points. -/
theorem C112_diffraction (g n : ℕ) (a : Diffraction.Args) (w : List ℝ) (c : ℝ) (hc : c ≠ 0) (reset : Bool)
    (s : Diffraction.State) :
    Diffraction.compute g n { a with weights := some (w.map (c * ·)) } reset s =
      Diffraction.compute g n { a with weights := some w } reset s := by
  have e : Diffraction.Args.w { a with weights := some (w.map (c * ·)) } =
      Diffraction.Args.w { a with weights := some w } := by
    have hs : (w.map (c * ·)).sum = c * w.sum := by
      simpa using List.sum_map_mul_left (l := w) (r := c) (f := fun x => x)
    simp only [Diffraction.Args.w, List.length_map, hs, mul_eq_zero, hc, false_or, List.map_map, Function.comp_def]
    split_ifs
    · rfl
    · rfl
    · congr 2
      refine List.map_congr_left fun x _ => ?_
      rw [mul_assoc, mul_div_mul_left _ _ hc]
  simp only [Diffraction.compute, Diffraction.frame, e, Diffraction.Args.q, Diffraction.intensity]

/-- **C112**: equal weights, other than zero, are the same as none. -/
theorem C112_diffraction_equal (g n : ℕ) (a : Diffraction.Args) (c : ℝ) (hc : c ≠ 0) (reset : Bool)
    (s : Diffraction.State) :
    Diffraction.compute g n { a with weights := some (List.replicate a.points.length c) } reset s =
      Diffraction.compute g n { a with weights := none } reset s := by
  by_cases h0 : a.points = []
  · simp only [Diffraction.compute, Diffraction.frame, h0, if_true]
  have e : Diffraction.Args.w { a with weights := some (List.replicate a.points.length c) } =
      Diffraction.Args.w { a with weights := none } := by
    have hl : (a.points.length : ℝ) ≠ 0 := by
      exact_mod_cast fun h => h0 (List.length_eq_zero_iff.mp h)
    simp only [Diffraction.Args.w, List.length_replicate, List.sum_replicate, nsmul_eq_mul, mul_eq_zero, hc, hl,
      or_self, ne_eq, not_true_eq_false, if_false, List.map_replicate]
    congr 3
    rw [mul_comm, div_self (mul_ne_zero hl hc)]
  simp only [Diffraction.compute, Diffraction.frame, e, Diffraction.Args.q, Diffraction.intensity]

/-! ### Concrete cases -/

/-- Two frames with complex values and a reset; the third history has `2 w + i w'`. -/
example (e : List ℕ) : QueryCombined (K := ℚ) (2 : ℂ) Complex.I
    [.frame [1] [1, 0] 2 (fun i => [⟨i, 0, 1 / 2⟩]) [(0, 0), (0, 1)], .read e, .reset,
      .frame [1] [3, 0] 2 (fun i => [⟨i, 0, 1 / 2⟩]) [(0, 0), (1, 1)]]
    [.frame [1] [0, 1] 2 (fun i => [⟨i, 0, 1 / 2⟩]) [(0, 0), (0, 1)], .read e, .reset,
      .frame [1] [0, 4] 2 (fun i => [⟨i, 0, 1 / 2⟩]) [(1, 1), (0, 0)]]
    [.frame [1] (combine 2 Complex.I [1, 0] [0, 1]) 2 (fun i => [⟨i, 0, 1 / 2⟩]) [(0, 0), (0, 1)], .read e, .reset,
      .frame [1] (combine 2 Complex.I [3, 0] [0, 4]) 2 (fun i => [⟨i, 0, 1 / 2⟩]) [(0, 0), (0, 1)]] :=
  .frame [1] [1, 0] [0, 1] rfl _ _ _ _ _ (.read _ _ _ (.reset (.frame [1] [3, 0] [0, 4] rfl _ _ _ _ _ .nil)))

/-- The frames are legal: `combine` has the length of its arguments. -/
example : CFLegal 2 (.frame [1] (combine 2 Complex.I [1, 0] [0, 1]) 2 (fun i => [⟨i, 0, (1 / 2 : ℚ)⟩])
    [(0, 0), (0, 1)]) := by
  refine ⟨by unfold IsExecution; decide, fun i hi b hb => ?_⟩
  simp only [List.mem_singleton] at hb
  subst hb
  simp only [combine, List.length_zipWith, List.length_cons, List.length_nil]
  omega

/-- `C112_hexatic` applied to two points with bonds of weight 1 and 2, then 3 and 10. -/
example : ∃ r, Hexatic.compute ⟨6, true⟩ (Box.mk' 10 10 0 0 0 0 true) [⟨0, 0, 0⟩, ⟨1, 0, 0⟩]
      ⟨2, 2, [⟨0, 1, 1, 1, ⟨1, 0, 0⟩⟩, ⟨1, 0, 1, 2, ⟨-1, 0, 0⟩⟩], false, [], []⟩ [0, 1] = some r ∧
    Hexatic.compute ⟨6, true⟩ (Box.mk' 10 10 0 0 0 0 true) [⟨0, 0, 0⟩, ⟨1, 0, 0⟩]
      ⟨2, 2, [⟨0, 1, 1, 3, ⟨1, 0, 0⟩⟩, ⟨1, 0, 1, 10, ⟨-1, 0, 0⟩⟩], false, [], []⟩ [1, 0] = some r := by
  have hw : Reweighted (fun i => if i = 0 then 3 else 5)
      [⟨0, 1, 1, 1, ⟨1, 0, 0⟩⟩, ⟨1, 0, 1, 2, ⟨-1, 0, 0⟩⟩] [⟨0, 1, 1, 3, ⟨1, 0, 0⟩⟩, ⟨1, 0, 1, 10, ⟨-1, 0, 0⟩⟩] :=
    .cons (by norm_num) (.cons (by norm_num) .nil)
  refine C112_hexatic _ _ rfl _ _ _ ⟨⟨?_, ?_, ?_, ?_⟩, ?_⟩ ⟨⟨?_, ?_, ?_, ?_⟩, ?_⟩ _ ?_ hw _ _
    (by simp [List.range_succ]) (by decide)
  all_goals first | norm_num | skip
  intro i
  split_ifs <;> norm_num

end Freud
