import Verif.Model.ClusterProps
import Verif.Props.BoxCom

/-!
# Property C34: cluster properties
-/

namespace Freud
open ClusterProps

/-- The points with label `c`, in their order. -/
def Spec.members (es : List Entry) (c : ℕ) : List Entry := es.filter (fun e => e.c = c)

open Spec

theorem foldl_upd {α : Type*} (d : α) (f : α → Entry → α) (es : List Entry) (arr : List α)
    (hb : ∀ e ∈ es, e.c < arr.length) (c : ℕ) :
    (es.foldl (upd d f) arr).getD c d = (members es c).foldl f (arr.getD c d) := by
  induction es generalizing arr with
  | nil => rfl
  | cons e es ih =>
    have hlen : (upd d f arr e).length = arr.length := by simp [upd]
    rw [List.foldl_cons, ih _ (fun x hx => by rw [hlen]; exact hb x (List.mem_cons_of_mem _ hx))]
    have he := hb e List.mem_cons_self
    unfold members
    rw [List.filter_cons]
    by_cases h : e.c = c
    · subst h
      rw [if_pos (by simp), List.foldl_cons]
      congr 1
      simp [upd, List.getD_eq_getElem?_getD, he]
    · rw [if_neg (by simpa using h)]
      congr 1
      simp [upd, List.getD_eq_getElem?_getD, List.getElem?_set_ne h]

theorem foldl_upd_length {α : Type*} (d : α) (f : α → Entry → α) (es : List Entry)
    (arr : List α) : (es.foldl (upd d f) arr).length = arr.length := by
  induction es generalizing arr with
  | nil => rfl
  | cons e es ih => rw [List.foldl_cons, ih]; simp [upd]

theorem foldl_max_ge (l : List ℕ) (a : ℕ) : a ≤ l.foldl max a ∧ ∀ x ∈ l, x ≤ l.foldl max a := by
  induction l generalizing a with
  | nil => simp
  | cons y ys ih =>
    obtain ⟨h1, h2⟩ := ih (max a y)
    rw [List.foldl_cons]
    refine ⟨le_trans (le_max_left _ _) h1, ?_⟩
    intro x hx
    rcases List.mem_cons.mp hx with rfl | hx
    · exact le_trans (le_max_right _ _) h1
    · exact h2 x hx

theorem label_lt (es : List Entry) : ∀ e ∈ es, e.c < numClusters es := by
  intro e he
  have := (foldl_max_ge (es.map (·.c)) 0).2 e.c (List.mem_map_of_mem he)
  unfold numClusters
  omega

theorem getD_replicate_self {α : Type*} (n c : ℕ) (d : α) : (List.replicate n d).getD c d = d := by
  by_cases h : c < n
  · simp [List.getD_eq_getElem?_getD, h]
  · rw [List.getD_eq_getElem?_getD, List.getElem?_eq_none (by simpa using h)]
    rfl

theorem arr_spec {α : Type*} (d : α) (f : α → Entry → α) (es : List Entry) (c : ℕ) :
    (es.foldl (upd d f) (List.replicate (numClusters es) d)).getD c d =
      (members es c).foldl f d := by
  rw [foldl_upd d f es _ (by simpa using label_lt es) c, getD_replicate_self]

theorem foldl_append_map (l : List Entry) (acc : List (Vec3 ℝ)) :
    l.foldl (fun l e => l ++ [e.pos]) acc = acc ++ l.map (·.pos) := by
  induction l generalizing acc with
  | nil => simp
  | cons e l ih => simp [ih]

theorem foldl_count (l : List Entry) (n : ℕ) : l.foldl (fun n _ => n + 1) n = n + l.length := by
  induction l generalizing n with
  | nil => rfl
  | cons e l ih => rw [List.foldl_cons, ih, List.length_cons]; omega

theorem foldl_add_map {α : Type*} [AddMonoid α] (g : Entry → α) (l : List Entry) (a : α) :
    l.foldl (fun s e => s + g e) a = a + (l.map g).sum := by
  induction l generalizing a with
  | nil => simp
  | cons e l ih => simp [ih, add_assoc]

/-- **C34**: every size is the number of points with that label, every mass the sum of their own
masses; sizes add up to the number of points and masses to the total mass. -/
theorem C34_sizes_and_masses (es : List Entry) :
    (∀ c, (sizes es).getD c 0 = (members es c).length) ∧
    (∀ c, (masses es).getD c 0 = ((members es c).map (·.m)).sum) ∧
    (sizes es).sum = es.length ∧ (masses es).sum = (es.map (·.m)).sum := by
  have hs : ∀ c, (sizes es).getD c 0 = (members es c).length := by
    intro c; rw [sizes, arr_spec, foldl_count, Nat.zero_add]
  have hm : ∀ c, (masses es).getD c 0 = ((members es c).map (·.m)).sum := by
    intro c; rw [masses, arr_spec, foldl_add_map, zero_add]
  have hsum : ∀ (n : ℕ) (es : List Entry) (g : Entry → ℝ), (∀ e ∈ es, e.c < n) →
      ((List.range n).map (fun c => ((members es c).map g).sum)).sum = (es.map g).sum := by
    intro n es g hb
    induction es with
    | nil => simp [members]
    | cons e es ih =>
      have hstep : ∀ c, ((members (e :: es) c).map g).sum =
          (if c = e.c then g e else 0) + ((members es c).map g).sum := by
        intro c
        unfold members
        rw [List.filter_cons]
        by_cases h : e.c = c
        · subst h; simp
        · rw [if_neg (by simpa using h), if_neg (Ne.symm h), zero_add]
      simp only [hstep]
      rw [List.sum_map_add, ih (fun x hx => hb x (List.mem_cons_of_mem _ hx)), List.map_cons,
        List.sum_cons]
      congr 1
      have he := hb e List.mem_cons_self
      have : ∀ n, e.c < n → ((List.range n).map (fun c => if c = e.c then g e else 0)).sum = g e := by
        intro n
        induction n with
        | zero => intro h; omega
        | succ n ihn =>
          intro h
          rw [List.range_succ, List.map_append, List.sum_append]
          by_cases hn : n = e.c
          · subst hn
            have : ((List.range e.c).map (fun c => if c = e.c then g e else 0)).sum = 0 := by
              apply List.sum_eq_zero
              intro x hx
              obtain ⟨c, hc, rfl⟩ := List.mem_map.mp hx
              rw [if_neg]
              have := List.mem_range.mp hc
              omega
            rw [this]; simp
          · rw [ihn (by omega)]; simp [hn]
      exact this n he
  have hlist : ∀ {α : Type} (l : List α) (d : α), l = (List.range l.length).map (fun c => l.getD c d) := by
    intro α l d
    apply List.ext_getElem
    · simp
    · intro i h1 h2
      simp [List.getD_eq_getElem?_getD, h1]
  have hls : (sizes es).length = numClusters es := by rw [sizes, foldl_upd_length]; simp
  have hlm : (masses es).length = numClusters es := by rw [masses, foldl_upd_length]; simp
  refine ⟨hs, hm, ?_, ?_⟩
  · have h1 := hsum (numClusters es) es (fun _ => 1) (label_lt es)
    have h2 : (((sizes es).sum : ℕ) : ℝ) = (es.length : ℝ) := by
      rw [hlist (sizes es) 0, hls]
      simp only [hs]
      rw [Nat.cast_list_sum, List.map_map]
      simp only [List.map_const', List.sum_replicate, nsmul_eq_mul, mul_one] at h1
      rw [← h1]
      rfl
    exact_mod_cast h2
  · rw [hlist (masses es) 0, hlm]
    simp only [hm]
    exact hsum _ es _ (label_lt es)

theorem clusterPoints_spec (es : List Entry) (c : ℕ) :
    (clusterPoints es).getD c [] = (members es c).map (·.pos) := by
  rw [clusterPoints, arr_spec, foldl_append_map, List.nil_append]

/-- **C34**: the geometric center of a cluster is the periodic center of exactly its points. -/
theorem C34_center (b : Box ℝ) (es : List Entry) (c : ℕ) :
    center b es c = b.centerOfMass ((members es c).map (fun e => (e.pos, 1))) := by
  rw [center, clusterPoints_spec, List.map_map]
  rfl

/-! ### Centers of mass -/

theorem sorted_split (es : List Entry) (hs : (es.map (·.c)).Pairwise (· ≤ ·)) (c : ℕ) :
    es = es.filter (fun e => e.c < c) ++ es.filter (fun e => ¬ e.c < c) := by
  induction es with
  | nil => rfl
  | cons e es ih =>
    rw [List.map_cons, List.pairwise_cons] at hs
    by_cases h : e.c < c
    · rw [List.filter_cons_of_pos (by simpa using h), List.filter_cons_of_neg (by simpa using h),
        List.cons_append, ← ih hs.2]
    · have hall : ∀ x ∈ es, ¬ x.c < c := by
        intro x hx
        have := hs.1 x.c (List.mem_map_of_mem hx)
        omega
      rw [List.filter_cons_of_neg (by simpa using h), List.filter_cons_of_pos (by simpa using h)]
      rw [List.filter_eq_nil_iff.mpr (by intro x hx; simpa using hall x hx),
        List.filter_eq_self.mpr (by intro x hx; simpa using hall x hx)]
      rfl

theorem below_succ (es : List Entry) (c : ℕ) :
    (es.filter (fun e => e.c < c + 1)).length =
      (es.filter (fun e => e.c < c)).length + (members es c).length := by
  unfold members
  induction es with
  | nil => rfl
  | cons e es ih =>
    simp only [List.filter_cons, decide_eq_true_eq]
    split_ifs <;> (try simp only [List.length_cons]) <;> omega

theorem below_count (es : List Entry) (c : ℕ) :
    (es.filter (fun e => e.c < c)).length =
      ((List.range c).map (fun d => (members es d).length)).sum := by
  induction c with
  | zero => simp
  | succ c ih =>
    rw [List.range_succ, List.map_append, List.sum_append, ← ih, below_succ]
    simp

theorem take_sizes (es : List Entry) (c : ℕ) (hc : c ≤ numClusters es) :
    (sizes es).take c = (List.range c).map (fun d => (members es d).length) := by
  have hls : (sizes es).length = numClusters es := by rw [sizes, foldl_upd_length]; simp
  apply List.ext_getElem
  · simp [hls, hc]
  · intro i h1 h2
    have hi : i < (sizes es).length := by simp at h1; omega
    have := (C34_sizes_and_masses es).1 i
    rw [List.getD_eq_getElem?_getD, List.getElem?_eq_getElem hi, Option.getD_some] at this
    simp [this]

/-- The slice of the mass array that the code uses for cluster `c`, when labels are sorted. -/
theorem sorted_slice (es : List Entry) (hs : (es.map (·.c)).Pairwise (· ≤ ·)) (c : ℕ)
    (hc : c < numClusters es) :
    (es.drop (massOffset es c)).take ((sizes es).getD c 0) = members es c := by
  have hoff : massOffset es c = (es.filter (fun e => e.c < c)).length := by
    rw [massOffset, take_sizes es c hc.le, below_count]
  rw [hoff, (C34_sizes_and_masses es).1 c]
  have hdrop : es.drop (es.filter (fun e => e.c < c)).length =
      es.filter (fun e => ¬ e.c < c) := by
    conv_lhs => enter [2]; rw [sorted_split es hs c]
    rw [List.drop_left]
  rw [hdrop]
  -- among the rest, those with label `c` come first
  have hs2 : ((es.filter (fun e => ¬ e.c < c)).map (·.c)).Pairwise (· ≤ ·) :=
    hs.sublist (List.filter_sublist.map _)
  have h2 := sorted_split _ hs2 (c + 1)
  have h3 : (es.filter (fun e => ¬ e.c < c)).filter (fun e => e.c < c + 1) = members es c := by
    unfold members
    rw [List.filter_filter]
    apply List.filter_congr
    intro e _
    rw [Bool.eq_iff_iff]
    simp only [Bool.and_eq_true, decide_eq_true_eq]
    omega
  rw [h3] at h2
  rw [h2, List.take_left]

/-- **C34**, partial: if the labels are in non-decreasing order, every center of mass is the
periodic center of mass of exactly the points with that label, each with its own mass. What is
missing: label arrays in other orders, where it is false. -/
theorem C34_center_of_mass_partial (b : Box ℝ) (es : List Entry)
    (hs : (es.map (·.c)).Pairwise (· ≤ ·)) (c : ℕ) (hc : c < numClusters es) :
    centerOfMass b es c = b.centerOfMass ((members es c).map (fun e => (e.pos, e.m))) := by
  simp only [centerOfMass]
  rw [clusterPoints_spec, ← List.map_drop, ← List.map_take, sorted_slice es hs c hc, List.zip_map']

/-- **C34**, partial: the same when all points have the same mass (in particular when no masses are
given), for label arrays in any order. -/
theorem C34_equal_masses_partial (b : Box ℝ) (es : List Entry) (m : ℝ) (hm : ∀ e ∈ es, e.m = m)
    (c : ℕ) (hc : c < numClusters es) :
    centerOfMass b es c = b.centerOfMass ((members es c).map (fun e => (e.pos, e.m))) := by
  simp only [centerOfMass]
  rw [clusterPoints_spec]
  have hlen : massOffset es c + (sizes es).getD c 0 ≤ es.length := by
    rw [(C34_sizes_and_masses es).1 c, massOffset, take_sizes es c hc.le, ← below_count]
    unfold members
    have : ∀ l : List Entry, (l.filter (fun e => e.c < c)).length +
        (l.filter (fun e => e.c = c)).length ≤ l.length := by
      intro l
      induction l with
      | nil => simp
      | cons e l ih =>
        simp only [List.filter_cons, decide_eq_true_eq]
        split_ifs <;> simp only [List.length_cons] <;> omega
    exact this es
  have hms : ((es.map (·.m)).drop (massOffset es c)).take ((sizes es).getD c 0) =
      (members es c).map (·.m) := by
    rw [List.eq_replicate_of_mem (a := m) (l := ((es.map (·.m)).drop _).take _),
      List.eq_replicate_of_mem (a := m) (l := (members es c).map (·.m))]
    · congr 1
      rw [List.length_take, List.length_drop, List.length_map, List.length_map,
        ← (C34_sizes_and_masses es).1 c]
      omega
    · intro x hx
      obtain ⟨e, he, rfl⟩ := List.mem_map.mp hx
      exact hm e (List.mem_filter.mp he).1
    · intro x hx
      obtain ⟨e, he, rfl⟩ := List.mem_map.mp (List.mem_of_mem_drop (List.mem_of_mem_take hx))
      exact hm e he
  rw [hms, List.zip_map']

/-! ### Tensors -/

instance : AddMonoid Mat where
  add_assoc a b c := by ext <;> simp [add_assoc]
  zero_add a := by ext <;> simp
  add_zero a := by ext <;> simp
  nsmul := nsmulRec

/-- The inertia tensor of one point at displacement `d` with mass `m`:
`m (|d|^2 delta_ij - d_i d_j)`. -/
def Spec.pointInertia (d : Vec3 ℝ) (m : ℝ) : Mat :=
  ⟨⟨m * (d.dot d - d.x * d.x), m * (0 - d.x * d.y), m * (0 - d.x * d.z)⟩,
   ⟨m * (0 - d.y * d.x), m * (d.dot d - d.y * d.y), m * (0 - d.y * d.z)⟩,
   ⟨m * (0 - d.z * d.x), m * (0 - d.z * d.y), m * (d.dot d - d.z * d.z)⟩⟩

theorem inertiaTerm_eq (d : Vec3 ℝ) (m : ℝ) : inertiaTerm d m = pointInertia d m := by
  ext <;> simp [inertiaTerm, pointInertia, Vec3.dot] <;> ring

/-- **C34**: the inertia tensor of a cluster is the sum over exactly its points of
`m (|d|^2 delta_ij - d_i d_j)`, with each point's own mass and its displacement from the reported
center of mass. -/
theorem C34_inertia (b : Box ℝ) (es : List Entry) (c : ℕ) :
    (inertia b es).getD c 0 = ((members es c).map (fun e =>
      pointInertia (b.wrap (e.pos - centerOfMass b es c)) e.m)).sum := by
  rw [inertia, arr_spec, foldl_add_map, zero_add]
  congr 1
  apply List.map_congr_left
  intro e he
  have : e.c = c := by simpa [members] using (List.mem_filter.mp he).2
  rw [this, inertiaTerm_eq]

/-- **C34**: the gyration tensor of a cluster with at least one point is the mean over exactly its
points of `d_i d_j`, with the displacement from the reported center. -/
theorem C34_gyration (b : Box ℝ) (es : List Entry) (c : ℕ) (_hne : members es c ≠ []) :
    gyration b es c = matDiv (((members es c).map (fun e =>
      gyrationTerm (b.wrap (e.pos - center b es c)))).sum) ((members es c).length : ℝ) := by
  rw [gyration, (C34_sizes_and_masses es).1 c]
  congr 1
  rw [gyrationSum, arr_spec, foldl_add_map, zero_add]
  refine congrArg List.sum (List.map_congr_left ?_)
  intro e he
  have : e.c = c := by simpa [members] using (List.mem_filter.mp he).2
  rw [this]

/-- **C34**: the radius of gyration is the root of the mass-weighted mean square displacement of
exactly the points of the cluster. -/
theorem C34_radius_of_gyration (b : Box ℝ) (es : List Entry) (c : ℕ)
    (_hm : ((members es c).map (·.m)).sum ≠ 0) :
    radiusOfGyration b es c = Real.sqrt (((members es c).map (fun e =>
      e.m * (b.wrap (e.pos - centerOfMass b es c)).dot (b.wrap (e.pos - centerOfMass b es c)))).sum /
        ((members es c).map (·.m)).sum) := by
  unfold radiusOfGyration
  rw [C34_inertia, (C34_sizes_and_masses es).2.1 c]
  dsimp only
  congr 1
  have key : ∀ l : List Mat, l.sum.x.x + l.sum.y.y + l.sum.z.z =
      (l.map (fun t => t.x.x + t.y.y + t.z.z)).sum := by
    intro l
    induction l with
    | nil => simp
    | cons t l ih =>
      rw [List.sum_cons, List.map_cons, List.sum_cons, ← ih]
      simp only [Vec3.add_x, Vec3.add_y, Vec3.add_z]
      ring
  have htr : ∀ (d : Vec3 ℝ) (m : ℝ), (pointInertia d m).x.x + (pointInertia d m).y.y +
      (pointInertia d m).z.z = 2 * (m * d.dot d) := by
    intro d m
    simp only [pointInertia, Vec3.dot]
    ring
  rw [key, List.map_map]
  simp only [Function.comp_def, htr, List.sum_map_mul_left]
  rw [mul_div_mul_left _ _ (by norm_num)]

/-! ### The counterexample -/

theorem cube_com_x (l : List (Vec3 ℝ × ℝ)) (hm : 0 < (l.map Prod.snd).sum)
    (h : 0 ≤ (phases (Box.mk' (4 : ℝ) 4 4 0 0 0 false) l Vec3.x).arg) :
    ((Box.mk' (4 : ℝ) 4 4 0 0 0 false).centerOfMass l).x =
      4 * ((phases (Box.mk' (4 : ℝ) 4 4 0 0 0 false) l Vec3.x).arg / (2 * Real.pi)) - 2 := by
  rw [centerOfMass_eq _ _ hm]
  set a := (phases (Box.mk' (4 : ℝ) 4 4 0 0 0 false) l Vec3.x).arg with ha
  have hpi := Real.pi_pos
  have h1 : a ≤ Real.pi := Complex.arg_le_pi _
  have h2 : a / (2 * Real.pi) < 1 := by rw [div_lt_one (by positivity)]; linarith
  have h3 : 0 ≤ a / (2 * Real.pi) := by positivity
  have h4 : Int.fract (a / (2 * Real.pi)) = a / (2 * Real.pi) := Int.fract_eq_self.mpr ⟨h3, h2⟩
  have hval : Valid (Box.mk' (4 : ℝ) 4 4 0 0 0 false) := by
    constructor <;> simp [Box.mk', Box.setL]
  have hpl : ∀ v, Planar (Box.mk' (4 : ℝ) 4 4 0 0 0 false) v := by
    intro v h2; simp [Box.mk', Box.setL] at h2
  have hw : ∀ f : Vec3 ℝ, ((Box.mk' (4 : ℝ) 4 4 0 0 0 false).wrap
      ((Box.mk' (4 : ℝ) 4 4 0 0 0 false).makeAbsolute f)).x = 4 * Int.fract f.x - 2 := by
    intro f
    have := makeFractional_makeAbsolute hval f (hpl f)
    unfold Box.wrap
    rw [this]
    simp [Box.mk', Box.setL, Box.makeAbsolute, Vec3.cmul, modulusPositive_one]
    ring
  rw [hw, h4]

/-- **C34** is false as stated: with labels `1, 1, 0` and masses `1, 3, 1` in a cube, the center of
mass reported for cluster 1 uses the masses of the second and third point. -/
theorem C34_mass_counterexample :
    let b := Box.mk' (4 : ℝ) 4 4 0 0 0 false
    let es : List Entry := [⟨1, ⟨-2, -2, -2⟩, 1⟩, ⟨1, ⟨-1, -2, -2⟩, 3⟩, ⟨0, ⟨0, 0, 0⟩, 1⟩]
    centerOfMass b es 1 ≠ b.centerOfMass ((members es 1).map (fun e => (e.pos, e.m))) := by
  intro b es h
  have e1 : centerOfMass b es 1 = b.centerOfMass [(⟨-2, -2, -2⟩, 3), (⟨-1, -2, -2⟩, 1)] := by
    simp [centerOfMass, clusterPoints, massOffset, sizes, numClusters, es, upd]
  have e2 : (members es 1).map (fun e => (e.pos, e.m)) =
      [(⟨-2, -2, -2⟩, 1), (⟨-1, -2, -2⟩, 3)] := by
    simp [members, es]
  rw [e1, e2] at h
  have hx := congrArg Vec3.x h
  have ph : ∀ m1 m2 : ℝ, phases b [(⟨-2, -2, -2⟩, m1), (⟨-1, -2, -2⟩, m2)] Vec3.x = ⟨m1, m2⟩ := by
    intro m1 m2
    have f1 : (b.makeFractional ⟨-2, -2, -2⟩).x = 0 := by
      simp [b, Box.makeFractional, Box.mk', Box.setL]; norm_num
    have f2 : (b.makeFractional ⟨-1, -2, -2⟩).x = 1 / 4 := by
      simp [b, Box.makeFractional, Box.mk', Box.setL]; norm_num
    have f3 : Complex.exp (((2 * Real.pi * (1 / 4) : ℝ) : ℂ) * Complex.I) = Complex.I := by
      have : ((2 * Real.pi * (1 / 4) : ℝ) : ℂ) * Complex.I = (Real.pi : ℂ) / 2 * Complex.I := by
        push_cast; ring
      rw [this, Complex.exp_pi_div_two_mul_I]
    simp only [phases, phaseSum, List.map_cons, List.map_nil, List.sum_cons, List.sum_nil, f1, f2,
      f3]
    apply Complex.ext <;> simp
  have n1 : ∀ m1 m2 : ℝ, 0 ≤ m2 → 0 ≤ (⟨m1, m2⟩ : ℂ).arg := by
    intro m1 m2 h; rw [Complex.arg_nonneg_iff]; exact h
  rw [cube_com_x _ (by norm_num) (by rw [ph]; exact n1 _ _ (by norm_num)),
    cube_com_x _ (by norm_num) (by rw [ph]; exact n1 _ _ (by norm_num)), ph, ph] at hx
  have hpi := Real.pi_pos
  have harg : (⟨3, 1⟩ : ℂ).arg = (⟨1, 3⟩ : ℂ).arg := by
    field_simp at hx
    linarith
  have := Complex.ext_norm_arg (x := ⟨3, 1⟩) (y := ⟨1, 3⟩) (by
    rw [Complex.norm_def, Complex.norm_def]; congr 1; simp [Complex.normSq]; norm_num) harg
  have := congrArg Complex.re this
  norm_num at this

-- witness: three points in two clusters, sorted labels, unequal masses
example : let es : List Entry := [⟨0, ⟨-2, -2, -2⟩, 1⟩, ⟨1, ⟨-1, -2, -2⟩, 3⟩, ⟨1, ⟨0, 0, 0⟩, 2⟩]
    (es.map (·.c)).Pairwise (· ≤ ·) ∧ 1 < numClusters es ∧ members es 1 ≠ [] := by
  refine ⟨by decide, by simp [numClusters], by simp [members]⟩

end Freud
