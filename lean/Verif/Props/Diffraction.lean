import Verif.Lemmas.Diffraction

/-!
# Properties of diffraction patterns
-/

namespace Freud
open Spec Diffraction Matrix

/-- **C84**: the pixel `(output_size // 2, output_size // 2)` of a frame is the number of points, for every
view, zoom, peak width, grid size, output size and weights. -/
theorem C84_center (g n : ℕ) (hg : 0 < g) (a : Args) (d : ℕ → ℕ → ℝ)
    (h : frame g n a = some (some d)) : d (n / 2) (n / 2) = a.points.length := by
  obtain ⟨hne, S, w, t, hS, hw, ht, hd⟩ := frame_some g n a d h
  obtain ⟨hl, hsum, -⟩ := w_facts a w hw
  have hpos : (0 : ℝ) < a.points.length := by exact_mod_cast List.length_pos_of_ne_nil hne
  have hc : g / 2 < g := Nat.div_lt_self hg (by norm_num)
  rw [hd, transform_at g n _ a.box S a.zoom t ht (n / 2) (n / 2) 0 0 (by ring) (by ring), zero_add,
    bilinear_nat g _ _ _ hc hc, intensity_eq g a S w _ _ hc hc, sub_self, siteIntensity_zero,
    sites_weights g a S w hl, hsum]
  field_simp

/-- **C84**: no pixel is negative, and with non-negative weights (or without weights) no pixel is above the
number of points, so the centre is a maximum. -/
theorem C84_range (g n : ℕ) (hg : 0 < g) (a : Args) (d : ℕ → ℕ → ℝ)
    (h : frame g n a = some (some d))
    (hw0 : ∀ w, a.weights = some w → ∀ x ∈ w, 0 ≤ x) (i j : ℕ) :
    0 ≤ d i j ∧ d i j ≤ a.points.length := by
  obtain ⟨hne, S, w, t, hS, hw, ht, hd⟩ := frame_some g n a d h
  obtain ⟨hl, hsum, hnn⟩ := w_facts a w hw
  have hpos : (0 : ℝ) < a.points.length := by exact_mod_cast List.length_pos_of_ne_nil hne
  have hI : ∀ x y, 0 ≤ intensity g a S w x y ∧ intensity g a S w x y ≤ (a.points.length : ℝ) ^ 2 := by
    intro x y
    rw [intensity_mod, intensity_eq g a S w _ _ (Nat.mod_lt _ hg) (Nat.mod_lt _ hg)]
    have hb := siteIntensity_bounds g (a.peakWidth / a.zoom) (sites g a S w)
      (((x % g : ℕ) : ℤ) - (g / 2 : ℕ)) (((y % g : ℕ) : ℤ) - (g / 2 : ℕ))
    rw [sites_weights g a S w hl, hsum] at hb
    exact ⟨hb.1, hb.2 (hnn hw0)⟩
  have ht' : 0 ≤ t i j ∧ t i j ≤ (a.points.length : ℝ) ^ 2 := by
    unfold transform at ht
    simp only at ht
    split_ifs at ht
    obtain rfl := Option.some.inj ht
    exact bilinear_bounds g _ _ (by positivity) hI _ _
  rw [hd, le_div_iff₀ hpos, div_le_iff₀ hpos]
  exact ⟨by linarith [ht'.1], by nlinarith [ht'.2]⟩

namespace Diffraction

theorem w_scaled (a : Args) (ws : List ℝ) (h : ScaledWeights a.points.length a.weights ws) :
    a.w = some (some ws) := by
  unfold Args.w
  cases e : a.weights with
  | none =>
    rw [e] at h
    simp only [show ws = List.replicate a.points.length 1 from h]
  | some w =>
    rw [e] at h
    obtain ⟨h1, h2, rfl⟩ := h
    simp only [h1, ne_eq, not_true_eq_false, if_false, h2]

theorem frame_unfold (g n : ℕ) (a : Args) (L : ℝ) (hb : CubeBox a.box L) (hne : a.points ≠ [])
    (ws : List ℝ) (hw : ScaledWeights a.points.length a.weights ws) (hz : a.zoom ≠ 0)
    (S : Matrix (Fin 2) (Fin 2) ℝ) (hS : calcProj a.q a.box = some S) :
    ∃ t, transform g n (intensity g a S ws) a.box S a.zoom = some t ∧
      frame g n a = some (some fun i j => t i j / (a.points.length : ℝ)) := by
  obtain ⟨t, ht⟩ := transform_some g n (intensity g a S ws) a.box S a.zoom hz
    (by rw [maxEntry_cube a.box L hb]; exact hb.pos.ne') (calcProj_det _ _ _ hS)
  refine ⟨t, ht, ?_⟩
  unfold frame
  rw [if_neg hne, if_neg (not_not.mpr (cubic_cube a.box L hb)), hS, Option.bind_some, w_scaled a ws hw,
    Option.bind_some]
  simp only [ht]
  rfl

end Diffraction

/-- **C84**: for a cube, a unit view orientation and a zoom other than 0 a frame is computed; a box that is
not cubic (within the tolerance) or weights of another length raise. -/
theorem C84_accepted (g n : ℕ) (a : Args) :
    (∀ L ws, CubeBox a.box L → a.points ≠ [] → Quat.norm2 a.q = 1 →
      ScaledWeights a.points.length a.weights ws → a.zoom ≠ 0 → ∃ d, frame g n a = some (some d)) ∧
    (¬ cubic a.box → frame g n a = none) ∧
    (∀ w, a.weights = some w → w.length ≠ a.points.length → frame g n a = none) := by
  refine ⟨fun L ws hb hne hq hw hz => ?_, fun h => ?_, fun w hw hl => ?_⟩
  · obtain ⟨S, hS, -⟩ := calcProj_cube a.box L hb a.q hq
    obtain ⟨t, -, e⟩ := frame_unfold g n a L hb hne ws hw hz S hS
    exact ⟨_, e⟩
  · unfold frame
    split_ifs <;> rfl
  · have hw' : a.w = none := by
      unfold Args.w
      rw [hw]
      simp only
      rw [if_pos hl]
    unfold frame
    split_ifs
    · rfl
    · cases calcProj a.q a.box with
      | none => rfl
      | some S => rw [Option.bind_some, hw']; rfl
    · rfl

/-- **C84**: in the default view every pixel is the bilinear interpolation of the intensities of the
points on the pixel grid, divided by the number of points. The first index is the y component of the
frequency, the second the x component; the zoom is the distance of integer frequencies in pixels. Pixels
beyond the frequencies of the grid are 0. -/
theorem C84_value (g n : ℕ) (a : Args) (L : ℝ) (hb : CubeBox a.box L) (hne : a.points ≠ [])
    (hv : a.view = none) (ws : List ℝ) (hw : ScaledWeights a.points.length a.weights ws)
    (hz : a.zoom ≠ 0) :
    ∃ d, frame g n a = some (some d) ∧ ∀ i j : ℕ,
      let x := ((j : ℝ) - ((n / 2 : ℕ) : ℝ)) / a.zoom
      let y := ((i : ℝ) - ((n / 2 : ℕ) : ℝ)) / a.zoom
      let c := ((g / 2 : ℕ) : ℝ)
      let st := (a.points.map fun p => (gridSite g L p.x, gridSite g L p.y)).zip ws
      ((-c ≤ x ∧ x ≤ g - 1 - c ∧ -c ≤ y ∧ y ≤ g - 1 - c) →
        d i j = interpolate (siteIntensity g (a.peakWidth / a.zoom) st) x y / (a.points.length : ℝ)) ∧
      (¬ (-c ≤ x ∧ x ≤ g - 1 - c ∧ -c ≤ y ∧ y ≤ g - 1 - c) → d i j = 0) := by
  have hq : a.q = Quat.one := by unfold Args.q; rw [hv]; rfl
  have hL := hb.pos.ne'
  have hS : calcProj a.q a.box = some !![1 / L, 0; 0, 1 / L] := by
    rw [hq]; exact calcProj_default a.box L hb
  obtain ⟨t, ht, e⟩ := frame_unfold g n a L hb hne ws hw hz _ hS
  refine ⟨_, e, fun i j => ?_⟩
  have hst : sites g a !![1 / L, 0; 0, 1 / L] ws =
      (a.points.map fun p => (gridSite g L p.x, gridSite g L p.y)).zip ws := by
    unfold sites
    congr 1
    apply List.map_congr_left
    intro p _
    unfold gridSite project
    rw [hq, Quat.rotate_one]
    simp [Matrix.mulVec, dotProduct, Fin.sum_univ_two, div_eq_inv_mul]
  have hat := transform_at g n _ a.box _ a.zoom t ht i j
    (((j : ℝ) - ((n / 2 : ℕ) : ℝ)) / a.zoom) (((i : ℝ) - ((n / 2 : ℕ) : ℝ)) / a.zoom) (by
      rw [maxEntry_cube a.box L hb]
      simp
      field_simp) (by
      rw [maxEntry_cube a.box L hb]
      simp
      field_simp)
  dsimp only
  refine ⟨fun hin => ?_, fun hout => ?_⟩
  · rw [hat, bilinear_interpolate g _ (siteIntensity g (a.peakWidth / a.zoom)
      (sites g a !![1 / L, 0; 0, 1 / L] ws)) (g / 2) (fun x y hx hy => intensity_eq g a _ ws x y hx hy) _ _
      ⟨hin.1, hin.2.1⟩ ⟨hin.2.2.1, hin.2.2.2⟩, hst]
  · rw [hat]
    unfold bilinear
    rw [if_pos, zero_div]
    by_contra hcon
    push Not at hcon
    exact hout ⟨by linarith [hcon.1], by linarith [hcon.2.1], by linarith [hcon.2.2.1],
      by linarith [hcon.2.2.2]⟩

namespace Diffraction

theorem interpolate_int (f : ℤ → ℤ → ℝ) (x y : ℤ) : interpolate f x y = f x y := by
  unfold interpolate
  simp

/-- Sites of the grid have no rounding to a pixel. -/
theorem gridSite_exact (g u : ℕ) (L : ℝ) (hL : L ≠ 0) (hu : u < g) :
    gridSite g L (L * ((u : ℝ) / g - 1 / 2)) = u := by
  have hg : (0 : ℝ) < g := by exact_mod_cast (by omega : 0 < g)
  have hu' : (u : ℝ) < g := by exact_mod_cast hu
  unfold gridSite
  have e : L * ((u : ℝ) / g - 1 / 2) / L + 1 / 2 = (u : ℝ) / g := by field_simp; ring
  rw [e, Int.fract_eq_self.mpr ⟨by positivity, by rw [div_lt_one hg]; exact hu'⟩,
    mul_div_cancel₀ _ hg.ne', Nat.floor_natCast]

theorem siteIntensity_grid (g : ℕ) (L : ℝ) (hL : L ≠ 0) (sg : ℝ) (pts : List (Vec3 ℝ)) (hne : pts ≠ [])
    (hp : ∀ p ∈ pts, ∃ u v : ℕ, u < g ∧ v < g ∧ p.x = L * ((u : ℝ) / g - 1 / 2) ∧
      p.y = L * ((v : ℝ) / g - 1 / 2)) (hx hy : ℤ) :
    siteIntensity g sg ((pts.map fun p => (gridSite g L p.x, gridSite g L p.y)).zip
        (List.replicate pts.length 1)) hx hy / (pts.length : ℝ) =
      staticS pts ⟨2 * Real.pi / L * hx, 2 * Real.pi / L * hy, 0⟩ *
        Real.exp (-4 * Real.pi ^ 2 * sg ^ 2 * ((hx : ℝ) ^ 2 + (hy : ℝ) ^ 2) / (g : ℝ) ^ 2) := by
  unfold siteIntensity staticS
  have hsum : ∀ pts : List (Vec3 ℝ), (∀ p ∈ pts, ∃ u v : ℕ, u < g ∧ v < g ∧
      p.x = L * ((u : ℝ) / g - 1 / 2) ∧ p.y = L * ((v : ℝ) / g - 1 / 2)) →
      (pts.map fun p => Complex.exp (-(Vec3.dot ⟨2 * Real.pi / L * hx, 2 * Real.pi / L * hy, 0⟩ p : ℝ) *
        Complex.I)).sum = Complex.exp ((Real.pi * (hx + hy) : ℝ) * Complex.I) *
      ((((pts.map fun p => (gridSite g L p.x, gridSite g L p.y)).zip
        (List.replicate pts.length (1 : ℝ))).map fun s =>
      (s.2 : ℂ) * Complex.exp (-(2 * Real.pi * ((hx : ℝ) * s.1.1 + hy * s.1.2) / g : ℝ) *
        Complex.I)).sum) := by
    intro pts
    induction pts with
    | nil => simp
    | cons p ps ih =>
      intro h
      obtain ⟨u, v, hu, hv, ex, ey⟩ := h p List.mem_cons_self
      have hg : (g : ℝ) ≠ 0 := by exact_mod_cast (by omega : g ≠ 0)
      rw [List.map_cons, List.sum_cons, ih (fun q hq => h q (List.mem_cons_of_mem _ hq)), List.map_cons,
        List.length_cons, List.replicate_succ, List.zip_cons_cons, List.map_cons, List.sum_cons,
        mul_add (Complex.exp _)]
      congr 1
      rw [Complex.ofReal_one, one_mul, ← Complex.exp_add, ex, ey, gridSite_exact g u L hL hu,
        gridSite_exact g v L hL hv]
      congr 1
      rw [← add_mul]
      congr 1
      rw [← Complex.ofReal_neg, ← Complex.ofReal_neg, ← Complex.ofReal_add]
      congr 1
      simp only [Vec3.dot, ex, ey]
      field_simp
      ring
  rw [hsum pts hp, Complex.normSq_mul, Complex.normSq_eq_norm_sq (Complex.exp _),
    Complex.norm_exp_ofReal_mul_I]
  ring

end Diffraction

/-- **C84**: in the default view, for points on the sites of the pixel grid, a pixel at an integer
frequency is the static structure factor for that wave vector, apart from the Gaussian: `diffraction[i, j]`
belongs to the wave vector with x component `k_values[j]` and y component `k_values[i]`. -/
theorem C84_structure_factor (g n : ℕ) (a : Args) (L : ℝ) (hb : CubeBox a.box L) (hne : a.points ≠ [])
    (hv : a.view = none) (hw : a.weights = none) (hz : a.zoom ≠ 0)
    (hp : ∀ p ∈ a.points, ∃ u v : ℕ, u < g ∧ v < g ∧ p.x = L * ((u : ℝ) / g - 1 / 2) ∧
      p.y = L * ((v : ℝ) / g - 1 / 2)) :
    ∃ d, frame g n a = some (some d) ∧ ∀ (i j : ℕ) (hx hy : ℤ),
      (j : ℝ) - ((n / 2 : ℕ) : ℝ) = a.zoom * hx → (i : ℝ) - ((n / 2 : ℕ) : ℝ) = a.zoom * hy →
      -((g / 2 : ℕ) : ℤ) ≤ hx → hx + ((g / 2 : ℕ) : ℤ) < g → -((g / 2 : ℕ) : ℤ) ≤ hy →
      hy + ((g / 2 : ℕ) : ℤ) < g →
      d i j = staticS a.points ⟨2 * Real.pi / L * hx, 2 * Real.pi / L * hy, 0⟩ *
        Real.exp (-4 * Real.pi ^ 2 * (a.peakWidth / a.zoom) ^ 2 * ((hx : ℝ) ^ 2 + (hy : ℝ) ^ 2) /
          (g : ℝ) ^ 2) := by
  obtain ⟨d, e, h⟩ := C84_value g n a L hb hne hv (List.replicate a.points.length 1) (by rw [hw]; rfl) hz
  refine ⟨d, e, fun i j hx hy ej ei h1 h2 h3 h4 => ?_⟩
  have hval := (h i j).1
  simp only [ej, ei, mul_div_cancel_left₀ _ hz] at hval
  have k1 : ∀ (c : ℕ) (x : ℤ), -(c : ℤ) ≤ x → -(c : ℝ) ≤ x := fun c x h => by exact_mod_cast h
  have k2 : ∀ (c : ℕ) (x : ℤ), x + (c : ℤ) < g → (x : ℝ) + c + 1 ≤ g :=
    fun c x h => by exact_mod_cast Int.add_one_le_of_lt h
  have c1 : -((g / 2 : ℕ) : ℝ) ≤ hx := k1 _ _ h1
  have c2 : (hx : ℝ) + ((g / 2 : ℕ) : ℝ) + 1 ≤ g := k2 _ _ h2
  have c3 : -((g / 2 : ℕ) : ℝ) ≤ hy := k1 _ _ h3
  have c4 : (hy : ℝ) + ((g / 2 : ℕ) : ℝ) + 1 ≤ g := k2 _ _ h4
  rw [hval ⟨c1, by linarith, c3, by linarith⟩, interpolate_int,
    siteIntensity_grid g L hb.pos.ne' _ a.points hne hp]

/-- **C84**: in the default view the result does not depend on the periodic images of the points. -/
theorem C84_images (g n : ℕ) (a : Args) (L : ℝ) (hb : CubeBox a.box L) (hne : a.points ≠ [])
    (hv : a.view = none) (ws : List ℝ) (hw : ScaledWeights a.points.length a.weights ws)
    (hz : a.zoom ≠ 0) (points' : List (Vec3 ℝ))
    (him : List.Forall₂ (fun p p' => ∃ m : Vec3 ℤ, p' = ⟨p.x + L * m.x, p.y + L * m.y, p.z + L * m.z⟩)
      a.points points') :
    ∃ d, frame g n a = some (some d) ∧ frame g n { a with points := points' } = some (some d) := by
  have hlen := him.length_eq
  obtain ⟨d, e, h⟩ := C84_value g n a L hb hne hv ws hw hz
  obtain ⟨d', e', h'⟩ := C84_value g n { a with points := points' } L hb
    (by rintro h0; simp only at h0; rw [h0] at hlen; exact hne (List.eq_nil_of_length_eq_zero hlen)) hv ws
    (by simp only; rw [← hlen]; exact hw) hz
  refine ⟨d, e, ?_⟩
  rw [e']
  congr 2
  have hs : (a.points.map fun p => (gridSite g L p.x, gridSite g L p.y)) =
      points'.map fun p => (gridSite g L p.x, gridSite g L p.y) := by
    have hL := hb.pos.ne'
    have hone : ∀ (x : ℝ) (m : ℤ), gridSite g L (x + L * m) = gridSite g L x := by
      intro x m
      unfold gridSite
      rw [show (x + L * m) / L + 1 / 2 = x / L + 1 / 2 + m by field_simp; ring, Int.fract_add_intCast]
    clear e e' h h' hlen hw hne
    generalize a.points = pts at him
    induction him with
    | nil => rfl
    | cons h1 _ ih =>
      obtain ⟨m, rfl⟩ := h1
      rw [List.map_cons, List.map_cons, ih, hone, hone]
  funext i j
  have h1 := h i j
  have h2 := h' i j
  dsimp only at h1 h2
  rw [hs, hlen] at h1
  by_cases hin : -((g / 2 : ℕ) : ℝ) ≤ ((j : ℝ) - ((n / 2 : ℕ) : ℝ)) / a.zoom ∧
      ((j : ℝ) - ((n / 2 : ℕ) : ℝ)) / a.zoom ≤ g - 1 - ((g / 2 : ℕ) : ℝ) ∧
      -((g / 2 : ℕ) : ℝ) ≤ ((i : ℝ) - ((n / 2 : ℕ) : ℝ)) / a.zoom ∧
      ((i : ℝ) - ((n / 2 : ℕ) : ℝ)) / a.zoom ≤ g - 1 - ((g / 2 : ℕ) : ℝ)
  · rw [h1.1 hin, h2.1 hin]
  · rw [h1.2 hin, h2.2 hin]

/-! ### Histories -/

/-- The frames that are averaged after a history of calls: those of the successful calls since the last
call with `reset=True`, whether or not that call succeeded. -/
noncomputable def Spec.framesSinceReset (g n : ℕ) : List Op → List (Option (ℕ → ℕ → ℝ))
  | [] => []
  | .compute a reset :: ops =>
    (if reset then [] else Spec.framesSinceReset g n ops) ++ (frame g n a).toList
  | _ :: ops => Spec.framesSinceReset g n ops

/-- The arguments of the last successful call. -/
noncomputable def Spec.lastArgs (g n : ℕ) : List Op → Option Args
  | [] => none
  | .compute a _ :: ops => if (frame g n a).isSome then some a else Spec.lastArgs g n ops
  | _ :: ops => Spec.lastArgs g n ops

namespace Diffraction

/-- The state after a history; the newest operation comes first. -/
noncomputable def after (g n : ℕ) (junk : ℕ → ℝ) (junk' : ℕ → ℕ → Vec3 ℝ) : List Op → State
  | [] => new junk junk'
  | op :: ops => (after g n junk junk' ops).step g n op

/-- The sum of frames. -/
def sumFrames : List (Option (ℕ → ℕ → ℝ)) → Option (ℕ → ℕ → ℝ)
  | [] => some fun _ _ => 0
  | f :: fs => (sumFrames fs).bind fun x => f.map fun y i j => x i j + y i j

theorem sumFrames_append (l : List (Option (ℕ → ℕ → ℝ))) (f : Option (ℕ → ℕ → ℝ)) :
    sumFrames (l ++ [f]) = (sumFrames l).bind fun x => f.map fun y i j => x i j + y i j := by
  induction l with
  | nil => rfl
  | cons h l ih =>
    rw [List.cons_append, sumFrames, ih, sumFrames]
    cases sumFrames l <;> cases f <;> cases h <;> simp
    funext i j
    ring

/-- What holds after every history. -/
structure Inv (g n : ℕ) (ops : List Op) (s : State) : Prop where
  called : s.called = (lastArgs g n ops).isSome
  sum : s.sum = sumFrames (framesSinceReset g n ops)
  frames : s.frames = (framesSinceReset g n ops).length
  orig : s.called = true → s.kValuesOrig = kOrig n ∧
    s.kVectorsOrig = fun i j => ⟨kOrig n i, kOrig n j, 0⟩
  last : ∀ a, lastArgs g n ops = some a → s.kScale = 2 * Real.pi * n / (maxEntry a.box * a.zoom) ∧
    s.view = a.q ∧ s.nPoints = a.points.length
  values : s.kValuesCached = true → s.kValues = fun i => s.kValuesOrig i * s.kScale
  vectors : s.kVectorsCached = true →
    s.kVectors = fun i j => Vec3.smul s.kScale (Quat.rotate s.view (s.kVectorsOrig i j))

theorem inv_after (g n : ℕ) (junk : ℕ → ℝ) (junk' : ℕ → ℕ → Vec3 ℝ) (ops : List Op) :
    Inv g n ops (after g n junk junk' ops) := by
  induction ops with
  | nil =>
    exact ⟨rfl, rfl, rfl, fun h => absurd h (by simp [after, new]),
      fun a h => absurd h (by simp [lastArgs]), fun h => absurd h (by simp [after, new]),
      fun h => absurd h (by simp [after, new])⟩
  | cons op ops ih =>
    generalize hs : after g n junk junk' ops = s at ih
    cases op with
    | compute a reset =>
      rw [after, hs]
      show Inv g n _ (compute g n a reset s).1
      unfold compute
      cases hf : frame g n a with
      | none =>
        have hl : lastArgs g n (.compute a reset :: ops) = lastArgs g n ops := by
          simp [lastArgs, hf]
        have hfr : framesSinceReset g n (.compute a reset :: ops) =
            if reset then [] else framesSinceReset g n ops := by simp [framesSinceReset, hf]
        cases reset with
        | true =>
          exact ⟨by rw [hl]; exact ih.called, by rw [hfr]; rfl, by rw [hfr]; rfl, ih.orig,
            fun b hb => ih.last b (hl ▸ hb), ih.values, ih.vectors⟩
        | false =>
          exact ⟨by rw [hl]; exact ih.called, by rw [hfr]; exact ih.sum, by rw [hfr]; exact ih.frames,
            ih.orig, fun b hb => ih.last b (hl ▸ hb), ih.values, ih.vectors⟩
      | some fr =>
        have hl : lastArgs g n (.compute a reset :: ops) = some a := by simp [lastArgs, hf]
        have hfr : framesSinceReset g n (.compute a reset :: ops) =
            (if reset then [] else framesSinceReset g n ops) ++ [fr] := by
          simp [framesSinceReset, hf]
        refine ⟨?_, ?_, ?_, ?_, ?_, ?_, ?_⟩
        · rw [hl]
          rfl
        · rw [hfr, sumFrames_append]
          cases reset <;> cases hc : s.called <;> simp [hc, ih.sum, sumFrames]
        · rw [hfr, List.length_append]
          cases reset <;> cases hc : s.called <;> simp [hc, ih.frames]
        · intro _
          cases reset <;> cases hc : s.called <;> simp [hc]
          · exact ih.orig hc
          · exact ih.orig hc
        · intro b hb
          rw [hl] at hb
          obtain rfl := Option.some.inj hb
          cases reset <;> cases hc : s.called <;> simp [hc]
        · intro h
          exact absurd h (by simp)
        · intro h
          exact absurd h (by simp)
    | readKValues =>
      rw [after, hs]
      show Inv g n _ s.readKValues.1
      unfold State.readKValues
      cases hc : s.called with
      | false => exact ⟨ih.called, ih.sum, ih.frames, ih.orig, ih.last, ih.values, ih.vectors⟩
      | true =>
        cases hk : s.kValuesCached with
        | true => exact ⟨ih.called, ih.sum, ih.frames, ih.orig, ih.last, ih.values, ih.vectors⟩
        | false => exact ⟨(show true = _ from hc ▸ ih.called), ih.sum, ih.frames, fun _ => ih.orig hc, ih.last, fun _ => rfl, ih.vectors⟩
    | readKVectors =>
      rw [after, hs]
      show Inv g n _ s.readKVectors.1
      unfold State.readKVectors
      cases hc : s.called with
      | false => exact ⟨ih.called, ih.sum, ih.frames, ih.orig, ih.last, ih.values, ih.vectors⟩
      | true =>
        cases hk : s.kVectorsCached with
        | true => exact ⟨ih.called, ih.sum, ih.frames, ih.orig, ih.last, ih.values, ih.vectors⟩
        | false => exact ⟨(show true = _ from hc ▸ ih.called), ih.sum, ih.frames, fun _ => ih.orig hc, ih.last, ih.values, fun _ => rfl⟩

theorem sumFrames_some (l : List (ℕ → ℕ → ℝ)) :
    sumFrames (l.map some) = some fun i j => (l.map fun f => f i j).sum := by
  induction l with
  | nil => rfl
  | cons f l ih =>
    rw [List.map_cons, sumFrames, ih]
    simp
    funext i j
    ring

end Diffraction

/-- **C84**: after any history of calls (the newest first), some of which may have raised, with reads in
between: before the first successful call the results are unavailable; afterwards `diffraction` is the mean
of the frames of the successful calls since the last call with `reset=True`. -/
theorem C84_average (g n : ℕ) (junk : ℕ → ℝ) (junk' : ℕ → ℕ → Vec3 ℝ) (ops : List Op) :
    ((after g n junk junk' ops).diffraction = none ↔ lastArgs g n ops = none) ∧
    ∀ l : List (ℕ → ℕ → ℝ), lastArgs g n ops ≠ none → framesSinceReset g n ops = l.map some → l ≠ [] →
      (after g n junk junk' ops).diffraction =
        some (some fun i j => (l.map fun f => f i j).sum / (l.length : ℝ)) := by
  have ih := inv_after g n junk junk' ops
  generalize after g n junk junk' ops = s at ih
  unfold State.diffraction
  refine ⟨?_, fun l h1 h2 h3 => ?_⟩
  · cases h : lastArgs g n ops with
    | none => rw [ih.called, h]; simp
    | some a => rw [ih.called, h]; simp
  · have hc : s.called = true := by rw [ih.called, Option.isSome_iff_ne_none]; exact h1
    have hf : s.frames = l.length := by rw [ih.frames, h2, List.length_map]
    have hl := List.length_pos_of_ne_nil h3
    rw [if_pos hc, ih.sum, h2, sumFrames_some, hf, if_neg (by omega)]
    rfl

/-- **C84**: after any history the wave vectors belong to the last successful call: `k_values[i]` is
`2 pi (i - output_size // 2) / (L zoom)` and `k_vectors[i, j]` is the rotated vector
`(k_values[i], k_values[j], 0)`. -/
theorem C84_wave_vectors (g n : ℕ) (junk : ℕ → ℝ) (junk' : ℕ → ℕ → Vec3 ℝ) (ops : List Op) (a : Args)
    (L : ℝ) (hb : CubeBox a.box L) (h : lastArgs g n ops = some a) :
    ∃ (kv : ℕ → ℝ) (ks : ℕ → ℕ → Vec3 ℝ),
      (after g n junk junk' ops).readKValues.2 = some kv ∧
      (after g n junk junk' ops).readKVectors.2 = some ks ∧
      (∀ i < n, kv i = 2 * Real.pi / L * (((i : ℝ) - ((n / 2 : ℕ) : ℝ)) / a.zoom)) ∧
      (∀ i < n, ∀ j < n, ks i j = Quat.rotate a.q ⟨kv i, kv j, 0⟩) := by
  have ih := inv_after g n junk junk' ops
  generalize after g n junk junk' ops = s at ih
  have hc : s.called = true := by rw [ih.called, h]; rfl
  obtain ⟨l1, l2, -⟩ := ih.last a h
  obtain ⟨o1, o2⟩ := ih.orig hc
  refine ⟨fun i => s.kValuesOrig i * s.kScale,
    fun i j => Vec3.smul s.kScale (Quat.rotate s.view (s.kVectorsOrig i j)), ?_, ?_, fun i hi => ?_,
    fun i hi j hj => ?_⟩
  · unfold State.readKValues
    rw [if_pos hc]
    cases hk : s.kValuesCached with
    | true => simp only [if_true]; rw [ih.values hk]
    | false => rfl
  · unfold State.readKVectors
    rw [if_pos hc]
    cases hk : s.kVectorsCached with
    | true => simp only [if_true]; rw [ih.vectors hk]
    | false => rfl
  · have hn : (n : ℝ) ≠ 0 := by exact_mod_cast (by omega : n ≠ 0)
    have hfr : ((freq n (shiftIndex n i) : ℤ) : ℝ) = (i : ℝ) - ((n / 2 : ℕ) : ℝ) := by
      rw [freq_shiftIndex n i hi, Int.cast_sub, Int.cast_natCast, Int.cast_natCast]
    simp only [o1, l1, kOrig, hfr, maxEntry_cube a.box L hb]
    have := hb.pos.ne'
    by_cases hz : a.zoom = 0
    · simp [hz]
    · field_simp
  · simp only [o1, o2, l2]
    simp only [Quat.rotate, Vec3.smul, Vec3.dot, Vec3.cross]
    ext <;> simp <;> ring

/-! ### Counterexamples -/

namespace Diffraction

/-- The cube with edges of length 1. -/
noncomputable def unitCube : Box ℝ := Box.mk' 1 1 1 0 0 0 false

theorem unitCube_ok : CubeBox unitCube 1 := ⟨one_pos, rfl, rfl, rfl, rfl, rfl⟩

/-- Two points side by side along x, on the sites of a grid of 4 by 4. -/
noncomputable def pairX : Args :=
  ⟨unitCube, [⟨0, 0, 0⟩, ⟨-(1 / 2), 0, 0⟩], none, 1, 0, none⟩

theorem exp_pi : Complex.exp (-(Real.pi : ℝ) * Complex.I) = -1 := by
  rw [neg_mul, Complex.exp_neg, Complex.exp_pi_mul_I]
  norm_num

theorem exp_pi' : Complex.exp ((Real.pi : ℝ) * Complex.I) = -1 := Complex.exp_pi_mul_I

end Diffraction

/-- **C84**: `diffraction[i, j]` does not belong to `k_vectors[i, j]` but to `k_vectors[j, i]`: for two
points along x, at a pixel where the pattern vanishes, the structure factor of the stated wave vector is
2. -/
theorem C84_transposed_counterexample :
    ∃ (a : Args) (d : ℕ → ℕ → ℝ) (ks : ℕ → ℕ → Vec3 ℝ) (i j : ℕ), i < 4 ∧ j < 4 ∧
      CubeBox a.box 1 ∧ a.view = none ∧ a.weights = none ∧ a.peakWidth = 0 ∧
      (∀ junk junk', (after 4 4 junk junk' [.compute a true]).diffraction = some (some d) ∧
        (after 4 4 junk junk' [.compute a true]).readKVectors.2.map (fun k => (k i j, k j i)) =
          some (ks i j, ks j i)) ∧
      d i j = 0 ∧ staticS a.points (ks i j) = 2 ∧ staticS a.points (ks j i) = 0 := by
  obtain ⟨d, e, h⟩ := C84_structure_factor 4 4 pairX 1 unitCube_ok (by simp [pairX]) rfl rfl
    (by norm_num [pairX]) (by
      intro p hp
      simp only [pairX, List.mem_cons, List.not_mem_nil, or_false] at hp
      rcases hp with rfl | rfl
      · exact ⟨2, 2, by norm_num, by norm_num, by norm_num, by norm_num⟩
      · exact ⟨0, 2, by norm_num, by norm_num, by norm_num, by norm_num⟩)
  have hl : lastArgs 4 4 [.compute pairX true] = some pairX := by simp [lastArgs, e]
  have hf : framesSinceReset 4 4 [.compute pairX true] = [d].map some := by simp [framesSinceReset, e]
  have hS1 : staticS pairX.points ⟨0, 2 * Real.pi, 0⟩ = 2 := by
    unfold staticS pairX
    simp [Vec3.dot, Complex.normSq_apply]
    norm_num
  have hS2 : staticS pairX.points ⟨2 * Real.pi, 0, 0⟩ = 0 := by
    unfold staticS pairX
    simp only [Vec3.dot, List.map_cons, List.map_nil, List.sum_cons, List.sum_nil]
    rw [show -((2 * Real.pi * 0 + 0 * 0 + 0 * 0 : ℝ) : ℂ) * Complex.I = 0 by push_cast; ring,
      show -((2 * Real.pi * -(1 / 2) + 0 * 0 + 0 * 0 : ℝ) : ℂ) * Complex.I = (Real.pi : ℝ) * Complex.I by
        push_cast; ring, exp_pi', Complex.exp_zero]
    simp
  refine ⟨pairX, d, fun i j => if i = 2 ∧ j = 3 then ⟨0, 2 * Real.pi, 0⟩ else ⟨2 * Real.pi, 0, 0⟩, 2, 3,
    by norm_num, by norm_num, unitCube_ok, rfl, rfl, rfl, fun junk junk' => ⟨?_, ?_⟩, ?_, ?_, ?_⟩
  · rw [(C84_average 4 4 junk junk' _).2 [d] (by rw [hl]; simp) hf (by simp)]
    simp
  · obtain ⟨kv, ks, -, e2, h3, h4⟩ := C84_wave_vectors 4 4 junk junk' _ pairX 1 unitCube_ok hl
    have hq : pairX.q = Quat.one := rfl
    have k2 : kv 2 = 0 := by rw [h3 2 (by norm_num)]; norm_num
    have k3 : kv 3 = 2 * Real.pi := by rw [h3 3 (by norm_num)]; norm_num [pairX]
    rw [e2, Option.map_some, h4 2 (by norm_num) 3 (by norm_num), h4 3 (by norm_num) 2 (by norm_num), k2, k3,
      hq, Quat.rotate_one, Quat.rotate_one]
    rfl
  · rw [h 2 3 1 0 (by norm_num [pairX]) (by norm_num) (by norm_num) (by norm_num) (by norm_num)
      (by norm_num)]
    have : (⟨2 * Real.pi / 1 * ((1 : ℤ) : ℝ), 2 * Real.pi / 1 * ((0 : ℤ) : ℝ), 0⟩ : Vec3 ℝ) =
        ⟨2 * Real.pi, 0, 0⟩ := by
      norm_num
    rw [this, hS2, zero_mul]
  · simpa using hS1
  · simpa using hS2

namespace Diffraction

/-- A view turned about the view axis. -/
noncomputable def turned : Quat ℝ := ⟨4 / 5, ⟨0, 0, 3 / 5⟩⟩

/-- Two points seen in the turned view. -/
noncomputable def turnedArgs (x : ℝ) : Args :=
  ⟨unitCube, [⟨0, 0, 0⟩, ⟨x, 0, 0⟩], some turned, 25, 0, none⟩

theorem calcProj_turned : calcProj turned unitCube =
    some !![7 / 25, -(24 / 25); 24 / 25, 7 / 25] := by
  have v2 : ∀ a b c : ℝ, (![a, b, c] : Fin 3 → ℝ) 2 = c := fun _ _ _ => rfl
  have hm : rotateRows turned (boxMatrix unitCube) =
      !![7 / 25, 24 / 25, 0; -(24 / 25), 7 / 25, 0; 0, 0, 1] := by
    rw [boxMatrix_cube unitCube 1 unitCube_ok]
    funext i j
    unfold rotateRows
    fin_cases i <;> fin_cases j <;>
      norm_num [Quat.rotate, turned, Vec3.smul, Vec3.dot, Vec3.cross, v2]
  unfold calcProj
  simp only [hm]
  have e0 : (0 - 1 : Fin 3) = 2 := rfl
  have e1 : (1 + 1 : Fin 3) = 2 := rfl
  have e2 : (2 + 1 : Fin 3) = 0 := rfl
  have e3 : (2 - 1 : Fin 3) = 1 := rfl
  have e4 : (1 - 1 : Fin 3) = 0 := rfl
  have e5 : (0 + 1 : Fin 3) = 1 := rfl
  have hbest : (argmax3 fun j => |faceNormalZ (!![7 / 25, 24 / 25, 0; -(24 / 25), 7 / 25, 0; 0, 0, 1] :
      Matrix (Fin 3) (Fin 3) ℝ) j|) = 2 := by
    unfold argmax3 faceNormalZ
    simp only [e0, e1, e2, e3, e4, e5]
    norm_num [v2]
  rw [hbest]
  have e6 : (2 + 2 : Fin 3) = 1 := rfl
  simp only [e2, e6]
  have hsh : (!![(!![7 / 25, 24 / 25, 0; -(24 / 25), 7 / 25, 0; 0, 0, 1] : Matrix (Fin 3) (Fin 3) ℝ) 0 0,
      (!![7 / 25, 24 / 25, 0; -(24 / 25), 7 / 25, 0; 0, 0, 1] : Matrix (Fin 3) (Fin 3) ℝ) 0 1;
      (!![7 / 25, 24 / 25, 0; -(24 / 25), 7 / 25, 0; 0, 0, 1] : Matrix (Fin 3) (Fin 3) ℝ) 1 0,
      (!![7 / 25, 24 / 25, 0; -(24 / 25), 7 / 25, 0; 0, 0, 1] : Matrix (Fin 3) (Fin 3) ℝ) 1 1] :
      Matrix (Fin 2) (Fin 2) ℝ) = !![7 / 25, 24 / 25; -(24 / 25), 7 / 25] := by
    funext i j
    fin_cases i <;> fin_cases j <;> rfl
  rw [hsh, if_neg (by rw [Matrix.det_fin_two_of]; norm_num)]
  congr 1
  apply Matrix.inv_eq_right_inv
  rw [Matrix.mul_fin_two, Matrix.one_fin_two]
  norm_num

theorem turned_pixel (x : ℝ) : ∃ d, frame 2 64 (turnedArgs x) = some (some d) ∧
    d 25 56 = siteIntensity 2 0 (sites 2 (turnedArgs x) !![7 / 25, -(24 / 25); 24 / 25, 7 / 25] [1, 1])
      0 (-1) / 2 := by
  obtain ⟨t, ht, e⟩ := frame_unfold 2 64 (turnedArgs x) 1 unitCube_ok (by simp [turnedArgs]) [1, 1]
    (by simp [ScaledWeights, turnedArgs]) (by norm_num [turnedArgs]) _ calcProj_turned
  refine ⟨_, e, ?_⟩
  have hat := transform_at 2 64 _ _ _ _ t ht 25 56 0 (-1) (by
      rw [show (turnedArgs x).box = unitCube from rfl, maxEntry_cube _ 1 unitCube_ok]
      norm_num [turnedArgs]) (by
      rw [show (turnedArgs x).box = unitCube from rfl, maxEntry_cube _ 1 unitCube_ok]
      norm_num [turnedArgs])
  rw [hat, show (0 : ℝ) + ((2 / 2 : ℕ) : ℝ) = ((1 : ℕ) : ℝ) by norm_num,
    show (-1 : ℝ) + ((2 / 2 : ℕ) : ℝ) = ((0 : ℕ) : ℝ) by norm_num,
    bilinear_nat 2 _ 1 0 (by norm_num) (by norm_num),
    intensity_eq 2 _ _ _ 1 0 (by norm_num) (by norm_num)]
  norm_num [turnedArgs]

theorem site_origin : (⌊((2 : ℕ) : ℝ) * (project turned !![7 / 25, -(24 / 25); 24 / 25, 7 / 25] ⟨0, 0, 0⟩).1⌋₊,
    ⌊((2 : ℕ) : ℝ) * (project turned !![7 / 25, -(24 / 25); 24 / 25, 7 / 25] ⟨0, 0, 0⟩).2⌋₊) = (1, 1) := by
  have hf : Int.fract (1 / 2 : ℝ) = 1 / 2 := Int.fract_eq_self.mpr ⟨by norm_num, by norm_num⟩
  have hp : project turned !![7 / 25, -(24 / 25); 24 / 25, 7 / 25] ⟨0, 0, 0⟩ = (1 / 2, 1 / 2) := by
    unfold project
    simp only [Quat.rotate, turned, Vec3.smul, Vec3.dot, Vec3.cross]
    simp only [Matrix.mulVec, dotProduct, Fin.sum_univ_two]
    norm_num [hf]
  rw [hp]
  norm_num

theorem site_image : (⌊((2 : ℕ) : ℝ) * (project turned !![7 / 25, -(24 / 25); 24 / 25, 7 / 25] ⟨1, 0, 0⟩).1⌋₊,
    ⌊((2 : ℕ) : ℝ) * (project turned !![7 / 25, -(24 / 25); 24 / 25, 7 / 25] ⟨1, 0, 0⟩).2⌋₊) = (1, 0) := by
  have hp : project turned !![7 / 25, -(24 / 25); 24 / 25, 7 / 25] ⟨1, 0, 0⟩ =
      (Int.fract (-527 / 625 + 1 / 2 : ℝ), Int.fract (336 / 625 + 1 / 2 : ℝ)) := by
    unfold project
    simp only [Quat.rotate, turned, Vec3.smul, Vec3.dot, Vec3.cross]
    simp [Matrix.mulVec, dotProduct, Fin.sum_univ_two]
    constructor <;> congr 1 <;> norm_num
  have h1 : Int.fract (-527 / 625 + 1 / 2 : ℝ) = 821 / 1250 := by
    rw [Int.fract_eq_iff]
    exact ⟨by norm_num, by norm_num, -1, by norm_num⟩
  have h2 : Int.fract (336 / 625 + 1 / 2 : ℝ) = 47 / 1250 := by
    rw [Int.fract_eq_iff]
    exact ⟨by norm_num, by norm_num, 1, by norm_num⟩
  rw [hp, h1, h2]
  norm_num [Nat.floor_eq_iff]

end Diffraction

/-- **C84**: in a view turned about the view axis the pattern depends on the periodic images of the points,
also for translations in the image plane: the projected box vectors are turned the other way than the
points. A point and itself, and the same point with its image along x, give different patterns. -/
theorem C84_images_counterexample :
    ∃ (a a' : Args) (d d' : ℕ → ℕ → ℝ), CubeBox a.box 1 ∧ Quat.norm2 a.q = 1 ∧
      Quat.rotate a.q ⟨0, 0, 1⟩ = ⟨0, 0, 1⟩ ∧ a.points = [⟨0, 0, 0⟩, ⟨0, 0, 0⟩] ∧
      a' = { a with points := [⟨0, 0, 0⟩, ⟨1, 0, 0⟩] } ∧ frame 2 64 a = some (some d) ∧
      frame 2 64 a' = some (some d') ∧ ∃ i < 64, ∃ j < 64, d i j = 2 ∧ d' i j = 0 := by
  obtain ⟨d, e, h⟩ := turned_pixel 0
  obtain ⟨d', e', h'⟩ := turned_pixel 1
  refine ⟨turnedArgs 0, turnedArgs 1, d, d', unitCube_ok, ?_, ?_, rfl, rfl, e, e', 25, by norm_num, 56,
    by norm_num, ?_, ?_⟩
  · norm_num [Args.q, turnedArgs, turned, Quat.norm2, Vec3.dot]
  · ext <;> norm_num [Args.q, turnedArgs, turned, Quat.rotate, Vec3.dot, Vec3.smul, Vec3.cross]
  · rw [h]
    have : sites 2 (turnedArgs 0) !![7 / 25, -(24 / 25); 24 / 25, 7 / 25] [1, 1] =
        [((1, 1), 1), ((1, 1), 1)] := by
      unfold sites
      show ([_, _] : List (ℕ × ℕ)).zip [1, 1] = _
      simp only [show (turnedArgs 0).q = turned from rfl, site_origin]
      rfl
    rw [this]
    unfold siteIntensity
    simp only [List.map_cons, List.map_nil, List.sum_cons, List.sum_nil]
    rw [show -((2 * Real.pi * (((0 : ℤ) : ℝ) * ((1 : ℕ) : ℝ) + ((-1 : ℤ) : ℝ) * ((1 : ℕ) : ℝ)) / ((2 : ℕ) : ℝ) : ℝ) : ℂ) *
      Complex.I = (Real.pi : ℝ) * Complex.I by push_cast; ring, exp_pi']
    simp [Complex.normSq_apply]
    norm_num
  · rw [h']
    have : sites 2 (turnedArgs 1) !![7 / 25, -(24 / 25); 24 / 25, 7 / 25] [1, 1] =
        [((1, 1), 1), ((1, 0), 1)] := by
      unfold sites
      show ([_, _] : List (ℕ × ℕ)).zip [1, 1] = _
      simp only [show (turnedArgs 1).q = turned from rfl, site_origin, site_image]
      rfl
    rw [this]
    unfold siteIntensity
    simp only [List.map_cons, List.map_nil, List.sum_cons, List.sum_nil]
    rw [show -((2 * Real.pi * (((0 : ℤ) : ℝ) * ((1 : ℕ) : ℝ) + ((-1 : ℤ) : ℝ) * ((1 : ℕ) : ℝ)) / ((2 : ℕ) : ℝ) : ℝ) : ℂ) *
      Complex.I = (Real.pi : ℝ) * Complex.I by push_cast; ring, exp_pi']
    simp

/-- **C84**: a call with `reset=True` that raises discards the earlier results: `diffraction`, which was
finite before, is then a division of zero by zero. -/
theorem C84_failed_call_counterexample :
    ∃ (a bad : Args), (∃ d, ∀ junk junk',
        (after 4 4 junk junk' [.compute a true]).diffraction = some (some d)) ∧
      frame 4 4 bad = none ∧
      ∀ junk junk', (after 4 4 junk junk' [.compute bad true, .compute a true]).diffraction = some none := by
  obtain ⟨d, e, -⟩ := C84_value 4 4 pairX 1 unitCube_ok (by simp [pairX]) rfl [1, 1] rfl (by norm_num [pairX])
  have hbad : frame 4 4 { pairX with box := Box.mk' 1 2 3 0 0 0 false } = none := by
    apply (C84_accepted 4 4 _).2.1
    rintro ⟨-, ⟨h, -⟩, -⟩
    unfold allclose at h
    norm_num [Box.mk', Box.setL] at h
  refine ⟨pairX, { pairX with box := Box.mk' 1 2 3 0 0 0 false }, ⟨d, fun junk junk' => ?_⟩, hbad,
    fun junk junk' => ?_⟩
  · rw [(C84_average 4 4 junk junk' _).2 [d] (by simp [lastArgs, e]) (by simp [framesSinceReset, e])
      (by simp)]
    simp
  · have ih := inv_after 4 4 junk junk'
      [.compute { pairX with box := Box.mk' 1 2 3 0 0 0 false } true, .compute pairX true]
    unfold State.diffraction
    rw [ih.called, ih.frames]
    simp [lastArgs, framesSinceReset, hbad, e]

/-- **C84**: with negative weights the centre need not be the maximum: of two points with weights 3 and
-1 the pattern reaches 8, but 2 at the centre. -/
theorem C84_negative_weights_counterexample :
    ∃ (a : Args) (d : ℕ → ℕ → ℝ), CubeBox a.box 1 ∧ a.view = none ∧ frame 4 4 a = some (some d) ∧
      d 2 2 = 2 ∧ d 2 3 = 8 := by
  obtain ⟨d, e, h⟩ := C84_value 4 4 { pairX with weights := some [3, -1] } 1 unitCube_ok (by simp [pairX]) rfl
    [3, -1] (by norm_num [ScaledWeights, pairX]) (by norm_num [pairX])
  refine ⟨_, d, unitCube_ok, rfl, e, ?_, ?_⟩
  · have := C84_center 4 4 (by norm_num) _ d e
    norm_num [pairX] at this
    exact this
  · have h23 := (h 2 3).1
    have hs1 : gridSite 4 1 0 = 2 := by
      have := gridSite_exact 4 2 1 one_ne_zero (by norm_num)
      norm_num at this
      exact this
    have hs2 : gridSite 4 1 (-(1 / 2)) = 0 := by
      have := gridSite_exact 4 0 1 one_ne_zero (by norm_num)
      norm_num at this ⊢
      exact this
    simp only [pairX, List.map_cons, List.map_nil, hs1, hs2] at h23
    rw [show (((3 : ℕ) : ℝ) - ((4 / 2 : ℕ) : ℝ)) / 1 = ((1 : ℤ) : ℝ) by norm_num,
      show (((2 : ℕ) : ℝ) - ((4 / 2 : ℕ) : ℝ)) / 1 = ((0 : ℤ) : ℝ) by norm_num, interpolate_int] at h23
    rw [h23 (by norm_num)]
    unfold siteIntensity
    simp only [List.zip_cons_cons, List.zip_nil_left, List.map_cons, List.map_nil, List.sum_cons, List.sum_nil]
    rw [show -((2 * Real.pi * (((1 : ℤ) : ℝ) * ((2 : ℕ) : ℝ) + ((0 : ℤ) : ℝ) * ((2 : ℕ) : ℝ)) / ((4 : ℕ) : ℝ) : ℝ) : ℂ) *
      Complex.I = -(Real.pi : ℝ) * Complex.I by push_cast; ring, exp_pi]
    simp [Complex.normSq_apply]
    norm_num

/-- The hypotheses are met, with weights: three points, a turned view, weights of sum 6. -/
example : ∃ a : Args, CubeBox a.box 1 ∧ a.points.length = 3 ∧ Quat.norm2 a.q = 1 ∧
    ScaledWeights a.points.length a.weights [1 / 2, 1, 3 / 2] ∧ a.zoom ≠ 0 ∧
    ∃ d, frame 8 5 a = some (some d) := by
  have hw : ScaledWeights 3 (some [1, 2, 3]) [1 / 2, 1, 3 / 2] := by norm_num [ScaledWeights]
  refine ⟨⟨unitCube, [⟨0, 0, 0⟩, ⟨1 / 3, 0, 1 / 5⟩, ⟨2, 1 / 7, 0⟩], some turned, 4, 1, some [1, 2, 3]⟩,
    unitCube_ok, rfl, ?_, hw, by norm_num, ?_⟩
  · norm_num [Args.q, turned, Quat.norm2, Vec3.dot]
  · exact (C84_accepted 8 5 _).1 1 _ unitCube_ok (by simp)
      (by norm_num [Args.q, turned, Quat.norm2, Vec3.dot]) hw (by norm_num)

end Freud
