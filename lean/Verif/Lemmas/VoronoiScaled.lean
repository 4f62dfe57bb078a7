import Verif.Spec.VoronoiScaled
import Verif.Props.VoronoiLattice

/-!
# Lemmas on Voronoi diagrams in another unit of length
-/

namespace Freud
open Spec Voronoi

namespace Diagram

theorem stretch_add (c : ℝ) (f : Bool) (x y : Vec3 ℝ) :
    stretch c f (x + y) = stretch c f x + stretch c f y := by
  cases f <;> ext <;> simp [stretch] <;> ring

theorem stretch_injective {c : ℝ} (hc : 0 < c) (f : Bool) : Function.Injective (stretch c f) := by
  intro x y h
  have hx := congrArg Vec3.x h
  have hy := congrArg Vec3.y h
  have hz := congrArg Vec3.z h
  simp only [stretch] at hx hy hz
  ext
  · exact mul_left_cancel₀ hc.ne' hx
  · exact mul_left_cancel₀ hc.ne' hy
  · cases f
    · exact mul_left_cancel₀ hc.ne' (by simpa using hz)
    · simpa using hz

theorem stretch_surjective {c : ℝ} (hc : 0 < c) (f : Bool) : Function.Surjective (stretch c f) := by
  intro x
  refine ⟨⟨x.x / c, x.y / c, if f then x.z else x.z / c⟩, ?_⟩
  cases f <;> ext <;> simp only [stretch, if_true, if_false, Bool.false_eq_true] <;> field_simp

/-- Volumes in the other unit. -/
theorem volumeOf_stretch {c : ℝ} (hc : 0 < c) (f : Bool) (S : Set (Vec3 ℝ)) :
    volumeOf (stretch c f '' S) = cellFactor c f * volumeOf S := by
  unfold volumeOf
  set M : Matrix (Fin 3) (Fin 3) ℝ := Matrix.diagonal ![c, c, if f then 1 else c]
  have hM : ∀ x : Fin 3 → ℝ, Matrix.toLin' M x = toFun (stretch c f ⟨x 0, x 1, x 2⟩) := by
    intro x
    rw [Matrix.toLin'_apply]
    funext i
    rw [Matrix.mulVec_diagonal]
    fin_cases i <;> cases f <;> simp [toFun, stretch]
  have e : {x : Fin 3 → ℝ | (⟨x 0, x 1, x 2⟩ : Vec3 ℝ) ∈ stretch c f '' S} =
      Matrix.toLin' M '' {x : Fin 3 → ℝ | (⟨x 0, x 1, x 2⟩ : Vec3 ℝ) ∈ S} := by
    ext x
    constructor
    · rintro ⟨y, hy, e⟩
      refine ⟨toFun y, hy, ?_⟩
      rw [hM]
      show toFun (stretch c f y) = x
      rw [e]
      funext i
      fin_cases i <;> rfl
    · rintro ⟨y, hy, rfl⟩
      refine ⟨_, hy, ?_⟩
      rw [hM]
      ext <;> rfl
  have hdet : |LinearMap.det (Matrix.toLin' M)| = cellFactor c f := by
    rw [LinearMap.det_toLin', Matrix.det_diagonal, Fin.prod_univ_three]
    cases f
    · simp only [cellFactor, Matrix.cons_val, Bool.false_eq_true, if_false]
      rw [abs_of_pos (by positivity)]; ring
    · simp only [cellFactor, Matrix.cons_val, if_true]
      rw [abs_of_pos (by positivity)]; ring
  have h0 : 0 ≤ cellFactor c f := by rw [← hdet]; exact abs_nonneg _
  rw [e, MeasureTheory.Measure.addHaar_image_linearMap, hdet, ENNReal.toReal_mul,
    ENNReal.toReal_ofReal h0]

theorem broad_stretch {c : ℝ} (hc : 0 < c) (f : Bool) (S : Set (Vec3 ℝ)) :
    Broad (stretch c f '' S) ↔ Broad S := by
  have key : ∀ x y z : Vec3 ℝ,
      Vec3.cross (stretch c f y - stretch c f x) (stretch c f z - stretch c f x) = ⟨0, 0, 0⟩ ↔
      Vec3.cross (y - x) (z - x) = ⟨0, 0, 0⟩ := by
    intro x y z
    have hd : ∀ a b e g : ℝ, c * a * (c * b) - c * e * (c * g) = c * c * (a * b - e * g) := by
      intros; ring
    have hd1 : ∀ a b e g : ℝ, c * a * b - e * (c * g) = c * (a * b - e * g) := by intros; ring
    have hd2 : ∀ a b e g : ℝ, a * (c * b) - c * e * g = c * (a * b - e * g) := by intros; ring
    cases f <;> simp only [stretch, Vec3.cross, Vec3.sub_x, Vec3.sub_y, Vec3.sub_z, ← mul_sub, if_true,
      Bool.false_eq_true, if_false, Vec3.mk.injEq, hd, hd1, hd2, mul_eq_zero, hc.ne', false_or]
  constructor
  · rintro ⟨_, ⟨x, hx, rfl⟩, _, ⟨y, hy, rfl⟩, _, ⟨z, hz, rfl⟩, hx'⟩
    exact ⟨x, hx, y, hy, z, hz, fun h0 => hx' ((key x y z).mpr h0)⟩
  · rintro ⟨x, hx, y, hy, z, hz, hx'⟩
    exact ⟨_, ⟨x, hx, rfl⟩, _, ⟨y, hy, rfl⟩, _, ⟨z, hz, rfl⟩, fun h0 => hx' ((key x y z).mp h0)⟩

section
variable {c : ℝ} {b b' : Box ℝ} {k k' : Container} {points : List (Vec3 ℝ)}

theorem vector_stretch (h : ScaledBox c b b') (hk : container b = some k)
    (hk' : container b' = some k') (n : Vec3 ℤ) :
    containerVector k' n = stretch c b.is2D (containerVector k n) := by
  rw [container_eq hk, container_eq hk', h.dims, h.L, h.tilts.1, h.tilts.2.1, h.tilts.2.2]
  cases b.is2D <;> ext <;> simp [containerVector, stretch] <;> ring

theorem point_stretch (hplane : ∀ p ∈ points, Planar b p) {p : Vec3 ℝ} (hp : p ∈ points) :
    (⟨c * p.x, c * p.y, c * p.z⟩ : Vec3 ℝ) = stretch c b.is2D p := by
  have := hplane p hp
  unfold Planar at this
  cases h2 : b.is2D
  · simp [stretch]
  · simp [stretch, this h2]

theorem site_stretch (hc : 0 < c) (h : ScaledBox c b b') (hk : container b = some k)
    (hk' : container b' = some k') (hplane : ∀ p ∈ points, Planar b p) (j : ℕ) (s : Vec3 ℝ) :
    Site k' (scaledPoints c points) j (stretch c b.is2D s) ↔ Site k points j s := by
  unfold Site scaledPoints
  constructor
  · rintro ⟨p', n, hp', e⟩
    rw [List.getElem?_map] at hp'
    obtain ⟨p, hp, rfl⟩ := Option.map_eq_some_iff.mp hp'
    refine ⟨p, n, hp, stretch_injective hc b.is2D ?_⟩
    rw [e, stretch_add, vector_stretch h hk hk', point_stretch hplane (List.mem_of_getElem? hp)]
  · rintro ⟨p, n, hp, rfl⟩
    refine ⟨⟨c * p.x, c * p.y, c * p.z⟩, n, by rw [List.getElem?_map, hp]; rfl, ?_⟩
    rw [stretch_add, vector_stretch h hk hk', point_stretch hplane (List.mem_of_getElem? hp)]

/-- How much farther a position is from `u` than from `s`, in the plane and along `z`. -/
def across (x s u : Vec3 ℝ) : ℝ :=
  (u.x - s.x) ^ 2 + (u.y - s.y) ^ 2 - 2 * ((x.x - s.x) * (u.x - s.x) + (x.y - s.y) * (u.y - s.y))

/-- See `across`. -/
def along (x s u : Vec3 ℝ) : ℝ := (u.z - s.z) ^ 2 - 2 * ((x.z - s.z) * (u.z - s.z))

theorem dist_le_iff (x s u : Vec3 ℝ) :
    Vec3.norm (x - s) ≤ Vec3.norm (x - u) ↔ 0 ≤ across x s u + along x s u := by
  rw [norm_le_iff]
  simp only [Vec3.dot, Vec3.sub_x, Vec3.sub_y, Vec3.sub_z, across, along]
  constructor <;> intro h <;> linarith

theorem dist_eq_iff (x s u : Vec3 ℝ) :
    Vec3.norm (x - s) = Vec3.norm (x - u) ↔ across x s u + along x s u = 0 := by
  rw [le_antisymm_iff, norm_le_iff, norm_le_iff]
  simp only [Vec3.dot, Vec3.sub_x, Vec3.sub_y, Vec3.sub_z, across, along]
  constructor
  · rintro ⟨h1, h2⟩; linarith
  · intro h; constructor <;> linarith

theorem across_stretch (f : Bool) (x s u : Vec3 ℝ) :
    across (stretch c f x) (stretch c f s) (stretch c f u) = c ^ 2 * across x s u := by
  simp only [across, stretch]; ring

theorem along_stretch (f : Bool) (x s u : Vec3 ℝ) :
    along (stretch c f x) (stretch c f s) (stretch c f u) =
      (if f then 1 else c ^ 2) * along x s u := by
  cases f <;> simp [along, stretch]
  ring

/-- In 2D the conditions in the plane and along `z` are independent of one another. -/
theorem split_conditions (hk : container b = some k) (h2 : b.is2D = true)
    (hplane : ∀ p ∈ points, Planar b p) {i : ℕ} {s x : Vec3 ℝ} (hs : Site k points i s)
    (hz : s.z = 0) {α : ℝ} (hα : 0 < α)
    (h : ∀ j u, Site k points j u → 0 ≤ α * across x s u + along x s u) (j : ℕ) (u : Vec3 ℝ)
    (hu : Site k points j u) : 0 ≤ across x s u ∧ 0 ≤ along x s u := by
  obtain ⟨p, n, hp, rfl⟩ := hu
  have hp0 : p.z = 0 := hplane p (List.mem_of_getElem? hp) h2
  have hkk := container_eq hk
  rw [if_pos h2] at hkk
  have h1 := h j (p + containerVector k ⟨n.x, n.y, 0⟩) ⟨p, _, hp, rfl⟩
  have h3 := h i _ (site_add hs ⟨0, 0, n.z⟩)
  have e1 : across x s (p + containerVector k ⟨n.x, n.y, 0⟩) = across x s (p + containerVector k n) := by
    rw [hkk]; simp [across, containerVector]
  have e2 : along x s (p + containerVector k ⟨n.x, n.y, 0⟩) = 0 := by
    rw [hkk]; simp [along, containerVector, hp0, hz]
  have e3 : across x s (s + containerVector k ⟨0, 0, n.z⟩) = 0 := by
    rw [hkk]; simp [across, containerVector]
  have e4 : along x s (s + containerVector k ⟨0, 0, n.z⟩) = along x s (p + containerVector k n) := by
    rw [hkk]; simp [along, containerVector, hp0, hz]
  rw [e1, e2, add_zero] at h1
  rw [e3, e4, mul_zero, zero_add] at h3
  exact ⟨nonneg_of_mul_nonneg_right h1 hα, h3⟩

theorem conditions_iff (hc : 0 < c) (hk : container b = some k)
    (hplane : ∀ p ∈ points, Planar b p) {i : ℕ} {s x : Vec3 ℝ} (hs : Site k points i s)
    (hz : b.is2D = true → s.z = 0) :
    (∀ j u, Site k points j u →
      0 ≤ c ^ 2 * across x s u + (if b.is2D then 1 else c ^ 2) * along x s u) ↔
    ∀ j u, Site k points j u → 0 ≤ across x s u + along x s u := by
  have hc2 : 0 < c ^ 2 := by positivity
  cases h2 : b.is2D with
  | false =>
    simp only [Bool.false_eq_true, if_false, ← mul_add]
    refine forall_congr' fun j => forall_congr' fun u => forall_congr' fun _ => ?_
    exact ⟨fun h => nonneg_of_mul_nonneg_right h hc2, fun h => mul_nonneg hc2.le h⟩
  | true =>
    simp only [if_true, one_mul]
    constructor
    · intro h j u hu
      obtain ⟨h3, h4⟩ := split_conditions hk h2 hplane hs (hz h2) hc2 h j u hu
      linarith
    · intro h j u hu
      obtain ⟨h3, h4⟩ := split_conditions hk h2 hplane hs (hz h2) one_pos
        (fun j u hu => by rw [one_mul]; exact h j u hu) j u hu
      have := mul_nonneg hc2.le h3
      linarith

theorem mem_region_stretch (hc : 0 < c) (h : ScaledBox c b b') (hk : container b = some k)
    (hk' : container b' = some k') (hplane : ∀ p ∈ points, Planar b p) {i : ℕ} {s x : Vec3 ℝ}
    (hs : Site k points i s) (hz : b.is2D = true → s.z = 0) :
    stretch c b.is2D x ∈ region k' (scaledPoints c points) (stretch c b.is2D s) ↔
      x ∈ region k points s := by
  have e1 : x ∈ region k points s ↔ ∀ j u, Site k points j u → 0 ≤ across x s u + along x s u := by
    simp only [region, Set.mem_ofPred_eq, dist_le_iff]
  rw [e1, ← conditions_iff hc hk hplane hs hz]
  simp only [region, Set.mem_ofPred_eq, dist_le_iff]
  constructor
  · intro h1 j u hu
    have := h1 j _ ((site_stretch hc h hk hk' hplane j u).mpr hu)
    rwa [across_stretch, along_stretch] at this
  · intro h1 j u' hu'
    obtain ⟨u, rfl⟩ := stretch_surjective hc b.is2D u'
    rw [across_stretch, along_stretch]
    exact h1 j u ((site_stretch hc h hk hk' hplane j u).mp hu')

/-- Regions in the other unit. -/
theorem region_stretch (hc : 0 < c) (h : ScaledBox c b b') (hk : container b = some k)
    (hk' : container b' = some k') (hplane : ∀ p ∈ points, Planar b p) {i : ℕ} {s : Vec3 ℝ}
    (hs : Site k points i s) (hz : b.is2D = true → s.z = 0) :
    region k' (scaledPoints c points) (stretch c b.is2D s) = stretch c b.is2D '' region k points s := by
  ext x'
  obtain ⟨x, rfl⟩ := stretch_surjective hc b.is2D x'
  rw [mem_region_stretch hc h hk hk' hplane hs hz,
    (stretch_injective hc b.is2D).mem_set_image]

/-- Facets in the other unit. -/
theorem shared_stretch (hc : 0 < c) (h : ScaledBox c b b') (hk : container b = some k)
    (hk' : container b' = some k') (hplane : ∀ p ∈ points, Planar b p) {i j : ℕ} {s t : Vec3 ℝ}
    (hs : Site k points i s) (hz : b.is2D = true → s.z = 0) (ht : Site k points j t) :
    shared k' (scaledPoints c points) (stretch c b.is2D s) (stretch c b.is2D t) =
      stretch c b.is2D '' shared k points s t := by
  ext x'
  obtain ⟨x, rfl⟩ := stretch_surjective hc b.is2D x'
  rw [(stretch_injective hc b.is2D).mem_set_image]
  unfold shared
  rw [Set.mem_ofPred_eq, Set.mem_ofPred_eq, mem_region_stretch hc h hk hk' hplane hs hz, dist_eq_iff,
    dist_eq_iff, across_stretch, along_stretch]
  refine and_congr_right fun hx => ?_
  have hc2 : 0 < c ^ 2 := by positivity
  cases h2 : b.is2D with
  | false => simp [← mul_add, hc.ne']
  | true =>
    simp only [if_true, one_mul]
    obtain ⟨h3, h4⟩ := split_conditions hk h2 hplane hs (hz h2) one_pos
      (fun j u hu => by rw [one_mul]; exact (dist_le_iff x s u).mp (hx j u hu)) j t ht
    constructor
    · intro h5
      have := mul_nonneg hc2.le h3
      have h6 : across x s t = 0 :=
        (mul_eq_zero.mp (by linarith : c ^ 2 * across x s t = 0)).resolve_left hc2.ne'
      rw [h6] at h5 ⊢
      linarith
    · intro h5
      have h6 : across x s t = 0 := by linarith
      rw [h6] at h5 ⊢
      linarith

end

end Diagram
end Freud
