import Verif.Lemmas.VoronoiDiagram
import Verif.Props.Cells

/-!
# Lemmas on periodic Voronoi diagrams described twice
-/

namespace Freud
open Spec Voronoi

namespace Diagram

section rigid
variable {Q : Vec3 ℝ → Vec3 ℝ}

theorem rigid_smul (h : Rigid Q) (a : ℝ) (v : Vec3 ℝ) : Q (Vec3.smul a v) = Vec3.smul a (Q v) := by
  have e : Q (Vec3.smul a v) - Vec3.smul a (Q v) = ⟨0, 0, 0⟩ := by
    apply Rigid.eq_of_dot
    have key : ∀ u w : Vec3 ℝ, Vec3.dot (u - Vec3.smul a w) (u - Vec3.smul a w) =
        Vec3.dot u u - 2 * a * Vec3.dot u w + a * a * Vec3.dot w w := by
      intro u w
      simp only [Vec3.dot, Vec3.sub_x, Vec3.sub_y, Vec3.sub_z, Vec3.smul_x, Vec3.smul_y, Vec3.smul_z]
      ring
    rw [key, h, h, h]
    simp only [Vec3.dot, Vec3.smul_x, Vec3.smul_y, Vec3.smul_z]
    ring
  have hx := congrArg Vec3.x e
  have hy := congrArg Vec3.y e
  have hz := congrArg Vec3.z e
  simp only [Vec3.sub_x, Vec3.sub_y, Vec3.sub_z] at hx hy hz
  ext <;> linarith

/-- The map on functions. -/
def linear (h : Rigid Q) : (Fin 3 → ℝ) →ₗ[ℝ] (Fin 3 → ℝ) where
  toFun x := toFun (Q ⟨x 0, x 1, x 2⟩)
  map_add' x y := by
    rw [← toFun_add, ← h.add]
    rfl
  map_smul' a x := by
    have : Q ⟨(a • x) 0, (a • x) 1, (a • x) 2⟩ = Vec3.smul a (Q ⟨x 0, x 1, x 2⟩) := by
      rw [← rigid_smul h]; rfl
    rw [this]
    ext i
    fin_cases i <;> simp [toFun]

theorem linear_det (h : Rigid Q) : |LinearMap.det (linear h)| = 1 := by
  have e : LinearMap.det (linear h) =
      Vec3.dot (Q ⟨1, 0, 0⟩) (Vec3.cross (Q ⟨0, 1, 0⟩) (Q ⟨0, 0, 1⟩)) := by
    rw [← LinearMap.det_toMatrix', Matrix.det_fin_three]
    simp only [LinearMap.toMatrix'_apply, linear, LinearMap.coe_mk, AddHom.coe_mk, toFun]
    simp [Pi.single_apply, Vec3.dot, Vec3.cross]
    ring
  have h2 := volume_turned h ⟨1, 0, 0⟩ ⟨0, 1, 0⟩ ⟨0, 0, 1⟩
  rw [← e] at h2
  have h3 : LinearMap.det (linear h) ^ 2 = 1 := by
    rw [h2]; norm_num [Vec3.dot, Vec3.cross]
  rw [← abs_one (α := ℝ)]
  exact sq_eq_sq_iff_abs_eq_abs _ _ |>.mp (by rw [h3, one_pow])

theorem rigid_surjective (h : Rigid Q) : Function.Surjective Q := by
  intro v
  have hinj : Function.Injective (linear h) := by
    intro x y e
    have := h.injective (toFun_inj _ _ e)
    rw [Vec3.mk.injEq] at this
    funext i
    fin_cases i
    · exact this.1
    · exact this.2.1
    · exact this.2.2
  obtain ⟨x, hx⟩ := LinearMap.injective_iff_surjective.mp hinj (toFun v)
  exact ⟨_, toFun_inj _ _ hx⟩

/-- Rotations, reflections and translations keep volumes. -/
theorem volumeOf_image (h : Rigid Q) (t : Vec3 ℝ) (S : Set (Vec3 ℝ)) :
    volumeOf ((fun x => Q x + t) '' S) = volumeOf S := by
  unfold volumeOf
  have e : {x : Fin 3 → ℝ | (⟨x 0, x 1, x 2⟩ : Vec3 ℝ) ∈ (fun x => Q x + t) '' S} =
      (fun x => x + toFun t) '' (linear h '' {x : Fin 3 → ℝ | (⟨x 0, x 1, x 2⟩ : Vec3 ℝ) ∈ S}) := by
    ext x
    constructor
    · rintro ⟨y, hy, e⟩
      refine ⟨_, ⟨toFun y, hy, rfl⟩, ?_⟩
      show toFun (Q y) + toFun t = x
      rw [← toFun_add, show Q y + t = _ from e]
      funext i
      fin_cases i <;> rfl
    · rintro ⟨_, ⟨y, hy, rfl⟩, rfl⟩
      refine ⟨_, hy, ?_⟩
      show _ = (_ : Vec3 ℝ)
      ext <;> simp [linear, toFun]
  rw [e, Set.image_add_right, MeasureTheory.measure_preimage_add_right,
    MeasureTheory.Measure.addHaar_image_linearMap, linear_det]
  simp

theorem broad_turned (h : Rigid Q) (t : Vec3 ℝ) (S : Set (Vec3 ℝ)) :
    Broad ((fun x => Q x + t) '' S) ↔ Broad S := by
  have gram2 : ∀ u v : Vec3 ℝ, Vec3.dot (Vec3.cross u v) (Vec3.cross u v) =
      Vec3.dot u u * Vec3.dot v v - Vec3.dot u v ^ 2 := by
    intro u v
    simp only [Vec3.dot, Vec3.cross]
    ring
  have key : ∀ x y z : Vec3 ℝ, Vec3.cross (Q y + t - (Q x + t)) (Q z + t - (Q x + t)) = ⟨0, 0, 0⟩ ↔
      Vec3.cross (y - x) (z - x) = ⟨0, 0, 0⟩ := by
    intro x y z
    have e : ∀ u, Q u + t - (Q x + t) = Q (u - x) := fun u => by
      rw [h.sub]; ext <;> simp
    rw [e, e]
    have zero : ∀ w : Vec3 ℝ, w = ⟨0, 0, 0⟩ ↔ Vec3.dot w w = 0 := fun w =>
      ⟨fun hw => by rw [hw]; simp [Vec3.dot], Rigid.eq_of_dot⟩
    rw [zero, zero, gram2, gram2, h, h, h]
  constructor
  · rintro ⟨_, ⟨x, hx, rfl⟩, _, ⟨y, hy, rfl⟩, _, ⟨z, hz, rfl⟩, hc⟩
    exact ⟨x, hx, y, hy, z, hz, fun h0 => hc ((key x y z).mpr h0)⟩
  · rintro ⟨x, hx, y, hy, z, hz, hc⟩
    exact ⟨_, ⟨x, hx, rfl⟩, _, ⟨y, hy, rfl⟩, _, ⟨z, hz, rfl⟩, fun h0 => hc ((key x y z).mp h0)⟩

variable {k k' : Container} {pts pts' : List (Vec3 ℝ)} {σ : Equiv.Perm ℕ} {o : Vec3 ℝ}

/-- The regions of sites that are moved together. -/
theorem region_turned (h : Rigid Q) (hs : ∀ j s, Site k' pts' j (Q s + o) ↔ Site k pts (σ j) s)
    (s : Vec3 ℝ) : region k' pts' (Q s + o) = (fun x => Q x + o) '' region k pts s := by
  have e : ∀ x u : Vec3 ℝ, Vec3.norm (Q x + o - (Q u + o)) = Vec3.norm (x - u) := by
    intro x u
    have : Q x + o - (Q u + o) = Q (x - u) := by rw [h.sub]; ext <;> simp
    rw [this, h.norm]
  have hsurj : ∀ x, ∃ y, Q y + o = x := fun x => by
    obtain ⟨y, hy⟩ := rigid_surjective h (x - o)
    exact ⟨y, by rw [hy]; ext <;> simp⟩
  ext x
  obtain ⟨y, rfl⟩ := hsurj x
  constructor
  · intro hx
    refine ⟨y, fun j u hu => ?_, rfl⟩
    have := hx (σ.symm j) (Q u + o) ((hs _ _).mpr (by rwa [Equiv.apply_symm_apply]))
    rwa [e, e] at this
  · rintro ⟨z, hz, he⟩
    rw [← he]
    intro j u hu
    obtain ⟨w, rfl⟩ := hsurj u
    have := hz (σ j) w ((hs _ _).mp hu)
    show Vec3.norm (Q z + o - _) ≤ Vec3.norm (Q z + o - _)
    rwa [e, e]

theorem shared_turned (h : Rigid Q) (hs : ∀ j s, Site k' pts' j (Q s + o) ↔ Site k pts (σ j) s)
    (s t : Vec3 ℝ) : shared k' pts' (Q s + o) (Q t + o) = (fun x => Q x + o) '' shared k pts s t := by
  have e : ∀ x u : Vec3 ℝ, Vec3.norm (Q x + o - (Q u + o)) = Vec3.norm (x - u) := by
    intro x u
    have : Q x + o - (Q u + o) = Q (x - u) := by rw [h.sub]; ext <;> simp
    rw [this, h.norm]
  ext x
  unfold shared
  rw [Set.mem_setOf_eq, region_turned h hs]
  constructor
  · rintro ⟨⟨y, hy, rfl⟩, hn⟩
    refine ⟨y, ⟨hy, ?_⟩, rfl⟩
    rwa [← e y s, ← e y t]
  · rintro ⟨y, ⟨hy, hn⟩, rfl⟩
    refine ⟨⟨y, hy, rfl⟩, ?_⟩
    show Vec3.norm (Q y + o - _) = Vec3.norm (Q y + o - _)
    rwa [e, e]

end rigid

section lattice
variable {Q : Vec3 ℝ → Vec3 ℝ} {b b' : Box ℝ} {k k' : Container}

/-- The container of a 2D or a 3D box. -/
theorem container_eq (hk : container b = some k) :
    k = if b.is2D then ⟨b.L.x, b.L.y * b.xy, b.L.y, 0, 0, 1⟩
      else ⟨b.L.x, b.L.y * b.xy, b.L.y, b.L.z * b.xz, b.L.z * b.yz, b.L.z⟩ := by
  unfold container Box.getLatticeVector at hk
  by_cases h2 : b.is2D = true
  · rw [if_pos h2, if_pos rfl, if_neg (by omega), if_pos rfl] at hk
    rw [if_pos h2]
    exact (Option.some.inj hk).symm
  · have h2' : b.is2D = false := by simpa using h2
    rw [if_neg h2, if_pos rfl, if_neg (by omega), if_pos rfl, if_neg (by omega), if_neg (by omega),
      if_pos ⟨rfl, h2'⟩] at hk
    rw [if_neg h2]
    exact (Option.some.inj hk).symm

theorem vector_3D (hk : container b = some k) (h2 : b.is2D = false) (n : Vec3 ℤ) :
    containerVector k n = lattice b n := by
  rw [container_eq hk, if_neg (by simp [h2])]
  ext <;> simp only [containerVector, lattice, comb, a1, a2, a3] <;> ring

theorem vector_2D (hk : container b = some k) (h2 : b.is2D = true) (n : Vec3 ℤ) :
    containerVector k n = lattice b ⟨n.x, n.y, 0⟩ + Vec3.smul (n.z : ℝ) ⟨0, 0, 1⟩ := by
  rw [container_eq hk, if_pos h2]
  ext <;> simp only [containerVector, lattice, comb, a1, a2, a3, Vec3.add_x, Vec3.add_y, Vec3.add_z,
    Vec3.smul_x, Vec3.smul_y, Vec3.smul_z, Int.cast_zero] <;> ring

theorem lattice_vector (hk : container b = some k) (n : Vec3 ℤ) (hn : AllowedShift b n) :
    containerVector k n = lattice b n := by
  by_cases h2 : b.is2D = true
  · have h0 : n.z = 0 := hn.2.2 (Or.inr h2)
    rw [vector_2D hk h2, h0]
    obtain ⟨x, y, z⟩ := n
    simp only at h0
    subst h0
    ext <;> simp
  · exact vector_3D hk (by simpa using h2) n

/-- A rotation that takes a plane lattice to a plane lattice keeps the vertical. -/
theorem vertical (hQ : Rigid Q) (hl : SameLattice Q b b') (hL : b'.L.x ≠ 0 ∧ b'.L.y ≠ 0)
    (hper : FullyPeriodic b') (h2 : b'.is2D = true) :
    Q ⟨0, 0, 1⟩ = ⟨0, 0, 1⟩ ∨ Q ⟨0, 0, 1⟩ = ⟨0, 0, -1⟩ := by
  have h2b : b.is2D = true := by rw [← hl.dims]; exact h2
  have perp : ∀ n', n'.z = 0 → Vec3.dot (Q ⟨0, 0, 1⟩) (lattice b' n') = 0 := by
    intro n' hn'
    obtain ⟨n, hn, e⟩ := hl.sup n' ⟨fun h => by simp [hper.1] at h, fun h => by simp [hper.2.1] at h,
      fun _ => hn'⟩
    rw [e, hQ]
    have h0 : n.z = 0 := hn.2.2 (Or.inr h2b)
    simp [Vec3.dot, lattice, comb, a1, a2, a3, h0]
  have e1 := perp ⟨1, 0, 0⟩ rfl
  have e2 := perp ⟨0, 1, 0⟩ rfl
  simp only [Vec3.dot, lattice, comb, a1, a2, a3, Int.cast_one, Int.cast_zero, one_mul, zero_mul,
    mul_zero, add_zero, zero_add] at e1 e2
  have hx : (Q ⟨0, 0, 1⟩).x = 0 := (mul_eq_zero.mp e1).resolve_right hL.1
  rw [hx, zero_mul, zero_add] at e2
  have hy : (Q ⟨0, 0, 1⟩).y = 0 := (mul_eq_zero.mp e2).resolve_right hL.2
  have hn := hQ ⟨0, 0, 1⟩ ⟨0, 0, 1⟩
  simp only [Vec3.dot, hx, hy, mul_zero, add_zero, zero_add, mul_one] at hn
  rcases mul_self_eq_one_iff.mp hn with h | h
  · exact Or.inl (Vec3.ext hx hy h)
  · exact Or.inr (Vec3.ext hx hy h)

theorem allowed (hper : FullyPeriodic b) (n : Vec3 ℤ) (h : b.is2D = true → n.z = 0) :
    AllowedShift b n := by
  refine ⟨fun h => by simp [hper.1] at h, fun h => by simp [hper.2.1] at h, ?_⟩
  rintro (h' | h')
  · simp [hper.2.2] at h'
  · exact h h'

/-- The lattices of the containers. -/
theorem vectors (hQ : Rigid Q) (hl : SameLattice Q b b') (hL : b'.L.x ≠ 0 ∧ b'.L.y ≠ 0)
    (hper : FullyPeriodic b) (hper' : FullyPeriodic b') (hk : container b = some k)
    (hk' : container b' = some k') :
    (∀ n, ∃ n', containerVector k' n' = Q (containerVector k n)) ∧
      ∀ n', ∃ n, containerVector k' n' = Q (containerVector k n) := by
  by_cases h2 : b.is2D = true
  · have h2' : b'.is2D = true := by rw [hl.dims]; exact h2
    obtain ⟨ε, hε, hQz⟩ : ∃ ε : ℤ, ε * ε = 1 ∧ ∀ m : ℤ, Q (Vec3.smul (m : ℝ) ⟨0, 0, 1⟩) =
        Vec3.smul ((ε * m : ℤ) : ℝ) ⟨0, 0, 1⟩ := by
      rcases vertical hQ hl hL hper' h2' with h | h
      · refine ⟨1, by norm_num, fun m => ?_⟩
        rw [rigid_smul hQ, h, one_mul]
      · refine ⟨-1, by norm_num, fun m => ?_⟩
        rw [rigid_smul hQ, h]
        ext <;> simp
    constructor
    · intro n
      obtain ⟨n', hn', e⟩ := hl.sub ⟨n.x, n.y, 0⟩ (allowed hper _ fun _ => rfl)
      refine ⟨⟨n'.x, n'.y, ε * n.z⟩, ?_⟩
      have h0 : n'.z = 0 := hn'.2.2 (Or.inr h2')
      rw [vector_2D hk' h2', vector_2D hk h2, hQ.add, ← e, hQz]
      obtain ⟨x, y, z⟩ := n'
      simp only at h0
      subst h0
      rfl
    · intro n'
      obtain ⟨n, hn, e⟩ := hl.sup ⟨n'.x, n'.y, 0⟩ (allowed hper' _ fun _ => rfl)
      refine ⟨⟨n.x, n.y, ε * n'.z⟩, ?_⟩
      have h0 : n.z = 0 := hn.2.2 (Or.inr h2)
      rw [vector_2D hk' h2', vector_2D hk h2, hQ.add, e, hQz, ← mul_assoc, hε, one_mul]
      obtain ⟨x, y, z⟩ := n
      simp only at h0
      subst h0
      rfl
  · have h2f : b.is2D = false := by simpa using h2
    have h2f' : b'.is2D = false := by rw [hl.dims]; exact h2f
    constructor
    · intro n
      obtain ⟨n', -, e⟩ := hl.sub n (allowed hper _ fun h => absurd h h2)
      exact ⟨n', by rw [vector_3D hk' h2f', vector_3D hk h2f, e]⟩
    · intro n'
      obtain ⟨n, -, e⟩ := hl.sup n' (allowed hper' _ fun h => by simp [h2f'] at h)
      exact ⟨n, by rw [vector_3D hk' h2f', vector_3D hk h2f, e]⟩

/-- The sites of the two descriptions. -/
theorem sites (hQ : Rigid Q) (hl : SameLattice Q b b') (hL : b'.L.x ≠ 0 ∧ b'.L.y ≠ 0)
    (hper : FullyPeriodic b) (hper' : FullyPeriodic b') (hk : container b = some k)
    (hk' : container b' = some k') {t : Vec3 ℝ} {σ : Equiv.Perm ℕ} {pts pts' : List (Vec3 ℝ)}
    (hp : Turned b' Q t σ pts pts') (j : ℕ) (s : Vec3 ℝ) :
    Site k' pts' j (Q s + t) ↔ Site k pts (σ j) s := by
  obtain ⟨v1, v2⟩ := vectors hQ hl hL hper hper' hk hk'
  constructor
  · rintro ⟨p', n', hp', e⟩
    obtain ⟨p, hpp, m, hm, rfl⟩ := hp.point j p' hp'
    obtain ⟨n, hn⟩ := v2 (m + n')
    refine ⟨p, n, hpp, hQ.injective ?_⟩
    rw [hQ.add, ← hn, vector_add, lattice_vector hk' m hm]
    have hx := congrArg Vec3.x e
    have hy := congrArg Vec3.y e
    have hz := congrArg Vec3.z e
    simp only [Vec3.add_x, Vec3.add_y, Vec3.add_z] at hx hy hz
    ext <;> simp only [Vec3.add_x, Vec3.add_y, Vec3.add_z] <;> linarith
  · rintro ⟨p, n, hpp, rfl⟩
    obtain ⟨p', hp', m, hm, rfl⟩ := hp.get hpp
    obtain ⟨n', hn'⟩ := v1 n
    refine ⟨_, n' + -m, hp', ?_⟩
    rw [vector_add, vector_neg, lattice_vector hk' m hm, hn', hQ.add]
    ext <;> simp only [Vec3.add_x, Vec3.add_y, Vec3.add_z, Vec3.neg_x, Vec3.neg_y, Vec3.neg_z] <;> ring

end lattice

end Diagram
end Freud
