import Verif.Spec.VoronoiDiagram
import Verif.Lemmas.VoronoiVolume
import Verif.Props.Voronoi

/-!
# Lemmas on the periodic Voronoi diagram
-/

namespace Freud
open Spec Voronoi

namespace Diagram

theorem norm_le_iff (a b : Vec3 ℝ) : Vec3.norm a ≤ Vec3.norm b ↔ Vec3.dot a a ≤ Vec3.dot b b := by
  unfold Vec3.norm
  refine Real.sqrt_le_sqrt_iff ?_
  simp only [Vec3.dot]; nlinarith [mul_self_nonneg b.x, mul_self_nonneg b.y, mul_self_nonneg b.z]

theorem vector_add (k : Container) (m n : Vec3 ℤ) :
    containerVector k (m + n) = containerVector k m + containerVector k n := by
  ext <;> simp only [containerVector, Vec3.add_x, Vec3.add_y, Vec3.add_z] <;> push_cast <;> ring

theorem vector_neg (k : Container) (m : Vec3 ℤ) :
    containerVector k (-m) = -containerVector k m := by
  ext <;> simp only [containerVector, Vec3.neg_x, Vec3.neg_y, Vec3.neg_z] <;> push_cast <;> ring

theorem site_add {k : Container} {points : List (Vec3 ℝ)} {j : ℕ} {s : Vec3 ℝ}
    (h : Site k points j s) (n : Vec3 ℤ) : Site k points j (s + containerVector k n) := by
  obtain ⟨p, m, hp, rfl⟩ := h
  refine ⟨p, m + n, hp, ?_⟩
  rw [vector_add]
  ext <;> simp <;> ring

/-- Two images of one point differ by a lattice vector. -/
theorem site_diff {k : Container} {points : List (Vec3 ℝ)} {j : ℕ} {s t : Vec3 ℝ}
    (h : Site k points j s) (h' : Site k points j t) : ∃ n, t = s + containerVector k n := by
  obtain ⟨p, m, hp, rfl⟩ := h
  obtain ⟨p', m', hp', rfl⟩ := h'
  rw [hp] at hp'
  obtain rfl := Option.some.inj hp'
  refine ⟨m' + -m, ?_⟩
  rw [vector_add, vector_neg]
  ext <;> simp <;> ring

theorem region_add {k : Container} {points : List (Vec3 ℝ)} (s x : Vec3 ℝ) (n : Vec3 ℤ) :
    x + containerVector k n ∈ region k points (s + containerVector k n) ↔ x ∈ region k points s := by
  have e1 : x + containerVector k n - (s + containerVector k n) = x - s := by ext <;> simp
  constructor
  · intro h j t ht
    have := h j _ (site_add ht n)
    have e2 : x + containerVector k n - (t + containerVector k n) = x - t := by ext <;> simp
    rwa [e1, e2] at this
  · intro h j t ht
    have := h j _ (site_add ht (-n))
    rw [e1]
    have e2 : x - (t + containerVector k (-n)) = x + containerVector k n - t := by
      rw [vector_neg]; ext <;> simp <;> ring
    rwa [e2] at this

theorem shared_add {k : Container} {points : List (Vec3 ℝ)} (s t x : Vec3 ℝ) (n : Vec3 ℤ) :
    x + containerVector k n ∈ shared k points (s + containerVector k n) (t + containerVector k n) ↔
      x ∈ shared k points s t := by
  have e1 : x + containerVector k n - (s + containerVector k n) = x - s := by ext <;> simp
  have e2 : x + containerVector k n - (t + containerVector k n) = x - t := by ext <;> simp
  unfold shared
  rw [Set.mem_setOf_eq, Set.mem_setOf_eq, region_add, e1, e2]

theorem shared_comm {k : Container} {points : List (Vec3 ℝ)} (s t : Vec3 ℝ) :
    shared k points s t = shared k points t s := by
  ext x
  constructor
  · rintro ⟨h, e⟩
    exact ⟨fun j u hu => e ▸ h j u hu, e.symm⟩
  · rintro ⟨h, e⟩
    exact ⟨fun j u hu => e ▸ h j u hu, e.symm⟩

theorem shared_image {k : Container} {points : List (Vec3 ℝ)} (s t : Vec3 ℝ) (n : Vec3 ℤ) :
    shared k points (s + containerVector k n) (t + containerVector k n) =
      (fun x => x + containerVector k n) '' shared k points s t := by
  ext x
  have e : x + -containerVector k n + containerVector k n = x := by ext <;> simp
  constructor
  · intro h
    refine ⟨x + -containerVector k n, ?_, e⟩
    rw [← shared_add s t _ n, e]
    exact h
  · rintro ⟨y, hy, rfl⟩
    exact (shared_add s t y n).mpr hy

theorem broad_image (S : Set (Vec3 ℝ)) (v : Vec3 ℝ) (h : Broad S) : Broad ((fun x => x + v) '' S) := by
  obtain ⟨x, hx, y, hy, z, hz, hc⟩ := h
  refine ⟨_, ⟨x, hx, rfl⟩, _, ⟨y, hy, rfl⟩, _, ⟨z, hz, rfl⟩, ?_⟩
  have e1 : y + v - (x + v) = y - x := by ext <;> simp
  have e2 : z + v - (x + v) = z - x := by ext <;> simp
  rw [e1, e2]
  exact hc

theorem flipped_flipped (nb : Bond ℝ) : flipped (flipped nb) = nb := by
  cases nb with
  | mk q p d w v =>
    unfold flipped
    congr 1
    ext <;> simp

/-- The vectors of a container as a basis. -/
noncomputable def basis (k : Container) (hk : k.bx * k.by' * k.bz ≠ 0) :
    Module.Basis (Fin 3) ℝ (Fin 3 → ℝ) := by
  have h := (Module.Basis.is_basis_iff_det (Pi.basisFun ℝ (Fin 3))
    (v := ![![k.bx, 0, 0], ![k.bxy, k.by', 0], ![k.bxz, k.byz, k.bz]])).mpr (by
      rw [Pi.basisFun_det_apply, Matrix.det_fin_three, isUnit_iff_ne_zero]
      simpa using hk)
  exact Module.Basis.mk h.1 h.2.ge

theorem basis_coe (k : Container) (hk : k.bx * k.by' * k.bz ≠ 0) :
    ⇑(basis k hk) = ![![k.bx, 0, 0], ![k.bxy, k.by', 0], ![k.bxz, k.byz, k.bz]] := by
  unfold basis
  exact Module.Basis.coe_mk _ _

theorem basis_det (k : Container) (hk : k.bx * k.by' * k.bz ≠ 0) :
    (Matrix.of (basis k hk)).det = k.bx * k.by' * k.bz := by
  rw [basis_coe, Matrix.det_fin_three]
  simp

/-- A vector as a function. -/
def toFun (v : Vec3 ℝ) : Fin 3 → ℝ := ![v.x, v.y, v.z]

theorem mem_lattice (k : Container) (hk : k.bx * k.by' * k.bz ≠ 0) (g : Fin 3 → ℝ) :
    g ∈ Submodule.span ℤ (Set.range (basis k hk)) ↔ ∃ n, g = toFun (containerVector k n) := by
  rw [Submodule.mem_span_range_iff_exists_fun]
  constructor
  · rintro ⟨c, rfl⟩
    refine ⟨⟨c 0, c 1, c 2⟩, ?_⟩
    rw [basis_coe, Fin.sum_univ_three]
    ext i
    fin_cases i <;> simp [toFun, containerVector]
  · rintro ⟨n, rfl⟩
    refine ⟨![n.x, n.y, n.z], ?_⟩
    rw [basis_coe, Fin.sum_univ_three]
    ext i
    fin_cases i <;> simp [toFun, containerVector]

theorem d2_toFun (x : Fin 3 → ℝ) (s : Vec3 ℝ) :
    VoronoiVolume.d2 x (toFun s) = Vec3.dot (⟨x 0, x 1, x 2⟩ - s) (⟨x 0, x 1, x 2⟩ - s) := by
  unfold VoronoiVolume.d2
  rw [Fin.sum_univ_three]
  simp only [toFun, Vec3.dot, Vec3.sub_x, Vec3.sub_y, Vec3.sub_z, Matrix.cons_val_zero,
    Matrix.cons_val_one, Matrix.cons_val]
  ring

theorem toFun_add (v w : Vec3 ℝ) : toFun (v + w) = toFun v + toFun w := by
  ext i
  fin_cases i <;> simp [toFun]

theorem toFun_inj (v w : Vec3 ℝ) (h : toFun v = toFun w) : v = w := by
  have h0 := congrFun h 0
  have h1 := congrFun h 1
  have h2 := congrFun h 2
  ext
  · simpa [toFun] using h0
  · simpa [toFun] using h1
  · simpa [toFun] using h2

/-- The regions are the cells of the lemma on volumes. -/
theorem region_cell {k : Container} (hk : k.bx * k.by' * k.bz ≠ 0) {points : List (Vec3 ℝ)}
    (site : Fin points.length → Vec3 ℝ)
    (hs : ∀ i : Fin points.length, Site k points i (site i)) (i : Fin points.length) :
    {x : Fin 3 → ℝ | (⟨x 0, x 1, x 2⟩ : Vec3 ℝ) ∈ region k points (site i)} =
      VoronoiVolume.cell (basis k hk) (fun i => toFun (site i)) i := by
  ext x
  simp only [region, VoronoiVolume.cell, Set.mem_setOf_eq]
  constructor
  · intro h j g hg
    obtain ⟨n, rfl⟩ := (mem_lattice k hk g).mp hg
    have := h j _ (site_add (hs j) n)
    rw [norm_le_iff] at this
    rw [← toFun_add, d2_toFun, d2_toFun]
    exact this
  · intro h j t ht
    obtain ⟨p, -, hp, -⟩ := id ht
    have hj : j < points.length := (List.getElem?_eq_some_iff.mp hp).1
    obtain ⟨n, rfl⟩ := site_diff (hs ⟨j, hj⟩) ht
    have := h ⟨j, hj⟩ _ ((mem_lattice k hk _).mpr ⟨n, rfl⟩)
    rw [← toFun_add, d2_toFun, d2_toFun] at this
    rw [norm_le_iff]
    exact this

theorem sum_region {k : Container} (hk : k.bx * k.by' * k.bz ≠ 0) {points : List (Vec3 ℝ)}
    (hne : points ≠ []) (hsep : Separate k points)
    (site : Fin points.length → Vec3 ℝ)
    (hs : ∀ i : Fin points.length, Site k points i (site i)) :
    ∑ i, volumeOf (region k points (site i)) = |k.bx * k.by' * k.bz| ∧
      ∀ i, 0 < volumeOf (region k points (site i)) := by
  have hq : ∀ i j, i ≠ j → ∀ g ∈ Submodule.span ℤ (Set.range (basis k hk)),
      toFun (site i) ≠ toFun (site j) + g := by
    intro i j hij g hg he
    obtain ⟨n, rfl⟩ := (mem_lattice k hk g).mp hg
    rw [← toFun_add] at he
    have he := toFun_inj _ _ he
    have h1 := site_add (hs j) n
    rw [← he] at h1
    exact hij (Fin.ext (hsep _ _ _ (hs i) h1))
  have hsum := VoronoiVolume.sum_volume (b := basis k hk) (q := fun i => toFun (site i))
    (List.length_pos_iff.mpr hne) hq
  rw [basis_det] at hsum
  have hfin : ∀ i ∈ Finset.univ, MeasureTheory.volume
      (VoronoiVolume.cell (basis k hk) (fun i => toFun (site i)) i) ≠ ⊤ := by
    intro i hi
    refine ne_top_of_le_ne_top ?_ (Finset.single_le_sum (f := fun i => MeasureTheory.volume
      (VoronoiVolume.cell (basis k hk) (fun i => toFun (site i)) i)) (fun _ _ => zero_le) hi)
    rw [hsum]
    exact ENNReal.ofReal_ne_top
  have := ENNReal.toReal_sum hfin
  rw [hsum, ENNReal.toReal_ofReal (abs_nonneg _)] at this
  rw [this]
  constructor
  · refine Finset.sum_congr rfl fun i _ => ?_
    unfold volumeOf
    rw [region_cell hk site hs i]
  · intro i
    unfold volumeOf
    rw [region_cell hk site hs i]
    exact ENNReal.toReal_pos (VoronoiVolume.volume_pos _ _ hq i).ne' (hfin i (Finset.mem_univ i))

end Diagram
end Freud
