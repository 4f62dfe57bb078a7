import Verif.Model.Hexatic
import Verif.Lemmas.Box
import Verif.Spec.Periodic
import Verif.Props.NeighborLoop
import Mathlib.Analysis.Convex.StrictConvexSpace
import Mathlib.Analysis.InnerProductSpace.Basic
import Mathlib.Analysis.Complex.Basic
import Mathlib.RingTheory.RootsOfUnity.Complex
import Mathlib.RingTheory.RootsOfUnity.PrimitiveRoots

/-!
# C75: the k-atic order parameter
-/

namespace Freud
open Spec MArray

/-- The direction of a bond as a unit complex number; a bond of length zero counts as one along the
first axis. -/
noncomputable def Spec.direction (v : Vec3 ℝ) : ℂ :=
  if v.x = 0 ∧ v.y = 0 then 1 else ⟨v.x, v.y⟩ / (Real.sqrt (v.x ^ 2 + v.y ^ 2) : ℂ)

/-- The bonds of point `i`: weight (1 in the unweighted mode) and separation by the nearest image
convention of the box. -/
noncomputable def Spec.weightedBonds (b : Box ℝ) (points : List (Vec3 ℝ)) (weighted : Bool)
    (bonds : List (Bond ℝ)) (i : ℕ) : List (ℝ × Vec3 ℝ) :=
  (bonds.filter (fun nb => nb.q = i)).map fun nb =>
    (if weighted then nb.weight else 1,
      b.wrap (points.getD nb.p ⟨0, 0, 0⟩ - points.getD i ⟨0, 0, 0⟩))

/-- The weighted mean of the `k`-th powers of the directions; not a number without weight. -/
noncomputable def Spec.katic (k : ℕ) (bs : List (ℝ × Vec3 ℝ)) : Option ℂ :=
  if (bs.map (·.1)).sum = 0 then none
  else some ((bs.map fun b => (b.1 : ℂ) * direction b.2 ^ k).sum / ((bs.map (·.1)).sum : ℝ))

/-- The neighbor list belongs to the system: its bonds join existing points. -/
structure Spec.ListFor (nlist : NList ℝ) (n : ℕ) : Prop where
  good : GoodList nlist
  points : ∀ nb ∈ nlist.bonds, nb.q < n → nb.p < n

namespace Hexatic

theorem phase_eq (k : ℕ) (v : Vec3 ℝ) : phase k v = direction v ^ k := by
  have h1 : phase k v = Complex.exp (Complex.arg ⟨v.x, v.y⟩ * Complex.I) ^ k := by
    rw [← Complex.exp_nat_mul]
    unfold phase atan2
    congr 1
    apply Complex.ext <;> simp
  rw [h1]
  congr 1
  unfold direction
  split_ifs with h
  · have : (⟨v.x, v.y⟩ : ℂ) = 0 := by rw [h.1, h.2]; rfl
    rw [this, Complex.arg_zero]; simp
  · have hz : (⟨v.x, v.y⟩ : ℂ) ≠ 0 := fun h0 => h ⟨congrArg Complex.re h0, congrArg Complex.im h0⟩
    have hn : (Real.sqrt (v.x ^ 2 + v.y ^ 2) : ℝ) = ‖(⟨v.x, v.y⟩ : ℂ)‖ := by
      rw [Complex.norm_def, Complex.normSq_mk]; congr 1; ring
    rw [hn, eq_div_iff (by exact_mod_cast norm_ne_zero_iff.mpr hz), mul_comm]
    exact Complex.norm_mul_exp_arg_mul_I _

theorem sumBonds_spec (p : Params) (b : Box ℝ) (points : List (Vec3 ℝ)) (ref : Vec3 ℝ)
    (bonds : List (Bond ℝ)) (h : ∀ nb ∈ bonds, nb.p < points.length) (acc : ℂ × ℝ) :
    sumBonds p b points ref bonds acc = some
      (acc.1 + (bonds.map fun nb => ((if p.weighted then nb.weight else 1 : ℝ) : ℂ) *
          direction (b.wrap (points.getD nb.p ⟨0, 0, 0⟩ - ref)) ^ p.k).sum,
        acc.2 + (bonds.map fun nb => (if p.weighted then nb.weight else 1 : ℝ)).sum) := by
  induction bonds generalizing acc with
  | nil => simp [sumBonds]
  | cons nb bonds ih =>
    have hp := h nb List.mem_cons_self
    rw [sumBonds, List.getElem?_eq_getElem hp, Option.bind_some]
    dsimp only
    rw [ih (fun nb hnb => h nb (List.mem_cons_of_mem _ hnb)), phase_eq]
    have hg : points.getD nb.p ⟨0, 0, 0⟩ = points[nb.p] := by
      rw [List.getD_eq_getElem?_getD, List.getElem?_eq_getElem hp]; rfl
    simp only [List.map_cons, List.sum_cons, hg, add_assoc]

theorem point_spec (p : Params) (b : Box ℝ) (points : List (Vec3 ℝ)) (bonds : List (Bond ℝ)) (i : ℕ)
    (hi : i < points.length) (h : ∀ nb ∈ bonds, nb.q < points.length → nb.p < points.length) :
    point p b points i (bonds.filter (fun nb => nb.q = i)) (some 0) =
      some (katic p.k (weightedBonds b points p.weighted bonds i)) := by
  unfold point
  rw [List.getElem?_eq_getElem hi, Option.bind_some, Option.bind_some, sumBonds_spec]
  · simp only [Option.map_some, zero_add, katic, weightedBonds, List.map_map, Function.comp_def]
    rw [List.getD_eq_getElem?_getD, List.getElem?_eq_getElem hi]
    rfl
  · intro nb hnb
    obtain ⟨h1, h2⟩ := List.mem_filter.mp hnb
    exact h nb h1 (by rw [of_decide_eq_true h2]; exact hi)

end Hexatic

/-- **C75** (value): in a two-dimensional box the order of every point is the weighted mean, over its
neighbors, of the `k`-th power of the bond direction, for every order of the parallel loop; it is not
a number exactly when the weights add up to zero, in particular without neighbors. -/
theorem C75_value (p : Hexatic.Params) (b : Box ℝ) (h2 : b.is2D = true) (points : List (Vec3 ℝ))
    (nlist : NList ℝ) (h : ListFor nlist points.length) (order : List ℕ)
    (hord : order.Perm (List.range points.length)) :
    Hexatic.compute p b points nlist order =
      some ((List.range points.length).map fun i =>
        katic p.k (weightedBonds b points p.weighted nlist.bonds i)) := by
  obtain ⟨a, e, -, hd⟩ := C66_schedule_independent nlist h.good points.length order hord
    (⟨[points.length], List.replicate points.length (some 0)⟩ : MArray (Option ℂ)) (by simp)
    (Hexatic.point p b points) (fun i => katic p.k (weightedBonds b points p.weighted nlist.bonds i))
    (by
      intro i x hx
      obtain ⟨hi, e⟩ := List.getElem?_eq_some_iff.mp hx
      simp only [List.length_replicate] at hi
      rw [← e, List.getElem_replicate]
      exact Hexatic.point_spec p b points nlist.bonds i hi h.points)
  unfold Hexatic.compute
  rw [if_pos h2, e, Option.map_some, hd]

/-- **C75** (dimension): a three-dimensional box is refused. -/
theorem C75_three_dimensional (p : Hexatic.Params) (b : Box ℝ) (h2 : b.is2D = false)
    (points : List (Vec3 ℝ)) (nlist : NList ℝ) (order : List ℕ) :
    Hexatic.compute p b points nlist order = none := by
  unfold Hexatic.compute; rw [if_neg (by simp [h2])]

namespace Hexatic

theorem norm_direction (v : Vec3 ℝ) : ‖direction v‖ = 1 := by
  have h := phase_eq 1 v
  rw [pow_one] at h
  rw [← h, phase]
  have : (⟨0, ((1 : ℕ) : ℝ) * atan2 v.y v.x⟩ : ℂ) = ((((1 : ℕ) : ℝ) * atan2 v.y v.x : ℝ) : ℂ) * Complex.I := by
    apply Complex.ext <;> simp
  rw [this, Complex.norm_exp_ofReal_mul_I]

theorem norm_sum_le (k : ℕ) (bs : List (ℝ × Vec3 ℝ)) (h : ∀ b ∈ bs, 0 ≤ b.1) :
    ‖(bs.map fun b => (b.1 : ℂ) * direction b.2 ^ k).sum‖ ≤ (bs.map (·.1)).sum := by
  induction bs with
  | nil => simp
  | cons b bs ih =>
    simp only [List.map_cons, List.sum_cons]
    refine (norm_add_le _ _).trans (add_le_add ?_ (ih fun b hb => h b (List.mem_cons_of_mem _ hb)))
    rw [norm_mul, norm_pow, norm_direction, one_pow, mul_one, Complex.norm_real, Real.norm_eq_abs,
      abs_of_nonneg (h b List.mem_cons_self)]

theorem sum_nonneg (bs : List (ℝ × Vec3 ℝ)) (h : ∀ b ∈ bs, 0 ≤ b.1) : 0 ≤ (bs.map (·.1)).sum := by
  apply List.sum_nonneg
  intro x hx
  obtain ⟨b, hb, rfl⟩ := List.mem_map.mp hx
  exact h b hb

/-- Equality in the triangle inequality for unit directions. -/
theorem norm_sum_eq_iff (k : ℕ) (bs : List (ℝ × Vec3 ℝ)) (h : ∀ b ∈ bs, 0 < b.1) (u : ℂ)
    (hs : (bs.map fun b => (b.1 : ℂ) * direction b.2 ^ k).sum = ((bs.map (·.1)).sum : ℝ) * u)
    (hu : ‖u‖ = 1) : ∀ b ∈ bs, direction b.2 ^ k = u := by
  -- real part of the sum against `conj u`
  have hu2 : u * (starRingEnd ℂ) u = 1 := by
    rw [Complex.mul_conj, Complex.normSq_eq_norm_sq, hu]; simp
  have h1 : ∀ z : ℂ, ‖z‖ = 1 → (z * (starRingEnd ℂ) u).re ≤ 1 := by
    intro z hz
    refine (Complex.re_le_norm _).trans ?_
    rw [norm_mul, hz, RCLike.norm_conj, hu, one_mul]
  have hre : (bs.map fun b => b.1 * (1 - (direction b.2 ^ k * (starRingEnd ℂ) u).re)).sum = 0 := by
    have e : ∀ l : List (ℝ × Vec3 ℝ),
        (l.map fun b => b.1 * (1 - (direction b.2 ^ k * (starRingEnd ℂ) u).re)).sum =
        (l.map (·.1)).sum -
          ((l.map fun b => (b.1 : ℂ) * direction b.2 ^ k).sum * (starRingEnd ℂ) u).re := by
      intro l
      induction l with
      | nil => simp
      | cons b l ih =>
        simp only [List.map_cons, List.sum_cons, ih, add_mul, Complex.add_re, mul_assoc,
          Complex.re_ofReal_mul]
        ring
    rw [e, hs, mul_assoc, hu2, mul_one, Complex.ofReal_re, sub_self]
  intro b hb
  have hz : ∀ x ∈ bs.map (fun b => b.1 * (1 - (direction b.2 ^ k * (starRingEnd ℂ) u).re)), 0 ≤ x := by
    intro x hx
    obtain ⟨c, hc, rfl⟩ := List.mem_map.mp hx
    refine mul_nonneg (h c hc).le (sub_nonneg.mpr (h1 _ ?_))
    rw [norm_pow, norm_direction, one_pow]
  have h0 : b.1 * (1 - (direction b.2 ^ k * (starRingEnd ℂ) u).re) = 0 :=
    le_antisymm (by
      rw [← hre]
      exact List.single_le_sum hz _ (List.mem_map.mpr ⟨b, hb, rfl⟩))
      (hz _ (List.mem_map.mpr ⟨b, hb, rfl⟩))
  have h3 : (direction b.2 ^ k * (starRingEnd ℂ) u).re = 1 := by
    rcases mul_eq_zero.mp h0 with h | h'
    · exact absurd h (by have := h; exact (by assumption : ∀ b ∈ bs, 0 < b.1) b hb |>.ne')
    · linarith
  have h4 : direction b.2 ^ k * (starRingEnd ℂ) u = 1 := by
    have hn : ‖direction b.2 ^ k * (starRingEnd ℂ) u‖ = 1 := by
      rw [norm_mul, norm_pow, norm_direction, RCLike.norm_conj, hu]; simp
    have hsq := Complex.sq_norm (direction b.2 ^ k * (starRingEnd ℂ) u)
    rw [hn, Complex.normSq_apply, h3] at hsq
    apply Complex.ext
    · simpa using h3
    · have : (direction b.2 ^ k * (starRingEnd ℂ) u).im * (direction b.2 ^ k * (starRingEnd ℂ) u).im = 0 := by
        linarith
      simpa using this
  calc direction b.2 ^ k = direction b.2 ^ k * (starRingEnd ℂ) u * u := by
        rw [mul_assoc, mul_comm _ u, hu2, mul_one]
    _ = u := by rw [h4, one_mul]

end Hexatic

/-- **C75** (range): with weights that are not negative (all are 1 without `weighted`) every order that
is a number has magnitude at most 1. -/
theorem C75_range (p : Hexatic.Params) (b : Box ℝ) (points : List (Vec3 ℝ))
    (nlist : NList ℝ) (h : ListFor nlist points.length) (order : List ℕ)
    (hord : order.Perm (List.range points.length))
    (hw : p.weighted = true → ∀ nb ∈ nlist.bonds, 0 ≤ nb.weight) (r : List (Option ℂ))
    (hr : Hexatic.compute p b points nlist order = some r) (z : ℂ) (hz : some z ∈ r) : ‖z‖ ≤ 1 := by
  cases h2 : b.is2D with
  | false => rw [C75_three_dimensional p b h2] at hr; cases hr
  | true =>
    rw [C75_value p b h2 points nlist h order hord] at hr
    cases hr
    obtain ⟨i, hi, e⟩ := List.mem_map.mp hz
    have hb : ∀ c ∈ weightedBonds b points p.weighted nlist.bonds i, 0 ≤ c.1 := by
      intro c hc
      obtain ⟨nb, hnb, rfl⟩ := List.mem_map.mp hc
      dsimp only
      split_ifs with hwt
      · exact hw hwt nb (List.mem_filter.mp hnb).1
      · exact zero_le_one
    have hs := Hexatic.sum_nonneg _ hb
    unfold katic at e
    split_ifs at e with h0
    cases e
    rw [norm_div, Complex.norm_real, Real.norm_eq_abs, abs_of_nonneg hs]
    exact div_le_one_of_le₀ (Hexatic.norm_sum_le p.k _ hb) hs

/-- **C75** (perfect order): with positive weights, a point with neighbors has an order of magnitude
1 exactly if the `k`-th powers of the directions of all its bonds agree, that is, if the directions
differ by multiples of `2 pi / k`; the order is then that common value. -/
theorem C75_perfect (p : Hexatic.Params) (b : Box ℝ) (h2 : b.is2D = true) (points : List (Vec3 ℝ))
    (nlist : NList ℝ) (h : ListFor nlist points.length) (order : List ℕ)
    (hord : order.Perm (List.range points.length))
    (hw : p.weighted = true → ∀ nb ∈ nlist.bonds, 0 < nb.weight) (i : ℕ) (hi : i < points.length)
    (hne : ∃ nb ∈ nlist.bonds, nb.q = i) :
    ∃ r z, Hexatic.compute p b points nlist order = some r ∧ r[i]? = some (some z) ∧
      ∀ u : ℂ, ‖u‖ = 1 → (z = u ↔
        ∀ nb ∈ nlist.bonds, nb.q = i →
          direction (b.wrap (points.getD nb.p ⟨0, 0, 0⟩ - points.getD i ⟨0, 0, 0⟩)) ^ p.k = u) := by
  rw [C75_value p b h2 points nlist h order hord]
  set bs := weightedBonds b points p.weighted nlist.bonds i with hbs
  have hb : ∀ c ∈ bs, 0 < c.1 := by
    intro c hc
    obtain ⟨nb, hnb, rfl⟩ := List.mem_map.mp hc
    dsimp only
    split_ifs with hwt
    · exact hw hwt nb (List.mem_filter.mp hnb).1
    · exact zero_lt_one
  obtain ⟨nb, hnb, hq⟩ := hne
  have hmem : nb ∈ nlist.bonds.filter (fun nb => nb.q = i) := List.mem_filter.mpr ⟨hnb, by simpa using hq⟩
  have hpos : 0 < (bs.map (·.1)).sum := by
    apply List.sum_pos
    · intro x hx
      obtain ⟨c, hc, rfl⟩ := List.mem_map.mp hx
      exact hb c hc
    · intro h0
      have := List.map_eq_nil_iff.mp h0
      have := List.map_eq_nil_iff.mp this
      rw [this] at hmem
      cases hmem
  refine ⟨_, (bs.map fun b => (b.1 : ℂ) * direction b.2 ^ p.k).sum / ((bs.map (·.1)).sum : ℝ), rfl, ?_, ?_⟩
  · rw [List.getElem?_map, List.getElem?_range hi, Option.map_some]
    unfold katic
    rw [← hbs, if_neg hpos.ne']
  · intro u hu
    have hall : (∀ nb ∈ nlist.bonds, nb.q = i →
          direction (b.wrap (points.getD nb.p ⟨0, 0, 0⟩ - points.getD i ⟨0, 0, 0⟩)) ^ p.k = u) ↔
        ∀ c ∈ bs, direction c.2 ^ p.k = u := by
      constructor
      · intro hh c hc
        obtain ⟨nb, hnb, rfl⟩ := List.mem_map.mp hc
        obtain ⟨h1, h3⟩ := List.mem_filter.mp hnb
        exact hh nb h1 (of_decide_eq_true h3)
      · intro hh nb hnb hq
        exact hh _ (List.mem_map.mpr ⟨nb, List.mem_filter.mpr ⟨hnb, by simpa using hq⟩, rfl⟩)
    rw [hall]
    have hne0 : (((bs.map (·.1)).sum : ℝ) : ℂ) ≠ 0 := by exact_mod_cast hpos.ne'
    rw [div_eq_iff hne0, mul_comm u]
    constructor
    · intro hz
      exact Hexatic.norm_sum_eq_iff p.k bs hb u hz hu
    · intro hh
      have : ∀ l : List (ℝ × Vec3 ℝ), (∀ c ∈ l, direction c.2 ^ p.k = u) →
          (l.map fun b => (b.1 : ℂ) * direction b.2 ^ p.k).sum = ((l.map (·.1)).sum : ℝ) * u := by
        intro l hl
        induction l with
        | nil => simp
        | cons c l ih =>
          simp only [List.map_cons, List.sum_cons, Complex.ofReal_add, add_mul]
          rw [ih fun c hc => hl c (List.mem_cons_of_mem _ hc), hl c List.mem_cons_self]
      exact this bs hh

/-- The plane rotation by the angle `a`. -/
noncomputable def Spec.turned (a : ℝ) (v v' : Vec3 ℝ) : Prop :=
  v'.x = Real.cos a * v.x - Real.sin a * v.y ∧ v'.y = Real.sin a * v.x + Real.cos a * v.y

/-- The mirror image across the first axis. -/
def Spec.mirrored (v v' : Vec3 ℝ) : Prop := v'.x = v.x ∧ v'.y = -v.y

/-- The separation that belongs to a bond. -/
noncomputable def Spec.separation (b : Box ℝ) (points : List (Vec3 ℝ)) (nb : Bond ℝ) : Vec3 ℝ :=
  b.wrap (points.getD nb.p ⟨0, 0, 0⟩ - points.getD nb.q ⟨0, 0, 0⟩)

/-- Two systems with the same bonds and weights, whose separations are related by `rel`. -/
structure Spec.BondwiseRelated (rel : Vec3 ℝ → Vec3 ℝ → Prop) (b b' : Box ℝ)
    (points points' : List (Vec3 ℝ)) (nlist nlist' : NList ℝ) : Prop where
  same_size : points'.length = points.length
  dim : b'.is2D = b.is2D
  bonds : List.Forall₂ (fun nb nb' => nb'.q = nb.q ∧ nb'.p = nb.p ∧ nb'.weight = nb.weight ∧
    rel (separation b points nb) (separation b' points' nb')) nlist.bonds nlist'.bonds

namespace Hexatic

theorem weightedBonds_related {rel : Vec3 ℝ → Vec3 ℝ → Prop} {b b' : Box ℝ} {points points' : List (Vec3 ℝ)}
    (weighted : Bool) {l l' : List (Bond ℝ)}
    (h : List.Forall₂ (fun nb nb' => nb'.q = nb.q ∧ nb'.p = nb.p ∧ nb'.weight = nb.weight ∧
      rel (separation b points nb) (separation b' points' nb')) l l') (i : ℕ) :
    List.Forall₂ (fun c c' : ℝ × Vec3 ℝ => c'.1 = c.1 ∧ rel c.2 c'.2)
      (weightedBonds b points weighted l i) (weightedBonds b' points' weighted l' i) := by
  induction h with
  | nil => exact .nil
  | @cons nb nb' l l' hc _ ih =>
    obtain ⟨hq, hp, hw, hr⟩ := hc
    unfold weightedBonds at ih ⊢
    by_cases hi : nb.q = i
    · rw [List.filter_cons_of_pos (by simpa using hi),
        List.filter_cons_of_pos (by simpa [hq] using hi), List.map_cons, List.map_cons]
      refine .cons ⟨by simp [hw], ?_⟩ ih
      unfold separation at hr
      rw [hq, hi] at hr
      exact hr
    · rw [List.filter_cons_of_neg (by simpa using hi),
        List.filter_cons_of_neg (by simpa [hq] using hi)]
      exact ih

theorem katic_related (k : ℕ) (f : ℂ → ℂ) (hf : ∀ (w : ℝ) z z', f (w * z + z') = w * f z + f z')
    (h0 : f 0 = 0) (bs bs' : List (ℝ × Vec3 ℝ))
    (h : List.Forall₂ (fun c c' : ℝ × Vec3 ℝ => c'.1 = c.1 ∧ direction c'.2 ^ k = f (direction c.2 ^ k))
      bs bs') : katic k bs' = (katic k bs).map f := by
  have h1 : (bs'.map (·.1)).sum = (bs.map (·.1)).sum := by
    induction h with
    | nil => rfl
    | cons hc _ ih => simp only [List.map_cons, List.sum_cons, ih, hc.1]
  have h2 : (bs'.map fun b => (b.1 : ℂ) * direction b.2 ^ k).sum =
      f (bs.map fun b => (b.1 : ℂ) * direction b.2 ^ k).sum := by
    induction h with
    | nil => simp [h0]
    | cons hc _ ih =>
      simp only [List.map_cons, List.sum_cons]
      rw [ih, hf, hc.1, hc.2]
      simpa [hc.1] using h1
  unfold katic
  rw [h1]
  split_ifs with hs
  · rfl
  · rw [h2, Option.map_some]
    congr 1
    have := hf (1 / (bs.map (·.1)).sum) (bs.map fun b => (b.1 : ℂ) * direction b.2 ^ k).sum 0
    rw [h0, add_zero, add_zero] at this
    rw [div_eq_mul_one_div, mul_comm, ← Complex.ofReal_one, ← Complex.ofReal_div, ← this, mul_comm,
      Complex.ofReal_div, Complex.ofReal_one, ← div_eq_mul_one_div]

theorem direction_turned (a : ℝ) (v v' : Vec3 ℝ) (h : turned a v v') (hv : ¬ (v.x = 0 ∧ v.y = 0)) :
    direction v' = Complex.exp (a * Complex.I) * direction v := by
  obtain ⟨hx, hy⟩ := h
  have hsc := Real.sin_sq_add_cos_sq a
  have hn : v'.x ^ 2 + v'.y ^ 2 = v.x ^ 2 + v.y ^ 2 := by
    rw [hx, hy]; linear_combination (v.x ^ 2 + v.y ^ 2) * hsc
  have hv' : ¬ (v'.x = 0 ∧ v'.y = 0) := by
    rintro ⟨h1, h2⟩
    rw [h1, h2] at hn
    refine hv ⟨?_, ?_⟩ <;> nlinarith [sq_nonneg v.x, sq_nonneg v.y]
  unfold direction
  rw [if_neg hv, if_neg hv', hn, ← mul_div_assoc]
  congr 1
  rw [Complex.exp_mul_I]
  apply Complex.ext
  · simp [← Complex.ofReal_cos, ← Complex.ofReal_sin, hx]
  · simp [← Complex.ofReal_cos, ← Complex.ofReal_sin, hy]; ring

theorem direction_mirrored (v v' : Vec3 ℝ) (h : mirrored v v') :
    direction v' = (starRingEnd ℂ) (direction v) := by
  obtain ⟨hx, hy⟩ := h
  unfold direction
  rw [hx, hy]
  by_cases h0 : v.x = 0 ∧ v.y = 0
  · rw [if_pos h0, if_pos ⟨h0.1, by simp [h0.2]⟩, map_one]
  · rw [if_neg h0, if_neg (by simpa using h0), map_div₀, Complex.conj_ofReal, neg_sq]
    rfl

theorem compute_related (p : Params) {rel : Vec3 ℝ → Vec3 ℝ → Prop} {b b' : Box ℝ}
    {points points' : List (Vec3 ℝ)} {nlist nlist' : NList ℝ}
    (h : ListFor nlist points.length) (h' : ListFor nlist' points'.length)
    (hrel : BondwiseRelated rel b b' points points' nlist nlist') (f : ℂ → ℂ)
    (hf : ∀ (w : ℝ) z z', f (w * z + z') = w * f z + f z') (h0 : f 0 = 0)
    (hdir : ∀ v v', rel v v' → direction v' ^ p.k = f (direction v ^ p.k)) (order order' : List ℕ)
    (hord : order.Perm (List.range points.length)) (hord' : order'.Perm (List.range points'.length)) :
    compute p b' points' nlist' order' =
      (compute p b points nlist order).map (fun r => r.map (Option.map f)) := by
  cases h2 : b.is2D with
  | false =>
    rw [C75_three_dimensional p b h2, C75_three_dimensional p b' (hrel.dim.trans h2)]; rfl
  | true =>
    rw [C75_value p b h2 points nlist h order hord,
      C75_value p b' (hrel.dim.trans h2) points' nlist' h' order' hord', Option.map_some,
      hrel.same_size, List.map_map]
    congr 1
    refine List.map_congr_left fun i _ => ?_
    rw [katic_related p.k f hf h0 _ _ ((weightedBonds_related p.weighted hrel.bonds i).imp
      fun c c' hc => ⟨hc.1, hdir _ _ hc.2⟩)]
    rfl

end Hexatic

/-- **C75** (rotation): turning all bonds by an angle `a` multiplies every order by `exp (i k a)`, so
its magnitude does not change. Bonds must not have length zero. -/
theorem C75_rotation (p : Hexatic.Params) (a : ℝ) (b b' : Box ℝ)
    (points points' : List (Vec3 ℝ)) (nlist nlist' : NList ℝ)
    (h : ListFor nlist points.length) (h' : ListFor nlist' points'.length)
    (hrel : BondwiseRelated (fun v v' => turned a v v' ∧ ¬ (v.x = 0 ∧ v.y = 0))
      b b' points points' nlist nlist') (order order' : List ℕ)
    (hord : order.Perm (List.range points.length)) (hord' : order'.Perm (List.range points'.length)) :
    Hexatic.compute p b' points' nlist' order' =
      (Hexatic.compute p b points nlist order).map
        (fun r => r.map (Option.map fun z => Complex.exp (a * Complex.I) ^ p.k * z)) := by
  refine Hexatic.compute_related p h h' hrel (fun z => Complex.exp (a * Complex.I) ^ p.k * z)
    (fun w z z' => by ring) (by simp) (fun v v' hv => ?_) order order' hord hord'
  rw [Hexatic.direction_turned a v v' hv.1 hv.2, mul_pow]

/-- **C75** (reflection): the mirror image has the complex conjugate orders. -/
theorem C75_reflection (p : Hexatic.Params) (b b' : Box ℝ)
    (points points' : List (Vec3 ℝ)) (nlist nlist' : NList ℝ)
    (h : ListFor nlist points.length) (h' : ListFor nlist' points'.length)
    (hrel : BondwiseRelated mirrored b b' points points' nlist nlist') (order order' : List ℕ)
    (hord : order.Perm (List.range points.length)) (hord' : order'.Perm (List.range points'.length)) :
    Hexatic.compute p b' points' nlist' order' =
      (Hexatic.compute p b points nlist order).map (fun r => r.map (Option.map (starRingEnd ℂ))) := by
  refine Hexatic.compute_related p h h' hrel (starRingEnd ℂ)
    (fun w z z' => by simp) (by simp) (fun v v' hv => ?_) order order' hord hord'
  rw [Hexatic.direction_mirrored v v' hv, map_pow]

/-- **C75** (images): replacing points by periodic images, each by another one, changes nothing. -/
theorem C75_images (p : Hexatic.Params) (b : Box ℝ) (hb : Valid b) (points points' : List (Vec3 ℝ))
    (hpl : ∀ v ∈ points, Planar b v) (himg : List.Forall₂ (IsImage b) points points') (nlist : NList ℝ)
    (h : ListFor nlist points.length) (hq : ∀ nb ∈ nlist.bonds, nb.q < points.length)
    (order order' : List ℕ)
    (hord : order.Perm (List.range points.length)) (hord' : order'.Perm (List.range points.length)) :
    Hexatic.compute p b points' nlist order' = Hexatic.compute p b points nlist order := by
  have hlen := himg.length_eq
  have hget : ∀ i, i < points.length →
      IsImage b (points.getD i ⟨0, 0, 0⟩) (points'.getD i ⟨0, 0, 0⟩) ∧
        Planar b (points.getD i ⟨0, 0, 0⟩) := by
    intro i hi
    rw [List.getD_eq_getElem?_getD, List.getD_eq_getElem?_getD, List.getElem?_eq_getElem hi,
      List.getElem?_eq_getElem (hlen ▸ hi)]
    exact ⟨(List.forall₂_iff_get.mp himg).2 i hi (hlen ▸ hi), hpl _ (List.getElem_mem hi)⟩
  have hrel : BondwiseRelated (fun v v' => v' = v) b b points points' nlist nlist := by
    refine ⟨hlen.symm, rfl, List.forall₂_same.mpr fun nb hnb => ⟨rfl, rfl, rfl, ?_⟩⟩
    unfold separation
    obtain ⟨⟨m, hm, em⟩, hpm⟩ := hget nb.p (h.points nb hnb (hq nb hnb))
    obtain ⟨⟨n, hn, en⟩, hpn⟩ := hget nb.q (hq nb hnb)
    rw [em, en]
    have e : points.getD nb.p ⟨0, 0, 0⟩ + lattice b m - (points.getD nb.q ⟨0, 0, 0⟩ + lattice b n) =
        points.getD nb.p ⟨0, 0, 0⟩ - points.getD nb.q ⟨0, 0, 0⟩ +
          lattice b ⟨m.x - n.x, m.y - n.y, m.z - n.z⟩ := by
      ext <;> simp only [lattice, comb, Vec3.add_x, Vec3.add_y, Vec3.add_z, Vec3.sub_x, Vec3.sub_y,
        Vec3.sub_z] <;> push_cast <;> ring
    rw [e]
    refine wrap_add_lattice hb _ ?_ _ ?_
    · intro h2
      rw [Vec3.sub_z, hpm h2, hpn h2, sub_zero]
    · obtain ⟨h1, h2, h3⟩ := hm
      obtain ⟨h1', h2', h3'⟩ := hn
      exact ⟨fun hx => by simp [h1 hx, h1' hx], fun hx => by simp [h2 hx, h2' hx],
        fun hx => by simp [h3 hx, h3' hx]⟩
  have := Hexatic.compute_related p h (hlen ▸ h) hrel id (fun w z z' => rfl) rfl
    (fun v v' hv => by rw [hv]; rfl) order order' hord (hlen ▸ hord')
  rw [this]
  cases Hexatic.compute p b points nlist order with
  | none => rfl
  | some r => simp

/-- **C75** (regular neighbors): if the bonds of a point are in the directions of a regular star with
`m` rays, starting at the angle `a`, the order is `exp (i k a)` when `m` divides `k` and 0 otherwise. -/
theorem C75_regular (k m : ℕ) (hm : 0 < m) (a : ℝ) (b : Box ℝ) (h2 : b.is2D = true)
    (points : List (Vec3 ℝ)) (nlist : NList ℝ) (h : ListFor nlist points.length) (order : List ℕ)
    (hord : order.Perm (List.range points.length)) (i : ℕ) (hi : i < points.length)
    (hstar : ((nlist.bonds.filter (fun nb => nb.q = i)).map
        (fun nb => direction (separation b points nb))).Perm
      ((List.range m).map fun j : ℕ => Complex.exp ((a + 2 * Real.pi * j / m) * Complex.I))) :
    ∃ r, Hexatic.compute ⟨k, false⟩ b points nlist order = some r ∧
      r[i]? = some (some (if m ∣ k then Complex.exp (a * Complex.I) ^ k else 0)) := by
  refine ⟨_, C75_value ⟨k, false⟩ b h2 points nlist h order hord, ?_⟩
  rw [List.getElem?_map, List.getElem?_range hi, Option.map_some]
  congr 1
  have hcong : ∀ nb ∈ nlist.bonds.filter (fun nb => decide (nb.q = i)), separation b points nb =
      b.wrap (points.getD nb.p ⟨0, 0, 0⟩ - points.getD i ⟨0, 0, 0⟩) := by
    intro nb hnb
    unfold separation
    rw [of_decide_eq_true (List.mem_filter.mp hnb).2]
  have hmne : (m : ℂ) ≠ 0 := by exact_mod_cast hm.ne'
  have hcount : (nlist.bonds.filter (fun nb => decide (nb.q = i))).length = m := by
    have := hstar.length_eq
    simpa using this
  have hw : ((weightedBonds b points false nlist.bonds i).map (·.1)).sum = m := by
    unfold weightedBonds
    rw [List.map_map]
    have : (nlist.bonds.filter (fun nb => decide (nb.q = i))).map
        ((fun x : ℝ × Vec3 ℝ => x.1) ∘ fun nb => (if false = true then nb.weight else 1,
          b.wrap (points.getD nb.p ⟨0, 0, 0⟩ - points.getD i ⟨0, 0, 0⟩))) =
        (nlist.bonds.filter (fun nb => decide (nb.q = i))).map (fun _ => (1 : ℝ)) :=
      List.map_congr_left fun nb _ => by simp
    rw [this, List.map_const', List.sum_replicate, hcount]; simp
  have hsum : ((weightedBonds b points false nlist.bonds i).map fun c => (c.1 : ℂ) * direction c.2 ^ k).sum =
      ((List.range m).map fun j : ℕ =>
        Complex.exp ((a + 2 * Real.pi * j / m) * Complex.I) ^ k).sum := by
    have h1 := (hstar.map (· ^ k)).sum_eq
    rw [List.map_map, List.map_map] at h1
    refine Eq.trans ?_ h1
    unfold weightedBonds
    rw [List.map_map]
    congr 1
    refine List.map_congr_left fun nb hnb => ?_
    simp [hcong nb hnb]
  have hz : ∀ j : ℕ, Complex.exp ((a + 2 * Real.pi * j / m) * Complex.I) ^ k =
      Complex.exp (a * Complex.I) ^ k * (Complex.exp (2 * Real.pi * Complex.I / m) ^ k) ^ j := by
    intro j
    rw [← Complex.exp_nat_mul, ← Complex.exp_nat_mul, ← Complex.exp_nat_mul, ← Complex.exp_nat_mul,
      ← Complex.exp_add]
    congr 1
    ring
  have hprim := Complex.isPrimitiveRoot_exp m hm.ne'
  set z := Complex.exp (2 * Real.pi * Complex.I / m) with hzdef
  have hgeom : ((List.range m).map fun j : ℕ => (z ^ k) ^ j).sum = if m ∣ k then (m : ℂ) else 0 := by
    have hfin : ((List.range m).map fun j : ℕ => (z ^ k) ^ j).sum = ∑ j ∈ Finset.range m, (z ^ k) ^ j := rfl
    rw [hfin]
    split_ifs with hd
    · rw [(hprim.pow_eq_one_iff_dvd k).mpr hd]; simp
    · have hne : z ^ k ≠ 1 := fun h1 => hd ((hprim.pow_eq_one_iff_dvd k).mp h1)
      rw [geom_sum_eq hne, ← pow_mul, mul_comm, pow_mul, hprim.pow_eq_one, one_pow, sub_self, zero_div]
  unfold katic
  rw [hw, if_neg (by exact_mod_cast hm.ne'), hsum]
  congr 1
  rw [List.map_congr_left (fun j _ => hz j), List.sum_map_mul_left, hgeom]
  split_ifs
  · push_cast; field_simp
  · simp

/-- **C75**, where the claim ends: the neighbor list is not compared with the system. A list made for
two points, used with a system of one point, reads a point that does not exist. -/
theorem C75_foreign_list_counterexample : ∃ (b : Box ℝ) (nlist : NList ℝ),
    b.is2D = true ∧ GoodList nlist ∧
    Hexatic.compute ⟨6, false⟩ b [⟨0, 0, 0⟩] nlist [0] = none := by
  have hg : GoodList (⟨1, 2, [⟨0, 1, 1, 1, ⟨1, 0, 0⟩⟩], false, [], []⟩ : NList ℝ) :=
    ⟨by simp, by simp, by simp, by simp⟩
  refine ⟨⟨⟨-5, -5, 0⟩, ⟨10, 10, 0⟩, ⟨0, 0, 0⟩, 0, 0, 0, false, false, false, true⟩, _, rfl, hg, ?_⟩
  unfold Hexatic.compute loopOverNeighborsIterator MArray.forEach
  simp [C66_per_point _ hg, Hexatic.point, Hexatic.sumBonds, MArray.get?, MArray.size]

/-- A square in a plane without periodicity: the first point has four neighbors along the axes. -/
noncomputable def Hexatic.square : List (Vec3 ℝ) := [⟨0, 0, 0⟩, ⟨1, 0, 0⟩, ⟨0, 1, 0⟩, ⟨-1, 0, 0⟩, ⟨0, -1, 0⟩]
/-- The box of `square`. -/
noncomputable def Hexatic.plane : Box ℝ :=
  ⟨⟨-5, -5, 0⟩, ⟨10, 10, 0⟩, ⟨0, 0, 0⟩, 0, 0, 0, false, false, false, true⟩
/-- The bonds of the first point of `square`, with different weights. -/
noncomputable def Hexatic.bonds : NList ℝ :=
  ⟨5, 5, [⟨0, 1, 1, 1, ⟨1, 0, 0⟩⟩, ⟨0, 2, 1, 2, ⟨0, 1, 0⟩⟩, ⟨0, 3, 1, 3, ⟨-1, 0, 0⟩⟩,
    ⟨0, 4, 1, 4, ⟨0, -1, 0⟩⟩], false, [], []⟩

theorem Hexatic.bonds_for : ListFor bonds square.length :=
  ⟨⟨by simp [bonds], by simp [bonds], by simp [bonds], by simp [bonds]⟩, by simp [bonds, square]⟩

/-- The hypotheses of the theorems above are met by the square: it has perfect 4-fold order, with and
without weights. -/
example (w : Bool) : ∃ r z, Hexatic.compute ⟨4, w⟩ Hexatic.plane Hexatic.square Hexatic.bonds [0, 1, 2, 3, 4] =
    some r ∧ r[0]? = some (some z) ∧ z = 1 := by
  obtain ⟨r, z, h1, h2, h3⟩ := C75_perfect ⟨4, w⟩ Hexatic.plane rfl Hexatic.square Hexatic.bonds
    Hexatic.bonds_for [0, 1, 2, 3, 4] (by simp [Hexatic.square, List.range_succ])
    (fun _ => by simp [Hexatic.bonds]) 0 (by simp [Hexatic.square]) ⟨_, by simp [Hexatic.bonds]; left; rfl, rfl⟩
  refine ⟨r, z, h1, h2, (h3 1 (by simp)).mpr ?_⟩
  have e1 : (⟨0, 1⟩ : ℂ) ^ 4 = 1 := Complex.I_pow_four
  have e2 : (⟨-1, 0⟩ : ℂ) ^ 4 = 1 := by
    have : (⟨-1, 0⟩ : ℂ) = -1 := by apply Complex.ext <;> simp
    rw [this]; norm_num
  have e3 : (⟨0, -1⟩ : ℂ) ^ 4 = 1 := by
    have : (⟨0, -1⟩ : ℂ) = -Complex.I := by apply Complex.ext <;> simp
    rw [this, neg_pow, Complex.I_pow_four]; norm_num
  have e4 : (⟨1, 0⟩ : ℂ) ^ 4 = 1 := by
    have : (⟨1, 0⟩ : ℂ) = 1 := by apply Complex.ext <;> simp
    rw [this]; norm_num
  intro nb hnb _
  simp only [Hexatic.bonds, List.mem_cons, List.not_mem_nil, or_false] at hnb
  rcases hnb with rfl | rfl | rfl | rfl <;>
    simp [Hexatic.square, Hexatic.plane, Box.wrap, direction, e1, e2, e3, e4]

end Freud
