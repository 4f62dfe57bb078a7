import Verif.Lemmas.FilterCrystals

/-!
# Neighbor filters in crystals, from the shells of the infinite crystal (for C125)
-/

namespace Freud
open Spec NList Bond

/-- What has to be shown of the infinite crystal: around every site there are `a` sites at distance `x` and `b` sites at
distance `y`, and the next are at distance `d`. -/
structure Shells (u : UnitCell ℝ) (a b : ℕ) (x y d : ℝ) : Prop where
  cell : GoodCell u.box
  distinct : DistinctSites u
  nonempty : u.basis ≠ []
  near : ∀ f ∈ u.basis, ∃ vs ws : List (Vec3 ℝ), (vs ++ ws).Nodup ∧ vs.length = a ∧ ws.length = b ∧
    (∀ s ∈ vs, Vec3.norm s = x) ∧ (∀ s ∈ ws, Vec3.norm s = y) ∧
    ∀ s, s ∈ vs ++ ws ↔ SiteVector u f s ∧ s ≠ ⟨0, 0, 0⟩ ∧ Vec3.norm s < d
  next : ∀ f ∈ u.basis, ∃ s, SiteVector u f s ∧ s ≠ ⟨0, 0, 0⟩ ∧ Vec3.norm s = d

theorem crystal_nonempty {u : UnitCell ℝ} (hu : GoodCell u.box) (hb : u.basis ≠ []) {n : Vec3 ℤ} {c : ℝ} {box : Box ℝ}
    {points : List (Vec3 ℝ)} (h : u.generateSystem n c none = some (box, points)) : points ≠ [] := by
  have h1 := (C59_raises_iff u n c none hu).not
  rw [h] at h1
  simp only [reduceCtorEq, not_false_eq_true, true_iff, not_or, not_not] at h1
  have h2 := C59_count u n c hu box points h
  intro e
  rw [e, List.length_nil, Nat.cast_zero] at h2
  have h3 : (0 : ℤ) < u.basis.length := by exact_mod_cast List.length_pos_of_ne_nil hb
  have := mul_pos h3 (mul_pos (mul_pos h1.1.1 h1.1.2.1) h1.1.2.2)
  omega

/-- A row of the list that is offered. -/
structure RowOf (u : UnitCell ℝ) (f : Vec3 ℝ) (vs : List (Vec3 ℝ)) (d c : ℝ) (box : Box ℝ) (points : List (Vec3 ℝ)) (i : ℕ)
    (R : List (Bond ℝ)) : Prop where
  sorted : R.Pairwise fun a b => a.dist ≤ b.dist
  take : R.take vs.length = R.filter fun b => b.dist < c * d
  next : ∃ b, R[vs.length]? = some b ∧ b.dist = c * d
  near : ((R.filter fun b => b.dist < c * d).map fun b => -between box points i b.p).Perm (vs.map (Vec3.smul c))
  site : ∀ b ∈ R, b.q = i ∧ b.dist = (between box points i b.p).norm ∧
      ∃ s, SiteVector u f s ∧ s ≠ ⟨0, 0, 0⟩ ∧ -between box points i b.p = Vec3.smul c s
  nodup : ((R.filter fun b => b.dist < c * d).map Bond.p).Nodup
  mem : ∀ j, j ∈ (R.filter fun b => b.dist < c * d).map Bond.p ↔
      j < points.length ∧ i ≠ j ∧ (between box points i j).norm < c * d

theorem rowOf {u : UnitCell ℝ} {c d : ℝ} {k : Vec3 ℤ} {t : Vec3 ℝ} {box : Box ℝ} {points : List (Vec3 ℝ)}
    (g : Generated u c k t box points) {r : ℝ} {n : NList ℝ} (h : OfferedList box points r n)
    (hr : BelowHalf box r) (hd : c * d < r) {i : ℕ} (hi : i < points.length)
    (P : Vec3 ℝ → List (Vec3 ℝ) → Prop)
    (hnear : ∀ f ∈ u.basis, ∃ vs, vs.Nodup ∧ (∀ s, s ∈ vs ↔ SiteVector u f s ∧ s ≠ ⟨0, 0, 0⟩ ∧ Vec3.norm s < d) ∧ P f vs)
    (hnext : ∀ f ∈ u.basis, ∃ s, SiteVector u f s ∧ s ≠ ⟨0, 0, 0⟩ ∧ Vec3.norm s = d) :
    ∃ f ∈ u.basis, ∃ vs, P f vs ∧ (∀ s, s ∈ vs ↔ SiteVector u f s ∧ s ≠ ⟨0, 0, 0⟩ ∧ Vec3.norm s < d) ∧
      ∀ R, Row n i R → RowOf u f vs d c box points i R := by
  obtain ⟨f, hf, h1, h2, h3⟩ := g.offered_sites h hr hd hi
  obtain ⟨vs, hvs, hmem, hP⟩ := hnear f hf
  obtain ⟨s, s1, s2, s3⟩ := hnext f hf
  refine ⟨f, hf, vs, hP, hmem, fun R hR => ?_⟩
  have hperm := h1 vs hvs hmem
  have hRf : (R.filter fun b => decide (b.dist < c * d)).Perm ((bondsOf n i).filter fun b => decide (b.dist < c * d)) :=
    hR.1.filter _
  have hlen : (R.filter fun b => decide (b.dist < c * d)).length = vs.length := by
    rw [hRf.length_eq]
    simpa using hperm.length_eq
  have hsplit := filter_split Bond.dist (c * d) R hR.2
  have hidx := h.indices hd.le hi
  refine ⟨hR.2, ?_, ?_, (hRf.map _).trans hperm, fun b hb => ?_, (hRf.map _).nodup_iff.mpr hidx.1, fun j => ?_⟩
  · conv_lhs => rw [hsplit]
    rw [← hlen, List.take_left']
    rfl
  · obtain ⟨b, hb, e⟩ := h3 s s1 s2 (by rw [s3]; exact hd)
    have hbd : b.dist = c * d := by
      rw [(h2 b hb).1, ← norm_neg_vec, e, norm_smul_pos g.scale, s3]
    have hbR : b ∈ R := hR.1.mem_iff.mpr hb
    have hbG : b ∈ R.filter fun b => decide (¬ b.dist < c * d) := by
      rw [List.mem_filter]
      exact ⟨hbR, by simp [hbd]⟩
    have hsort : (R.filter fun b => decide (¬ b.dist < c * d)).Pairwise fun a b => a.dist ≤ b.dist := hR.2.filter _
    cases hG : R.filter fun b => decide (¬ b.dist < c * d) with
    | nil => rw [hG] at hbG; simp at hbG
    | cons b₀ G =>
      rw [hG] at hsplit hbG hsort
      refine ⟨b₀, ?_, ?_⟩
      · rw [hsplit, ← hlen, List.getElem?_append_right le_rfl]
        simp
      · have h0 : b₀ ∈ R.filter fun b => decide (¬ b.dist < c * d) := by rw [hG]; simp
        have h0' := (List.mem_filter.mp h0).2
        rw [decide_eq_true_eq, not_lt] at h0'
        rcases List.mem_cons.mp hbG with rfl | hbG
        · exact hbd
        · have := (List.pairwise_cons.mp hsort).1 b hbG
          linarith
  · have hb' := hR.1.mem_iff.mp hb
    exact ⟨of_decide_eq_true (List.mem_filter.mp hb').2, h2 b hb'⟩
  · rw [(hRf.map _).mem_iff]
    exact hidx.2 j

/-- The neighbors that a filter should keep. -/
theorem RowOf.keeps {u : UnitCell ℝ} {f : Vec3 ℝ} {vs : List (Vec3 ℝ)} {d c : ℝ} {k : Vec3 ℤ} {t : Vec3 ℝ} {box : Box ℝ}
    {points : List (Vec3 ℝ)} {i : ℕ} {R : List (Bond ℝ)} (g : Generated u c k t box points) (h : RowOf u f vs d c box points i R)
    (hhalf : BelowHalf box (c * d)) (hi : i < points.length) {out : List (Bond ℝ)} (φ : Bond ℝ → Bond ℝ)
    (hφ : ∀ b, (φ b).p = b.p ∧ (φ b).dist = b.dist) (hp : out.Perm ((R.take vs.length).map φ)) :
    out.length = vs.length ∧ (out.map Bond.p).Nodup ∧
    (∀ j, j ∈ out.map Bond.p ↔ j ∈ pointsWithin box points points[i] i (c * d) 0 true) ∧
    ∀ b ∈ out, ∃ p, points[b.p]? = some p ∧ b.dist = (box.wrap (points[i] - p)).norm := by
  rw [h.take] at hp
  have hmap : (out.map Bond.p).Perm ((R.filter fun b => b.dist < c * d).map Bond.p) := by
    refine (hp.map Bond.p).trans (List.Perm.of_eq ?_)
    rw [List.map_map]
    exact List.map_congr_left fun b _ => (hφ b).1
  have hget : ∀ (i : ℕ) (hi : i < points.length), points.getD i 0 = points[i] := by
    intro i hi
    rw [List.getD_eq_getElem?_getD, List.getElem?_eq_getElem hi, Option.getD_some]
  refine ⟨?_, hmap.nodup_iff.mpr h.nodup, fun j => ?_, fun b hb => ?_⟩
  · rw [hp.length_eq, List.length_map]
    simpa using h.near.length_eq
  · rw [hmap.mem_iff, h.mem j]
    have hq := fun v => g.query_between hhalf hi (j := j) v
    constructor
    · rintro ⟨h1, h2, h3⟩
      obtain ⟨q, hq1, -, -, -, a1, a2, a3, p, a4, a5⟩ := (hq (-between box points i j)).mpr ⟨h1, h2, h3, rfl⟩
      dsimp only at *
      rw [List.getElem?_eq_getElem hi] at hq1
      cases hq1
      exact ⟨a1, p, _, a4, a5, a2, a3⟩
    · rintro ⟨a1, p, w, a4, a5, a2, a3⟩
      obtain ⟨h1, h2, h3, -⟩ := (hq w).mp ⟨points[i], List.getElem?_eq_getElem hi, rfl, rfl, rfl, a1, a2, a3, p, a4, a5⟩
      exact ⟨h1, h2, h3⟩
  · obtain ⟨b', hb', rfl⟩ := List.mem_map.mp (hp.mem_iff.mp hb)
    have hbR := (List.mem_filter.mp hb').1
    have h1 := ((h.mem b'.p).mp (List.mem_map_of_mem hb')).1
    refine ⟨points[b'.p], ?_, ?_⟩
    · rw [(hφ b').1]; exact List.getElem?_eq_getElem h1
    · rw [(hφ b').2, (h.site b' hbR).2.1, between, hget i hi, hget _ h1]

/-! ### SANN -/

theorem sannCount_eq {ds : List ℝ} {z m : ℕ} (h : SannCount ds m) (hz : SannCloses ds z)
    (hk : ∀ k < z, ¬ SannCloses ds k) : m = z := by
  obtain ⟨h1, h2⟩ := h
  have hlen : z < ds.length := by
    obtain ⟨-, d, hd, -⟩ := hz
    exact (List.getElem?_eq_some_iff.mp hd).1
  rcases lt_trichotomy m z with hlt | he | hgt
  · rcases h2 with h2 | h2
    · exact absurd h2 (hk m hlt)
    · omega
  · exact he
  · exact absurd hz (h1 z hgt)

/-- The distances of a row with two shells. -/
theorem RowOf.dists {u : UnitCell ℝ} {f : Vec3 ℝ} {vs ws : List (Vec3 ℝ)} {d c x y : ℝ} {box : Box ℝ}
    {points : List (Vec3 ℝ)} {i : ℕ} {R : List (Bond ℝ)} (h : RowOf u f (vs ++ ws) d c box points i R) (hc : 0 < c)
    (hv : ∀ s ∈ vs, Vec3.norm s = x) (hw : ∀ s ∈ ws, Vec3.norm s = y) (hxy : x ≤ y) :
    (R.map (·.dist)).take (vs.length + ws.length) =
      List.replicate vs.length (c * x) ++ List.replicate ws.length (c * y) := by
  rw [← List.map_take, ← List.length_append, h.take]
  apply List.Perm.eq_of_pairwise (le := (· ≤ ·)) (fun a b _ _ => le_antisymm)
  · rw [List.pairwise_map]
    exact h.sorted.filter _
  · rw [List.pairwise_append]
    refine ⟨List.pairwise_replicate.mpr (Or.inr le_rfl), List.pairwise_replicate.mpr (Or.inr le_rfl), ?_⟩
    intro a ha b hb
    rw [List.eq_of_mem_replicate ha, List.eq_of_mem_replicate hb]
    exact mul_le_mul_of_nonneg_left hxy hc.le
  · have e : (R.filter fun b => decide (b.dist < c * d)).map (·.dist) =
        ((R.filter fun b => decide (b.dist < c * d)).map fun b => -between box points i b.p).map Vec3.norm := by
      rw [List.map_map]
      refine List.map_congr_left fun b hb => ?_
      rw [Function.comp_apply, norm_neg_vec]
      exact (h.site b (List.mem_filter.mp hb).1).2.1
    rw [e]
    refine (h.near.map _).trans (List.Perm.of_eq ?_)
    rw [List.map_map, List.map_append]
    congr 1
    · rw [List.eq_replicate_iff]
      refine ⟨by simp, fun a ha => ?_⟩
      obtain ⟨s, hs, rfl⟩ := List.mem_map.mp ha
      rw [Function.comp_apply, norm_smul_pos hc, hv s hs]
    · rw [List.eq_replicate_iff]
      refine ⟨by simp, fun a ha => ?_⟩
      obtain ⟨s, hs, rfl⟩ := List.mem_map.mp ha
      rw [Function.comp_apply, norm_smul_pos hc, hw s hs]

/-- When two shells are the SANN shell. -/
theorem sann_two {ds : List ℝ} {a b : ℕ} {x y e : ℝ} (hx : 0 < x)
    (htake : ds.take (a + b) = List.replicate a x ++ List.replicate b y) (hnext : ds[a + b]? = some e)
    (h3 : 3 ≤ a + b) (hin : 0 < b → ((a : ℝ) - 2) * y < a * x) (hout : a * x + b * y ≤ ((a : ℝ) + b - 2) * e) :
    SannCloses ds (a + b) ∧ ∀ k < a + b, ¬ SannCloses ds k := by
  have h3' : (3 : ℝ) ≤ (a : ℝ) + b := by exact_mod_cast h3
  constructor
  · refine ⟨h3, e, hnext, ?_⟩
    rw [htake, List.sum_append, List.sum_replicate, List.sum_replicate, div_le_iff₀ (by push_cast; linarith)]
    simp only [nsmul_eq_mul, Nat.cast_add]
    linarith
  · rintro k hk ⟨hk3, e', he', hle⟩
    have hk3' : (3 : ℝ) ≤ k := by exact_mod_cast hk3
    rw [div_le_iff₀ (by linarith)] at hle
    have htk : ds.take k = (List.replicate a x ++ List.replicate b y).take k := by
      rw [← htake, List.take_take, min_eq_left hk.le]
    have hek : (List.replicate a x ++ List.replicate b y)[k]? = some e' := by
      rw [← htake, List.getElem?_take_of_lt hk, he']
    rcases lt_or_ge k a with hka | hka
    · rw [List.getElem?_append_left (by simpa using hka), List.getElem?_replicate, if_pos hka] at hek
      cases hek
      rw [htk, List.take_append_of_le_length (by simpa using hka.le), List.take_replicate, min_eq_left hka.le,
        List.sum_replicate, nsmul_eq_mul] at hle
      nlinarith
    · rw [List.getElem?_append_right (by simpa using hka), List.length_replicate, List.getElem?_replicate,
        if_pos (by omega)] at hek
      cases hek
      obtain ⟨m, rfl⟩ := Nat.exists_eq_add_of_le hka
      have hm : m ≤ b := by omega
      have hb : 0 < b := by omega
      rw [htk, List.take_append, List.length_replicate, List.take_of_length_le (by simp), Nat.add_sub_cancel_left,
        List.take_replicate, min_eq_left hm, List.sum_append, List.sum_replicate, List.sum_replicate] at hle
      simp only [nsmul_eq_mul, Nat.cast_add] at hle
      have := hin hb
      nlinarith

theorem Shells.sann {u : UnitCell ℝ} {a b : ℕ} {x y d : ℝ} (h : Shells u a b x y d) (hx : 0 < x) (hxy : x ≤ y)
    (h3 : 3 ≤ a + b) (hin : 0 < b → ((a : ℝ) - 2) * y < a * x) (hout : a * x + b * y ≤ ((a : ℝ) + b - 2) * d)
    {cell : Option (UnitCell ℝ)} (hu : cell = some u) : SannKeeps cell (a + b) d := by
  refine ⟨u, hu, fun c box points n ho allow ev hev res hres => ?_⟩
  obtain ⟨k, hg⟩ := ho.crystal
  obtain ⟨t, g⟩ := generated h.cell h.distinct hg
  obtain ⟨r, hd, hr, hl⟩ := offeredList g.system ho
  have hhalf : BelowHalf box (c * d) := ⟨fun h => by linarith [hr.1 h], fun h => by linarith [hr.2.1 h],
    fun h h' => by linarith [hr.2.2 h h']⟩
  have key : ∀ i < points.length, ∀ R, Row n i R → SannCloses (R.map (·.dist)) (a + b) ∧
      (∀ k < a + b, ¬ SannCloses (R.map (·.dist)) k) ∧ ∃ f vs, vs.length = a + b ∧ RowOf u f vs d c box points i R := by
    intro i hi R hR
    obtain ⟨f, -, vs, ⟨v1, v2, rfl, hv, hw, ha, hb⟩, -, hrow⟩ := rowOf g hl hr hd hi
      (fun _ vs => ∃ v1 v2 : List (Vec3 ℝ), vs = v1 ++ v2 ∧ (∀ s ∈ v1, Vec3.norm s = x) ∧ (∀ s ∈ v2, Vec3.norm s = y) ∧
        v1.length = a ∧ v2.length = b)
      (fun f hf => by
        obtain ⟨v1, v2, h1, h2, h3, h4, h5, h6⟩ := h.near f hf
        exact ⟨v1 ++ v2, h1, h6, v1, v2, rfl, h4, h5, h2, h3⟩) h.next
    have hR' := hrow R hR
    have hds := hR'.dists g.scale hv hw hxy
    obtain ⟨bn, hbn, hdn⟩ := hR'.next
    rw [List.length_append, ha, hb] at hbn
    rw [ha, hb] at hds
    have := sann_two (mul_pos g.scale hx) hds (e := c * d)
      (by rw [List.getElem?_map, hbn, Option.map_some, hdn]) h3
      (fun h => by nlinarith [hin h, g.scale]) (by nlinarith [hout, g.scale])
    exact ⟨this.1, this.2, f, _, by rw [List.length_append, ha, hb], hR'⟩
  obtain ⟨hgood, enq, enp, -, -⟩ := hl
  have hev' : IsExecution n.numQueryPoints ev := by rw [enq]; exact hev
  have hres' : FilterSANN.Compute n n.numQueryPoints n.numPoints allow ev res := by rw [enq, enp]; exact hres
  have row_exists : ∀ i, ∃ R, Row n i R := by
    intro i
    obtain ⟨sorted, hs⟩ := C19_sort_exists true n.bonds
    obtain ⟨s, e, -⟩ := sortedList_spec n hgood sorted hs
    exact ⟨_, (sorted_row n hgood sorted s hs e i).2.1⟩
  have hpos : 0 < points.length → n.bonds ≠ [] := by
    intro hp e
    obtain ⟨R, hR⟩ := row_exists 0
    obtain ⟨⟨-, d', hd', -⟩, -⟩ := key 0 hp R hR
    have : R = [] := by
      have := hR.1
      rw [e] at this
      exact this.eq_nil
    rw [this] at hd'
    simp at hd'
  have hne := crystal_nonempty h.cell h.nonempty hg
  cases res with
  | none =>
    exfalso
    obtain ⟨-, i, hi, R, hR, hno⟩ := (C30_raises_iff n hgood (hpos (List.length_pos_of_ne_nil hne)) allow ev hev').mp hres'
    exact hno _ (key i (by rw [← enq]; exact hi) R hR).1
  | some out =>
    refine ⟨out, rfl, ?_⟩
    obtain ⟨h1, h2, -⟩ := C30_shell n hgood allow ev hev' out hres'
    refine ⟨fun b hb => by rw [← enq]; exact h2 b hb, fun i q hq => ?_⟩
    obtain ⟨hi, rfl⟩ := List.getElem?_eq_some_iff.mp hq
    obtain ⟨R, m, hR, hm, hp⟩ := h1 i (by rw [enq]; exact hi)
    obtain ⟨k1, k2, f, vs, hvs, hrow⟩ := key i hi R hR
    rw [sannCount_eq hm k1 k2, ← hvs] at hp
    have := hrow.keeps g hhalf hi (out := bondsOf out i) id (fun b => ⟨rfl, rfl⟩) (by rw [List.map_id]; exact hp)
    rwa [hvs] at this

/-! ### RAD -/

theorem norm_sq_eq (v : Vec3 ℝ) : Vec3.norm v ^ 2 = Vec3.dot v v := Real.sq_sqrt (dot_nonneg v)

theorem dot_smul_smul (c : ℝ) (v w : Vec3 ℝ) : Vec3.dot (Vec3.smul c v) (Vec3.smul c w) = c ^ 2 * Vec3.dot v w := by
  simp [Vec3.dot]
  ring

theorem dot_le_norm (v w : Vec3 ℝ) : Vec3.dot v w ≤ Vec3.norm v * Vec3.norm w := by
  refine le_trans (le_abs_self _) (abs_le_of_sq_le_sq ?_ (mul_nonneg (norm_nonneg' v) (norm_nonneg' w)))
  rw [mul_pow, norm_sq_eq, norm_sq_eq]
  simp only [Vec3.dot]
  nlinarith [sq_nonneg (v.x * w.y - v.y * w.x), sq_nonneg (v.y * w.z - v.z * w.y), sq_nonneg (v.z * w.x - v.x * w.z)]

/-- What has to be shown of the infinite crystal for RAD: a site of the shells does not block a farther site of the
shells, and every site beyond the shells is blocked by one of them. -/
structure RadShells (u : UnitCell ℝ) (a b : ℕ) (x y d : ℝ) : Prop extends Shells u a b x y d where
  apart : ∀ f ∈ u.basis, ∀ v w, SiteVector u f v → SiteVector u f w → Vec3.norm v = x → Vec3.norm w = y → x < y →
    y * Vec3.dot w v ≤ x ^ 3
  covered : ∀ f ∈ u.basis, ∀ s, SiteVector u f s → d ≤ Vec3.norm s → ∃ v, SiteVector u f v ∧ v ≠ ⟨0, 0, 0⟩ ∧
    Vec3.norm v < d ∧ Vec3.norm v ^ 3 < Vec3.norm s * Vec3.dot s v

/-- Whether a neighbor blocks another one, in terms of the sites. -/
theorem radTest_sites {c : ℝ} (hc : 0 < c) {box : Box ℝ} {points : List (Vec3 ℝ)} {i : ℕ} {radius : ℕ → ℝ} {ρ : ℝ}
    (hρ : 0 < ρ) (hrad : ∀ j, radius j = ρ) {bj bk : Bond ℝ} {s v : Vec3 ℝ}
    (hj : bj.dist = (between box points i bj.p).norm) (hk : bk.dist = (between box points i bk.p).norm)
    (hs : -between box points i bj.p = Vec3.smul c s) (hv : -between box points i bk.p = Vec3.smul c v)
    (hs0 : 0 < Vec3.norm s) :
    RadTest box (points.getD i 0) (fun j => points.getD j 0) radius bj bk ↔
      Vec3.norm v ^ 3 < Vec3.norm s * Vec3.dot s v := by
  have hneg : ∀ a b : Vec3 ℝ, Vec3.dot (-a) (-b) = Vec3.dot a b := by
    intro a b
    simp [Vec3.dot]
  have d1 := dot_smul_smul c s s
  have d2 := dot_smul_smul c v v
  have d3 := dot_smul_smul c s v
  have n1 := norm_smul_pos hc s
  have n2 := norm_smul_pos hc v
  rw [← hs, ← hv, hneg] at d3
  rw [← hs, hneg] at d1
  rw [← hv, hneg] at d2
  rw [← hs, norm_neg_vec, ← hj] at n1
  rw [← hv, norm_neg_vec, ← hk] at n2
  unfold RadTest
  simp only [hrad]
  rw [show box.wrap (points.getD i 0 - points.getD bj.p 0) = between box points i bj.p from rfl,
    show box.wrap (points.getD i 0 - points.getD bk.p 0) = between box points i bk.p from rfl, d1, d2, d3, n1, n2,
    ← norm_sq_eq, ← norm_sq_eq]
  have hp : 0 < ρ ^ 2 * c ^ 4 * Vec3.norm s := by positivity
  rw [show ρ ^ 2 * (c ^ 2 * Vec3.norm v ^ 2) * (c * Vec3.norm s * (c * Vec3.norm v)) =
      ρ ^ 2 * c ^ 4 * Vec3.norm s * Vec3.norm v ^ 3 by ring,
    show ρ ^ 2 * (c ^ 2 * Vec3.norm s ^ 2) * (c ^ 2 * Vec3.dot s v) =
      ρ ^ 2 * c ^ 4 * Vec3.norm s * (Vec3.norm s * Vec3.dot s v) by ring]
  exact mul_lt_mul_iff_right₀ hp

theorem norm_pos_of_ne {s : Vec3 ℝ} (h : s ≠ ⟨0, 0, 0⟩) : 0 < Vec3.norm s := by
  refine lt_of_le_of_ne (norm_nonneg' s) fun e => h ?_
  have h2 := norm_sq_eq s
  rw [← e] at h2
  simp only [Vec3.dot] at h2
  have hx : s.x = 0 := by nlinarith [sq_nonneg s.x, sq_nonneg s.y, sq_nonneg s.z]
  have hy : s.y = 0 := by nlinarith [sq_nonneg s.x, sq_nonneg s.y, sq_nonneg s.z]
  have hz : s.z = 0 := by nlinarith [sq_nonneg s.x, sq_nonneg s.y, sq_nonneg s.z]
  ext <;> assumption

theorem RadShells.rad {u : UnitCell ℝ} {a b : ℕ} {x y d : ℝ} (h : RadShells u a b x y d) (hxy : x ≤ y)
    {cell : Option (UnitCell ℝ)} (hu : cell = some u) : RadKeeps cell (a + b) d := by
  refine ⟨u, hu, fun c box points n ho closed allow ev hev radius ⟨ρ, hρ, hrad⟩ res hres => ?_⟩
  obtain ⟨k, hg⟩ := ho.crystal
  obtain ⟨t, g⟩ := generated h.cell h.distinct hg
  obtain ⟨r, hd, hr, hl⟩ := offeredList g.system ho
  have hhalf : BelowHalf box (c * d) := ⟨fun h => by linarith [hr.1 h], fun h => by linarith [hr.2.1 h],
    fun h h' => by linarith [hr.2.2 h h']⟩
  have key : ∀ i < points.length, ∀ R, Row n i R → a + b < R.length ∧
      (∀ j < R.length, (¬ Blocked (RadTest box (points.getD i 0) (fun j => points.getD j 0) radius) R j ↔ j < a + b)) ∧
      ∃ f vs, vs.length = a + b ∧ RowOf u f vs d c box points i R := by
    intro i hi R hR
    obtain ⟨f, hf, vs, ⟨v1, v2, rfl, hv, hw, ha, hb⟩, hmem, hrow⟩ := rowOf g hl hr hd hi
      (fun _ vs => ∃ v1 v2 : List (Vec3 ℝ), vs = v1 ++ v2 ∧ (∀ s ∈ v1, Vec3.norm s = x) ∧ (∀ s ∈ v2, Vec3.norm s = y) ∧
        v1.length = a ∧ v2.length = b)
      (fun f hf => by
        obtain ⟨v1, v2, h1, h2, h3, h4, h5, h6⟩ := h.near f hf
        exact ⟨v1 ++ v2, h1, h6, v1, v2, rfl, h4, h5, h2, h3⟩) h.next
    have hR' := hrow R hR
    have hz : (v1 ++ v2).length = a + b := by rw [List.length_append, ha, hb]
    have htake := hR'.take
    rw [hz] at htake
    obtain ⟨bn, hbn, hdn⟩ := hR'.next
    rw [hz] at hbn
    have hlen := (List.getElem?_eq_some_iff.mp hbn).1
    -- an index belongs to the shells if and only if its distance does
    have hidx : ∀ j (hj : j < R.length), (R[j].dist < c * d ↔ j < a + b) := by
      intro j hj
      constructor
      · intro hlt
        by_contra hge
        obtain ⟨hbl, e⟩ := List.getElem?_eq_some_iff.mp hbn
        rcases Nat.lt_or_eq_of_le (not_lt.mp hge) with h1 | h1
        · have := List.pairwise_iff_getElem.mp hR'.sorted _ _ hlen hj h1
          rw [e] at this
          linarith
        · subst h1
          rw [e, hdn] at hlt
          exact lt_irrefl _ hlt
      · intro hlt
        have h1 : R[j] ∈ R.take (a + b) := by
          rw [List.mem_take_iff_getElem]
          exact ⟨j, by omega, rfl⟩
        rw [htake] at h1
        exact of_decide_eq_true (List.mem_filter.mp h1).2
    refine ⟨hlen, fun j hj => ?_, f, _, hz, hR'⟩
    obtain ⟨-, dj, s, hs, hs0, es⟩ := hR'.site R[j] (List.getElem_mem hj)
    have hsn : R[j].dist = c * Vec3.norm s := by rw [dj, ← norm_neg_vec, es, norm_smul_pos g.scale]
    have hpos := norm_pos_of_ne hs0
    rw [← hidx j hj]
    constructor
    · intro hub
      by_contra hge
      rw [not_lt, hsn] at hge
      have hds : d ≤ Vec3.norm s := le_of_mul_le_mul_left hge g.scale
      obtain ⟨v, hv1, hv2, hv3, hv4⟩ := h.covered f hf s hs hds
      have hvm : Vec3.smul c v ∈ (R.filter fun b => decide (b.dist < c * d)).map fun b => -between box points i b.p :=
        hR'.near.mem_iff.mpr (List.mem_map_of_mem ((hmem v).mpr ⟨hv1, hv2, hv3⟩))
      obtain ⟨bk, hbk, ek⟩ := List.mem_map.mp hvm
      obtain ⟨hbk1, hbk2⟩ := List.mem_filter.mp hbk
      obtain ⟨k', hk', rfl⟩ := List.getElem_of_mem hbk1
      have hlt' := (hidx k' hk').mp (of_decide_eq_true hbk2)
      have hjz : ¬ j < a + b := by
        rw [← hidx j hj, hsn, not_lt]
        exact hge
      refine hub ⟨k', by omega, R[j], R[k'], List.getElem?_eq_getElem hj, List.getElem?_eq_getElem hk', ?_⟩
      exact (radTest_sites g.scale hρ hrad dj (hR'.site _ hbk1).2.1 es ek hpos).mpr hv4
    · rintro hlt ⟨k', hk', bj, bk, ej, ek, htest⟩
      obtain ⟨hjl, rfl⟩ := List.getElem?_eq_some_iff.mp ej
      obtain ⟨hkl, rfl⟩ := List.getElem?_eq_some_iff.mp ek
      obtain ⟨-, dk, v, hv1, hv0, ev⟩ := hR'.site R[k'] (List.getElem_mem hkl)
      rw [radTest_sites g.scale hρ hrad dj dk es ev hpos] at htest
      have hvn : R[k'].dist = c * Vec3.norm v := by rw [dk, ← norm_neg_vec, ev, norm_smul_pos g.scale]
      have hle := List.pairwise_iff_getElem.mp hR'.sorted _ _ hkl hj hk'
      have hle' : Vec3.norm v ≤ Vec3.norm s := by
        rw [hvn, hsn] at hle
        exact le_of_mul_le_mul_left hle g.scale
      have hsd : Vec3.norm s < d := by
        rw [hsn] at hlt
        exact lt_of_mul_lt_mul_left hlt g.scale.le
      rcases hle'.eq_or_lt with e | hlt'
      · have := dot_le_norm s v
        rw [← e] at htest this
        have h0 : 0 ≤ Vec3.norm v := norm_nonneg' v
        nlinarith [mul_le_mul_of_nonneg_left this h0]
      · have ms := List.mem_append.mp ((hmem s).mpr ⟨hs, hs0, hsd⟩)
        have mv := List.mem_append.mp ((hmem v).mpr ⟨hv1, hv0, hle'.trans_lt hsd⟩)
        have nv : Vec3.norm v = x := by
          rcases mv with mv | mv
          · exact hv v mv
          · rcases ms with ms | ms
            · rw [hv s ms, hw v mv] at hlt'
              linarith
            · rw [hw s ms, hw v mv] at hlt'
              linarith
        have ns : Vec3.norm s = y := by
          rcases ms with ms | ms
          · rw [hv s ms, nv] at hlt'
            linarith
          · exact hw s ms
        have := h.apart f hf v s hv1 hs nv ns (by rw [← nv, ← ns]; exact hlt')
        rw [nv, ns] at htest
        linarith
  obtain ⟨hgood, enq, enp, -, -⟩ := hl
  have hev' : IsExecution n.numQueryPoints ev := by rw [enq]; exact hev
  have hres' : FilterRAD.Compute box (fun i => points.getD i 0) (fun j => points.getD j 0) radius closed n
      n.numQueryPoints n.numPoints allow ev res := by rw [enq, enp]; exact hres
  have row_exists : ∀ i, ∃ R, Row n i R := by
    intro i
    obtain ⟨sorted, hs⟩ := C19_sort_exists true n.bonds
    obtain ⟨s, e, -⟩ := sortedList_spec n hgood sorted hs
    exact ⟨_, (sorted_row n hgood sorted s hs e i).2.1⟩
  have hne := crystal_nonempty h.cell h.nonempty hg
  have hpos : n.bonds ≠ [] := by
    intro e
    obtain ⟨R, hR⟩ := row_exists 0
    have h1 := (key 0 (List.length_pos_of_ne_nil hne) R hR).1
    have : R = [] := by
      have := hR.1
      rw [e] at this
      exact this.eq_nil
    rw [this] at h1
    simp at h1
  cases res with
  | none =>
    exfalso
    cases closed with
    | false => exact C31_open_never_raises _ _ _ _ n hgood hpos allow ev hev' hres'
    | true =>
      obtain ⟨-, i, hi, sorted, hs, hno⟩ := (C31_closed_raises_iff _ _ _ _ n hgood hpos allow ev hev').mp hres'
      obtain ⟨s, e, -, hb, -⟩ := sortedList_spec n hgood sorted hs
      have hrow := (sorted_row n hgood sorted s hs e i).2.1
      unfold bondsOf at hrow
      rw [hb] at hrow
      obtain ⟨k1, k2, -⟩ := key i (by rw [← enq]; exact hi) _ hrow
      exact absurd ((k2 _ k1).mp (hno _)) (lt_irrefl _)
  | some out =>
    refine ⟨out, rfl, ?_⟩
    have hφ : ∀ i, ∀ b : Bond ℝ, (radBond box (points.getD i 0) (fun j => points.getD j 0) b).p = b.p ∧
      (radBond box (points.getD i 0) (fun j => points.getD j 0) b).dist = b.dist := fun i b => ⟨rfl, rfl⟩
    have fin : ∀ i (hi : i < points.length), ∃ R, Row n i R ∧ (bondsOf out i).Perm
        ((R.take (a + b)).map (radBond box (points.getD i 0) (fun j => points.getD j 0))) := by
      intro i hi
      cases closed with
      | false =>
        obtain ⟨h1, -, -⟩ := C31_open_exact _ _ _ _ n hgood allow ev hev' out hres'
        obtain ⟨R, hR, hp⟩ := h1 i (by rw [enq]; exact hi)
        refine ⟨R, hR, ?_⟩
        obtain ⟨k1, k2, -⟩ := key i hi R hR
        classical
        rw [← filterMap_range R _ (a + b) k1.le, ← filter_range R.length (a + b) k1.le _ k2]
        convert hp
      | true =>
        obtain ⟨h1, -, -⟩ := C31_closed_exact _ _ _ _ n hgood allow ev hev' out hres'
        obtain ⟨R, m, hR, hm, hu, hb, hp⟩ := h1 i (by rw [enq]; exact hi)
        refine ⟨R, hR, ?_⟩
        obtain ⟨k1, k2, -⟩ := key i hi R hR
        have : m = a + b := by
          rcases lt_trichotomy m (a + b) with h1 | h1 | h1
          · have hm' : m < R.length := h1.trans k1
            exact absurd (hb hm') ((k2 m hm').mpr h1)
          · exact h1
          · exact absurd ((k2 _ k1).mp (hu _ h1)) (lt_irrefl _)
        rwa [this] at hp
    have hq : ∀ b ∈ out.bonds, b.q < n.numQueryPoints := by
      cases closed with
      | false => exact (C31_open_exact _ _ _ _ n hgood allow ev hev' out hres').2.1
      | true => exact (C31_closed_exact _ _ _ _ n hgood allow ev hev' out hres').2.1
    refine ⟨fun b hb => by rw [← enq]; exact hq b hb, fun i q hq => ?_⟩
    obtain ⟨hi, rfl⟩ := List.getElem?_eq_some_iff.mp hq
    obtain ⟨R, hR, hp⟩ := fin i hi
    obtain ⟨-, -, f, vs, hvs, hrow⟩ := key i hi R hR
    rw [← hvs] at hp
    have := hrow.keeps g hhalf hi _ (hφ i) hp
    rwa [hvs] at this

/-! ### Integer coordinates -/

/-- The bilinear form of `quad`. -/
def bil (q x y : Vec3 ℤ) : ℤ := q.x * x.x * y.x + q.y * x.y * y.y + q.z * x.z * y.z

namespace InUnits
variable {u : UnitCell ℝ} {ρ : Vec3 ℝ} {Lat : Vec3 ℤ → Bool} {F : List (Vec3 ℤ)}

theorem dot_units {q : Vec3 ℤ} {N : ℤ} (hx : ρ.x ^ 2 = q.x / N) (hy : ρ.y ^ 2 = q.y / N) (hz : ρ.z ^ 2 = q.z / N)
    (x y : Vec3 ℤ) : Vec3.dot (units ρ x) (units ρ y) = bil q x y / N := by
  simp only [Vec3.dot, units, bil]
  have e : ∀ a b c : ℝ, a * b * (a * c) = a ^ 2 * (b * c) := fun a b c => by ring
  rw [e, e, e, hx, hy, hz]
  push_cast
  ring

theorem units_zero (h : InUnits u ρ Lat F) (x : Vec3 ℤ) : units ρ x = ⟨0, 0, 0⟩ ↔ x = ⟨0, 0, 0⟩ :=
  ⟨fun e => units_inj h.nonzero (e.trans (by ext <;> simp [units])), fun e => by rw [e]; ext <;> simp [units]⟩

theorem shells_int (h : InUnits u ρ Lat F) (q : Vec3 ℤ) (N D E M : ℤ) (k k' a b : ℕ) (hN : 0 < N)
    (hx : ρ.x ^ 2 = q.x / N) (hy : ρ.y ^ 2 = q.y / N) (hz : ρ.z ^ 2 = q.z / N)
    (hM : M ≤ q.x * (k + 1) ^ 2 ∧ M ≤ q.y * (k + 1) ^ 2 ∧ M ≤ q.z * (k + 1) ^ 2)
    (hp : F.Pairwise fun A C => Lat (A - C) = false) (hF : F ≠ [])
    (hl : ∀ A ∈ F, ((nearList Lat F q M k A).filter fun x => quad q x = D).length = a ∧
      ((nearList Lat F q M k A).filter fun x => quad q x ≠ D).length = b ∧
      ∀ x ∈ nearList Lat F q M k A, quad q x ≠ D → quad q x = E)
    (hn : ∀ A ∈ F, ((grid k').any fun x => (F.any fun C => Lat (x + A - C)) && decide (x ≠ ⟨0, 0, 0⟩) &&
      decide (quad q x = M)) = true) :
    Shells u a b (Real.sqrt (D / N)) (Real.sqrt (E / N)) (Real.sqrt (M / N)) := by
  refine ⟨h.cell, h.distinct hp, ?_, fun f hf => ?_, fun f hf => ?_⟩
  · obtain ⟨o, hb⟩ := h.basis
    intro e
    rw [e] at hb
    cases hb
    exact hF rfl
  · obtain ⟨A, hA, hs⟩ := h.site hf
    obtain ⟨h1, h2, h3⟩ := hl A hA
    have hmem := mem_nearList (Lat := Lat) (F := F) hN hx hy hz hM A
    have hnd : (nearList Lat F q M k A).Nodup := (nodup_grid k).filter _
    have hperm := List.filter_append_perm (fun x => decide (quad q x = D)) (nearList Lat F q M k A)
    rw [show (fun x => !decide (quad q x = D)) = fun x => decide (quad q x ≠ D) by funext x; simp] at hperm
    refine ⟨((nearList Lat F q M k A).filter fun x => quad q x = D).map (units ρ),
      ((nearList Lat F q M k A).filter fun x => quad q x ≠ D).map (units ρ), ?_, by simpa using h1, by simpa using h2,
      ?_, ?_, fun s => ?_⟩
    · rw [← List.map_append]
      exact (hperm.nodup_iff.mpr hnd).map_on fun x _ y _ e => units_inj h.nonzero e
    · intro s hs
      obtain ⟨x, hx', rfl⟩ := List.mem_map.mp hs
      rw [norm_units hx hy hz, of_decide_eq_true (List.mem_filter.mp hx').2]
    · intro s hs
      obtain ⟨x, hx', rfl⟩ := List.mem_map.mp hs
      obtain ⟨m1, m2⟩ := List.mem_filter.mp hx'
      rw [norm_units hx hy hz, h3 x m1 (of_decide_eq_true m2)]
    · rw [← List.map_append, List.mem_map, hs]
      constructor
      · rintro ⟨x, hx, rfl⟩
        obtain ⟨a1, a2, a3⟩ := (hmem x).mp (hperm.mem_iff.mp hx)
        exact ⟨⟨x, rfl, a1⟩, fun e => a2 ((h.units_zero x).mp e), a3⟩
      · rintro ⟨⟨x, rfl, a1⟩, a2, a3⟩
        exact ⟨x, hperm.mem_iff.mpr ((hmem x).mpr ⟨a1, fun e => a2 ((h.units_zero x).mpr e), a3⟩), rfl⟩
  · obtain ⟨A, hA, hs⟩ := h.site hf
    have := hn A hA
    simp only [List.any_eq_true, Bool.and_eq_true, decide_eq_true_eq] at this
    obtain ⟨x, -, ⟨h1, h2⟩, h3⟩ := this
    exact ⟨units ρ x, (hs _).mpr ⟨x, rfl, h1⟩, fun e => h2 ((h.units_zero x).mp e), by rw [norm_units hx hy hz, h3]⟩

theorem radShells_int (h : InUnits u ρ Lat F) (q : Vec3 ℤ) (N D E M K : ℤ) (k k' k'' a b : ℕ) (hN : 0 < N)
    (hx : ρ.x ^ 2 = q.x / N) (hy : ρ.y ^ 2 = q.y / N) (hz : ρ.z ^ 2 = q.z / N)
    (hM : M ≤ q.x * (k + 1) ^ 2 ∧ M ≤ q.y * (k + 1) ^ 2 ∧ M ≤ q.z * (k + 1) ^ 2)
    (hp : F.Pairwise fun A C => Lat (A - C) = false) (hF : F ≠ [])
    (hl : ∀ A ∈ F, ((nearList Lat F q M k A).filter fun x => quad q x = D).length = a ∧
      ((nearList Lat F q M k A).filter fun x => quad q x ≠ D).length = b ∧
      ∀ x ∈ nearList Lat F q M k A, quad q x ≠ D → quad q x = E)
    (hn : ∀ A ∈ F, ((grid k').any fun x => (F.any fun C => Lat (x + A - C)) && decide (x ≠ ⟨0, 0, 0⟩) &&
      decide (quad q x = M)) = true)
    (hD : 0 < D ∧ D < M) (hE : 0 < E ∧ E < M)
    (hap : ∀ A ∈ F, ∀ v ∈ nearList Lat F q M k A, ∀ w ∈ nearList Lat F q M k A, quad q v = D → quad q w = E → D < E →
      E * bil q w v ^ 2 ≤ D ^ 3)
    (hK : 0 < K) (hKD : D ^ 3 < M * K ^ 2) (hKE : E ^ 3 < M * K ^ 2)
    (W : Vec3 ℤ → List (Vec3 ℤ)) (hW : ∀ A ∈ F, ∀ y ∈ W A, y ∈ nearList Lat F q M k A)
    (hbox : ∀ A ∈ F, ∀ x, (∃ C ∈ F, Lat (x + A - C) = true) → (∀ y ∈ W A, bil q x y < K) →
      (-(k'' : ℤ) ≤ x.x ∧ x.x ≤ k'') ∧ (-(k'' : ℤ) ≤ x.y ∧ x.y ≤ k'') ∧ (-(k'' : ℤ) ≤ x.z ∧ x.z ≤ k''))
    (hcov : ∀ A ∈ F, ((grid k'').all fun x => !((F.any fun C => Lat (x + A - C)) && decide (M ≤ quad q x)) ||
      (nearList Lat F q M k A).any fun y => decide (K ≤ bil q x y)) = true) :
    RadShells u a b (Real.sqrt (D / N)) (Real.sqrt (E / N)) (Real.sqrt (M / N)) := by
  have hN' : (0 : ℝ) < N := by exact_mod_cast hN
  have mem : ∀ A x, x ∈ nearList Lat F q M k A ↔ _ := fun A x => mem_nearList (Lat := Lat) (F := F) hN hx hy hz hM A x
  have hM0 : (0 : ℝ) < M := by exact_mod_cast hD.1.trans hD.2
  have sq : ∀ x : Vec3 ℤ, ∀ n : ℤ, 0 ≤ n → Vec3.norm (units ρ x) = Real.sqrt (n / N) → quad q x = n := by
    intro x n hn e
    have h2 : Vec3.norm (units ρ x) ^ 2 = quad q x / N := by
      rw [norm_sq_eq, dot_units hx hy hz]
      congr 2
      unfold bil quad
      ring
    rw [e, Real.sq_sqrt (div_nonneg (by exact_mod_cast hn) hN'.le), div_left_inj' hN'.ne'] at h2
    exact_mod_cast h2.symm
  have lt : ∀ n : ℤ, 0 ≤ n → n < M → Real.sqrt (n / N) < Real.sqrt (M / N) := by
    intro n h0 hn
    refine Real.sqrt_lt_sqrt (div_nonneg (by exact_mod_cast h0) hN'.le) ?_
    rw [div_lt_div_iff_of_pos_right hN']
    exact_mod_cast hn
  have ne0 : ∀ x : Vec3 ℤ, 0 < quad q x → x ≠ ⟨0, 0, 0⟩ := by
    rintro x hq rfl
    simp [quad] at hq
  refine ⟨h.shells_int q N D E M k k' a b hN hx hy hz hM hp hF hl hn, ?_, ?_⟩
  · intro f hf v w hv hw nv nw hlt
    obtain ⟨A, hA, hs⟩ := h.site hf
    obtain ⟨v, rfl, sv⟩ := (hs v).mp hv
    obtain ⟨w, rfl, sw⟩ := (hs w).mp hw
    have qv := sq v D hD.1.le nv
    have qw := sq w E hE.1.le nw
    have hDE : D < E := by
      by_contra hge
      exact absurd hlt (not_lt.mpr (Real.sqrt_le_sqrt (div_le_div_of_nonneg_right (by exact_mod_cast not_lt.mp hge) hN'.le)))
    have hb := hap A hA v ((mem A v).mpr ⟨sv, ne0 v (by rw [qv]; exact hD.1), by rw [nv]; exact lt D hD.1.le hD.2⟩) w
      ((mem A w).mpr ⟨sw, ne0 w (by rw [qw]; exact hE.1), by rw [nw]; exact lt E hE.1.le hE.2⟩) qv qw hDE
    rw [dot_units hx hy hz]
    refine le_trans (le_abs_self _) (abs_le_of_sq_le_sq ?_ (by positivity))
    have e1 : Real.sqrt ((E : ℝ) / N) ^ 2 = E / N := Real.sq_sqrt (div_nonneg (by exact_mod_cast hE.1.le) hN'.le)
    have e2 : Real.sqrt ((D : ℝ) / N) ^ 2 = D / N := Real.sq_sqrt (div_nonneg (by exact_mod_cast hD.1.le) hN'.le)
    rw [mul_pow, e1, ← pow_mul, mul_comm 3 2, pow_mul, e2, div_pow, div_pow, div_mul_div_comm,
      show (N : ℝ) * N ^ 2 = N ^ 3 by ring, div_le_div_iff_of_pos_right (by positivity)]
    exact_mod_cast hb
  · intro f hf s hs' hds
    obtain ⟨A, hA, hs⟩ := h.site hf
    obtain ⟨x, rfl, sx⟩ := (hs s).mp hs'
    have hq : M ≤ quad q x := by
      rw [norm_units hx hy hz, Real.sqrt_le_sqrt_iff' (div_pos hM0 hN'), div_le_div_iff_of_pos_right hN'] at hds
      exact_mod_cast hds
    have ⟨y, hy', hKy⟩ : ∃ y ∈ nearList Lat F q M k A, K ≤ bil q x y := by
      by_contra hno
      push Not at hno
      obtain ⟨b1, b2, b3⟩ := hbox A hA x sx fun y hy => hno y (hW A hA y hy)
      have hg : x ∈ grid k'' := (mem_grid _ _).mpr ⟨(mem_around _ _).mpr b1, (mem_around _ _).mpr b2, (mem_around _ _).mpr b3⟩
      have := List.all_eq_true.mp (hcov A hA) x hg
      simp only [Bool.or_eq_true, Bool.not_eq_true', Bool.and_eq_false_iff, decide_eq_false_iff_not, List.any_eq_false,
        List.any_eq_true, decide_eq_true_eq] at this
      rcases this with (h1 | h1) | ⟨y, h1, h2⟩
      · obtain ⟨C, hC, hCl⟩ := sx
        exact absurd hCl (h1 C hC)
      · exact h1 hq
      · exact absurd h2 (not_le.mpr (hno y h1))
    obtain ⟨sy, y0, ny⟩ := (mem A y).mp hy'
    refine ⟨units ρ y, (hs _).mpr ⟨y, rfl, sy⟩, fun e => y0 ((h.units_zero y).mp e), ny, ?_⟩
    have hqy : quad q y = D ∨ quad q y = E := by
      by_cases e : quad q y = D
      · exact Or.inl e
      · exact Or.inr ((hl A hA).2.2 y hy' e)
    have hq3 : quad q y ^ 3 < quad q x * bil q x y ^ 2 := by
      have h1 : M * K ^ 2 ≤ quad q x * bil q x y ^ 2 :=
        mul_le_mul hq (pow_le_pow_left₀ hK.le hKy 2) (by positivity) (by linarith [hD.1, hD.2])
      rcases hqy with e | e <;> rw [e] <;> linarith
    have hy0 : 0 ≤ quad q y := by rcases hqy with e | e <;> rw [e] <;> linarith [hD.1, hE.1]
    have hB : (0 : ℝ) < bil q x y := by exact_mod_cast hK.trans_le hKy
    rw [dot_units hx hy hz, norm_units hx hy hz, norm_units hx hy hz]
    refine lt_of_pow_lt_pow_left₀ 2 (by positivity) ?_
    have e1 : Real.sqrt ((quad q x : ℝ) / N) ^ 2 = quad q x / N :=
      Real.sq_sqrt (div_nonneg (by exact_mod_cast (by linarith [hD.1, hD.2] : (0 : ℤ) ≤ quad q x)) hN'.le)
    have e2 : Real.sqrt ((quad q y : ℝ) / N) ^ 2 = quad q y / N := Real.sq_sqrt (div_nonneg (by exact_mod_cast hy0) hN'.le)
    rw [mul_pow, e1, ← pow_mul, mul_comm 3 2, pow_mul, e2, div_pow, div_pow, div_mul_div_comm,
      show (N : ℝ) * N ^ 2 = N ^ 3 by ring, div_lt_div_iff_of_pos_right (by positivity)]
    exact_mod_cast hq3

end InUnits

end Freud
