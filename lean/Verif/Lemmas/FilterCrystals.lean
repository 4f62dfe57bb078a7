import Verif.Spec.FilterCrystals
import Verif.Props.FilterCutoff
import Verif.Props.CrystalOrder

/-!
# What is offered to a neighbor filter in a crystal
-/

namespace Freud
open Spec NList Bond

/-! ### Sorted rows -/

theorem filter_split {α : Type*} (f : α → ℝ) (t : ℝ) (l : List α) (h : l.Pairwise fun a b => f a ≤ f b) :
    l = (l.filter fun a => f a < t) ++ l.filter fun a => ¬ f a < t := by
  induction l with
  | nil => rfl
  | cons a l ih =>
    rw [List.pairwise_cons] at h
    by_cases ha : f a < t
    · simp only [List.filter_cons, ha, not_true_eq_false, decide_true, decide_false, if_true, Bool.false_eq_true,
        if_false, List.cons_append]
      exact congrArg _ (ih h.2)
    · have hl : ∀ b ∈ l, ¬ f b < t := fun b hb hlt => ha ((h.1 b hb).trans_lt hlt)
      have e1 : (a :: l).filter (fun a => decide (f a < t)) = [] := by
        rw [List.filter_eq_nil_iff]
        intro b hb
        rcases List.mem_cons.mp hb with rfl | hb
        · simpa using ha
        · simpa using hl b hb
      have e2 : (a :: l).filter (fun a => decide (¬ f a < t)) = a :: l := by
        rw [List.filter_eq_self]
        intro b hb
        rcases List.mem_cons.mp hb with rfl | hb
        · simpa using ha
        · simpa using hl b hb
      rw [e1, e2, List.nil_append]

theorem filterMap_range {α β : Type*} (R : List α) (g : α → β) (z : ℕ) (hz : z ≤ R.length) :
    (List.range z).filterMap (fun j => (R[j]?).map g) = (R.take z).map g := by
  induction z with
  | zero => rfl
  | succ z ih =>
    have hlt : z < R.length := hz
    rw [List.range_succ, List.filterMap_append, ih hlt.le, List.take_add_one, List.map_append,
      List.getElem?_eq_getElem hlt]
    simp [List.getElem?_eq_getElem hlt]

theorem filter_range (n z : ℕ) (hz : z ≤ n) (P : ℕ → Prop) [DecidablePred P] (h : ∀ j < n, (P j ↔ j < z)) :
    (List.range n).filter (fun j => P j) = List.range z := by
  rw [List.filter_congr (q := fun j => decide (j < z)) fun j hj => decide_eq_decide.mpr (h j (List.mem_range.mp hj))]
  obtain ⟨m, rfl⟩ := Nat.exists_eq_add_of_le hz
  rw [List.range_add, List.filter_append, List.filter_eq_self.mpr fun a ha => by simpa using ha,
    List.filter_eq_nil_iff.mpr, List.append_nil]
  intro a ha
  obtain ⟨k, -, rfl⟩ := List.mem_map.mp ha
  simp

/-! ### The neighbors that are offered -/

/-- The wrapped vector from particle `j` to particle `i`. -/
noncomputable def between (box : Box ℝ) (points : List (Vec3 ℝ)) (i j : ℕ) : Vec3 ℝ :=
  box.wrap (points.getD i 0 - points.getD j 0)

/-- The list of all pairs. -/
noncomputable def pairsOf (box : Box ℝ) (points : List (Vec3 ℝ)) : List (Bond ℝ) :=
  (List.range points.length).flatMap fun i => ((List.range points.length).filter fun j => !(true && decide (i = j))).map
    fun j => ⟨i, j, (between box points i j).norm, 1, between box points i j⟩

/-- What is needed about the offered list. -/
structure OfferedList (box : Box ℝ) (points : List (Vec3 ℝ)) (r : ℝ) (n : NList ℝ) : Prop where
  good : GoodList n
  nq : n.numQueryPoints = points.length
  np : n.numPoints = points.length
  all : ∀ b ∈ n.bonds, columns b ∈ (pairsOf box points).map columns
  near : ((n.bonds.filter fun b => b.dist < r).map columns).Perm
    (((pairsOf box points).filter fun b => b.dist < r).map columns)

theorem mem_pairs {box : Box ℝ} {points : List (Vec3 ℝ)} {k : ℕ × ℕ × ℝ × ℝ} :
    k ∈ (pairsOf box points).map columns ↔ k.1 < points.length ∧ k.2.1 < points.length ∧ k.1 ≠ k.2.1 ∧
      k.2.2.1 = 1 ∧ k.2.2.2 = (between box points k.1 k.2.1).norm := by
  obtain ⟨i, j, w, d⟩ := k
  simp only [pairsOf, columns, List.map_flatMap, List.mem_flatMap, List.mem_map, List.mem_range, List.mem_filter,
    Prod.mk.injEq, Bool.true_and, Bool.not_eq_true', decide_eq_false_iff_not]
  constructor
  · rintro ⟨i', hi, b, ⟨j', ⟨hj, hne⟩, rfl⟩, rfl, rfl, rfl, rfl⟩
    exact ⟨hi, hj, hne, rfl, rfl⟩
  · rintro ⟨hi, hj, hne, rfl, rfl⟩
    exact ⟨i, hi, _, ⟨j, ⟨hj, hne⟩, rfl⟩, rfl, rfl, rfl, rfl⟩

theorem pairs_nodup (box : Box ℝ) (points : List (Vec3 ℝ)) : ((pairsOf box points).map fun b => (b.q, b.p)).Nodup := by
  have h := C17_pairs_exactly box (fun i => points.getD i 0) (fun i => points.getD i 0) true points.length points.length
    (List.range points.length) (List.Perm.refl _)
  have h2 := h.2.1
  rwa [C17_all_pairs _ _ _ _ _ _ _ (List.Perm.refl _)] at h2

theorem Within.offered {box : Box ℝ} {points : List (Vec3 ℝ)} {r r' : ℝ} {n a : NList ℝ} (hr : r ≤ r')
    (ha : a.bonds = pairsOf box points) (hq : a.numQueryPoints = points.length) (hp : a.numPoints = points.length)
    (h : Within r' n a) (g : GoodList n) : OfferedList box points r n := by
  have hf : ∀ l : List (Bond ℝ), (l.filter fun b => decide (b.dist < r)).map columns =
      (l.map columns).filter fun k => decide (k.2.2.2 < r) := by
    intro l
    rw [List.filter_map]
    rfl
  refine ⟨g, h.nq.trans hq, h.np.trans hp, fun b hb => ?_, ?_⟩
  · have h1 := h.bonds.subset (List.mem_map_of_mem (f := columns) hb)
    rw [ha] at h1
    obtain ⟨b', hb', e⟩ := List.mem_map.mp h1
    rw [← e]
    exact List.mem_map_of_mem (List.mem_filter.mp hb').1
  · rw [hf, ← ha, hf]
    refine (h.bonds.filter _).trans (List.Perm.of_eq ?_)
    rw [← hf, List.filter_filter, ← hf]
    congr 1
    refine List.filter_congr fun b _ => ?_
    rw [Bool.eq_iff_iff, Bool.and_eq_true, decide_eq_true_eq, decide_eq_true_eq]
    exact ⟨fun h => h.1, fun h => ⟨h, h.trans_le hr⟩⟩

theorem offeredList {u : UnitCell ℝ} {d c : ℝ} {box : Box ℝ} {points : List (Vec3 ℝ)} {n : NList ℝ}
    (hs : PeriodicSystem box points points) (h : Offered u d c box points n) :
    ∃ r, c * d < r ∧ BelowHalf box r ∧ OfferedList box points r n := by
  obtain ⟨s, arg, r, hm, hr, hhalf, harg, hn⟩ := h.neighbors
  refine ⟨r, hr, hhalf, ?_⟩
  obtain ⟨h1, h2⟩ := madeFrom_box hm
  have hall : ∀ order : List ℕ, order.Perm (List.range points.length) → Filter.Unfiltered s none .nothing
      (allPairs box (fun i => points.getD i 0) (fun j => points.getD j 0) true points.length points.length order) := by
    intro order ho
    unfold Filter.Unfiltered
    rw [h1, h2]
    exact ⟨order, ho, rfl⟩
  have hp := C17_all_pairs box (fun i => points.getD i 0) (fun i => points.getD i 0) true points.length points.length
  rcases harg with rfl | ⟨r', rfl, hrr, hhalf'⟩
  · unfold Filter.Unfiltered at hn
    rw [h1, h2] at hn
    obtain ⟨order, ho, rfl⟩ := hn
    have hb := hp order ho
    refine ⟨allPairs_good _ _ _ _ _ _ _ ho h.size, rfl, rfl, fun b hb' => ?_, ?_⟩
    · exact List.mem_map_of_mem (by rw [← show _ = pairsOf box points from hb]; exact hb')
    · have hb' : (allPairs box (fun i => points.getD i 0) (fun j => points.getD j 0) true points.length points.length
        order).bonds = pairsOf box points := hb
      show (List.map columns (List.filter _ (allPairs box (fun i => points.getD i 0) (fun j => points.getD j 0) true
        points.length points.length order).bonds)).Perm _
      rw [hb']
  · obtain ⟨w, g, -, e1, e2⟩ := C65_unfiltered s box points none hm hs h.size r' hhalf' n _ hn
      (hall _ (List.Perm.refl _))
    exact Within.offered hrr (hp _ (List.Perm.refl _)) e1 e2 w g

/-- The particles offered to particle `i` that are nearer than `t`. -/
theorem OfferedList.indices {box : Box ℝ} {points : List (Vec3 ℝ)} {r : ℝ} {n : NList ℝ} (h : OfferedList box points r n)
    {t : ℝ} (ht : t ≤ r) {i : ℕ} (hi : i < points.length) :
    (((bondsOf n i).filter fun b => b.dist < t).map Bond.p).Nodup ∧
    ∀ j, j ∈ ((bondsOf n i).filter fun b => b.dist < t).map Bond.p ↔
      j < points.length ∧ i ≠ j ∧ (between box points i j).norm < t := by
  have e : ∀ l : List (Bond ℝ), ((l.filter fun b => b.q = i).filter fun b => decide (b.dist < t)).map Bond.p =
      ((((l.filter fun b => decide (b.dist < r)).map columns).filter fun k => decide (k.1 = i) && decide (k.2.2.2 < t)).map
        fun k => k.2.1) := by
    intro l
    rw [List.filter_map, List.map_map, List.filter_filter, List.filter_filter]
    refine congrArg₂ _ rfl (List.filter_congr fun b _ => ?_)
    simp only [Function.comp_apply, columns]
    by_cases h1 : b.dist < t
    · simp only [h1, h1.trans_le ht, decide_true, Bool.true_and, Bool.and_true]
      congr
    · simp [h1]
  have hp : (((bondsOf n i).filter fun b => b.dist < t).map Bond.p).Perm
      ((((pairsOf box points).filter fun b => b.q = i).filter fun b => decide (b.dist < t)).map Bond.p) := by
    unfold bondsOf
    rw [e, e]
    exact (h.near.filter _).map _
  refine ⟨hp.nodup_iff.mpr ?_, fun j => ?_⟩
  · have hn := pairs_nodup box points
    unfold List.Nodup at hn ⊢
    rw [List.pairwise_map] at hn ⊢
    rw [List.filter_filter, List.pairwise_filter]
    refine hn.imp fun {a b} hne h1 h2 e => hne ?_
    simp only [Bool.and_eq_true, decide_eq_true_eq] at h1 h2
    rw [h1.2, h2.2, e]
  · rw [hp.mem_iff, List.mem_map]
    simp only [List.mem_filter, decide_eq_true_eq]
    constructor
    · rintro ⟨b, ⟨⟨hb, hq⟩, ht⟩, rfl⟩
      obtain ⟨-, h2, h3, -, h5⟩ := mem_pairs.mp (List.mem_map_of_mem (f := columns) hb)
      simp only [columns, hq] at h2 h3 h5
      exact ⟨h2, h3, by rw [← h5]; exact ht⟩
    · rintro ⟨h1, h2, h3⟩
      obtain ⟨b, hb, e⟩ := List.mem_map.mp (mem_pairs (box := box).mpr
        (show (i, j, (1 : ℝ), (between box points i j).norm).1 < points.length ∧ _ from ⟨hi, h1, h2, rfl, rfl⟩))
      simp only [columns, Prod.mk.injEq] at e
      exact ⟨b, ⟨⟨hb, e.1⟩, by rw [e.2.2.2]; exact h3⟩, e.2.1⟩

namespace Generated
variable {u : UnitCell ℝ} {c : ℝ} {k : Vec3 ℤ} {t : Vec3 ℝ} {box : Box ℝ} {points : List (Vec3 ℝ)}

/-- A short wrapped vector between particles, as a bond of a query. -/
theorem query_between (g : Generated u c k t box points) {r : ℝ} (hr : BelowHalf box r) {i j : ℕ}
    (hi : i < points.length) (v : Vec3 ℝ) : IsQueryBond box points points r 0 true ⟨i, j, Vec3.norm v, 1, v⟩ ↔
      j < points.length ∧ i ≠ j ∧ (between box points i j).norm < r ∧ v = -between box points i j := by
  have hs := g.system
  have hget : ∀ (i : ℕ) (hi : i < points.length), points.getD i 0 = points[i] := by
    intro i hi
    rw [List.getD_eq_getElem?_getD, List.getElem?_eq_getElem hi, Option.getD_some]
  have hpl : ∀ q ∈ points, ∀ p ∈ points, Planar box (q - p) := fun q hq p hp =>
    planar_sub (inCell_planar hs.inBox.valid (hs.query q hq)) (inCell_planar hs.inBox.valid (hs.inBox.inside p hp))
  have hsub : ∀ p q : Vec3 ℝ, -(p - q) = q - p := by
    intro p q
    ext <;> simp
  have hneg : ∀ v : Vec3 ℝ, - -v = v := by
    intro v
    ext <;> simp
  constructor
  · rintro ⟨q, hq, -, -, -, hne, -, hlt, p, hp, him⟩
    dsimp only at *
    obtain ⟨hj, rfl⟩ := List.getElem?_eq_some_iff.mp hp
    rw [List.getElem?_eq_getElem hi] at hq
    cases hq
    have him' := isImage_neg him
    rw [hsub] at him'
    have hw := (wrap_of_short hs.inBox.valid hr (hpl _ (List.getElem_mem hi) _ (List.getElem_mem hj)) him'
      (by rw [norm_neg_vec]; exact hlt)).1
    have e : between box points i j = -v := by rw [between, hget i hi, hget j hj, hw]
    refine ⟨hj, fun h => hne rfl h.symm, ?_, ?_⟩
    · rw [e, norm_neg_vec]; exact hlt
    · rw [e, hneg]
  · rintro ⟨hj, hne, hlt, rfl⟩
    obtain ⟨m, hm, hw⟩ := (C01_wrap_in_box box hs.inBox.valid _
      (hpl _ (List.getElem_mem hi) _ (List.getElem_mem hj))).1
    have him := isImage_neg ⟨m, hm, hw⟩
    rw [hsub] at him
    refine ⟨points[i], List.getElem?_eq_getElem hi, rfl, rfl, rfl, fun _ h => hne h.symm, norm_nonneg' _, ?_,
      points[j], List.getElem?_eq_getElem hj, ?_⟩
    · dsimp only; rw [norm_neg_vec]; exact hlt
    · dsimp only; rw [between, hget i hi, hget j hj]; exact him

/-- The particles offered to particle `i` of a crystal are at sites of the crystal around it. -/
theorem offered_sites (g : Generated u c k t box points) {r d : ℝ} {n : NList ℝ} (h : OfferedList box points r n)
    (hr : BelowHalf box r) (hd : c * d < r) {i : ℕ} (hi : i < points.length) : ∃ f ∈ u.basis,
    (∀ vs : List (Vec3 ℝ), vs.Nodup → (∀ s, s ∈ vs ↔ SiteVector u f s ∧ s ≠ ⟨0, 0, 0⟩ ∧ Vec3.norm s < d) →
      (((bondsOf n i).filter fun b => b.dist < c * d).map fun b => -between box points i b.p).Perm
        (vs.map (Vec3.smul c))) ∧
    (∀ b ∈ bondsOf n i, b.dist = (between box points i b.p).norm ∧
      ∃ s, SiteVector u f s ∧ s ≠ ⟨0, 0, 0⟩ ∧ -between box points i b.p = Vec3.smul c s) ∧
    ∀ s, SiteVector u f s → s ≠ ⟨0, 0, 0⟩ → c * Vec3.norm s < r →
      ∃ b ∈ bondsOf n i, -between box points i b.p = Vec3.smul c s := by
  obtain ⟨f, hf, hb, hsite⟩ := g.surroundings i hi
  have hs := g.system
  refine ⟨f, hf, fun vs hvs hmem => ?_, fun b hb' => ?_, fun s h1 h2 h3 => ?_⟩
  · obtain ⟨hn, hj⟩ := h.indices hd.le hi
    have hhalf : BelowHalf box (c * d) := ⟨fun h => by linarith [hr.1 h], fun h => by linarith [hr.2.1 h],
      fun h h' => by linarith [hr.2.2 h h']⟩
    rw [show (fun b : Bond ℝ => -between box points i b.p) = (fun j => -between box points i j) ∘ Bond.p from rfl,
      ← List.map_map, List.perm_ext_iff_of_nodup]
    · intro v
      have hq := hb (c * d) v hhalf
      simp only [g.query_between hhalf hi] at hq
      constructor
      · intro hv
        obtain ⟨j, hj', rfl⟩ := List.mem_map.mp hv
        obtain ⟨a1, a2, a3⟩ := (hj j).mp hj'
        obtain ⟨s, b1, b2, b3, b4⟩ := hq.mp ⟨j, a1, a2, a3, rfl⟩
        refine List.mem_map.mpr ⟨s, (hmem s).mpr ⟨b1, b2, ?_⟩, b3.symm⟩
        rw [b3, norm_smul_pos g.scale] at b4
        exact lt_of_mul_lt_mul_left b4 g.scale.le
      · intro hv
        obtain ⟨s, hs', rfl⟩ := List.mem_map.mp hv
        obtain ⟨b1, b2, b3⟩ := (hmem s).mp hs'
        obtain ⟨j, a1, a2, a3, a4⟩ := hq.mpr ⟨s, b1, b2, rfl, by
          rw [norm_smul_pos g.scale]; exact mul_lt_mul_of_pos_left b3 g.scale⟩
        exact List.mem_map.mpr ⟨j, (hj j).mpr ⟨a1, a2, a3⟩, a4.symm⟩
    · refine hn.map_on fun j h1 j' h2 e => ?_
      obtain ⟨a1, a2, a3⟩ := (hj j).mp h1
      obtain ⟨b1, b2, b3⟩ := (hj j').mp h2
      have q1 := (g.query_between hhalf hi (j := j) (-between box points i j)).mpr ⟨a1, a2, a3, rfl⟩
      have q2 := (g.query_between hhalf hi (j := j') (-between box points i j)).mpr ⟨b1, b2, b3, e⟩
      exact congrArg Bond.p (g.bond_eq q1 q2 rfl rfl)
    · exact hvs.map_on fun x _ y _ e => smul_inj g.scale e
  · obtain ⟨hb1, hq⟩ := List.mem_filter.mp hb'
    rw [decide_eq_true_eq] at hq
    obtain ⟨-, h2, h3, -, h5⟩ := mem_pairs.mp (h.all b hb1)
    simp only [columns, hq] at h2 h3 h5
    refine ⟨h5, ?_⟩
    have hget : ∀ (i : ℕ) (hi : i < points.length), points.getD i 0 = points[i] := by
      intro i hi
      rw [List.getD_eq_getElem?_getD, List.getElem?_eq_getElem hi, Option.getD_some]
    refine hsite b.p points[b.p] _ (List.getElem?_eq_getElem h2) (fun e => h3 e.symm) ?_
    rw [between, hget i hi, hget _ h2]
    obtain ⟨m, hm, hw⟩ := (C01_wrap_in_box box hs.inBox.valid (points[i] - points[b.p]) (planar_sub
      (inCell_planar hs.inBox.valid (hs.query _ (List.getElem_mem hi)))
      (inCell_planar hs.inBox.valid (hs.inBox.inside _ (List.getElem_mem h2))))).1
    have him := isImage_neg ⟨m, hm, hw⟩
    rwa [show -(points[i] - points[b.p]) = points[b.p] - points[i] by ext <;> simp] at him
  · have hq := (hb r (Vec3.smul c s) hr).mpr ⟨s, h1, h2, rfl, by rw [norm_smul_pos g.scale]; exact h3⟩
    simp only [g.query_between hr hi] at hq
    obtain ⟨j, a1, a2, a3, a4⟩ := hq
    obtain ⟨b, hb', e⟩ := List.mem_map.mp (((h.indices le_rfl hi).2 j).mpr ⟨a1, a2, a3⟩)
    exact ⟨b, (List.mem_filter.mp hb').1, by rw [e, ← a4]⟩

end Generated

end Freud
