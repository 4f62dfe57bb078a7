import Verif.Model.LocalDescriptors
import Verif.Spec.LocalDescriptors
import Verif.Lemmas.BondOrder
import Verif.Props.NeighborLoop
import Verif.Props.Quat
import Verif.Props.Nematic

/-!
# Lemmas about local descriptors
-/

namespace Freud
namespace LocalDescriptors
open Spec

section
variable {K : Type*}

theorem visited_eq (n : NList K) (i maxN bond count : ℕ) :
    visited n i maxN bond count = List.range' bond
      (min (maxN - count) ((n.bonds.drop bond).takeWhile (fun b => decide (b.q = i))).length) := by
  obtain ⟨m, hm⟩ : ∃ m, m = n.bonds.length - bond := ⟨_, rfl⟩
  induction m generalizing bond count with
  | zero =>
    rw [visited, dif_neg (by omega), List.drop_eq_nil_of_le (by omega)]
    simp
  | succ m ih =>
    have hlt : bond < n.bonds.length := by omega
    rw [visited, dif_pos hlt, List.drop_eq_getElem_cons hlt]
    by_cases hq : n.bonds[bond].q = i
    · rw [List.takeWhile_cons_of_pos (by simpa using hq), List.length_cons]
      by_cases hc : count < maxN
      · rw [if_pos ⟨hq, hc⟩, ih (bond + 1) (count + 1) (by omega)]
        have : min (maxN - count) (((n.bonds.drop (bond + 1)).takeWhile
            (fun b => decide (b.q = i))).length + 1) = min (maxN - (count + 1))
            ((n.bonds.drop (bond + 1)).takeWhile (fun b => decide (b.q = i))).length + 1 := by omega
        rw [this, List.range'_succ]
      · rw [if_neg (fun h => hc h.2), show maxN - count = 0 by omega]
        simp
    · rw [if_neg (fun h => hq h.1), List.takeWhile_cons_of_neg (by simpa using hq)]
      simp

end

variable {K : Type*} [Field K] [LinearOrder K] [IsStrictOrderedRing K]

theorem first_split (n : NList K) (h : GoodList n) (i : ℕ) :
    (n.bonds.take (n.findFirstIndex i)).filter (fun b => decide (b.q = i)) = [] ∧
    (n.bonds.drop (n.findFirstIndex i)).takeWhile (fun b => decide (b.q = i)) =
      n.bonds.filter (fun b => decide (b.q = i)) := by
  obtain ⟨h1, h2⟩ := C15_find_first_index n h i
  have hA : (n.bonds.take (n.findFirstIndex i)).filter (fun b => decide (b.q = i)) = [] := by
    rw [List.filter_eq_nil_iff]
    intro b hb hq
    obtain ⟨k, hk, e⟩ := List.getElem_of_mem hb
    rw [List.length_take] at hk
    rw [List.getElem_take] at e
    have := (h2 k b (by rw [List.getElem?_eq_getElem (by omega), e])).mpr
      (of_decide_eq_true hq).ge
    omega
  refine ⟨hA, ?_⟩
  have hD : ∀ b ∈ n.bonds.drop (n.findFirstIndex i), i ≤ b.q := by
    intro b hb
    obtain ⟨k, hk, e⟩ := List.getElem_of_mem hb
    rw [List.length_drop] at hk
    rw [List.getElem_drop] at e
    exact (h2 (n.findFirstIndex i + k) b (by rw [List.getElem?_eq_getElem (by omega), e])).mp
      (by omega)
  have hsD : ((n.bonds.drop (n.findFirstIndex i)).map (·.q)).Pairwise (· ≤ ·) := by
    rw [List.map_drop]; exact h.sorted.sublist (List.drop_sublist _ _)
  conv_rhs => rw [← List.take_append_drop (n.findFirstIndex i) n.bonds, List.filter_append, hA,
    List.nil_append]
  exact takeWhile_eq_filter i _ hD hsD

/-- The bonds visited for point `i` are its first `maxN` bonds. -/
theorem visited_bonds (n : NList K) (h : GoodList n) (i maxN : ℕ) (d : Bond K) :
    (visited n i maxN (n.findFirstIndex i) 0).map (fun k => n.bonds.getD k d) =
      (n.bonds.filter (fun b => decide (b.q = i))).take maxN := by
  rw [visited_eq, Nat.sub_zero, (first_split n h i).2]
  have hpre := List.takeWhile_prefix (fun b : Bond K => decide (b.q = i))
    (l := n.bonds.drop (n.findFirstIndex i))
  rw [(first_split n h i).2] at hpre
  obtain ⟨t, ht⟩ := hpre
  generalize hF : n.bonds.filter (fun b => decide (b.q = i)) = F at ht
  apply List.ext_getElem?
  intro j
  rw [List.getElem?_map, List.getElem?_take]
  by_cases hj : j < min maxN F.length
  · rw [if_pos (by omega), List.getElem?_range' hj, Option.map_some]
    have hjF : j < F.length := by omega
    have e1 : n.bonds[n.findFirstIndex i + j]? = F[j]? := by
      rw [← List.getElem?_drop, ← ht, List.getElem?_append_left hjF]
    rw [List.getD_eq_getElem?_getD, Nat.one_mul, e1, List.getElem?_eq_getElem hjF]
    rfl
  · rw [List.getElem?_eq_none (by simp; omega)]
    split_ifs
    · rw [List.getElem?_eq_none (by omega)]; rfl
    · rfl

theorem mem_visited (n : NList ℝ) (h : GoodList n) (i maxN k : ℕ) (b : Bond ℝ)
    (hk : n.bonds[k]? = some b) :
    k ∈ visited n i maxN (n.findFirstIndex i) 0 ↔ b.q = i ∧ rank n.bonds k b < maxN := by
  obtain ⟨hA, hT⟩ := first_split n h i
  obtain ⟨h1, h2⟩ := C15_find_first_index n h i
  have hkl : k < n.bonds.length := (List.getElem?_eq_some_iff.mp hk).1
  have hpre := List.takeWhile_prefix (fun b : Bond ℝ => decide (b.q = i))
    (l := n.bonds.drop (n.findFirstIndex i))
  rw [hT] at hpre
  obtain ⟨t, ht⟩ := hpre
  rw [visited_eq, Nat.sub_zero, hT, List.mem_range'_1]
  set c := n.findFirstIndex i
  generalize hF : n.bonds.filter (fun b => decide (b.q = i)) = F at *
  have hFq : ∀ x ∈ F, x.q = i := by
    intro x hx; rw [← hF] at hx; simpa using (List.mem_filter.mp hx).2
  have hdrop : ∀ j, n.bonds[c + j]? = (F ++ t)[j]? := by
    intro j; rw [ht, List.getElem?_drop]
  constructor
  · rintro ⟨hc, hlt⟩
    have hj : k - c < F.length := by omega
    have hb : F[k - c]? = some b := by
      have := hdrop (k - c)
      rw [show c + (k - c) = k by omega, hk, List.getElem?_append_left hj] at this
      exact this.symm
    have hq := hFq b (List.mem_of_getElem? hb)
    refine ⟨hq, ?_⟩
    unfold rank
    have : n.bonds.take k = n.bonds.take c ++ F.take (k - c) := by
      conv_lhs => rw [show k = c + (k - c) by omega, List.take_add, ← ht]
      rw [List.take_append_of_le_length hj.le]
    rw [this, List.filter_append, hq, hA, List.nil_append,
      List.filter_eq_self.mpr (fun x hx => by simpa using hFq x (List.mem_of_mem_take hx)),
      List.length_take]
    omega
  · rintro ⟨hq, hr⟩
    have hc : c ≤ k := (h2 k b hk).mpr hq.ge
    have hj : k - c < F.length := by
      by_contra hge
      have hmem : b ∈ t := by
        have := hdrop (k - c)
        rw [show c + (k - c) = k by omega, hk, List.getElem?_append_right (by omega)] at this
        exact List.mem_of_getElem? this.symm
      have hall : (n.bonds.filter (fun b => decide (b.q = i))).length =
          F.length + (t.filter (fun b => decide (b.q = i))).length := by
        conv_lhs => rw [← List.take_append_drop c n.bonds, List.filter_append, hA, ← ht]
        rw [List.nil_append, List.filter_append,
          List.filter_eq_self.mpr (fun x hx => by simpa using hFq x hx), List.length_append]
      rw [hF] at hall
      have : 0 < (t.filter (fun b => decide (b.q = i))).length :=
        List.length_pos_of_mem (List.mem_filter.mpr ⟨hmem, by simpa using hq⟩)
      omega
    unfold rank at hr
    have : n.bonds.take k = n.bonds.take c ++ F.take (k - c) := by
      conv_lhs => rw [show k = c + (k - c) by omega, List.take_add, ← ht]
      rw [List.take_append_of_le_length hj.le]
    rw [this, List.filter_append, hq, hA, List.nil_append,
      List.filter_eq_self.mpr (fun x hx => by simpa using hFq x (List.mem_of_mem_take hx)),
      List.length_take] at hr
    omega

theorem updates_eq (l : List ℕ) (f : ℕ → List ℂ) (arr : ℕ → List ℂ) (k : ℕ) :
    l.foldl (fun arr k => Function.update arr k (f k)) arr k = if k ∈ l then f k else arr k := by
  induction l generalizing arr with
  | nil => simp
  | cons a l ih =>
    rw [List.foldl_cons, ih]
    by_cases hk : k ∈ l
    · simp [hk]
    · rw [if_neg hk]
      by_cases hka : k = a
      · subst hka; simp
      · rw [Function.update_of_ne hka]; simp [hk, hka]

/-- All points together. -/
theorem fold_eq (sph : Sph) (n : NList ℝ) (h : GoodList n) (maxN : ℕ) (fr : ℕ → Option (Mat3 ℝ))
    (g : ℕ → Mat3 ℝ) (order : List ℕ) (hfr : ∀ i ∈ order, fr i = some (g i)) (hnd : order.Nodup) :
    ∀ arr : ℕ → List ℂ, ∃ arr', order.foldlM (fun (arr : ℕ → List ℂ) i => (fr i).map fun m =>
      (visited n i maxN (n.findFirstIndex i) 0).foldl
        (fun arr k => Function.update arr k (row sph m n k)) arr) arr = some arr' ∧
      ∀ k b, n.bonds[k]? = some b → arr' k =
        if b.q ∈ order ∧ rank n.bonds k b < maxN then row sph (g b.q) n k else arr k := by
  induction order with
  | nil => intro arr; exact ⟨arr, rfl, fun k b _ => by simp⟩
  | cons i is ih =>
    intro arr
    rw [List.nodup_cons] at hnd
    obtain ⟨arr', e, h'⟩ := ih (fun j hj => hfr j (List.mem_cons_of_mem _ hj)) hnd.2
      ((visited n i maxN (n.findFirstIndex i) 0).foldl
        (fun arr k => Function.update arr k (row sph (g i) n k)) arr)
    refine ⟨arr', ?_, fun k b hk => ?_⟩
    · rw [List.foldlM_cons, hfr i List.mem_cons_self]
      exact e
    · rw [h' k b hk, updates_eq]
      have hm := mem_visited n h i maxN k b hk
      by_cases h1 : b.q ∈ is ∧ rank n.bonds k b < maxN
      · rw [if_pos h1, if_pos ⟨List.mem_cons_of_mem _ h1.1, h1.2⟩]
      · rw [if_neg h1]
        by_cases h2 : b.q = i ∧ rank n.bonds k b < maxN
        · rw [if_pos (hm.mpr h2), if_pos ⟨by rw [h2.1]; exact List.mem_cons_self, h2.2⟩, h2.1]
        · rw [if_neg (fun hv => h2 (hm.mp hv)), if_neg]
          rintro ⟨h3, h4⟩
          rcases List.mem_cons.mp h3 with h5 | h5
          · exact h2 ⟨h5, h4⟩
          · exact h1 ⟨h5, h4⟩

theorem spherical_one {v : Vec3 ℝ} (h : v ≠ ⟨0, 0, 0⟩) :
    spherical 1 (BondOrder.theta v) (BondOrder.phi v) = directionOf v := by
  obtain ⟨r, hr, hv⟩ := BondOrder.spherical_angles h
  have hn : Real.sqrt (Vec3.dot v v) = r := by
    have h2 : Vec3.dot v v = r ^ 2 := by
      rw [hv]
      simp only [spherical, Vec3.dot]
      generalize BondOrder.theta v = t
      generalize BondOrder.phi v = p
      have h1 := Real.sin_sq_add_cos_sq t
      have h2 := Real.sin_sq_add_cos_sq p
      linear_combination (r ^ 2 * Real.sin p ^ 2) * h1 + r ^ 2 * h2
    rw [h2, Real.sqrt_sq hr.le]
  unfold directionOf
  rw [if_neg h, hn]
  conv_rhs => rw [hv]
  ext <;> simp only [spherical, Vec3.smul] <;> field_simp

/-- The row of a bond in a frame that keeps lengths. -/
theorem row_eq (sph : Sph) (Y : Vec3 ℝ → List ℂ) (w : ℕ) (hY : SphOK sph Y w) (n : NList ℝ) (k : ℕ) (b : Bond ℝ)
    (hk : n.bonds[k]? = some b) (hd : b.dist = Real.sqrt (Vec3.dot b.vec b.vec)) (m : Mat3 ℝ)
    (hm : Vec3.dot (m.mulVec b.vec) (m.mulVec b.vec) = Vec3.dot b.vec b.vec) :
    row sph m n k = Y (directionOf (m.mulVec b.vec)) := by
  unfold row vec
  rw [List.getD_eq_getElem?_getD, hk, Option.getD_some]
  show sph (polar (m.mulVec b.vec) b.dist) (BondOrder.theta (m.mulVec b.vec)) = _
  rw [hd, ← hm, hY.value]
  generalize m.mulVec b.vec = v
  congr 1
  by_cases h0 : v = ⟨0, 0, 0⟩
  · subst h0
    rw [BondOrder.theta_zero]
    simp [polar, Vec3.dot, directionOf, spherical]
  · rw [← spherical_one h0]
    congr 1
    have hp := BondOrder.dot_pos h0
    have hdd : Vec3.dot v v = v.x ^ 2 + v.y ^ 2 + v.z ^ 2 := by simp only [Vec3.dot]; ring
    have hr : 0 < Real.sqrt (Vec3.dot v v) := Real.sqrt_pos.mpr (by rw [hdd]; exact hp)
    unfold polar
    rw [if_neg, BondOrder.phi]
    rintro (h | h)
    · exact hr.ne' h
    · rw [abs_div, abs_of_pos hr, lt_div_iff₀ hr, one_mul] at h
      have : Real.sqrt (Vec3.dot v v) ^ 2 = Vec3.dot v v := Real.sq_sqrt (by rw [hdd]; exact hp.le)
      have h2 : Real.sqrt (Vec3.dot v v) ^ 2 < |v.z| ^ 2 := by gcongr
      rw [this, sq_abs, hdd] at h2
      nlinarith [sq_nonneg v.x, sq_nonneg v.y]

theorem tensor_fold (l : List (Vec3 ℝ)) (t : List ℝ) (ht : t.length = 9) :
    (l.foldl addTensor t).length = 9 ∧ ∀ a < 3, ∀ c < 3, (l.foldl addTensor t).getD (3 * a + c) 0 =
      t.getD (3 * a + c) 0 + (l.map fun r => (if a = c then Vec3.dot r r else 0) -
        coord r a * coord r c).sum := by
  induction l generalizing t with
  | nil => exact ⟨ht, by simp⟩
  | cons r l ih =>
    rw [List.foldl_cons]
    obtain ⟨h1, h2⟩ := ih (addTensor t r) (by simp [addTensor])
    refine ⟨h1, fun a ha c hc => ?_⟩
    rw [h2 a ha c hc, List.map_cons, List.sum_cons, ← add_assoc]
    congr 1
    rcases (by omega : a = 0 ∨ a = 1 ∨ a = 2) with rfl | rfl | rfl <;>
      rcases (by omega : c = 0 ∨ c = 1 ∨ c = 2) with rfl | rfl | rfl <;>
      simp [addTensor, coord] <;> ring

theorem inertia_symm (l : List (Bond ℝ)) (a c : ℕ) : inertiaOf l a c = inertiaOf l c a := by
  unfold inertiaOf
  congr 1
  apply List.map_congr_left
  intro b _
  rw [mul_comm]
  simp only [eq_comm]

/-- The frame in the mode `neighborhood`. -/
theorem frame_neighborhood (solve : Nematic.Solver) (hs : SolverOK solve) (ori : List (Quat ℝ))
    (n : NList ℝ) (h : GoodList n) (maxN i : ℕ) :
    ∃ axes moments, Decomposition
        (inertiaOf ((n.bonds.filter (fun b => decide (b.q = i))).take maxN)) moments axes ∧
      frame solve .neighborhood ori n maxN i = some ⟨axes 0, axes 1, axes 2⟩ := by
  set t := (visited n i maxN (n.findFirstIndex i) 0).foldl (fun t k => addTensor t (vec n k))
      (List.replicate 9 0) with ht
  set l := (n.bonds.filter (fun b => decide (b.q = i))).take maxN with hl
  have htl : t = (l.map (·.vec)).foldl addTensor (List.replicate 9 0) := by
    rw [hl, ← visited_bonds n h i maxN ⟨0, 0, 0, 0, ⟨0, 0, 0⟩⟩, List.map_map, List.foldl_map]
    rfl
  have hm : ∀ a < 3, ∀ c < 3, t.getD (3 * a + c) 0 = inertiaOf l a c := by
    intro a ha c hc
    rw [htl, (tensor_fold _ _ (by simp)).2 a ha c hc, List.map_map]
    have : (List.replicate 9 (0 : ℝ)).getD (3 * a + c) 0 = 0 := by
      rw [List.getD_eq_getElem?_getD, List.getElem?_replicate]
      split_ifs <;> rfl
    rw [this, zero_add]
    rfl
  obtain ⟨vals, vecs, e, hd⟩ := hs (fun r c => t.getD (3 * c + r) 0) (fun r hr c hc => by
    rw [hm c hc r hr, hm r hr c hc, inertia_symm])
  refine ⟨vecs, vals, ⟨hd.ascending, hd.orthonormal, fun j hj r hr => ?_⟩, ?_⟩
  · have := hd.eigen j hj r hr
    simp only [hm 0 (by omega) r hr, hm 1 (by omega) r hr, hm 2 (by omega) r hr] at this
    rw [inertia_symm l r 0, inertia_symm l r 1, inertia_symm l r 2]
    exact this
  · unfold frame
    simp only [← ht, Nematic.diagonalize, e]
    rfl

theorem ofQuat_conj_rows (q : Quat ℝ) : Mat3.ofQuat (Quat.conj q) =
    ⟨Quat.rotate q (cartesian 0), Quat.rotate q (cartesian 1), Quat.rotate q (cartesian 2)⟩ := by
  ext <;> simp only [cartesian] <;> quat_simp <;> ring

/-- The frame in every mode. -/
theorem frame_axes (solve : Nematic.Solver) (hs : SolverOK solve) (mode : Mode) (ori : List (Quat ℝ))
    (n : NList ℝ) (h : GoodList n) (maxN i : ℕ)
    (hori : mode = .particleLocal → ∃ q, ori[i]? = some q ∧ Quat.norm2 q = 1) :
    ∃ axes, AxesOf mode ((n.bonds.filter (fun b => decide (b.q = i))).take maxN) ori[i]? axes ∧
      (∀ j < 3, ∀ k < 3, Vec3.dot (axes j) (axes k) = if j = k then 1 else 0) ∧
      frame solve mode ori n maxN i = some ⟨axes 0, axes 1, axes 2⟩ := by
  have hcart : ∀ j < 3, ∀ k < 3, Vec3.dot (cartesian j) (cartesian k) = if j = k then 1 else 0 := by
    intro j hj k hk
    rcases (by omega : j = 0 ∨ j = 1 ∨ j = 2) with rfl | rfl | rfl <;>
      rcases (by omega : k = 0 ∨ k = 1 ∨ k = 2) with rfl | rfl | rfl <;>
      norm_num [cartesian, Vec3.dot]
  cases mode with
  | neighborhood =>
    obtain ⟨axes, moments, hd, e⟩ := frame_neighborhood solve hs ori n h maxN i
    exact ⟨axes, ⟨moments, hd⟩, hd.orthonormal, e⟩
  | global => exact ⟨cartesian, fun _ _ => rfl, hcart, rfl⟩
  | particleLocal =>
    obtain ⟨q, hq, hu⟩ := hori rfl
    refine ⟨fun j => Quat.rotate q (cartesian j), ⟨q, hq, fun _ _ => rfl⟩, ?_, ?_⟩
    · intro j hj k hk
      rw [(C53_rotate_is_rotation q hu).1, hcart j hj k hk]
    · unfold frame
      rw [hq]
      show some (Mat3.ofQuat (Quat.conj q)) = _
      rw [ofQuat_conj_rows]

theorem along_norm (axes : ℕ → Vec3 ℝ)
    (ho : ∀ j < 3, ∀ k < 3, Vec3.dot (axes j) (axes k) = if j = k then 1 else 0) (v : Vec3 ℝ) :
    Vec3.dot (along axes v) (along axes v) = Vec3.dot v v := by
  have := (Nematic.parseval axes ho v).1
  rw [← this]
  simp only [along, Vec3.dot]
  ring

/-- The product of the tensor with a vector, summed over the bonds. -/
noncomputable def inertiaApply (l : List (Bond ℝ)) (d : Vec3 ℝ) : Vec3 ℝ :=
  l.foldr (fun b acc => acc + (Vec3.smul (Vec3.dot b.vec b.vec) d -
    Vec3.smul (Vec3.dot b.vec d) b.vec)) 0

theorem inertia_apply (l : List (Bond ℝ)) (d : Vec3 ℝ) (r : ℕ) (hr : r < 3) :
    inertiaOf l r 0 * d.x + inertiaOf l r 1 * d.y + inertiaOf l r 2 * d.z =
      coord (inertiaApply l d) r := by
  induction l with
  | nil =>
    rcases (by omega : r = 0 ∨ r = 1 ∨ r = 2) with rfl | rfl | rfl <;>
      simp [inertiaOf, inertiaApply, coord]
  | cons b l ih =>
    have hc : ∀ c, inertiaOf (b :: l) r c = (if r = c then Vec3.dot b.vec b.vec else 0) -
        coord b.vec r * coord b.vec c + inertiaOf l r c := fun c => by
      unfold inertiaOf; rw [List.map_cons, List.sum_cons]
    have ha : inertiaApply (b :: l) d = inertiaApply l d + (Vec3.smul (Vec3.dot b.vec b.vec) d -
      Vec3.smul (Vec3.dot b.vec d) b.vec) := rfl
    rw [hc, hc, hc, ha]
    have hadd : ∀ u w : Vec3 ℝ, coord (u + w) r = coord u r + coord w r := by
      intro u w
      rcases (by omega : r = 0 ∨ r = 1 ∨ r = 2) with rfl | rfl | rfl <;> rfl
    rw [hadd, ← ih]
    rcases (by omega : r = 0 ∨ r = 1 ∨ r = 2) with rfl | rfl | rfl <;>
      simp [coord, Vec3.dot] <;> ring

theorem rotate_zero' (R : Quat ℝ) : Quat.rotate R 0 = 0 := by
  ext <;> quat_simp <;> simp

theorem rotate_lin (R : Quat ℝ) (u v w : Vec3 ℝ) (a b : ℝ) :
    Quat.rotate R (u + (Vec3.smul a v - Vec3.smul b w)) =
      Quat.rotate R u + (Vec3.smul a (Quat.rotate R v) - Vec3.smul b (Quat.rotate R w)) := by
  ext <;> quat_simp <;> ring

theorem inertiaApply_rotate (R : Quat ℝ) (hR : Quat.norm2 R = 1) (l : List (Bond ℝ)) (d : Vec3 ℝ) :
    inertiaApply (l.map (rotatedBond R)) (Quat.rotate R d) = Quat.rotate R (inertiaApply l d) := by
  induction l with
  | nil => exact (rotate_zero' R).symm
  | cons b l ih =>
    have ha : ∀ (b : Bond ℝ) (l : List (Bond ℝ)) (d : Vec3 ℝ), inertiaApply (b :: l) d =
      inertiaApply l d + (Vec3.smul (Vec3.dot b.vec b.vec) d -
      Vec3.smul (Vec3.dot b.vec d) b.vec) := fun _ _ _ => rfl
    rw [List.map_cons, ha, ha, ih, rotate_lin]
    simp only [rotatedBond, (C53_rotate_is_rotation R hR).1]

/-- Rotating the bonds rotates the principal axes. -/
theorem decomposition_rotate (R : Quat ℝ) (hR : Quat.norm2 R = 1) (l : List (Bond ℝ))
    (moments : ℕ → ℝ) (axes : ℕ → Vec3 ℝ) (h : Decomposition (inertiaOf l) moments axes) :
    Decomposition (inertiaOf (l.map (rotatedBond R))) moments (fun j => Quat.rotate R (axes j)) := by
  refine ⟨h.ascending, fun i hi j hj => ?_, fun i hi r hr => ?_⟩
  · rw [(C53_rotate_is_rotation R hR).1, h.orthonormal i hi j hj]
  · rw [inertia_apply _ _ _ hr, inertiaApply_rotate R hR]
    have he : inertiaApply l (axes i) = Vec3.smul (moments i) (axes i) := by
      have e0 := h.eigen i hi 0 (by omega)
      have e1 := h.eigen i hi 1 (by omega)
      have e2 := h.eigen i hi 2 (by omega)
      rw [inertia_apply _ _ _ (by omega)] at e0 e1 e2
      ext
      · exact e0
      · exact e1
      · exact e2
    rw [he]
    rcases (by omega : r = 0 ∨ r = 1 ∨ r = 2) with rfl | rfl | rfl <;> simp only [coord] <;>
      quat_simp <;> ring

theorem inertiaApply_symm (l : List (Bond ℝ)) (u v : Vec3 ℝ) :
    Vec3.dot u (inertiaApply l v) = Vec3.dot v (inertiaApply l u) := by
  induction l with
  | nil => simp [inertiaApply, Vec3.dot]
  | cons b l ih =>
    have ha : ∀ (d : Vec3 ℝ), inertiaApply (b :: l) d =
      inertiaApply l d + (Vec3.smul (Vec3.dot b.vec b.vec) d -
      Vec3.smul (Vec3.dot b.vec d) b.vec) := fun _ => rfl
    rw [ha, ha]
    simp only [Vec3.dot, Vec3.add_x, Vec3.add_y, Vec3.add_z, Vec3.sub_x, Vec3.sub_y, Vec3.sub_z,
      Vec3.smul_x, Vec3.smul_y, Vec3.smul_z] at ih ⊢
    linear_combination ih

/-- With distinct moments the principal axes are unique up to their signs. -/
theorem axes_unique (l : List (Bond ℝ)) (m₁ m₂ : ℕ → ℝ) (a₁ a₂ : ℕ → Vec3 ℝ)
    (h₁ : Decomposition (inertiaOf l) m₁ a₁) (h₂ : Decomposition (inertiaOf l) m₂ a₂)
    (h01 : m₁ 0 < m₁ 1) (h12 : m₁ 1 < m₁ 2) :
    ∃ s, Signs s ∧ ∀ j < 3, a₂ j = Vec3.smul (s j) (a₁ j) := by
  have app : ∀ (m : ℕ → ℝ) (a : ℕ → Vec3 ℝ), Decomposition (inertiaOf l) m a → ∀ i < 3,
      inertiaApply l (a i) = Vec3.smul (m i) (a i) := by
    intro m a h i hi
    have e0 := h.eigen i hi 0 (by omega)
    have e1 := h.eigen i hi 1 (by omega)
    have e2 := h.eigen i hi 2 (by omega)
    rw [inertia_apply _ _ _ (by omega)] at e0 e1 e2
    ext
    · exact e0
    · exact e1
    · exact e2
  have hc : ∀ i < 3, ∀ j < 3, (m₁ i - m₂ j) * Vec3.dot (a₂ j) (a₁ i) = 0 := by
    intro i hi j hj
    have := inertiaApply_symm l (a₂ j) (a₁ i)
    rw [app m₁ a₁ h₁ i hi, app m₂ a₂ h₂ j hj] at this
    simp only [Vec3.dot, Vec3.smul] at this ⊢
    linear_combination this
  have p₁ : ∀ j < 3, (Vec3.dot (a₂ j) (a₁ 0)) ^ 2 + (Vec3.dot (a₂ j) (a₁ 1)) ^ 2 +
      (Vec3.dot (a₂ j) (a₁ 2)) ^ 2 = 1 := by
    intro j hj
    rw [(Nematic.parseval a₁ h₁.orthonormal (a₂ j)).1, h₂.orthonormal j hj j hj, if_pos rfl]
  have comm : ∀ u v : Vec3 ℝ, Vec3.dot u v = Vec3.dot v u := fun u v => by
    simp only [Vec3.dot]; ring
  have p₂ : ∀ i < 3, (Vec3.dot (a₂ 0) (a₁ i)) ^ 2 + (Vec3.dot (a₂ 1) (a₁ i)) ^ 2 +
      (Vec3.dot (a₂ 2) (a₁ i)) ^ 2 = 1 := by
    intro i hi
    rw [comm (a₂ 0), comm (a₂ 1), comm (a₂ 2), (Nematic.parseval a₂ h₂.orthonormal (a₁ i)).1,
      h₁.orthonormal i hi i hi, if_pos rfl]
  have z : ∀ i < 3, ∀ j < 3, m₁ i ≠ m₂ j → Vec3.dot (a₂ j) (a₁ i) = 0 := fun i hi j hj hne =>
    (mul_eq_zero.mp (hc i hi j hj)).resolve_left (sub_ne_zero.mpr hne)
  have q0 : m₁ 0 = m₂ 0 := by
    apply le_antisymm
    · by_contra hlt
      push Not at hlt
      have := p₁ 0 (by omega)
      rw [z 0 (by omega) 0 (by omega) (by linarith), z 1 (by omega) 0 (by omega) (by linarith),
        z 2 (by omega) 0 (by omega) (by linarith)] at this
      norm_num at this
    · by_contra hlt
      push Not at hlt
      have := p₂ 0 (by omega)
      have a := h₂.ascending
      rw [z 0 (by omega) 0 (by omega) (by linarith), z 0 (by omega) 1 (by omega) (by linarith [a.1]),
        z 0 (by omega) 2 (by omega) (by linarith [a.1, a.2])] at this
      norm_num at this
  have q2 : m₁ 2 = m₂ 2 := by
    apply le_antisymm
    · by_contra hlt
      push Not at hlt
      have := p₂ 2 (by omega)
      have a := h₂.ascending
      rw [z 2 (by omega) 0 (by omega) (by linarith [a.1, a.2]),
        z 2 (by omega) 1 (by omega) (by linarith [a.2]),
        z 2 (by omega) 2 (by omega) (by linarith)] at this
      norm_num at this
    · by_contra hlt
      push Not at hlt
      have := p₁ 2 (by omega)
      rw [z 0 (by omega) 2 (by omega) (by linarith), z 1 (by omega) 2 (by omega) (by linarith),
        z 2 (by omega) 2 (by omega) (by linarith)] at this
      norm_num at this
  have z10 := z 1 (by omega) 0 (by omega) (by linarith)
  have z20 := z 2 (by omega) 0 (by omega) (by linarith)
  have z02 := z 0 (by omega) 2 (by omega) (by linarith)
  have z12 := z 1 (by omega) 2 (by omega) (by linarith)
  have c00 : (Vec3.dot (a₂ 0) (a₁ 0)) ^ 2 = 1 := by
    have := p₁ 0 (by omega); rw [z10, z20] at this; linarith
  have c22 : (Vec3.dot (a₂ 2) (a₁ 2)) ^ 2 = 1 := by
    have := p₁ 2 (by omega); rw [z02, z12] at this; linarith
  have c11 : (Vec3.dot (a₂ 1) (a₁ 1)) ^ 2 = 1 := by
    have := p₂ 1 (by omega); rw [z10, z12] at this; linarith
  have z01 : Vec3.dot (a₂ 1) (a₁ 0) = 0 := by
    have := p₂ 0 (by omega); rw [c00] at this
    have h1 : (Vec3.dot (a₂ 1) (a₁ 0)) ^ 2 = 0 := by
      nlinarith [sq_nonneg (Vec3.dot (a₂ 1) (a₁ 0)), sq_nonneg (Vec3.dot (a₂ 2) (a₁ 0))]
    exact pow_eq_zero_iff (by norm_num) |>.mp h1
  have z21 : Vec3.dot (a₂ 1) (a₁ 2) = 0 := by
    have := p₂ 2 (by omega); rw [c22] at this
    have h1 : (Vec3.dot (a₂ 1) (a₁ 2)) ^ 2 = 0 := by
      nlinarith [sq_nonneg (Vec3.dot (a₂ 1) (a₁ 2)), sq_nonneg (Vec3.dot (a₂ 0) (a₁ 2))]
    exact pow_eq_zero_iff (by norm_num) |>.mp h1
  refine ⟨fun j => if j < 3 then Vec3.dot (a₂ j) (a₁ j) else 1, fun j => ?_, fun j hj => ?_⟩
  · beta_reduce
    split_ifs with hj
    · rcases (by omega : j = 0 ∨ j = 1 ∨ j = 2) with rfl | rfl | rfl
      · exact (by simpa using sq_eq_sq_iff_eq_or_eq_neg.mp (c00.trans (one_pow 2).symm))
      · exact (by simpa using sq_eq_sq_iff_eq_or_eq_neg.mp (c11.trans (one_pow 2).symm))
      · exact (by simpa using sq_eq_sq_iff_eq_or_eq_neg.mp (c22.trans (one_pow 2).symm))
    · exact Or.inl rfl
  · have ex := (Nematic.parseval a₁ h₁.orthonormal (a₂ j)).2
    have e0 := ex 0 (by omega)
    have e1 := ex 1 (by omega)
    have e2 := ex 2 (by omega)
    simp only [coord] at e0 e1 e2
    beta_reduce
    rw [if_pos hj]
    rcases (by omega : j = 0 ∨ j = 1 ∨ j = 2) with rfl | rfl | rfl
    · rw [z10, z20] at e0 e1 e2
      ext <;> simp only [Vec3.smul] <;> linarith
    · rw [z01, z21] at e0 e1 e2
      ext <;> simp only [Vec3.smul] <;> linarith
    · rw [z02, z12] at e0 e1 e2
      ext <;> simp only [Vec3.smul] <;> linarith

end LocalDescriptors
end Freud
