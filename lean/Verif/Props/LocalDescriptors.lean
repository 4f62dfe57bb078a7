import Verif.Lemmas.LocalDescriptors
import Mathlib.Algebra.BigOperators.Intervals

/-!
# Properties of local descriptors
-/

namespace Freud
open Spec LocalDescriptors

/-- **C82**: the number of columns is the number of pairs `(l, m)` with `l ≤ l_max` and `0 ≤ m ≤ l`, or
with `|m| ≤ l` if negative `m` are asked for, which is `(l_max + 1)²`. -/
theorem C82_width (lMax : ℕ) :
    width lMax false = ∑ l ∈ Finset.range (lMax + 1), (l + 1) ∧
    width lMax true = ∑ l ∈ Finset.range (lMax + 1), (2 * l + 1) ∧
    width lMax true = (lMax + 1) ^ 2 := by
  have hs : ∀ L, sphCount L = ∑ l ∈ Finset.range (L + 1), (l + 1) := by
    intro L
    unfold sphCount
    have h2 : (∑ l ∈ Finset.range (L + 1), (l + 1)) * 2 = (L + 1) * (L + 2) := by
      induction L with
      | zero => simp
      | succ L ih => rw [Finset.sum_range_succ, Nat.add_mul, ih]; ring
    rw [← h2, Nat.mul_div_cancel _ (by omega)]
  have ho : ∀ L, ∑ l ∈ Finset.range (L + 1), (2 * l + 1) = (L + 1) ^ 2 := by
    intro L
    induction L with
    | zero => simp
    | succ L ih => rw [Finset.sum_range_succ, ih]; ring
  have ht : width lMax true = ∑ l ∈ Finset.range (lMax + 1), (2 * l + 1) := by
    unfold width
    rcases Nat.eq_zero_or_pos lMax with rfl | hp
    · simp [sphCount]
    · obtain ⟨L, rfl⟩ : ∃ L, lMax = L + 1 := ⟨lMax - 1, by omega⟩
      rw [if_pos (by simp), hs, Nat.add_sub_cancel, hs, ho]
      rw [Finset.sum_range_succ]
      have h2 : (∑ l ∈ Finset.range (L + 1), (l + 1)) * 2 = (L + 1) * (L + 2) := by
        rw [← hs, sphCount, Nat.div_mul_cancel]
        exact (Nat.even_mul_succ_self (L + 1)).two_dvd
      nlinarith
  exact ⟨by simp [width, hs], ht, by rw [ht, ho]⟩

/-- **C82**: there is one row per bond of the neighbor list, in its order, for every order in which
the threads take the points. With the axes of the query point of the bond, chosen according to the
mode, the row of a bond holds the spherical harmonics of the direction of the bond in these axes.
Without a limit all bonds are used, else the first `max_num_neighbors` of every query point, and the
principal axes are those of the bonds that are used. Rows of bonds that are not used, and rows of
bonds of query points that are not smaller than the number of points, are zero.

Assumptions: the harmonics and the solver are those of the external libraries; the neighbor list is
sorted with distances that are the lengths of the vectors and fewer than 2^32 bonds; orientations are
unit quaternions. -/
theorem C82_value (sph : Sph) (Y : Vec3 ℝ → List ℂ) (lMax : ℕ) (neg : Bool)
    (hY : SphOK sph Y (width lMax neg)) (solve : Nematic.Solver) (hs : SolverOK solve) (mode : Mode)
    (nPoints : ℕ) (ori : List (Quat ℝ))
    (hori : mode = .particleLocal → ori.length = nPoints ∧ ∀ q ∈ ori, Quat.norm2 q = 1)
    (n : NList ℝ) (h : GoodList n) (hd : TrueDistances n.bonds) (hb : n.bonds.length ≤ 0xffffffff)
    (maxNum : ℕ) (order : List ℕ) (hord : order.Perm (List.range nPoints)) :
    ∃ (rows : List (List ℂ)) (axes : ℕ → ℕ → Vec3 ℝ), compute sph solve lMax neg mode ori n maxNum order = some rows ∧
      rows.length = n.bonds.length ∧ (∀ r ∈ rows, r.length = width lMax neg) ∧
      (∀ i < nPoints, AxesOf mode (usedBonds n.bonds maxNum i) ori[i]? (axes i)) ∧
      ∀ (k : ℕ) (b : Bond ℝ), n.bonds[k]? = some b →
        (b.q < nPoints ∧ Used n.bonds maxNum k b →
          rows[k]? = some (Y (directionOf (along (axes b.q) b.vec)))) ∧
        (¬(b.q < nPoints ∧ Used n.bonds maxNum k b) →
          rows[k]? = some (List.replicate (width lMax neg) 0)) := by
  classical
  set maxN := if maxNum = 0 then 0xffffffff else maxNum with hN
  have hmem : ∀ i, i ∈ order ↔ i < nPoints := fun i => by rw [hord.mem_iff, List.mem_range]
  have hfr : ∀ i : ℕ, ∃ axes : ℕ → Vec3 ℝ, i < nPoints →
      AxesOf mode ((n.bonds.filter (fun b => decide (b.q = i))).take maxN) ori[i]? axes ∧
      (∀ j < 3, ∀ k < 3, Vec3.dot (axes j) (axes k) = if j = k then 1 else 0) ∧
      frame solve mode ori n maxN i = some ⟨axes 0, axes 1, axes 2⟩ := by
    intro i
    by_cases hi : i < nPoints
    · obtain ⟨axes, h1⟩ := frame_axes solve hs mode ori n h maxN i (fun hm => by
        obtain ⟨h1, h2⟩ := hori hm
        exact ⟨ori[i], List.getElem?_eq_getElem (by omega), h2 _ (List.getElem_mem _)⟩)
      exact ⟨axes, fun _ => h1⟩
    · exact ⟨fun _ => 0, fun hc => absurd hc hi⟩
  choose axes hax using hfr
  obtain ⟨arr, e, harr⟩ := fold_eq sph n h maxN (frame solve mode ori n maxN)
    (fun i => ⟨axes i 0, axes i 1, axes i 2⟩) order
    (fun i hi => (hax i ((hmem i).mp hi)).2.2) (hord.nodup_iff.mpr List.nodup_range)
    (fun _ => List.replicate (width lMax neg) 0)
  have hused : ∀ (k : ℕ) (b : Bond ℝ), n.bonds[k]? = some b →
      (rank n.bonds k b < maxN ↔ Used n.bonds maxNum k b) := by
    intro k b hk
    have hkl : k < n.bonds.length := (List.getElem?_eq_some_iff.mp hk).1
    have hr : rank n.bonds k b ≤ k := by
      unfold rank
      exact (List.length_filter_le _ _).trans (by rw [List.length_take]; omega)
    unfold Used
    rw [hN]
    split_ifs with h0
    · exact ⟨fun _ => Or.inl h0, fun _ => by omega⟩
    · exact ⟨Or.inr, fun hh => hh.resolve_left h0⟩
  have hrow : ∀ (k : ℕ) (b : Bond ℝ), n.bonds[k]? = some b →
      (b.q < nPoints ∧ Used n.bonds maxNum k b →
          arr k = Y (directionOf (along (axes b.q) b.vec))) ∧
        (¬(b.q < nPoints ∧ Used n.bonds maxNum k b) →
          arr k = List.replicate (width lMax neg) 0) := by
    intro k b hk
    have hm := List.mem_of_getElem? hk
    rw [harr k b hk]
    constructor
    · rintro ⟨h1, h2⟩
      rw [if_pos ⟨(hmem _).mpr h1, (hused k b hk).mpr h2⟩]
      exact row_eq sph Y _ hY n k b hk (hd b hm) _ (along_norm _ (hax b.q h1).2.1 b.vec)
    · intro hno
      rw [if_neg (fun hh => hno ⟨(hmem _).mp hh.1, (hused k b hk).mp hh.2⟩)]
  have hlen : ∀ (k : ℕ), k < n.bonds.length → (arr k).length = width lMax neg := by
    intro k hk
    rw [harr k n.bonds[k] (List.getElem?_eq_getElem hk)]
    split_ifs
    · exact hY.length _ _
    · simp
  refine ⟨(List.range n.bonds.length).map arr, axes, ?_, by simp, ?_, ?_, ?_⟩
  · unfold compute
    rw [← hN]
    exact congrArg (Option.map _) e
  · intro r hr
    obtain ⟨k, hk, rfl⟩ := List.mem_map.mp hr
    exact hlen k (List.mem_range.mp hk)
  · intro i hi
    have hA := (hax i hi).1
    have : (n.bonds.filter (fun b => decide (b.q = i))).take maxN = usedBonds n.bonds maxNum i := by
      unfold usedBonds
      rw [hN]
      by_cases h0 : maxNum = 0
      · simp only [if_pos h0]
        exact List.take_of_length_le ((List.length_filter_le _ _).trans hb)
      · simp only [if_neg h0]
    rw [this] at hA
    exact hA
  · intro k b hk
    have hkl : k < n.bonds.length := (List.getElem?_eq_some_iff.mp hk).1
    have hget : ((List.range n.bonds.length).map arr)[k]? = some (arr k) := by
      rw [List.getElem?_map, List.getElem?_range hkl]; rfl
    rw [hget]
    exact ⟨fun hh => congrArg some ((hrow k b hk).1 hh), fun hh => congrArg some ((hrow k b hk).2 hh)⟩

namespace LocalDescriptors

/-- The neighbor list of a rotated system. -/
noncomputable def rotatedList (R : Quat ℝ) (n : NList ℝ) : NList ℝ :=
  { n with bonds := n.bonds.map (rotatedBond R) }

theorem rotated_good (R : Quat ℝ) (n : NList ℝ) (h : GoodList n) : GoodList (rotatedList R n) := by
  refine ⟨?_, ?_, ?_, h.small⟩
  · have : (rotatedList R n).bonds.map (·.q) = n.bonds.map (·.q) := by
      simp [rotatedList, rotatedBond, Function.comp_def]
    rw [this]; exact h.sorted
  · intro b hb
    obtain ⟨b', hb', rfl⟩ := List.mem_map.mp hb
    exact h.qlt b' hb'
  · intro b hb
    obtain ⟨b', hb', rfl⟩ := List.mem_map.mp hb
    exact h.plt b' hb'

theorem rotated_distances (R : Quat ℝ) (hR : Quat.norm2 R = 1) (l : List (Bond ℝ))
    (h : TrueDistances l) : TrueDistances (l.map (rotatedBond R)) := by
  intro b hb
  obtain ⟨b', hb', rfl⟩ := List.mem_map.mp hb
  simp only [rotatedBond, (C53_rotate_is_rotation R hR).1]
  exact h b' hb'

theorem rank_rotated (R : Quat ℝ) (l : List (Bond ℝ)) (k : ℕ) (b : Bond ℝ) :
    rank (l.map (rotatedBond R)) k (rotatedBond R b) = rank l k b := by
  unfold rank
  rw [← List.map_take, List.filter_map, List.length_map]
  rfl

theorem usedBonds_rotated (R : Quat ℝ) (l : List (Bond ℝ)) (m i : ℕ) :
    usedBonds (l.map (rotatedBond R)) m i = (usedBonds l m i).map (rotatedBond R) := by
  unfold usedBonds
  have : (l.map (rotatedBond R)).filter (fun c => decide (c.q = i)) =
      (l.filter (fun c => decide (c.q = i))).map (rotatedBond R) := by
    rw [List.filter_map]; rfl
  simp only [this]
  split_ifs
  · rfl
  · rw [List.map_take]

theorem along_rotate (R : Quat ℝ) (hR : Quat.norm2 R = 1) (axes axes' : ℕ → Vec3 ℝ) (s : ℕ → ℝ)
    (h : ∀ j < 3, axes' j = Vec3.smul (s j) (Quat.rotate R (axes j))) (v : Vec3 ℝ) :
    along axes' (Quat.rotate R v) = signFlip s (along axes v) := by
  have hs : ∀ (c : ℝ) (u w : Vec3 ℝ), Vec3.dot (Vec3.smul c u) w = c * Vec3.dot u w := by
    intro c u w; simp only [Vec3.dot, Vec3.smul]; ring
  unfold along signFlip
  rw [h 0 (by omega), h 1 (by omega), h 2 (by omega)]
  simp only [hs, (C53_rotate_is_rotation R hR).1]

end LocalDescriptors

/-- **C82**: in the mode `particle_local`, rotating the system together with the orientations leaves
all descriptors unchanged. -/
theorem C82_rotation_particle_local (sph : Sph) (Y : Vec3 ℝ → List ℂ) (lMax : ℕ) (neg : Bool)
    (hY : SphOK sph Y (width lMax neg)) (solve : Nematic.Solver) (hs : SolverOK solve)
    (nPoints : ℕ) (ori : List (Quat ℝ)) (hl : ori.length = nPoints)
    (hu : ∀ q ∈ ori, Quat.norm2 q = 1)
    (n : NList ℝ) (h : GoodList n) (hd : TrueDistances n.bonds) (hb : n.bonds.length ≤ 0xffffffff)
    (maxNum : ℕ) (order order' : List ℕ) (hord : order.Perm (List.range nPoints))
    (hord' : order'.Perm (List.range nPoints)) (R : Quat ℝ) (hR : Quat.norm2 R = 1) :
    compute sph solve lMax neg .particleLocal (ori.map (Quat.mul R))
        { n with bonds := n.bonds.map (rotatedBond R) } maxNum order' =
      compute sph solve lMax neg .particleLocal ori n maxNum order := by
  obtain ⟨rows, axes, e, hlen, -, hax, hrow⟩ := C82_value sph Y lMax neg hY solve hs .particleLocal
    nPoints ori (fun _ => ⟨hl, hu⟩) n h hd hb maxNum order hord
  obtain ⟨rows', axes', e', hlen', -, hax', hrow'⟩ := C82_value sph Y lMax neg hY solve hs
    .particleLocal nPoints (ori.map (Quat.mul R)) (fun _ => ⟨by simpa using hl, fun q hq => by
      obtain ⟨q', hq', rfl⟩ := List.mem_map.mp hq
      rw [Quat.norm2_mul, hR, hu q' hq', one_mul]⟩) (rotatedList R n) (rotated_good R n h)
    (rotated_distances R hR _ hd) (by simpa [rotatedList] using hb) maxNum order' hord'
  show compute sph solve lMax neg .particleLocal _ (rotatedList R n) maxNum order' = _
  rw [e, e']
  congr 1
  have hbl : (rotatedList R n).bonds.length = n.bonds.length := by simp [rotatedList]
  apply List.ext_getElem?
  intro k
  rcases Nat.lt_or_ge k n.bonds.length with hk | hk
  · have hkb := List.getElem?_eq_getElem hk
    set b := n.bonds[k] with hbdef
    have hkb' : (rotatedList R n).bonds[k]? = some (rotatedBond R b) := by
      simp only [rotatedList, List.getElem?_map, hkb, Option.map_some]
    have hU : Used (rotatedList R n).bonds maxNum k (rotatedBond R b) ↔ Used n.bonds maxNum k b := by
      unfold Used
      rw [show (rotatedList R n).bonds = n.bonds.map (rotatedBond R) from rfl, rank_rotated]
    have hq : (rotatedBond R b).q = b.q := rfl
    by_cases hc : b.q < nPoints ∧ Used n.bonds maxNum k b
    · rw [(hrow k b hkb).1 hc, (hrow' k _ hkb').1 ⟨hc.1, hU.mpr hc.2⟩]
      obtain ⟨q, hq1, ha⟩ := hax b.q hc.1
      obtain ⟨q', hq1', ha'⟩ := hax' b.q hc.1
      rw [List.getElem?_map, hq1] at hq1'
      obtain rfl : Quat.mul R q = q' := Option.some.inj hq1'
      have := along_rotate R hR (axes b.q) (axes' b.q) (fun _ => 1) (fun j hj => by
        rw [ha' j hj, ha j hj, Quat.rotate_mul]
        ext <;> simp only [Vec3.smul, one_mul]) b.vec
      rw [hq, show (rotatedBond R b).vec = Quat.rotate R b.vec from rfl, this]
      unfold signFlip
      simp only [one_mul]
    · rw [(hrow k b hkb).2 hc, (hrow' k _ hkb').2 (fun hh => hc ⟨hh.1, hU.mp hh.2⟩)]
  · rw [List.getElem?_eq_none (by omega), List.getElem?_eq_none (by omega)]

/-- **C82**: in the mode `neighborhood`, if the moments of inertia of the used bonds of a point are
distinct, rotating the system leaves the coordinates in which its bonds are described unchanged up to
the signs of the three axes: the row of every bond is that of the same coordinates with these signs
changed. In particular the moduli of the descriptors do not change, if the moduli of the harmonics do
not depend on the signs of the coordinates. -/
theorem C82_rotation_neighborhood (sph : Sph) (Y : Vec3 ℝ → List ℂ) (lMax : ℕ) (neg : Bool)
    (hY : SphOK sph Y (width lMax neg)) (solve : Nematic.Solver) (hs : SolverOK solve)
    (nPoints : ℕ) (n : NList ℝ) (h : GoodList n) (hd : TrueDistances n.bonds)
    (hb : n.bonds.length ≤ 0xffffffff)
    (maxNum : ℕ) (order order' : List ℕ) (hord : order.Perm (List.range nPoints))
    (hord' : order'.Perm (List.range nPoints)) (R : Quat ℝ) (hR : Quat.norm2 R = 1) :
    ∃ rows rows' : List (List ℂ), compute sph solve lMax neg .neighborhood [] n maxNum order = some rows ∧
      compute sph solve lMax neg .neighborhood []
        { n with bonds := n.bonds.map (rotatedBond R) } maxNum order' = some rows' ∧
      ∀ i < nPoints, DistinctMoments (usedBonds n.bonds maxNum i) →
        ∃ s, Signs s ∧ ∀ (k : ℕ) (b : Bond ℝ), n.bonds[k]? = some b → b.q = i →
          Used n.bonds maxNum k b →
          ∃ w, rows[k]? = some (Y (directionOf w)) ∧ rows'[k]? = some (Y (directionOf (signFlip s w))) ∧
            ((∀ s v, Signs s → (Y (signFlip s v)).map (fun z => ‖z‖) = (Y v).map (fun z => ‖z‖)) →
              b.vec ≠ ⟨0, 0, 0⟩ →
              rows'[k]?.map (fun r => r.map (fun z => ‖z‖)) =
                rows[k]?.map (fun r => r.map (fun z => ‖z‖))) := by
  obtain ⟨rows, axes, e, hlen, -, hax, hrow⟩ := C82_value sph Y lMax neg hY solve hs .neighborhood
    nPoints [] (by simp) n h hd hb maxNum order hord
  obtain ⟨rows', axes', e', hlen', -, hax', hrow'⟩ := C82_value sph Y lMax neg hY solve hs
    .neighborhood nPoints [] (by simp) (rotatedList R n) (rotated_good R n h)
    (rotated_distances R hR _ hd) (by simpa [rotatedList] using hb) maxNum order' hord'
  refine ⟨rows, rows', e, e', fun i hi ⟨m₀, a₀, hm₀, h01, h12⟩ => ?_⟩
  obtain ⟨m₁, hm₁⟩ := hax i hi
  obtain ⟨m₂, hm₂⟩ := hax' i hi
  rw [show (rotatedList R n).bonds = n.bonds.map (rotatedBond R) from rfl, usedBonds_rotated] at hm₂
  obtain ⟨s₁, hs₁, ha₁⟩ := axes_unique _ _ _ _ _ (decomposition_rotate R hR _ _ _ hm₀)
    (decomposition_rotate R hR _ _ _ hm₁) h01 h12
  obtain ⟨s₂, hs₂, ha₂⟩ := axes_unique _ _ _ _ _ (decomposition_rotate R hR _ _ _ hm₀) hm₂ h01 h12
  have hss : Signs fun j => s₁ j * s₂ j := by
    intro j
    rcases hs₁ j with h1 | h1 <;> rcases hs₂ j with h2 | h2 <;> simp [h1, h2]
  refine ⟨fun j => s₁ j * s₂ j, hss, fun k b hk hq hU => ?_⟩
  have hk' : (rotatedList R n).bonds[k]? = some (rotatedBond R b) := by
    simp only [rotatedList, List.getElem?_map, hk, Option.map_some]
  have hU' : Used (rotatedList R n).bonds maxNum k (rotatedBond R b) := by
    unfold Used
    rw [show (rotatedList R n).bonds = n.bonds.map (rotatedBond R) from rfl, rank_rotated]
    exact hU
  have r1 := (hrow k b hk).1 ⟨by omega, hU⟩
  have r2 := (hrow' k _ hk').1 ⟨by simpa [rotatedBond] using (by omega : b.q < nPoints), hU'⟩
  have hal := along_rotate R hR (axes i) (axes' i) (fun j => s₁ j * s₂ j) (fun j hj => by
    have h1 := ha₁ j hj
    have h2 := ha₂ j hj
    rw [h1, h2]
    have hsq : s₁ j * s₁ j = 1 := by rcases hs₁ j with h | h <;> rw [h] <;> norm_num
    have : ∀ u : Vec3 ℝ, Vec3.smul (s₁ j * s₂ j) (Vec3.smul (s₁ j) u) = Vec3.smul (s₂ j) u := by
      intro u
      ext <;> simp only [Vec3.smul]
      · linear_combination s₂ j * u.x * hsq
      · linear_combination s₂ j * u.y * hsq
      · linear_combination s₂ j * u.z * hsq
    rw [this]) b.vec
  rw [show (rotatedBond R b).q = i from hq, show (rotatedBond R b).vec = Quat.rotate R b.vec from rfl,
    hal] at r2
  rw [hq] at r1
  refine ⟨_, r1, r2, fun hflip hne => ?_⟩
  rw [r1, r2]
  simp only [Option.map_some]
  congr 1
  set w := along (axes i) b.vec with hw
  have hwn : Vec3.dot w w = Vec3.dot b.vec b.vec := along_norm _ hm₁.orthonormal b.vec
  have hbp : 0 < Vec3.dot b.vec b.vec := by
    have := BondOrder.dot_pos hne
    have e1 : Vec3.dot b.vec b.vec = b.vec.x ^ 2 + b.vec.y ^ 2 + b.vec.z ^ 2 := by
      simp only [Vec3.dot]; ring
    rw [e1]; exact this
  have hw0 : w ≠ ⟨0, 0, 0⟩ := by
    intro hc
    rw [hc] at hwn
    simp only [Vec3.dot] at hwn hbp
    linarith
  have hq1 : ∀ j, (s₁ j * s₂ j) * (s₁ j * s₂ j) = 1 := by
    intro j
    rcases hss j with h | h <;> simp only at h <;> rw [h] <;> norm_num
  have hfn : Vec3.dot (signFlip (fun j => s₁ j * s₂ j) w) (signFlip (fun j => s₁ j * s₂ j) w) =
      Vec3.dot w w := by
    simp only [signFlip, Vec3.dot]
    linear_combination w.x ^ 2 * hq1 0 + w.y ^ 2 * hq1 1 + w.z ^ 2 * hq1 2
  have hf0 : signFlip (fun j => s₁ j * s₂ j) w ≠ ⟨0, 0, 0⟩ := by
    intro hc
    rw [hc, hwn] at hfn
    simp only [Vec3.dot] at hfn hbp
    linarith
  have : directionOf (signFlip (fun j => s₁ j * s₂ j) w) =
      signFlip (fun j => s₁ j * s₂ j) (directionOf w) := by
    unfold directionOf
    rw [if_neg hf0, if_neg hw0, hfn]
    simp only [signFlip, Vec3.smul]
    ext <;> simp only <;> ring
  rw [this, hflip _ _ hss]

/-- **C82**: rows of bonds of query points beyond the number of points are never computed: with one
point and two query points, the second of which has a neighbor, the row of its only bond is zero,
although it is the spherical harmonic of `l = 0`, which is nowhere zero. -/
theorem C82_more_query_points_counterexample :
    ∃ (n : NList ℝ) (sph : Sph) (Y : Vec3 ℝ → List ℂ), GoodList n ∧ TrueDistances n.bonds ∧
      n.numPoints = 1 ∧ n.numQueryPoints = 2 ∧ SphOK sph Y (width 0 true) ∧ (∀ v, Y v = [1]) ∧
      ∀ solve, compute sph solve 0 true .global [] n 0 (List.range n.numPoints) = some [[0]] := by
  let n : NList ℝ := ⟨2, 1, [⟨1, 0, 1, 1, ⟨1, 0, 0⟩⟩], false, [], []⟩
  have hg : GoodList n := ⟨by simp [n], by simp [n], by simp [n], by simp [n]⟩
  refine ⟨n, fun _ _ => [1], fun _ => [1], hg, ?_, rfl, rfl,
    ⟨fun _ _ => rfl, fun _ _ => rfl⟩, fun _ => rfl, fun solve => ?_⟩
  · intro b hb
    simp only [n, List.mem_singleton] at hb
    subst hb
    simp [Vec3.dot]
  · obtain ⟨arr, e, harr⟩ := fold_eq (fun _ _ => [1]) n hg 0xffffffff
      (frame solve .global [] n 0xffffffff) (fun _ => ⟨⟨1, 0, 0⟩, ⟨0, 1, 0⟩, ⟨0, 0, 1⟩⟩) [0]
      (fun _ _ => rfl) (by simp) (fun _ => List.replicate (width 0 true) 0)
    have h0 := harr 0 ⟨1, 0, 1, 1, ⟨1, 0, 0⟩⟩ rfl
    rw [if_neg (by simp)] at h0
    unfold compute
    rw [if_pos rfl]
    refine (congrArg (Option.map _) e).trans ?_
    rw [Option.map_some]
    congr 1
    show [arr 0] = _
    rw [h0]
    rfl

/-- **C82**: unknown modes are refused; the names of the modes are as documented; in the mode
`particle_local` orientations are required, one for each point, and in the others they are not used. -/
theorem C82_errors :
    (∀ s, modeOf s = .error .value ↔ s ≠ "neighborhood" ∧ s ≠ "global" ∧ s ≠ "particle_local") ∧
    (∀ nPoints, checked .particleLocal nPoints none = .error .runtime) ∧
    (∀ nPoints o, checked .particleLocal nPoints (some o) =
      if o.length = nPoints then .ok o else .error .value) ∧
    (∀ sph solve lMax neg mode o o' n m order, mode ≠ .particleLocal →
      compute sph solve lMax neg mode o n m order = compute sph solve lMax neg mode o' n m order) := by
  refine ⟨fun s => ?_, fun _ => rfl, fun _ _ => rfl, ?_⟩
  · unfold modeOf
    split_ifs with h1 h2 h3 <;> simp [*]
  · intro sph solve lMax neg mode o o' n m order hm
    cases mode with
    | neighborhood => rfl
    | global => rfl
    | particleLocal => exact absurd rfl hm

namespace LocalDescriptors

/-- Two points with three and one bonds; a bond of length zero is among them. -/
noncomputable def exList : NList ℝ :=
  ⟨2, 2, [⟨0, 1, 1, 1, ⟨1, 0, 0⟩⟩, ⟨0, 1, 2, 1, ⟨0, 2, 0⟩⟩, ⟨0, 0, 0, 1, ⟨0, 0, 0⟩⟩,
    ⟨1, 0, 5, 1, ⟨0, 3, 4⟩⟩], false, [], []⟩

/-- The harmonics of `l = 0, 1` have moduli that do not depend on the signs of the coordinates. -/
example : ∀ (s : ℕ → ℝ) (v : Vec3 ℝ), Signs s →
    ((fun v : Vec3 ℝ => [(1 : ℂ), v.z, v.x + v.y * Complex.I]) (signFlip s v)).map (fun z => ‖z‖) =
      ((fun v : Vec3 ℝ => [(1 : ℂ), v.z, v.x + v.y * Complex.I]) v).map (fun z => ‖z‖) := by
  intro s v hs
  have hq : ∀ j, s j * s j = 1 := fun j => by rcases hs j with h | h <;> rw [h] <;> norm_num
  have h1 : ‖((s 2 * v.z : ℝ) : ℂ)‖ = ‖(v.z : ℂ)‖ := by
    rcases hs 2 with h | h <;> rw [h] <;> simp
  have h2 : ‖((s 0 * v.x : ℝ) : ℂ) + ((s 1 * v.y : ℝ) : ℂ) * Complex.I‖ =
      ‖(v.x : ℂ) + (v.y : ℂ) * Complex.I‖ := by
    rw [Complex.norm_add_mul_I, Complex.norm_add_mul_I]
    congr 1
    linear_combination v.x ^ 2 * hq 0 + v.y ^ 2 * hq 1
  simp only [signFlip, List.map_cons, List.map_nil, h1, h2]

/-- The hypotheses of `C82_value` and its corollaries are met, with a solver that exists by the
spectral theorem, harmonics of `l = 0, 1` without negative `m`, and distinct moments for point 0. -/
example : (∃ solve : Nematic.Solver, SolverOK solve) ∧
    SphOK (fun p a => [1, Real.cos p, Real.sin p * (Real.cos a + Real.sin a * Complex.I)])
      (fun v => [1, v.z, v.x + v.y * Complex.I]) (width 1 false) ∧
    GoodList exList ∧ TrueDistances exList.bonds ∧ exList.bonds.length ≤ 0xffffffff ∧
    DistinctMoments (usedBonds exList.bonds 0 0) := by
  refine ⟨Nematic.exists_solver, ⟨fun _ _ => rfl, fun p a => ?_⟩,
    ⟨by simp [exList], by simp [exList], by simp [exList], by simp [exList]⟩, ?_, by simp [exList], ?_⟩
  · simp only [spherical, one_mul]
    push_cast
    congr 3
    ring
  · intro b hb
    simp only [exList, List.mem_cons, List.not_mem_nil, or_false] at hb
    rcases hb with rfl | rfl | rfl | rfl
    · simp [Vec3.dot]
    · rw [eq_comm, Real.sqrt_eq_iff_mul_self_eq] <;> norm_num [Vec3.dot]
    · simp [Vec3.dot]
    · rw [eq_comm, Real.sqrt_eq_iff_mul_self_eq] <;> norm_num [Vec3.dot]
  · have hub : usedBonds exList.bonds 0 0 = [⟨0, 1, 1, 1, ⟨1, 0, 0⟩⟩, ⟨0, 1, 2, 1, ⟨0, 2, 0⟩⟩,
        ⟨0, 0, 0, 1, ⟨0, 0, 0⟩⟩] := rfl
    have hin : ∀ a c, inertiaOf (usedBonds exList.bonds 0 0) a c =
        (if a = c then 5 else 0) - coord ⟨1, 0, 0⟩ a * coord ⟨1, 0, 0⟩ c -
          coord ⟨0, 2, 0⟩ a * coord ⟨0, 2, 0⟩ c - coord ⟨0, 0, 0⟩ a * coord ⟨0, 0, 0⟩ c := by
      intro a c
      rw [hub]
      simp only [inertiaOf, List.map_cons, List.map_nil, List.sum_cons, List.sum_nil, Vec3.dot]
      split_ifs <;> ring
    refine ⟨fun j => if j = 0 then 1 else if j = 1 then 4 else 5,
      fun j => if j = 0 then ⟨0, 1, 0⟩ else if j = 1 then ⟨1, 0, 0⟩ else ⟨0, 0, 1⟩,
      ⟨by norm_num, ?_, ?_⟩, by norm_num, by norm_num⟩
    · intro j hj k hk
      rcases (by omega : j = 0 ∨ j = 1 ∨ j = 2) with rfl | rfl | rfl <;>
        rcases (by omega : k = 0 ∨ k = 1 ∨ k = 2) with rfl | rfl | rfl <;>
        norm_num [Vec3.dot]
    · intro j hj r hr
      rw [hin, hin, hin]
      rcases (by omega : j = 0 ∨ j = 1 ∨ j = 2) with rfl | rfl | rfl <;>
        rcases (by omega : r = 0 ∨ r = 1 ∨ r = 2) with rfl | rfl | rfl <;>
        norm_num [coord]

end LocalDescriptors
end Freud
