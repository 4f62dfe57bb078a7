import Verif.Lemmas.Cubatic
import Verif.Lemmas.BondLoop

/-!
# Properties of the cubatic order parameter
-/

namespace Freud
open Spec

/-- Every parallel loop runs every index once; the replicates are divided into blocks in any way. -/
structure Spec.CubSched (nParticles nReplicates : ℕ) (sch : Cubatic.Sched) : Prop where
  particles : sch.particles.Perm (List.range nParticles)
  entries : sch.entries.Perm (List.range 81)
  blocks : Blocks nReplicates sch.blocks
  last : sch.last.Perm (List.range nParticles)

namespace Cubatic

theorem M_eq (o : Quat ℝ) (i j k l : ℕ) : M o (i, j, k, l) = cubeTensor o i j k l := by
  have hc : ∀ v n, comp v n = component v n := by
    intro v n
    rcases n with _ | _ | n <;> rfl
  have hd : ∀ a b c d : ℕ, delta a b * delta c d = if a = b ∧ c = d then 1 else 0 := by
    intro a b c d
    unfold delta
    split_ifs <;> simp_all
  unfold M S R H cubeTensor
  simp only [hc, hd]
  norm_num
  ring

theorem quads_index (i j k l : ℕ) (hi : i < 3) (hj : j < 3) (hk : k < 3) (hl : l < 3) :
    quads[27 * i + 9 * j + 3 * k + l]? = some (i, j, k, l) := by
  have h : ∀ i j k l : Fin 3, quads[27 * (i : ℕ) + 9 * j + 3 * k + l]? =
    some ((i : ℕ), (j : ℕ), (k : ℕ), (l : ℕ)) := by decide
  exact h ⟨i, hi⟩ ⟨j, hj⟩ ⟨k, hk⟩ ⟨l, hl⟩

/-- What a call computes. -/
theorem compute_eq (p : Params) (rng : ℕ → ℕ → ℝ) (os : List (Quat ℝ)) (hne : os ≠ [])
    (hn : 0 < p.nReplicates) (sch : Sched) (hs : CubSched os.length p.nReplicates sch) :
    ∃ (res : Result) (finals : ℕ → Quat ℝ), compute p rng os sch = some res ∧
      res.globalTensor = ⟨[3, 3, 3, 3], quads.map (G os)⟩ ∧
      res.particleOrder = ⟨[os.length],
        os.map fun o => orderParameter (cubaticTensor o) (quads.map (G os))⟩ ∧
      res.cubaticTensor = ⟨[3, 3, 3, 3], cubaticTensor res.orientation⟩ ∧
      res.order = orderParameter (cubaticTensor res.orientation) (quads.map (G os)) ∧
      Quat.norm2 res.orientation = 1 ∧
      (∃ j < p.nReplicates, finals j = res.orientation) ∧
      ∀ be ∈ sch.blocks, ∀ j, be.1 ≤ j → j < be.2 → j < p.nReplicates ∧
        (seqRep p (quads.map (G os)) (rng be.1) 0 (j - be.1)).1.order ≤ res.order ∧
        (seqRep p (quads.map (G os)) (rng be.1) 0 (j - be.1)).1.orientation = finals j := by
  have hg := globalTensor_eq os hne sch hs.particles hs.entries
  set g := quads.map (G os) with hgdef
  have hperm := hs.blocks
  unfold Blocks at hperm
  obtain ⟨a, ea, hal, hav, -⟩ := blocks_eq p g rng sch.blocks
    (⟨[p.nReplicates], List.replicate p.nReplicates ⟨⟨0, ⟨0, 0, 0⟩⟩, zero4, 0⟩⟩ : MArray Rep)
    (hperm.nodup_iff.mpr List.nodup_range)
    (fun j hj => by simpa using List.mem_range.mp (hperm.mem_iff.mp hj))
  have hal' : a.data.length = p.nReplicates := by rw [hal]; simp
  obtain ⟨m, r, em, hm, hr, hmax, -⟩ := best_eq a p.nReplicates hn hal'
  have hblk : ∀ j < p.nReplicates, ∃ be ∈ sch.blocks, be.1 ≤ j ∧ j < be.2 := by
    intro j hj
    have := hperm.mem_iff.mpr (List.mem_range.mpr hj)
    obtain ⟨be, hbe, hmem⟩ := List.mem_flatMap.mp this
    rw [List.mem_range'_1] at hmem
    exact ⟨be, hbe, by omega, by omega⟩
  obtain ⟨be, hbe, hb1, hb2⟩ := hblk m hm
  have hrd : a.data[m]? = some r := by
    unfold MArray.get? MArray.size at hr
    rw [if_neg (by omega)] at hr
    exact hr
  have hrs := hav be hbe m hb1 hb2
  rw [hrd] at hrs
  have hrr : r = (seqRep p g (rng be.1) 0 (m - be.1)).1 := Option.some.inj hrs
  have hgood : Good g r := by rw [hrr]; exact seqRep_good p g _ _ _
  obtain ⟨po, epo, hsh, hpo⟩ := forEach_spec sch.last
    (fun i _ => os[i]?.map fun o => orderParameter (cubaticTensor o) g)
    (fun i => orderParameter (cubaticTensor (os.getD i Quat.one)) g)
    (MArray.mk' [os.length] : MArray ℝ) os.length (by simp [MArray.mk']) hs.last (by
      intro i x hx
      have hi : i < os.length := by
        have := (List.getElem?_eq_some_iff.mp hx).1
        simpa [MArray.mk'] using this
      rw [List.getD_eq_getElem?_getD, List.getElem?_eq_getElem hi]
      rfl)
  refine ⟨⟨⟨[3, 3, 3, 3], g⟩, ⟨[3, 3, 3, 3], r.tensor⟩, r.orientation, r.order, po⟩,
    fun j => (a.data[j]?.map Rep.orientation).getD Quat.one, ?_, rfl, ?_, ?_, ?_,
    hgood.1, ⟨m, hm, by simp only [hrd]; rfl⟩, ?_⟩
  · unfold compute
    rw [hg, Option.bind_some, ea, Option.bind_some, em, Option.bind_some, hr, Option.bind_some, epo]
    rfl
  · have : po.data = os.map fun o => orderParameter (cubaticTensor o) g := by
      rw [hpo]
      apply List.ext_getElem?
      intro i
      rcases Nat.lt_or_ge i os.length with hi | hi
      · rw [List.getElem?_map, List.getElem?_range hi, List.getElem?_map, List.getElem?_eq_getElem hi,
          Option.map_some, Option.map_some, List.getD_eq_getElem?_getD, List.getElem?_eq_getElem hi]
        rfl
      · rw [List.getElem?_eq_none (by simpa using hi), List.getElem?_eq_none (by simpa using hi)]
    cases po
    simp only at this hsh ⊢
    rw [this, hsh]
    rfl
  · show (⟨[3, 3, 3, 3], r.tensor⟩ : MArray ℝ) = _
    conv_lhs => rw [hgood.2]
    rfl
  · show r.order = _
    conv_lhs => rw [hgood.2]
    rfl
  · intro be' hbe' j h1 h2
    refine ⟨?_, hmax j _ (hav be' hbe' j h1 h2), ?_⟩
    · exact List.mem_range.mp (hperm.mem_iff.mp (List.mem_flatMap.mpr
        ⟨be', hbe', by rw [List.mem_range'_1]; omega⟩))
    · simp only [hav be' hbe' j h1 h2]
      rfl

end Cubatic
open Cubatic

/-- **C83**: for unit orientations the results do not depend on the schedule except through the random
orientations: `global_tensor` is the mean of the cubatic tensors of the particles, `particle_order` is
the cubatic order with respect to the orientation of each particle, `orientation` is a unit quaternion,
`cubatic_tensor` is its tensor and `order` is the cubatic order with respect to it. -/
theorem C83_value (p : Params) (rng : ℕ → ℕ → ℝ) (os : List (Quat ℝ)) (hne : os ≠ [])
    (hu : ∀ o ∈ os, Quat.norm2 o = 1) (hn : 0 < p.nReplicates) (sch : Sched)
    (hs : CubSched os.length p.nReplicates sch) :
    ∃ (res : Result), compute p rng os sch = some res ∧
      res.globalTensor.shape = [3, 3, 3, 3] ∧ res.cubaticTensor.shape = [3, 3, 3, 3] ∧
      (∀ i j k l : ℕ, i < 3 → j < 3 → k < 3 → l < 3 →
        res.globalTensor.data[27 * i + 9 * j + 3 * k + l]? =
          some (cubeMean os (fun o => cubeTensor o i j k l)) ∧
        res.cubaticTensor.data[27 * i + 9 * j + 3 * k + l]? =
          some (cubeTensor res.orientation i j k l)) ∧
      res.particleOrder = ⟨[os.length], os.map (cubaticOrder os)⟩ ∧
      Quat.norm2 res.orientation = 1 ∧ res.order = cubaticOrder os res.orientation := by
  obtain ⟨res, -, e, h1, h2, h3, h4, h5, -, -⟩ := compute_eq p rng os hne hn sch hs
  refine ⟨res, e, by rw [h1], by rw [h3], ?_, ?_, h5, ?_⟩
  · intro i j k l hi hj hk hl
    rw [h1, h3]
    simp only [cubaticTensor_map, List.getElem?_map, quads_index i j k l hi hj hk hl, Option.map_some,
      M_eq, G]
    exact ⟨trivial, trivial⟩
  · rw [h2]
    congr 1
    apply List.map_congr_left
    intro o ho
    exact (orderParameter_eq os hu o (hu o ho)).1
  · rw [h4]
    exact (orderParameter_eq os hu _ h5).1

/-- **C83**: the cubatic order with respect to any orientation is at most 1, with equality exactly if
all particles have the axes of that orientation, up to the signs and the order of the axes. It is at
least `-7/3`. -/
theorem C83_range (os : List (Quat ℝ)) (hne : os ≠ []) (hu : ∀ o ∈ os, Quat.norm2 o = 1)
    (q : Quat ℝ) (hq : Quat.norm2 q = 1) :
    cubaticOrder os q ≤ 1 ∧ (cubaticOrder os q = 1 ↔ ∀ o ∈ os, SameCube o q) ∧
      -(7 / 3) ≤ cubaticOrder os q := by
  have hle := (orderParameter_eq os hu q hq).2
  have hnn := ip_self_nonneg (fun x => G os x - M q x)
  have hsim : ∀ o ∈ os, ∀ r, Quat.norm2 r = 1 → -(2 / 3) ≤ similarity r o ∧ similarity r o ≤ 1 := by
    intro o ho r hr
    obtain ⟨h1, h2, -⟩ := overlap_bounds r o hr (hu o ho)
    unfold similarity
    constructor <;> linarith
  refine ⟨by rw [hle]; linarith, ⟨fun h => ?_, fun h => ?_⟩, ?_⟩
  · rw [hle] at h
    have h0 : ip (fun x => G os x - M q x) (fun x => G os x - M q x) = 0 := by linarith
    have hz := ip_self_zero _ h0
    have hGM : ip (G os) (M q) = ip (M q) (M q) := by
      unfold ip
      congr 1
      apply List.map_congr_left
      intro x hx
      rw [sub_eq_zero.mp (hz x hx)]
    have h24 : ip (M q) (M q) = 24 / 5 := by
      rw [ip_M q q hq hq, similarity, overlap_self q hq]; norm_num
    have hmean : cubeMean os (fun o => ip (M o) (M q)) = 24 / 5 := by rw [← ip_G, hGM, h24]
    have hmax : ∀ o ∈ os, ip (M o) (M q) ≤ 24 / 5 := by
      intro o ho
      rw [ip_M o q (hu o ho) hq]
      have := (overlap_bounds o q (hu o ho) hq).2.1
      unfold similarity
      linarith
    have hl : (0 : ℝ) < os.length := by exact_mod_cast List.length_pos_of_ne_nil hne
    have hall := cubeMean_eq_max os (fun o => ip (M o) (M q)) (24 / 5) hmax (by
      unfold cubeMean at hmean
      rw [div_eq_iff hl.ne'] at hmean
      linarith)
    intro o ho
    have h3 := hall o ho
    rw [ip_M o q (hu o ho) hq, similarity] at h3
    exact (overlap_bounds o q (hu o ho) hq).2.2 (by linarith)
  · have hself : ∀ o ∈ os, similarity q o = 1 := by
      intro o ho
      unfold similarity
      rw [(overlap_same o q q (hu o ho) (h o ho)).2, overlap_self q hq]
      norm_num
    have hpair : ∀ o ∈ os, cubeMean os (similarity o) = 1 := by
      intro o ho
      apply cubeMean_const os hne
      intro o' ho'
      unfold similarity
      rw [(overlap_same o' q o (hu o' ho') (h o' ho')).2, (overlap_same o q q (hu o ho) (h o ho)).1,
        overlap_self q hq]
      norm_num
    unfold cubaticOrder
    rw [cubeMean_const os hne _ 1 hself, cubeMean_const os hne _ 1 hpair]
    norm_num
  · unfold cubaticOrder
    have h1 := le_cubeMean os hne (similarity q) (-(2 / 3)) (fun o ho => (hsim o ho q hq).1)
    have h2 := cubeMean_le os hne (fun o => cubeMean os (similarity o)) 1 (fun o ho =>
      cubeMean_le os hne _ 1 (fun o' ho' => (hsim o' ho' o (hu o ho)).2))
    linarith

/-- **C83**: rotating all particles leaves `particle_order` unchanged (and the cubatic order with
respect to the rotated orientation); so does turning every particle by its own symmetry of the cube;
and exchanging particles exchanges their values. -/
theorem C83_symmetries (os os' : List (Quat ℝ)) (hu : ∀ o ∈ os, Quat.norm2 o = 1) (q : Quat ℝ) :
    (∀ R, Quat.norm2 R = 1 →
      cubaticOrder (os.map (Quat.mul R)) (Quat.mul R q) = cubaticOrder os q) ∧
    (List.Forall₂ SameCube os os' → cubaticOrder os' q = cubaticOrder os q) ∧
    (∀ q', Quat.norm2 q = 1 → SameCube q q' → cubaticOrder os q' = cubaticOrder os q) ∧
    (os.Perm os' → cubaticOrder os' q = cubaticOrder os q) := by
  have hsim : ∀ a b, cubeOverlap a b = cubeOverlap a b := fun _ _ => rfl
  refine ⟨fun R hR => ?_, fun h => ?_, fun q' hq h => ?_, fun h => ?_⟩
  · have hov : ∀ a b, similarity (Quat.mul R a) (Quat.mul R b) = similarity a b := by
      intro a b
      unfold similarity cubeOverlap cubeAxes
      simp only [List.map_cons, List.map_nil, Quat.rotate_mul, (C53_rotate_is_rotation R hR).1]
    have hm : ∀ f : Quat ℝ → ℝ, cubeMean (os.map (Quat.mul R)) f =
        cubeMean os (fun o => f (Quat.mul R o)) := by
      intro f
      unfold cubeMean
      rw [List.map_map, List.length_map]
      rfl
    unfold cubaticOrder
    simp only [hm, hov]
  · have hl : os.length = os'.length := h.length_eq
    have key : ∀ (a b : List (Quat ℝ)) (f g : Quat ℝ → ℝ), List.Forall₂ SameCube a b →
        (∀ o ∈ a, Quat.norm2 o = 1) →
        (∀ o o', Quat.norm2 o = 1 → SameCube o o' → f o = g o') → cubeMean a f = cubeMean b g := by
      intro a b f g hab ha hfg
      unfold cubeMean
      rw [hab.length_eq]
      congr 2
      induction hab with
      | nil => rfl
      | cons h1 h2 ih =>
        rw [List.map_cons, List.map_cons, hfg _ _ (ha _ List.mem_cons_self) h1,
          ih (fun o ho => ha o (List.mem_cons_of_mem _ ho))]
    unfold cubaticOrder
    rw [key os os' (similarity q) (similarity q) h hu (fun o o' ho hoo => by
        unfold similarity; rw [(overlap_same o o' q ho hoo).2]),
      key os os' (fun o => cubeMean os (similarity o)) (fun o => cubeMean os' (similarity o)) h hu
        (fun o o' ho hoo => key os os' _ _ h hu (fun a a' ha haa => by
          unfold similarity
          rw [(overlap_same a a' o ha haa).2, (overlap_same o o' a' ho hoo).1]))]
  · unfold cubaticOrder
    congr 2
    apply cubeMean_congr
    intro o _
    unfold similarity
    rw [(overlap_same q q' o hq h).1]
  · have hm : ∀ f : Quat ℝ → ℝ, cubeMean os' f = cubeMean os f := by
      intro f
      unfold cubeMean
      rw [h.length_eq, (h.map f).sum_eq]
    unfold cubaticOrder
    simp only [hm]

namespace Cubatic

theorem randomQuat_small (s : ℕ → ℝ) (hs : ∀ k, 0 ≤ s k ∧ s k < 1) (k : ℕ) (m : ℝ) (h0 : 0 ≤ m)
    (h1 : m ≤ 1) : SmallRotation m (randomQuat s k m).1 := by
  refine ⟨randomQuat_unit s k m, ?_⟩
  obtain ⟨a, b⟩ := hs (k + 2)
  have hpi := Real.two_le_pi
  have e2 : (2.0 : ℝ) = 2 := by norm_num
  show Real.cos (m / 2) ≤ Real.cos (m * s (k + 2) / 2.0)
  rw [e2]
  have h2 : 0 ≤ m * s (k + 2) := mul_nonneg h0 a
  have h3 : m * s (k + 2) ≤ m := by nlinarith
  exact Real.cos_le_cos_of_nonneg_of_le_pi (by linarith) (by linarith) (by linarith)

theorem anneal_run (p : Params) (os : List (Quat ℝ)) (hu : ∀ o ∈ os, Quat.norm2 o = 1) (s : ℕ → ℝ)
    (hs : ∀ k, 0 ≤ s k ∧ s k < 1) (fuel : ℕ) : ∀ (t : ℝ) (x : Quat ℝ) (k : ℕ), Quat.norm2 x = 1 →
    Anneals (cubaticOrder os) p.tFinal p.scale (Set.range s) fuel t x
      (anneal p (quads.map (G os)) s fuel t (Rep.of (quads.map (G os)) x) k).1.orientation := by
  induction fuel with
  | zero => exact fun t x k _ => Anneals.last t x
  | succ n ih =>
    intro t x k hx
    have e1 : (0.1 : ℝ) = 1 / 10 := by norm_num
    unfold anneal
    split_ifs with ht
    · have hm := randomQuat_small s hs k 0.1 (by norm_num) (by norm_num)
      have hmx : Quat.norm2 (Quat.mul (randomQuat s k 0.1).1 x) = 1 := by
        rw [Quat.norm2_mul, hm.1, hx, one_mul]
      have ho : ∀ y, Quat.norm2 y = 1 → (Rep.of (quads.map (G os)) y).order = cubaticOrder os y :=
        fun y hy => (orderParameter_eq os hu y hy).1
      dsimp only
      rw [show (Rep.of (quads.map (G os)) x).orientation = x from rfl, ho _ hmx, ho _ hx,
        neg_sub]
      rw [e1] at hm hmx ⊢
      split_ifs with h1 h2
      · exact Anneals.better n t x _ _ ht hm h1 (ih _ _ _ hmx)
      · exact Anneals.worse n t x _ _ _ ht hm (not_lt.mp h1) ⟨_, rfl⟩ h2 (ih _ _ _ hmx)
      · exact Anneals.rejected n t x _ _ _ ht hm (not_lt.mp h1) ⟨_, rfl⟩ (not_le.mp h2) (ih _ _ _ hx)
    · exact Anneals.cold _ t x (not_lt.mp ht)

theorem best_seq (p : Params) (rng : ℕ → ℕ → ℝ) (os : List (Quat ℝ)) (hne : os ≠ [])
    (hu : ∀ o ∈ os, Quat.norm2 o = 1) (hn : 0 < p.nReplicates) (sch : Sched)
    (hs : CubSched os.length p.nReplicates sch) :
    ∃ (res : Result) (finals : ℕ → Quat ℝ), compute p rng os sch = some res ∧
      (∃ j < p.nReplicates, finals j = res.orientation) ∧
      ∀ be ∈ sch.blocks, ∀ j, be.1 ≤ j → j < be.2 → j < p.nReplicates ∧
        finals j = (seqRep p (quads.map (G os)) (rng be.1) 0 (j - be.1)).1.orientation ∧
        cubaticOrder os (finals j) ≤ res.order := by
  obtain ⟨res, finals, e, -, -, -, -, -, h6, h7⟩ := compute_eq p rng os hne hn sch hs
  refine ⟨res, finals, e, h6, fun be hbe j h1 h2 => ?_⟩
  obtain ⟨hj, hle, hf⟩ := h7 be hbe j h1 h2
  refine ⟨hj, hf.symm, ?_⟩
  have hg := seqRep_good p (quads.map (G os)) (rng be.1) 0 (j - be.1)
  rw [hg.2, hf] at hle
  rw [← (orderParameter_eq os hu _ (hf ▸ hg.1)).1]
  exact hle

theorem mem_block (n : ℕ) (blocks : List (ℕ × ℕ)) (hb : Blocks n blocks) (j : ℕ) (hj : j < n) :
    ∃ be ∈ blocks, be.1 ≤ j ∧ j < be.2 := by
  have := (show List.Perm _ _ from hb).mem_iff.mpr (List.mem_range.mpr hj)
  obtain ⟨be, hbe, hmem⟩ := List.mem_flatMap.mp this
  rw [List.mem_range'_1] at hmem
  exact ⟨be, hbe, by omega, by omega⟩

end Cubatic

/-- **C83**: each replicate is a run of at most 10000 steps of simulated annealing of the cubatic order,
which starts at an orientation that is turned by at most one radian. The reported orientation is the end
of one of the runs, and no run ended at a higher order. -/
theorem C83_best (p : Params) (rng : ℕ → ℕ → ℝ) (hr : ∀ b k, 0 ≤ rng b k ∧ rng b k < 1)
    (os : List (Quat ℝ)) (hne : os ≠ [])
    (hu : ∀ o ∈ os, Quat.norm2 o = 1) (hn : 0 < p.nReplicates) (sch : Sched)
    (hs : CubSched os.length p.nReplicates sch) :
    ∃ (res : Result) (finals : ℕ → Quat ℝ), compute p rng os sch = some res ∧
      (∀ be ∈ sch.blocks, ∀ j, be.1 ≤ j → j < be.2 → ∃ start, SmallRotation 1 start ∧
        Anneals (cubaticOrder os) p.tFinal p.scale (Set.range (rng be.1)) 10000 p.tInitial start
          (finals j)) ∧
      (∃ j < p.nReplicates, finals j = res.orientation) ∧
      ∀ j < p.nReplicates, cubaticOrder os (finals j) ≤ res.order := by
  obtain ⟨res, finals, e, h6, h7⟩ := best_seq p rng os hne hu hn sch hs
  refine ⟨res, finals, e, fun be hbe j h1 h2 => ?_, h6, fun j hj => ?_⟩
  · rw [(h7 be hbe j h1 h2).2.1]
    have hk : ∃ k, seqRep p (quads.map (G os)) (rng be.1) 0 (j - be.1) =
        replicate p (quads.map (G os)) (rng be.1) k := by
      cases j - be.1 with
      | zero => exact ⟨_, rfl⟩
      | succ i => exact ⟨_, rfl⟩
    obtain ⟨k, ek⟩ := hk
    rw [ek]
    have e1 : (1.0 : ℝ) = 1 := by norm_num
    have hsm := randomQuat_small (rng be.1) (hr be.1) k 1.0 (by norm_num) (by norm_num)
    refine ⟨(randomQuat (rng be.1) k 1.0).1, by rw [e1] at hsm ⊢; exact hsm, ?_⟩
    exact anneal_run p os hu (rng be.1) (hr be.1) _ _ _ _ hsm.1
  · obtain ⟨be, hbe, h1, h2⟩ := mem_block _ _ hs.blocks j hj
    exact (h7 be hbe j h1 h2).2.2

/-- **C83**: with one replicate the results do not depend on the schedule. -/
theorem C83_one_replicate (p : Params) (rng : ℕ → ℕ → ℝ) (os : List (Quat ℝ)) (hne : os ≠ [])
    (hn : p.nReplicates = 1) (sch sch' : Sched) (hs : CubSched os.length p.nReplicates sch)
    (hs' : CubSched os.length p.nReplicates sch') :
    compute p rng os sch = compute p rng os sch' := by
  have key : ∀ sch, CubSched os.length p.nReplicates sch →
      compute p rng os sch = some ⟨⟨[3, 3, 3, 3], quads.map (G os)⟩,
        ⟨[3, 3, 3, 3], cubaticTensor (seqRep p (quads.map (G os)) (rng 0) 0 0).1.orientation⟩,
        (seqRep p (quads.map (G os)) (rng 0) 0 0).1.orientation,
        orderParameter (cubaticTensor (seqRep p (quads.map (G os)) (rng 0) 0 0).1.orientation)
          (quads.map (G os)),
        ⟨[os.length], os.map fun o => orderParameter (cubaticTensor o) (quads.map (G os))⟩⟩ := by
    intro sch hs
    obtain ⟨res, finals, e, h1, h2, h3, h4, -, ⟨j, hj, h5⟩, h7⟩ :=
      compute_eq p rng os hne (by omega) sch hs
    obtain ⟨be, hbe, hj1, hj2⟩ := mem_block _ _ hs.blocks j hj
    rw [← (h7 be hbe j hj1 hj2).2.2] at h5
    obtain rfl : j = 0 := by omega
    have hb0 : be.1 = 0 := by omega
    rw [hb0] at h5
    rw [e]
    cases res
    simp only at h1 h2 h3 h4 h5
    subst h5
    rw [h1, h2, h3, h4]
  rw [key sch hs, key sch' hs']

namespace Cubatic

/-- Two replicates without any annealing steps, since the temperatures are equal. -/
noncomputable def twoReps : Params := ⟨1, 1, 1 / 2, 2⟩

/-- Random numbers: all `1/2` for the block that starts at 0, all 0 for the others. -/
noncomputable def numbers (b : ℕ) (_ : ℕ) : ℝ := if b = 0 then 1 / 2 else 0

theorem twoReps_replicate (g : List ℝ) (s : ℕ → ℝ) (k : ℕ) :
    replicate twoReps g s k = (Rep.of g (randomQuat s k 1.0).1, (randomQuat s k 1.0).2) := by
  have h : ∀ (f : ℕ) (r : Rep) (k : ℕ), anneal twoReps g s (f + 1) twoReps.tInitial r k = (r, k) := by
    intro f r k
    unfold anneal
    rw [if_neg (by norm_num [twoReps])]
  exact h _ _ _

theorem numbers_zero (k : ℕ) : (randomQuat (numbers 0) k 1.0).1 =
    ⟨Real.cos (1 / 4), ⟨-Real.sin (1 / 4), 0, 0⟩⟩ := by
  have e1 : (2.0 : ℝ) * Real.pi * (1 / 2) = Real.pi := by
    rw [show (2.0 : ℝ) = 2 by norm_num]; ring
  have e2 : (2.0 : ℝ) * (1 / 2) - 1.0 = 0 := by norm_num
  have e3 : (1.0 : ℝ) * (1 / 2) / 2.0 = 1 / 4 := by norm_num
  simp only [randomQuat, numbers, if_true, e1, e2, e3, Real.arccos_zero, Real.cos_pi, Real.sin_pi,
    Real.sin_pi_div_two, Real.cos_pi_div_two, Vec3.dot, Vec3.smul]
  norm_num

theorem numbers_one (k : ℕ) : (randomQuat (numbers 1) k 1.0).1 = Quat.one := by
  have e1 : (2.0 : ℝ) * Real.pi * 0 = 0 := by norm_num
  have e3 : (1.0 : ℝ) * 0 / 2.0 = 0 := by norm_num
  simp only [randomQuat, numbers, one_ne_zero, if_false, e1, e3, Real.cos_zero, Real.sin_zero, Vec3.smul,
    Quat.one]
  norm_num

end Cubatic

/-- **C83**: with several replicates the results depend on how the replicates are divided into blocks,
which is up to the scheduler: the same seed, that is the same random sequences, gives order 1 if two
replicates run in two blocks and less than 1 if they run in one. Random numbers are in `[0, 1)`. -/
theorem C83_schedule_counterexample :
    ∃ (p : Params) (rng : ℕ → ℕ → ℝ) (os : List (Quat ℝ)) (sch sch' : Sched) (res res' : Result),
      construct p = some p ∧ (∀ b k, 0 ≤ rng b k ∧ rng b k < 1) ∧
      (∀ o ∈ os, Quat.norm2 o = 1) ∧ CubSched os.length p.nReplicates sch ∧
      CubSched os.length p.nReplicates sch' ∧ compute p rng os sch = some res ∧
      compute p rng os sch' = some res' ∧ res.order < 1 ∧ res'.order = 1 := by
  have hu : ∀ o ∈ ([Quat.one] : List (Quat ℝ)), Quat.norm2 o = 1 := by
    simp [Quat.one, Quat.norm2, Vec3.dot]
  have hone : Quat.norm2 (Quat.one : Quat ℝ) = 1 := hu _ (by simp)
  let sch : Sched := ⟨[0], List.range 81, [(0, 2)], [0]⟩
  let sch' : Sched := ⟨[0], List.range 81, [(1, 2), (0, 1)], [0]⟩
  have hs : CubSched ([Quat.one] : List (Quat ℝ)).length twoReps.nReplicates sch :=
    ⟨List.Perm.refl _, List.Perm.refl _, by unfold Blocks; decide, List.Perm.refl _⟩
  have hs' : CubSched ([Quat.one] : List (Quat ℝ)).length twoReps.nReplicates sch' :=
    ⟨List.Perm.refl _, List.Perm.refl _, by unfold Blocks; decide, List.Perm.refl _⟩
  obtain ⟨res, finals, e, ⟨j, hj, ho⟩, hfin⟩ :=
    best_seq twoReps numbers [Quat.one] (by simp) hu (by norm_num [twoReps]) sch hs
  obtain ⟨be, hbe, hj1, hj2⟩ := mem_block _ _ hs.blocks j hj
  rw [(hfin be hbe j hj1 hj2).2.1] at ho
  obtain ⟨res1, e1, -, -, -, -, hun, hord⟩ :=
    C83_value twoReps numbers [Quat.one] (by simp) hu (by norm_num [twoReps]) sch hs
  rw [e] at e1
  obtain rfl : res = res1 := Option.some.inj e1
  obtain ⟨res', finals', e', -, hmax⟩ :=
    best_seq twoReps numbers [Quat.one] (by simp) hu (by norm_num [twoReps]) sch' hs'
  obtain ⟨res2, e2, -, -, -, -, hun', hord'⟩ :=
    C83_value twoReps numbers [Quat.one] (by simp) hu (by norm_num [twoReps]) sch' hs'
  rw [e'] at e2
  obtain rfl : res' = res2 := Option.some.inj e2
  refine ⟨twoReps, numbers, [Quat.one], sch, sch', res, res', ?_, ?_, hu, hs, hs', e, e', ?_, ?_⟩
  · unfold construct twoReps
    norm_num
  · intro b k
    unfold numbers
    split_ifs <;> norm_num
  · have hb : be = (0, 2) := by simpa [sch] using hbe
    have hor : res.orientation = ⟨Real.cos (1 / 4), ⟨-Real.sin (1 / 4), 0, 0⟩⟩ := by
      rw [← ho, hb]
      have hj : j = 0 ∨ j = 1 := by rw [hb] at hj2; simp only at hj2; omega
      rcases hj with rfl | rfl
      · simp only [Nat.sub_zero, seqRep, twoReps_replicate, Rep.of, numbers_zero]
      · simp only [Nat.sub_zero, seqRep, twoReps_replicate, Rep.of, numbers_zero]
    obtain ⟨hle, hiff, -⟩ := C83_range [Quat.one] (by simp) hu res.orientation hun
    rw [hord]
    refine lt_of_le_of_ne hle fun h1 => ?_
    have hsame := hiff.mp h1 Quat.one (by simp)
    obtain ⟨v, hv, hvv⟩ := hsame (Quat.rotate Quat.one ⟨0, 1, 0⟩) (by simp [cubeAxes])
    rw [Quat.rotate_one, hor] at *
    have hpi := Real.two_le_pi
    have hsin : 0 < Real.sin (1 / 4) := Real.sin_pos_of_pos_of_lt_pi (by norm_num) (by linarith)
    have hcos : 0 < Real.cos (1 / 4) :=
      Real.cos_pos_of_mem_Ioo ⟨by linarith, by linarith⟩
    have hcos2 : 0 < Real.cos (1 / 2) :=
      Real.cos_pos_of_mem_Ioo ⟨by linarith, by linarith⟩
    have hdbl : Real.cos (1 / 2) = Real.cos (1 / 4) ^ 2 - Real.sin (1 / 4) ^ 2 := by
      have := Real.cos_two_mul' (1 / 4)
      rw [← this]; norm_num
    rw [hdbl] at hcos2
    simp only [cubeAxes, List.mem_cons, List.not_mem_nil, or_false] at hv
    generalize Real.sin (1 / 4) = s at *
    generalize Real.cos (1 / 4) = c at *
    have hsc : 0 < s * c := mul_pos hsin hcos
    rcases hv with rfl | rfl | rfl <;> rcases hvv with h | h <;>
      (have hx := congrArg Vec3.x h
       have hy := congrArg Vec3.y h
       have hz := congrArg Vec3.z h
       simp [Quat.rotate, Vec3.dot, Vec3.cross, Vec3.smul] at hx hy hz
       try (first | linarith | nlinarith | grind))
  · have hle := (C83_range [Quat.one] (by simp) hu res'.orientation hun').1
    have h1 := hmax (1, 2) (by simp [sch']) 1 (by simp) (by simp)
    have hor : finals' 1 = Quat.one := by
      rw [h1.2.1]
      simp only [Nat.sub_self, seqRep, twoReps_replicate, Rep.of, numbers_one]
    replace h1 := h1.2.2
    rw [hor, (C83_range [Quat.one] (by simp) hu Quat.one hone).2.1.mpr (by
      intro o ho
      obtain rfl : o = Quat.one := by simpa using ho
      exact fun u hu => ⟨u, hu, Or.inl rfl⟩)] at h1
    rw [hord']
    rw [hord'] at h1
    exact le_antisymm hle h1

/-- **C83**: the constructor accepts exactly a start temperature not below the final one, a final
temperature of at least `10^-6`, and a scale strictly between 0 and 1. Computing with no replicates,
which the constructor accepts, raises an error. -/
theorem C83_arguments (p : Params) :
    (construct p ≠ none ↔ p.tFinal ≤ p.tInitial ∧ 1 / 1000000 ≤ p.tFinal ∧ 0 < p.scale ∧ p.scale < 1) ∧
    (∀ q, construct p = some q → q = p) ∧
    (p.nReplicates = 0 → ∀ rng os sch, CubSched os.length p.nReplicates sch → os ≠ [] →
      compute p rng os sch = none) := by
  refine ⟨?_, ?_, ?_⟩
  · have h6 : (1e-6 : ℝ) = 1 / 1000000 := by norm_num
    unfold construct
    rw [h6]
    split_ifs with h1 h2 h3
    · exact ⟨fun h => absurd rfl h, fun h => absurd h.1 (not_le.mpr h1)⟩
    · exact ⟨fun h => absurd rfl h, fun h => absurd h.2.1 (not_le.mpr h2)⟩
    · refine ⟨fun h => absurd rfl h, fun h => ?_⟩
      rcases h3 with h3 | h3
      · exact absurd h.2.2.2 (not_lt.mpr h3)
      · exact absurd h.2.2.1 (not_lt.mpr h3)
    · push Not at h1 h2 h3
      exact ⟨fun _ => ⟨h1, h2, h3.2, h3.1⟩, fun _ => by simp⟩
  · intro q h
    unfold construct at h
    split_ifs at h
    exact (Option.some.inj h).symm
  · intro h0 rng os sch hs hne
    unfold compute
    rw [globalTensor_eq os hne sch hs.particles hs.entries, Option.bind_some]
    have hperm := hs.blocks
    unfold Blocks at hperm
    obtain ⟨a, ea, hal, -, -⟩ := blocks_eq p (quads.map (G os)) rng sch.blocks
      (⟨[p.nReplicates], List.replicate p.nReplicates ⟨⟨0, ⟨0, 0, 0⟩⟩, zero4, 0⟩⟩ : MArray Rep)
      (hperm.nodup_iff.mpr List.nodup_range)
      (fun j hj => by simpa using List.mem_range.mp (hperm.mem_iff.mp hj))
    rw [ea, Option.bind_some]
    unfold best MArray.get? MArray.size
    rw [if_pos (by rw [hal]; simp [h0])]
    rfl

/-- The hypotheses are met: three particles, two of them turned by 90 degrees about different axes and
one by 120 degrees, four replicates in three blocks out of order. -/
example : (∀ o ∈ ([⟨1, ⟨0, 0, 0⟩⟩, ⟨0, ⟨3 / 5, 4 / 5, 0⟩⟩, ⟨1 / 2, ⟨1 / 2, 1 / 2, 1 / 2⟩⟩] : List (Quat ℝ)),
      Quat.norm2 o = 1) ∧
    CubSched 3 4 ⟨[2, 0, 1], (List.range 81).reverse, [(2, 4), (0, 1), (1, 2)], [1, 2, 0]⟩ ∧
    construct ⟨5, 1 / 1000, 19 / 20, 4⟩ = some ⟨5, 1 / 1000, 19 / 20, 4⟩ ∧
    SameCube ⟨1 / 2, ⟨1 / 2, 1 / 2, 1 / 2⟩⟩ Quat.one := by
  refine ⟨?_, ⟨by decide, List.reverse_perm _, by unfold Blocks; decide, by decide⟩, ?_, ?_⟩
  · simp only [List.mem_cons, List.not_mem_nil, or_false]
    rintro o (rfl | rfl | rfl) <;> norm_num [Quat.norm2, Vec3.dot]
  · unfold construct
    norm_num
  · intro u hu
    simp only [cubeAxes, List.mem_cons, List.not_mem_nil, or_false] at hu
    rcases hu with rfl | rfl | rfl
    · refine ⟨⟨0, 1, 0⟩, ?_, Or.inl ?_⟩
      · simp [cubeAxes, Quat.rotate_one]
      · ext <;> norm_num [Quat.rotate, Vec3.dot, Vec3.cross, Vec3.smul]
    · refine ⟨⟨0, 0, 1⟩, ?_, Or.inl ?_⟩
      · simp [cubeAxes, Quat.rotate_one]
      · ext <;> norm_num [Quat.rotate, Vec3.dot, Vec3.cross, Vec3.smul]
    · refine ⟨⟨1, 0, 0⟩, ?_, Or.inl ?_⟩
      · simp [cubeAxes, Quat.rotate_one]
      · ext <;> norm_num [Quat.rotate, Vec3.dot, Vec3.cross, Vec3.smul]

end Freud
