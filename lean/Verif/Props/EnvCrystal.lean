import Verif.Props.EnvCluster
import Verif.Props.MotifMatch
import Verif.Props.CrystalOrder

/-!
# Property C121: the environments of crystals
-/

namespace Freud
open Spec MatchEnv InUnits

section
set_option linter.unusedSectionVars false
variable {K : Type*} [Field K] [LinearOrder K] [IsStrictOrderedRing K]

namespace MatchEnv

theorem sqDistance_self (v : Vec3 K) : sqDistance v v = 0 := by simp [sqDistance]

/-- No two different vectors are closer than the threshold. -/
def Far (thr : K) (S : List (Vec3 K)) : Prop := ∀ v ∈ S, ∀ w ∈ S, sqDistance v w < thr * thr → v = w

theorem countP_le_one {b : List (Vec3 K)} (hb : b.Nodup) (x : Vec3 K) (p : Vec3 K → Bool)
    (h : ∀ y ∈ b, p y = true → y = x) : b.countP p ≤ 1 := by
  have : b.countP p ≤ b.countP (fun y => y == x) :=
    List.countP_mono_left fun y hy hp => by simpa using h y hy hp
  exact this.trans (List.nodup_iff_count_le_one.mp hb x)

theorem unambiguous_star {thr : K} {S a b : List (Vec3 K)} (hS : S.Nodup) (hf : Far thr S) (ha : a.Perm S)
    (hb : b.Perm S) : Unambiguous thr a b := by
  refine ⟨fun x hx => ?_, fun y hy => ?_⟩
  · refine countP_le_one (hb.nodup_iff.mpr hS) x _ fun y hy hp => ?_
    exact (hf x (ha.mem_iff.mp hx) y (hb.mem_iff.mp hy) (by simpa using hp)).symm
  · refine countP_le_one (ha.nodup_iff.mpr hS) y _ fun x hx hp => ?_
    exact hf x (ha.mem_iff.mp hx) y (hb.mem_iff.mp hy) (by simpa using hp)

theorem matching_star {thr : K} (ht : 0 < thr) {S a b : List (Vec3 K)} (hS : S.Nodup) (hf : Far thr S)
    (ha : a.Perm S) (hb : b.Perm S) : ∃ f, Matching thr a b f := by
  rw [exists_matching_iff (ha.length_eq.trans hb.length_eq.symm) (unambiguous_star hS hf ha hb)]
  intro x hx
  refine ⟨x, hb.mem_iff.mpr (ha.mem_iff.mp hx), ?_⟩
  rw [sqDistance_self]
  exact mul_pos ht ht

/-- Without registration nothing is ever turned. -/
theorem loop_one {base : ℕ → List (Vec3 K) × Bool} {n : ℕ} {thrSq : K} (bonds : List (Bond K × ℕ))
    (hb : ∀ b ∈ bonds, b.1.q < n ∧ b.1.p < n) :
    ∀ st : LoopState K, LoopInv base n thrSq st → (∀ i < n, (st.dj.env i).rot = Mat3.one) → ∀ st',
      bonds.foldlM (fun st b => bondStep thrSq (fun _ => none) b.1.q st b) st = some st' →
      ∀ i < n, (st'.dj.env i).rot = Mat3.one := by
  induction bonds with
  | nil => intro st _ ho st' h; cases h; exact ho
  | cons b l ih =>
    intro st h ho st' hst
    obtain ⟨st1, rot, m, g1, g2, -, g5, -, g6⟩ := bondStep_spec h (fun _ => none) b (hb b List.mem_cons_self).1
      (hb b List.mem_cons_self).2 (fun fit hf => by simp at hf)
    rw [List.foldlM_cons, g1] at hst
    exact ih (fun c hc => hb c (List.mem_cons_of_mem _ hc)) st1 g2 (g6 (g5 rfl) ho) st' hst

end MatchEnv

/-- **C69** (without registration): with a new object, the environment reported for a point is its environment,
reordered and not turned. -/
theorem C69_not_turned (np : ℕ) (nlist envNlist : NList K) (thr : K) (hin : ClusterInput np nlist envNlist) :
    ∃ o' : Obj K, compute Obj.new np nlist envNlist thr (fun _ => none) = some o' ∧
      ∀ i < np, (o'.pointEnvs.getD i []).Perm (envVectors envNlist.bonds i) := by
  obtain ⟨st, g1, g2, g3⟩ := clusterLoop_spec np nlist envNlist thr (fun _ => none) hin
    (fun k fit h => by simp at h)
  obtain ⟨heads, h1, h2, h3, h4⟩ := populate_spec st.dj g2.inv (fun _ _ => rfl)
  obtain ⟨pe, h5, h6, h7⟩ := h4 Obj.new
  have hq : ∀ b ∈ nlist.bonds.zipIdx, b.1.q < np ∧ b.1.p < np := fun b hb => by
    have h := mem_of_zipIdx hb
    exact ⟨hin.n1 ▸ hin.good.qlt _ h, hin.n2 ▸ hin.good.plt _ h⟩
  have g1' := g1
  unfold clusterLoop at g1'
  rw [List.range_eq_range', pointLoop_eq _ _ _ _ _ _ (sorted_zipIdx _ hin.good.sorted)
    (fun b hb => by have := hq b hb; omega)] at g1'
  obtain ⟨i1, i2⟩ := loopInv_init np envNlist.bonds hin.envGood.sorted (thr * thr)
  have hone := loop_one nlist.bonds.zipIdx hq _ i1 i2 st g1'
  refine ⟨_, by rw [compute_eq _ _ _ _ _ hin, g1, Option.bind_some, h5], fun i hi => ?_⟩
  simp only
  rw [h7, g2.len, if_pos hi]
  have hi' : i < st.dj.s.length := by rw [g2.len]; exact hi
  have := properD_perm _ (g2.inv.wf i hi') (hone i hi)
  rw [g2.inv.vecs i hi'] at this
  simpa [Obj.new] using this

/-! ### Points that all have the same environment -/

/-- Neighbor lists in which all points have the environment `S`, up to the order, and in which chains of bonds
connect all points. -/
structure Spec.SameEnvironments (np : ℕ) (nlist envNlist : NList K) (S : List (Vec3 K)) : Prop where
  input : ClusterInput np nlist envNlist
  points : 0 < np
  env : ∀ i < np, (envVectors envNlist.bonds i).Perm S
  connected : ∀ i < np, ∀ j < np, Relation.EqvGen (fun x y => ∃ b ∈ nlist.bonds, b.q = x ∧ b.p = y) i j

/-- Different vectors of `S` are at least `thr` apart. -/
def Spec.VectorsApart (thr : K) (S : List (Vec3 K)) : Prop :=
  S.Pairwise (fun v w => thr * thr ≤ sqDistance v w)

theorem Spec.VectorsApart.far {thr : K} {S : List (Vec3 K)} (h : VectorsApart thr S) : Far thr S := by
  intro v hv w hw hlt
  by_contra hne
  have hs : ∀ a b : Vec3 K, sqDistance a b = sqDistance b a := by intro a b; unfold sqDistance; ring
  have : thr * thr ≤ sqDistance v w := by
    obtain ⟨i, hi, rfl⟩ := List.getElem_of_mem hv
    obtain ⟨j, hj, rfl⟩ := List.getElem_of_mem hw
    rcases lt_trichotomy i j with hij | rfl | hij
    · exact List.pairwise_iff_getElem.mp h i j hi hj hij
    · exact absurd rfl hne
    · rw [hs]; exact List.pairwise_iff_getElem.mp h j i hj hi hij
  exact absurd hlt (not_lt.mpr this)

theorem Spec.VectorsApart.nodup {thr : K} (ht : 0 < thr) {S : List (Vec3 K)} (h : VectorsApart thr S) : S.Nodup := by
  refine List.Pairwise.imp ?_ h
  rintro a b hab rfl
  rw [sqDistance_self] at hab
  exact absurd (mul_pos ht ht) (not_lt.mpr hab)

/-- **C121** (clusters): when all points have the same environment, up to the order of its vectors, these vectors
are at least the threshold apart, and chains of bonds connect all points, then one cluster is found, number 0,
whatever was computed before. -/
theorem C121_one_cluster {np : ℕ} {nlist envNlist : NList K} {S : List (Vec3 K)}
    (h : SameEnvironments np nlist envNlist S) (hS : S ≠ []) {thr : K} (ht : 0 < thr) (ha : VectorsApart thr S) (o : Obj K) :
    ∃ o', compute o np nlist envNlist thr (fun _ => none) = some o' ∧ o'.numClusters = 1 ∧
      o'.envIndex = List.replicate np 0 := by
  have hu : ∀ b ∈ nlist.bonds, Unambiguous thr (envVectors envNlist.bonds b.q) (envVectors envNlist.bonds b.p) := by
    intro b hb
    exact unambiguous_star (ha.nodup ht) ha.far (h.env _ (h.input.n1 ▸ h.input.good.qlt _ hb))
      (h.env _ (h.input.n2 ▸ h.input.good.plt _ hb))
  obtain ⟨o', e, hc⟩ := C50_components o np nlist envNlist thr h.input hu
  obtain ⟨o'', pairs, e', -, hlen, -, hl, hfirst, -⟩ := C50_partition o np nlist envNlist thr (fun _ => none) h.input
    (fun k fit hf => by simp at hf)
  obtain rfl : o' = o'' := Option.some.inj (e.symm.trans e')
  have hall : ∀ i < np, o'.envIndex.getD i 0 = o'.envIndex.getD 0 0 := by
    intro i hi
    rw [hc i hi 0 h.points]
    refine eqvGen_mono ?_ (h.connected i hi 0 h.points)
    rintro a b ⟨bd, hbd, rfl, rfl⟩
    have hq := h.env _ (h.input.n1 ▸ h.input.good.qlt _ hbd)
    have hp := h.env _ (h.input.n2 ▸ h.input.good.plt _ hbd)
    refine ⟨bd, hbd, rfl, rfl, ?_, hq.length_eq.trans hp.length_eq.symm,
      matching_star ht (ha.nodup ht) ha.far hq hp⟩
    intro h0
    rw [h0] at hq
    exact hS hq.nil_eq.symm
  have h0 : o'.envIndex.getD 0 0 = 0 := by
    by_contra hne
    obtain ⟨j, hj, -⟩ := hfirst 0 h.points 0 (Nat.pos_of_ne_zero hne)
    omega
  refine ⟨o', e, ?_, ?_⟩
  · have h1 : 0 < o'.numClusters := (hl 0).mp ⟨0, h.points, h0⟩
    by_contra hne
    obtain ⟨i, hi, e1⟩ := (hl 1).mpr (by omega)
    rw [hall i hi, h0] at e1
    omega
  · rw [List.eq_replicate_iff]
    refine ⟨hlen, fun x hx => ?_⟩
    obtain ⟨i, hi, rfl⟩ := List.getElem_of_mem hx
    have := (hall i (by omega)).trans h0
    rwa [List.getD_eq_getElem?_getD, List.getElem?_eq_getElem hi, Option.getD_some] at this

theorem meanEnv_same {n k : ℕ} (hk : 0 < k) {env : List (Vec3 K)} (hn : env.length = n) :
    meanEnv n (List.replicate k env) = env := by
  have hk' : (k : K) ≠ 0 := by exact_mod_cast hk.ne'
  unfold meanEnv
  apply List.ext_getElem
  · simp [hn]
  · intro i h1 h2
    simp only [List.getElem_map, List.getElem_range, List.map_replicate, meanVec, List.sum_replicate,
      List.length_replicate, nsmul_eq_mul]
    rw [List.getD_eq_getElem?_getD, List.getElem?_eq_getElem h2, Option.getD_some]
    ext <;> simp [hk']

/-- **C121** (environments): in the same situation, with a new object, all points are reported to have the same
environment, place by place, which is `S` in some order, and this is also the environment of the cluster. -/
theorem C121_environments {np : ℕ} {nlist envNlist : NList K} {S : List (Vec3 K)}
    (h : SameEnvironments np nlist envNlist S) (hS : S ≠ []) {thr : K} (ht : 0 < thr) (ha : VectorsApart thr S) :
    ∃ o' env, compute Obj.new np nlist envNlist thr (fun _ => none) = some o' ∧ env.Perm S ∧
      o'.pointEnvs = List.replicate np env ∧ o'.clusterEnvs = [env] := by
  obtain ⟨o', e, hnum, hidx⟩ := C121_one_cluster h hS ht ha Obj.new
  obtain ⟨o1, pairs, e1, hlen, -, hlab, hal, hmean⟩ := C69_aligned np nlist envNlist thr (fun _ => none) h.input
    (fun k fit hf => by simp at hf)
  obtain rfl : o' = o1 := Option.some.inj (e.symm.trans e1)
  obtain ⟨o1, e1, hperm⟩ := C69_not_turned np nlist envNlist thr h.input
  obtain rfl : o' = o1 := Option.some.inj (e.symm.trans e1)
  obtain ⟨o1, -, e1, -, -, -, -, -, hcl⟩ := C50_partition Obj.new np nlist envNlist thr (fun _ => none) h.input
    (fun k fit hf => by simp at hf)
  obtain rfl : o' = o1 := Option.some.inj (e.symm.trans e1)
  have hp : ∀ i < np, (o'.pointEnvs.getD i []).Perm S := fun i hi => (hperm i hi).trans (h.env i hi)
  have hz : ∀ i < np, o'.envIndex.getD i 0 = 0 := by
    intro i hi
    rw [hidx]; simp [List.getD_eq_getElem?_getD, hi]
  have hstep : ∀ a b, (a, b) ∈ pairs → o'.pointEnvs.getD a [] = o'.pointEnvs.getD b [] := by
    intro a b hab
    obtain ⟨⟨bd, hbd, eab⟩, hl, hw⟩ := hal (a, b) hab
    obtain ⟨rfl, rfl⟩ := Prod.mk.inj eab
    have h1 := hp _ (h.input.n1 ▸ h.input.good.qlt _ hbd)
    have h2 := hp _ (h.input.n2 ▸ h.input.good.plt _ hbd)
    simp only at hl hw
    refine List.ext_getElem hl fun k k1 k2 => ?_
    have := hw k k1
    have q1 : ∀ l : List (Vec3 K), ∀ hk : k < l.length, l.getD k 0 = l[k] := fun l hk => by
      rw [List.getD_eq_getElem?_getD, List.getElem?_eq_getElem hk, Option.getD_some]
    rw [q1 _ k1, q1 _ k2] at this
    exact ha.far _ (h1.mem_iff.mp (List.getElem_mem k1)) _ (h2.mem_iff.mp (List.getElem_mem k2)) this
  have hsame : ∀ i < np, o'.pointEnvs.getD i [] = o'.pointEnvs.getD 0 [] := by
    intro i hi
    have := (hlab i hi 0 h.points).mp (by rw [hz i hi, hz 0 h.points])
    exact eqvGen_eq (fun i => o'.pointEnvs.getD i []) hstep this
  have hrep : o'.pointEnvs = List.replicate np (o'.pointEnvs.getD 0 []) := by
    rw [List.eq_replicate_iff]
    refine ⟨hlen, fun x hx => ?_⟩
    obtain ⟨i, hi, rfl⟩ := List.getElem_of_mem hx
    have := hsame i (by omega)
    rwa [List.getD_eq_getElem?_getD, List.getElem?_eq_getElem hi, Option.getD_some] at this
  refine ⟨o', _, e, hp 0 h.points, hrep, ?_⟩
  have hm := hmean 0 h.points
  rw [hz 0 h.points] at hm
  have hfil : (List.range np).filter (fun j => decide (o'.envIndex.getD j 0 = 0)) = List.range np := by
    rw [List.filter_eq_self]
    intro j hj
    simpa using hz j (List.mem_range.mp hj)
  rw [hfil] at hm
  have hmap : (List.range np).map (fun j => o'.pointEnvs.getD j []) = List.replicate np (o'.pointEnvs.getD 0 []) := by
    rw [List.eq_replicate_iff]
    refine ⟨by simp, fun x hx => ?_⟩
    obtain ⟨j, hj, rfl⟩ := List.mem_map.mp hx
    exact hsame j (List.mem_range.mp hj)
  rw [hmap, meanEnv_same h.points (((hp 0 h.points).trans (h.env 0 h.points).symm).length_eq)] at hm
  have hl1 : o'.clusterEnvs.length = 1 := hcl.trans hnum
  obtain ⟨x, hx⟩ := List.length_eq_one_iff.mp hl1
  rw [hx] at hm ⊢
  simp at hm
  rw [hm, List.getD_eq_getElem?_getD]

/-- **C121** (motifs): in the same situation, every point matches a motif that is `S` in some order. -/
theorem C121_motif {np : ℕ} {nlist envNlist : NList K} {S : List (Vec3 K)}
    (h : SameEnvironments np nlist envNlist S) (hS : S ≠ []) {thr : K} (ht : 0 < thr) (ha : VectorsApart thr S)
    (wrap : Vec3 K → Vec3 K) (motif : List (Vec3 K)) (hm : (motif.map wrap).Perm S) :
    ∃ o', motifCompute ⟨[], []⟩ np envNlist wrap motif thr (fun _ => none) = some o' ∧
      o'.isMatch = List.replicate np true := by
  have hin : MotifInput np envNlist := ⟨h.input.n3, h.input.n4, h.input.envGood⟩
  obtain ⟨o', e, hc⟩ := C70_complete_partial np envNlist wrap motif thr hin
  obtain ⟨o1, e1, hlen, -, -⟩ := C70_motif_match np envNlist wrap motif thr (fun _ => none) hin
    (fun _ fit h => by simp at h)
  obtain rfl : o' = o1 := Option.some.inj (e.symm.trans e1)
  refine ⟨o', e, ?_⟩
  rw [List.eq_replicate_iff]
  refine ⟨hlen, fun x hx => ?_⟩
  obtain ⟨i, hi, rfl⟩ := List.getElem_of_mem hx
  have hi' : i < np := by omega
  have := (hc i hi' (unambiguous_star (ha.nodup ht) ha.far hm (h.env i hi'))).mpr ⟨?_, ?_,
    matching_star ht (ha.nodup ht) ha.far hm (h.env i hi')⟩
  · rwa [List.getD_eq_getElem?_getD, List.getElem?_eq_getElem hi, Option.getD_some] at this
  · rintro rfl
    exact hS hm.nil_eq.symm
  · rw [← List.length_map (f := wrap)]
    exact hm.length_eq.trans (h.env i hi').length_eq.symm

/-- **C121** (motifs): no point matches a motif with another number of vectors. -/
theorem C121_other_motif {np : ℕ} {nlist envNlist : NList K} {S : List (Vec3 K)}
    (h : SameEnvironments np nlist envNlist S) (thr : K) (wrap : Vec3 K → Vec3 K) (motif : List (Vec3 K))
    (hm : motif.length ≠ S.length) :
    ∃ o', motifCompute ⟨[], []⟩ np envNlist wrap motif thr (fun _ => none) = some o' ∧
      o'.isMatch = List.replicate np false := by
  have hin : MotifInput np envNlist := ⟨h.input.n3, h.input.n4, h.input.envGood⟩
  obtain ⟨o', e, hlen, -, hc⟩ := C70_motif_match np envNlist wrap motif thr (fun _ => none) hin
    (fun _ fit h => by simp at h)
  refine ⟨o', e, ?_⟩
  rw [List.eq_replicate_iff]
  refine ⟨hlen, fun x hx => ?_⟩
  obtain ⟨i, hi, rfl⟩ := List.getElem_of_mem hx
  have hi' : i < np := by omega
  obtain ⟨-, rot, m, hs, hiff⟩ := hc i hi'
  have hne : (makeEnvironment (fun v => v) (motif.map wrap)).vecs.length ≠
      (makeEnvironment (fun v => v) (envVectors envNlist.bonds i)).vecs.length := by
    rw [makeEnvironment_spec, makeEnvironment_spec]
    simpa [(h.env i hi').length_eq] using hm
  rw [isSimilar, if_pos hne] at hs
  obtain ⟨-, rfl⟩ := Prod.mk.inj (Option.some.inj hs)
  rw [List.getD_eq_getElem?_getD, List.getElem?_eq_getElem hi, Option.getD_some] at hiff
  simpa [BiMap.size_new] using hiff

end

/-! ### Crystals -/

/-- In every crystal that was made from the cell, with its nearest neighbors (as bonds and as environments) and any
threshold up to the distance of nearest neighbors: there is one cluster, number 0; all particles are reported to have
the same environment, which is `star` in some order, in units of the scale, and is also the environment of the cluster;
every particle matches this motif, in any order, and no particle matches a motif with another number of vectors. -/
def Spec.EnvironmentsAre (cell : Option (UnitCell ℝ)) (d d₂ : ℝ) (star : List (Vec3 ℝ)) : Prop :=
  ∃ u, cell = some u ∧ ∀ n scale box points, u.generateSystem n scale none = some (box, points) →
    points.length ≤ 0xffffffff → ∀ r nl, scale * d < r → r ≤ scale * d₂ → BelowHalf box r →
    IsSource box points points r 0 true (.list nl) → ∀ thr, 0 < thr → thr ≤ scale * d →
    (∀ o, ∃ o', compute o points.length nl nl thr (fun _ => none) = some o' ∧ o'.numClusters = 1 ∧
      o'.envIndex = List.replicate points.length 0) ∧
    (∃ o' env, compute Obj.new points.length nl nl thr (fun _ => none) = some o' ∧
      env.Perm (star.map (Vec3.smul scale)) ∧ o'.pointEnvs = List.replicate points.length env ∧
      o'.clusterEnvs = [env]) ∧
    ∀ motif : List (Vec3 ℝ),
      (motif.Perm (star.map (Vec3.smul scale)) →
        ∃ o', motifCompute ⟨[], []⟩ points.length nl box.wrap motif thr (fun _ => none) = some o' ∧
          o'.isMatch = List.replicate points.length true) ∧
      (motif.length ≠ star.length →
        ∃ o', motifCompute ⟨[], []⟩ points.length nl box.wrap motif thr (fun _ => none) = some o' ∧
          o'.isMatch = List.replicate points.length false)

theorem smul_unit {d : ℝ} (hd : 0 < d) {s : Vec3 ℝ} (h : Vec3.norm s = d) : Vec3.smul d (unit s) = s := by
  have h0 : s ≠ ⟨0, 0, 0⟩ := by
    rintro rfl
    simp [Vec3.norm, Vec3.dot] at h
    exact hd.ne h
  unfold Vec3.norm at h
  rw [unit, if_neg h0, h]
  ext <;> simp [Vec3.smul] <;> field_simp

theorem map_smul_unit {d : ℝ} (hd : 0 < d) {S : List (Vec3 ℝ)} (h : ∀ s ∈ S, Vec3.norm s = d) :
    (S.map unit).map (Vec3.smul d) = S := by
  rw [List.map_map]
  conv_rhs => rw [← List.map_id S]
  exact List.map_congr_left fun s hs => smul_unit hd (h s hs)

theorem Star.environments {u : UnitCell ℝ} {d d₂ : ℝ} (hd : 0 < d) {S : List (Vec3 ℝ)} (hS : S ≠ [])
    (h : Star u d d₂ (S.map unit) false) (hn : ∀ s ∈ S, Vec3.norm s = d)
    (hsep : S.Pairwise fun v w => d * d ≤ sqDistance v w) {cell : Option (UnitCell ℝ)} (hu : cell = some u)
    (hc : ClusterIs cell d d₂) : EnvironmentsAre cell d d₂ S := by
  refine ⟨u, hu, fun n s box points hg hsmall r nl r1 r2 hhalf hsrc thr ht hthr => ?_⟩
  obtain ⟨u', hu', hconn⟩ := hc
  obtain rfl : u = u' := Option.some.inj (hu.symm.trans hu')
  obtain ⟨hconn, -⟩ := hconn box points nl ⟨⟨n, s, hg, r, r1, r2, hhalf, hsrc⟩, hsmall⟩
  obtain ⟨t, g⟩ := generated h.cell h.distinct hg
  obtain ⟨hlist, hq, hb⟩ := list_source g.system hsmall le_rfl hhalf hsrc
  have hp : nl.numPoints = points.length := by
    obtain ⟨_, found, -, -, h0 | ⟨d, ev, nl0, hev, hnl, h0⟩⟩ := hsrc
    · cases h0
    · cases h0
      exact (C20_holds_found_bonds found _ _ d ev hev _ hnl).2.2.2.1
  have hpl : ∀ y ∈ points, Planar box y :=
    fun y hy => ((PeriodicBuffer.inHalfOpen_iff g.valid y).mp ((g.mem y).mp hy).1).1
  have hne : points ≠ [] := generated_ne h.cell h.basis hg
  have hself : ∀ nb ∈ nl.bonds, nb.p ≠ nb.q := by
    intro nb hnb
    obtain ⟨x, hx, hb⟩ := hb nb hnb
    exact hb.2.2.2.1 rfl
  have hwrap : ∀ nb ∈ nl.bonds, box.wrap nb.vec = nb.vec := by
    intro nb hnb
    obtain ⟨x, hx, -, -, -, -, -, hlt, p, hp, him⟩ := hb nb hnb
    have hpp := planar_sub (hpl p (List.mem_of_getElem? hp)) (hpl x (List.mem_of_getElem? hx))
    have := (wrap_of_short g.valid hhalf hpp him hlt).1
    rw [← this]
    exact C02_wrap_idempotent box g.valid _ hpp
  have henv : ∀ i < points.length, (envVectors nl.bonds i).Perm (S.map (Vec3.smul s)) := by
    intro i hi
    obtain ⟨f, hf, hv⟩ := g.vectors i hi
    obtain ⟨vs, hnd, hd', hmem, hdir⟩ := h.near f hf
    have hperm := hv r hhalf (.list nl) hsrc vs hnd fun s' => by
      rw [hmem]
      constructor
      · rintro ⟨a1, a2, a3⟩
        refine ⟨a1, a2, ?_⟩
        rw [norm_smul_pos g.scale, hd' s' ((hmem s').mpr ⟨a1, a2, a3⟩)]
        exact r1
      · rintro ⟨a1, a2, a3⟩
        refine ⟨a1, a2, ?_⟩
        rw [norm_smul_pos g.scale] at a3
        exact lt_of_mul_lt_mul_left (lt_of_lt_of_le a3 r2) g.scale.le
    rw [show allBonds (.list nl) = nl.bonds from bondsFrom_list nl] at hperm
    have hdir' : vs.Perm S := by
      rcases hdir with hdir | ⟨hbo, -⟩
      · have := hdir.map (Vec3.smul d)
        rwa [map_smul_unit hd hd', map_smul_unit hd hn] at this
      · cases hbo
    refine List.Perm.trans ?_ (hperm.trans (hdir'.map _))
    unfold envVectors
    refine List.Perm.of_eq (congrArg _ (List.filter_congr fun nb hnb => ?_))
    have := hself nb hnb
    rw [decide_eq_decide]
    constructor
    · exact fun h => h.1
    · rintro rfl; exact ⟨rfl, this⟩
  have hin : ClusterInput points.length nl nl := ⟨hq, hp, hq, hp, hlist.good, hlist.good⟩
  have hsame : SameEnvironments points.length nl nl (S.map (Vec3.smul s)) := by
    refine ⟨hin, List.length_pos_of_ne_nil hne, henv, fun i hi j hj => ?_⟩
    have := hconn i hi j hj
    induction this with
    | refl => exact .refl _
    | tail _ hbc ih =>
      obtain ⟨nb, hnb, e1, e2⟩ := hbc
      exact (ih (by rw [← e1, ← hq]; exact hlist.good.qlt nb hnb)).trans _ _ _ (.rel _ _ ⟨nb, hnb, e1, e2⟩)
  have hS' : S.map (Vec3.smul s) ≠ [] := by simpa using hS
  have hap : VectorsApart thr (S.map (Vec3.smul s)) := by
    unfold VectorsApart
    rw [List.pairwise_map]
    refine hsep.imp fun {v w} hvw => ?_
    have e : sqDistance (Vec3.smul s v) (Vec3.smul s w) = s * s * sqDistance v w := by
      simp only [sqDistance, Vec3.smul]
      ring
    rw [e]
    calc thr * thr ≤ (s * d) * (s * d) := mul_self_le_mul_self ht.le hthr
      _ = s * s * (d * d) := by ring
      _ ≤ s * s * sqDistance v w := mul_le_mul_of_nonneg_left hvw (mul_self_nonneg s)
  refine ⟨fun o => C121_one_cluster hsame hS' ht hap o, C121_environments hsame hS' ht hap, fun motif =>
    ⟨fun hm => C121_motif hsame hS' ht hap _ motif ?_, fun hm => C121_other_motif hsame thr _ motif (by simpa using hm)⟩⟩
  have hm2 : motif.map box.wrap = motif := by
    conv_rhs => rw [← List.map_id motif]
    refine List.map_congr_left fun v hv => ?_
    have h0 := List.length_pos_of_ne_nil hne
    have := (henv 0 h0).mem_iff.mpr (hm.mem_iff.mp hv)
    obtain ⟨nb, hnb, rfl⟩ := List.mem_map.mp this
    exact hwrap nb (List.mem_filter.mp hnb).1
  rw [hm2]
  exact hm

theorem sqDistance_units {ρ : Vec3 ℝ} {q : Vec3 ℤ} {N : ℤ} (hx : ρ.x ^ 2 = q.x / N) (hy : ρ.y ^ 2 = q.y / N)
    (hz : ρ.z ^ 2 = q.z / N) (x y : Vec3 ℤ) : sqDistance (units ρ x) (units ρ y) = quad q (x - y) / N := by
  have e : sqDistance (units ρ x) (units ρ y) = ρ.x ^ 2 * (x.x - y.x) ^ 2 + ρ.y ^ 2 * (x.y - y.y) ^ 2 +
      ρ.z ^ 2 * (x.z - y.z) ^ 2 := by
    simp only [sqDistance, units]
    ring
  rw [e, hx, hy, hz]
  simp only [quad, Vec3.sub_x, Vec3.sub_y, Vec3.sub_z]
  push_cast
  ring

theorem Star.environments_int {u : UnitCell ℝ} {d d₂ : ℝ} {ρ : Vec3 ℝ} {q : Vec3 ℤ} {N D : ℤ} (hN : 0 < N) (hD : 0 < D)
    (hx : ρ.x ^ 2 = q.x / N) (hy : ρ.y ^ 2 = q.y / N) (hz : ρ.z ^ 2 = q.z / N) (hd : Real.sqrt (D / N) = d)
    {xs : List (Vec3 ℤ)} (hne : xs ≠ []) (hq : ∀ x ∈ xs, quad q x = D)
    (hsep : xs.Pairwise fun x y => D ≤ quad q (x - y)) (h : Star u d d₂ (xs.map fun x => unit (units ρ x)) false)
    {cell : Option (UnitCell ℝ)} (hu : cell = some u) (hc : ClusterIs cell d d₂) :
    EnvironmentsAre cell d d₂ (xs.map (units ρ)) := by
  have hN' : (0 : ℝ) < N := by exact_mod_cast hN
  have hD' : (0 : ℝ) < D := by exact_mod_cast hD
  have hdd : d * d = D / N := by rw [← hd]; exact Real.mul_self_sqrt (by positivity)
  refine Star.environments (by rw [← hd]; exact Real.sqrt_pos.mpr (by positivity)) (by simpa using hne)
    (by rw [List.map_map]; exact h) ?_ ?_ hu hc
  · intro s hs
    obtain ⟨x, hx', rfl⟩ := List.mem_map.mp hs
    rw [norm_units hx hy hz, hq x hx', hd]
  · rw [List.pairwise_map]
    refine hsep.imp fun {x y} hxy => ?_
    rw [sqDistance_units hx hy hz, hdd]
    exact div_le_div_of_nonneg_right (by exact_mod_cast hxy) hN'.le

/-- **C121**: the environments of sc. -/
theorem C121_sc : EnvironmentsAre UnitCell.sc 1 (Real.sqrt 2)
    [⟨-1, 0, 0⟩, ⟨0, -1, 0⟩, ⟨0, 0, -1⟩, ⟨0, 0, 1⟩, ⟨0, 1, 0⟩, ⟨1, 0, 0⟩] := by
  have := Star.environments_int (q := ⟨1, 1, 1⟩) (N := 1) (D := 1) (by norm_num) (by norm_num) (by norm_num)
    (by norm_num) (by norm_num) (by norm_num) (by simp [scNear]) (by decide +kernel) (by decide +kernel) sc_star
    sc_cell C106_sc_cluster
  simpa [scNear, units] using this

/-- **C121**: the environments of bcc. -/
theorem C121_bcc : EnvironmentsAre UnitCell.bcc (Real.sqrt 3 / 2) 1
    [⟨-1 / 2, -1 / 2, -1 / 2⟩, ⟨-1 / 2, -1 / 2, 1 / 2⟩, ⟨-1 / 2, 1 / 2, -1 / 2⟩, ⟨-1 / 2, 1 / 2, 1 / 2⟩,
      ⟨1 / 2, -1 / 2, -1 / 2⟩, ⟨1 / 2, -1 / 2, 1 / 2⟩, ⟨1 / 2, 1 / 2, -1 / 2⟩, ⟨1 / 2, 1 / 2, 1 / 2⟩] := by
  have := Star.environments_int (q := ⟨1, 1, 1⟩) (N := 4) (D := 3) (by norm_num) (by norm_num) (by norm_num)
    (by norm_num) (by norm_num) (by rw [← sqrt_quarter]; simp) (by simp [bccNear]) (by decide +kernel)
    (by decide +kernel) bcc_star bcc_cell C106_bcc_cluster
  simpa [bccNear, units, neg_div] using this

/-- **C121**: the environments of fcc. -/
theorem C121_fcc : EnvironmentsAre UnitCell.fcc (Real.sqrt 2 / 2) 1
    [⟨-1 / 2, -1 / 2, 0⟩, ⟨-1 / 2, 0, -1 / 2⟩, ⟨-1 / 2, 0, 1 / 2⟩, ⟨-1 / 2, 1 / 2, 0⟩, ⟨0, -1 / 2, -1 / 2⟩,
      ⟨0, -1 / 2, 1 / 2⟩, ⟨0, 1 / 2, -1 / 2⟩, ⟨0, 1 / 2, 1 / 2⟩, ⟨1 / 2, -1 / 2, 0⟩, ⟨1 / 2, 0, -1 / 2⟩,
      ⟨1 / 2, 0, 1 / 2⟩, ⟨1 / 2, 1 / 2, 0⟩] := by
  have := Star.environments_int (q := ⟨1, 1, 1⟩) (N := 4) (D := 2) (by norm_num) (by norm_num) (by norm_num)
    (by norm_num) (by norm_num) (by rw [← sqrt_quarter]; simp) (by simp [fccNear]) (by decide +kernel)
    (by decide +kernel) fcc_star fcc_cell C106_fcc_cluster
  simpa [fccNear, units, neg_div] using this

/-- **C121**: the environments of the square lattice. -/
theorem C121_square : EnvironmentsAre UnitCell.square 1 (Real.sqrt 2)
    [⟨1, 0, 0⟩, ⟨0, 1, 0⟩, ⟨-1, 0, 0⟩, ⟨0, -1, 0⟩] := by
  have := Star.environments_int (q := ⟨1, 1, 1⟩) (N := 1) (D := 1) (by norm_num) (by norm_num) (by norm_num)
    (by norm_num) (by norm_num) (by norm_num) (by simp [squareNear]) (by decide +kernel) (by decide +kernel) square_star
    square_cell C106_square_cluster
  simpa [squareNear, units] using this

/-- **C121**: the environments of the hexagonal lattice. -/
theorem C121_hex : EnvironmentsAre UnitCell.hex 1 (Real.sqrt 3)
    [⟨1, 0, 0⟩, ⟨1 / 2, Real.sqrt 3 / 2, 0⟩, ⟨-1 / 2, Real.sqrt 3 / 2, 0⟩, ⟨-1, 0, 0⟩,
      ⟨-1 / 2, -(Real.sqrt 3 / 2), 0⟩, ⟨1 / 2, -(Real.sqrt 3 / 2), 0⟩] := by
  have := Star.environments_int (q := ⟨1, 3, 3⟩) (N := 4) (D := 4) (by norm_num) (by norm_num) (by norm_num)
    (by rw [div_pow, Real.sq_sqrt (by norm_num)]; norm_num) (by rw [div_pow, Real.sq_sqrt (by norm_num)]; norm_num)
    (by norm_num) (by simp [hexNear]) (by decide +kernel) (by decide +kernel) hex_star hex_cell C106_hex_cluster
  simpa [hexNear, units, neg_div] using this

/-! ### The hypotheses can be met -/

/-- Three points in a periodic row. -/
def exRing : NList ℚ := ⟨3, 3, [⟨0, 1, 1, 1, ⟨1, 0, 0⟩⟩, ⟨0, 2, 1, 1, ⟨-1, 0, 0⟩⟩, ⟨1, 0, 1, 1, ⟨-1, 0, 0⟩⟩,
  ⟨1, 2, 1, 1, ⟨1, 0, 0⟩⟩, ⟨2, 0, 1, 1, ⟨1, 0, 0⟩⟩, ⟨2, 1, 1, 1, ⟨-1, 0, 0⟩⟩], false, [], []⟩

example : SameEnvironments 3 exRing exRing [⟨1, 0, 0⟩, ⟨-1, 0, 0⟩] ∧
    VectorsApart (2 : ℚ) [⟨1, 0, 0⟩, ⟨-1, 0, 0⟩] ∧
    ([⟨-1, 0, 0⟩, ⟨1, 0, 0⟩] : List (Vec3 ℚ)).Perm [⟨1, 0, 0⟩, ⟨-1, 0, 0⟩] := by
  refine ⟨⟨⟨rfl, rfl, rfl, rfl, ?_, ?_⟩, by norm_num, by decide +kernel, fun i hi j hj => ?_⟩, ?_, by decide +kernel⟩
  · exact ⟨by decide, by decide, by decide, by decide⟩
  · exact ⟨by decide, by decide, by decide, by decide⟩
  · by_cases h : i = j
    · subst h; exact .refl _
    · refine .rel _ _ ?_
      have : ∀ i < 3, ∀ j < 3, i ≠ j → ∃ b ∈ exRing.bonds, b.q = i ∧ b.p = j := by decide
      exact this i hi j hj h
  · unfold VectorsApart
    decide +kernel

-- what is computed: the environment of point 1, which comes in another order, is reordered
example : (compute Obj.new 3 exRing exRing 2 (fun _ => none)).map (fun o => (o.envIndex, o.numClusters, o.pointEnvs)) =
    some ([0, 0, 0], 1, [[⟨1, 0, 0⟩, ⟨-1, 0, 0⟩], [⟨1, 0, 0⟩, ⟨-1, 0, 0⟩], [⟨1, 0, 0⟩, ⟨-1, 0, 0⟩]]) := by
  decide +kernel

-- a crystal with 30 particles
example : ∃ u n scale box points r nl, UnitCell.hex = some u ∧ u.generateSystem n scale none = some (box, points) ∧
    points.length = 30 ∧ scale * 1 < r ∧ r ≤ scale * Real.sqrt 3 ∧ BelowHalf box r ∧
    IsSource box points points r 0 true (.list nl) := by
  have h3 : (1.7 : ℝ) < Real.sqrt 3 := Real.lt_sqrt_of_sq_lt (by norm_num)
  obtain ⟨box, points, src, h1, h2, h4, s, found, hm, hf, -⟩ := query_exists hex_shell (by simp)
    (by simp [Box.mk', Box.setL]) (n := ⟨5, 3, 1⟩) (c := 1) (r := 3 / 2) (by norm_num) (by simp) (by norm_num)
    (by norm_num) (by norm_num [Box.mk', Box.setL]) (by norm_num [Box.mk', Box.setL]; linarith)
    (by simp [Box.mk', Box.setL])
  obtain ⟨nl, hnl⟩ := C20_result_exists found points.length points.length false
    ((List.range points.length).map fun i => (0, i))
  have hlen : points.length = 30 := by
    have : (points.length : ℤ) = 30 := by simpa using h2
    omega
  refine ⟨_, ⟨5, 3, 1⟩, 1, box, points, 3 / 2, nl, hex_cell, h1, hlen, by norm_num, by linarith, h4, s, found, hm, hf,
    Or.inr ⟨false, _, nl, ?_, hnl, rfl⟩⟩
  simp [IsExecution, List.map_map, Function.comp_def]

end Freud
