import Verif.Lemmas.EnvPopulate
import Verif.Props.NeighborList

/-!
# C49, C50, C69: environment clusters
-/

namespace Freud
set_option linter.unusedSectionVars false
variable {K : Type*} [Field K] [LinearOrder K] [IsStrictOrderedRing K]

/-- Neighbor lists that the analysis accepts: both are for the points of the system and sorted. -/
structure Spec.ClusterInput (np : ℕ) (nlist envNlist : NList K) : Prop where
  n1 : nlist.numQueryPoints = np
  n2 : nlist.numPoints = np
  n3 : envNlist.numQueryPoints = np
  n4 : envNlist.numPoints = np
  good : GoodList nlist
  envGood : GoodList envNlist

/-- With registration, no point that has neighbors has an empty environment; every bond is registered
by `RegisterBruteForce`. Without registration nothing is asked. -/
def Spec.RegistrationOK (nlist envNlist : NList K) (reg : ℕ → Option (Fitter K)) : Prop :=
  ∀ k fit, reg k = some fit → Registers fit ∧ ∀ b ∈ nlist.bonds, envVectors envNlist.bonds b.q ≠ []

/-- Two environments agree place by place within the threshold. -/
def Spec.AgreeWithin (thr : K) (a b : List (Vec3 K)) : Prop :=
  a.length = b.length ∧ ∀ k < a.length, sqDistance (a.getD k 0) (b.getD k 0) < thr * thr

/-- `b` is `a` with its vectors reordered and all turned by one rotation. -/
def Spec.RotatedCopy (a b : List (Vec3 K)) : Prop :=
  ∃ R, Rotation R ∧ b.Perm (a.map R.mulVec)

open Spec

namespace MatchEnv

theorem env_initDJ (np : ℕ) (bonds : List (Bond K)) (hs : (bonds.map (·.q)).Pairwise (· ≤ ·)) (i : ℕ)
    (hi : i < np) : (initDJ np bonds).env i = env0 bonds i := by
  unfold initDJ EnvDJ.env
  simp only
  rw [buildAll_spec bonds hs]
  simp [hi]

theorem loopInv_init (np : ℕ) (bonds : List (Bond K)) (hs : (bonds.map (·.q)).Pairwise (· ≤ ·)) (thrSq : K) :
    LoopInv (fun i => (envVectors bonds i, false)) np thrSq ⟨initDJ np bonds, [], []⟩ ∧
    ∀ i < np, ((initDJ np bonds).env i).rot = Mat3.one := by
  have hlen : (initDJ np bonds).s.length = np := by
    unfold initDJ
    simp only
    rw [buildAll_spec bonds hs]
    simp
  have henv := env_initDJ np bonds hs
  have hrep : ∀ i < np, (initDJ np bonds).rep i = i := by
    intro i hi
    unfold EnvDJ.rep
    rw [henv i hi]
    rfl
  refine ⟨⟨⟨?_, ?_, ?_, ?_, ?_, ?_, ?_, ?_⟩, hlen, by simp, by simp, by simp, by simp, ?_⟩, ?_⟩
  · rw [hlen]; simp [initDJ]
  · intro i hi
    rw [hlen] at hi ⊢
    rw [hrep i hi]
    exact hi
  · intro i hi
    rw [hlen] at hi
    simp only [hrep i hi]
  · intro i hi
    rw [hlen] at hi
    rw [henv i hi]
    unfold Env.WF env0
    simp
  · intro i hi
    rw [hlen] at hi
    rw [henv i hi]
    exact rotation_one
  · intro i hi
    rw [hlen] at hi
    rw [henv i hi]
    rfl
  · intro i hi
    rw [hlen] at hi
    rw [henv i hi]
    rfl
  · intro i hi
    rw [hlen] at hi
    simp only [hrep i hi]
  · intro i hi j hj hij
    simp only [hrep i hi, hrep j hj] at hij
    subst hij
    exact .refl i
  · intro i hi
    rw [henv i hi]
    rfl

theorem sorted_zipIdx (bonds : List (Bond K)) (hs : (bonds.map (·.q)).Pairwise (· ≤ ·)) :
    (bonds.zipIdx.map (·.1.q)).Pairwise (· ≤ ·) := by
  have : bonds.zipIdx.map (·.1.q) = bonds.map (·.q) := by
    rw [show (fun x : Bond K × ℕ => x.1.q) = (fun b : Bond K => b.q) ∘ Prod.fst from rfl, ← List.map_map,
      List.zipIdx_map_fst]
  rw [this]
  exact hs

theorem mem_of_zipIdx {bonds : List (Bond K)} {b : Bond K × ℕ} (hb : b ∈ bonds.zipIdx) : b.1 ∈ bonds := by
  have := List.mem_zipIdx' hb
  rw [this.2]
  exact List.getElem_mem _

/-- The loop of `compute`. -/
theorem clusterLoop_spec (np : ℕ) (nlist envNlist : NList K) (thr : K) (reg : ℕ → Option (Fitter K))
    (hin : ClusterInput np nlist envNlist) (hreg : RegistrationOK nlist envNlist reg) :
    ∃ st, clusterLoop np nlist.bonds envNlist.bonds thr reg = some st ∧
      LoopInv (fun i => (envVectors envNlist.bonds i, false)) np (thr * thr) st ∧
      ∀ p ∈ st.similar, ∃ b ∈ nlist.bonds, p = (b.q, b.p) := by
  have hq : ∀ b ∈ nlist.bonds.zipIdx, b.1.q < np ∧ b.1.p < np := fun b hb => by
    have h := mem_of_zipIdx hb
    exact ⟨hin.n1 ▸ hin.good.qlt _ h, hin.n2 ▸ hin.good.plt _ h⟩
  obtain ⟨st, g1, g2, -, g4⟩ := loop_spec (base := fun i => (envVectors envNlist.bonds i, false)) (n := np)
    (thrSq := thr * thr) reg nlist.bonds.zipIdx hq
    (fun b hb fit hf => ⟨(hreg _ fit hf).1, List.length_pos_iff.mpr ((hreg _ fit hf).2 _ (mem_of_zipIdx hb))⟩)
    ⟨initDJ np envNlist.bonds, [], []⟩ (loopInv_init np envNlist.bonds hin.envGood.sorted _).1
  refine ⟨st, ?_, g2, fun p hp => ?_⟩
  · unfold clusterLoop
    rw [List.range_eq_range', pointLoop_eq _ _ _ _ _ _ (sorted_zipIdx _ hin.good.sorted)
      (fun b hb => by have := hq b hb; omega)]
    exact g1
  · rcases g4 p hp with h | ⟨b, hb, rfl⟩
    · simp at h
    · exact ⟨b.1, mem_of_zipIdx hb, rfl⟩

theorem compute_eq (np : ℕ) (nlist envNlist : NList K) (thr : K) (reg : ℕ → Option (Fitter K))
    (hin : ClusterInput np nlist envNlist) (o : Obj K) : compute o np nlist envNlist thr reg =
      (clusterLoop np nlist.bonds envNlist.bonds thr reg).bind fun st => populate st.dj o := by
  unfold compute
  rw [if_pos ⟨hin.n1, hin.n2, hin.n3, hin.n4⟩]

/-- The labels of points are those of their sets. -/
theorem labels_iff {base : ℕ → List (Vec3 K) × Bool} {n : ℕ} {thrSq : K} {st : LoopState K}
    (h : LoopInv base n thrSq st) (heads : List ℕ)
    (hm : ∀ x, x ∈ heads ↔ ∃ i < st.dj.s.length, st.dj.rep i = x) (i j : ℕ) (hi : i < n) (hj : j < n) :
    heads.idxOf (st.dj.rep i) = heads.idxOf (st.dj.rep j) ↔
      Relation.EqvGen (fun a b => (a, b) ∈ st.merged) i j := by
  have h1 : st.dj.rep i ∈ heads := (hm _).mpr ⟨i, by rw [h.len]; exact hi, rfl⟩
  rw [List.idxOf_inj h1]
  constructor
  · exact h.conn i hi j hj
  · exact eqvGen_eq st.dj.rep (fun a b hab => h.same _ (h.sub _ hab))

theorem properD_rotated {base : ℕ → List (Vec3 K) × Bool} (d : EnvDJ K) (h : EnvDJ.Inv base d) (i : ℕ)
    (hi : i < d.s.length) : RotatedCopy (base i).1 (d.env i).properD := by
  refine ⟨(d.env i).rot, h.rot i hi, ?_⟩
  have hw := h.wf i hi
  have : (d.env i).properD = ((d.env i).vecInd.map (fun k => (d.env i).vecs.getD k 0)).map (d.env i).rot.mulVec := by
    unfold Env.properD
    apply List.ext_getElem
    · simp [hw.length]
    · intro k h1 h2
      have : k < (d.env i).vecInd.length := by simpa using h2
      simp [List.getD_eq_getElem?_getD, this]
  rw [this]
  refine List.Perm.map _ ((hw.map _).trans ?_)
  rw [h.vecs i hi]
  have e2 : (List.range (base i).1.length).map (fun k => (base i).1.getD k 0) = (base i).1 := by
    apply List.ext_getElem
    · simp
    · intro i h1 h2
      simp [List.getD_eq_getElem?_getD, h2]
  rw [e2]

end MatchEnv

open MatchEnv in
/-- **C50**: for all neighbor lists and whatever was computed before, the analysis ends without an
error, and there is a set of bonds, the merged pairs, such that two points have the same cluster label
exactly when a chain of merged pairs connects them. The labels are `0, …, num_clusters - 1`, given in
the order of the first point of each cluster. -/
theorem C50_partition (o : Obj K) (np : ℕ) (nlist envNlist : NList K) (thr : K)
    (reg : ℕ → Option (Fitter K)) (hin : ClusterInput np nlist envNlist)
    (hreg : RegistrationOK nlist envNlist reg) :
    ∃ (o' : Obj K) (pairs : List (ℕ × ℕ)), compute o np nlist envNlist thr reg = some o' ∧
      (∀ p ∈ pairs, ∃ b ∈ nlist.bonds, p = (b.q, b.p)) ∧ o'.envIndex.length = np ∧
      (∀ i < np, ∀ j < np, o'.envIndex.getD i 0 = o'.envIndex.getD j 0 ↔
        Relation.EqvGen (fun a b => (a, b) ∈ pairs) i j) ∧
      (∀ l, (∃ i < np, o'.envIndex.getD i 0 = l) ↔ l < o'.numClusters) ∧
      (∀ i < np, ∀ l < o'.envIndex.getD i 0, ∃ j < i, o'.envIndex.getD j 0 = l) ∧
      o'.clusterEnvs.length = o'.numClusters := by
  obtain ⟨st, g1, g2, g3⟩ := clusterLoop_spec np nlist envNlist thr reg hin hreg
  obtain ⟨heads, h1, h2, h3, h4⟩ := populate_spec st.dj g2.inv (fun _ _ => rfl)
  obtain ⟨pe, h5, -, -⟩ := h4 o
  have hget : ∀ i < np, ((List.range st.dj.s.length).map (fun i => heads.idxOf (st.dj.rep i))).getD i 0 =
      heads.idxOf (st.dj.rep i) := by
    intro i hi
    rw [g2.len]
    simp [List.getD_eq_getElem?_getD, hi]
  refine ⟨_, st.merged, by rw [compute_eq _ _ _ _ _ hin, g1, Option.bind_some, h5],
    fun p hp => g3 p (g2.sub p hp), by simp [g2.len], ?_, ?_, ?_, by simp⟩
  · intro i hi j hj
    rw [hget i hi, hget j hj]
    exact labels_iff g2 heads h2 i j hi hj
  · intro l
    constructor
    · rintro ⟨i, hi, rfl⟩
      rw [hget i hi]
      exact List.idxOf_lt_length_of_mem ((h2 _).mpr ⟨i, by rw [g2.len]; exact hi, rfl⟩)
    · intro hl
      obtain ⟨i, hi, e⟩ := (h2 _).mp (List.getElem_mem hl)
      rw [g2.len] at hi
      refine ⟨i, hi, ?_⟩
      rw [hget i hi, e]
      exact h1.idxOf_getElem l hl
  · intro i hi l hl
    rw [hget i hi] at hl
    obtain ⟨j, hj, e⟩ := h3 i (by rw [g2.len]; exact hi) l hl
    exact ⟨j, hj, by rw [hget j (by omega)]; exact e⟩

open MatchEnv in
/-- **C50** (which clusters): without registration, when no vector of a point is within the threshold of
two vectors of a neighbor, the clusters are the connected components of the bonds between points whose
environments, not empty, can be matched one-to-one within the threshold. They do not depend on the
order in which the bonds are handled. -/
theorem C50_components (o : Obj K) (np : ℕ) (nlist envNlist : NList K) (thr : K)
    (hin : ClusterInput np nlist envNlist)
    (hu : ∀ b ∈ nlist.bonds, Unambiguous thr (envVectors envNlist.bonds b.q) (envVectors envNlist.bonds b.p)) :
    ∃ o' : Obj K, compute o np nlist envNlist thr (fun _ => none) = some o' ∧
      ∀ i < np, ∀ j < np, o'.envIndex.getD i 0 = o'.envIndex.getD j 0 ↔
        Relation.EqvGen (fun x y => ∃ b ∈ nlist.bonds, b.q = x ∧ b.p = y ∧ envVectors envNlist.bonds x ≠ [] ∧
          (envVectors envNlist.bonds x).length = (envVectors envNlist.bonds y).length ∧
          ∃ f, Matching thr (envVectors envNlist.bonds x) (envVectors envNlist.bonds y) f) i j := by
  have hq : ∀ b ∈ nlist.bonds.zipIdx, b.1.q < np ∧ b.1.p < np := fun b hb => by
    have h := mem_of_zipIdx hb
    exact ⟨hin.n1 ▸ hin.good.qlt _ h, hin.n2 ▸ hin.good.plt _ h⟩
  obtain ⟨i1, i2⟩ := loopInv_init np envNlist.bonds hin.envGood.sorted (thr * thr)
  obtain ⟨st, g1, g2, g3⟩ := loop_raw (base := fun i => (envVectors envNlist.bonds i, false)) (n := np)
    (thr := thr) (fun _ => none) (fun _ => rfl) nlist.bonds.zipIdx hq
    (fun b hb => hu _ (mem_of_zipIdx hb)) ⟨initDJ np envNlist.bonds, [], []⟩ i1 i2
  have g1' : clusterLoop np nlist.bonds envNlist.bonds thr (fun _ => none) = some st := by
    unfold clusterLoop
    rw [List.range_eq_range', pointLoop_eq _ _ _ _ _ _ (sorted_zipIdx _ hin.good.sorted)
      (fun b hb => by have := hq b hb; omega)]
    exact g1
  obtain ⟨heads, h1, h2, h3, h4⟩ := populate_spec st.dj g2.inv (fun _ _ => rfl)
  obtain ⟨pe, h5, -, -⟩ := h4 o
  have hget : ∀ i < np, ((List.range st.dj.s.length).map (fun i => heads.idxOf (st.dj.rep i))).getD i 0 =
      heads.idxOf (st.dj.rep i) := by
    intro i hi
    rw [g2.len]
    simp [List.getD_eq_getElem?_getD, hi]
  refine ⟨_, by rw [compute_eq _ _ _ _ _ hin, g1', Option.bind_some, h5], ?_⟩
  intro i hi j hj
  simp only
  rw [hget i hi, hget j hj, labels_iff g2 heads h2 i j hi hj]
  have hsim : ∀ x y, (x, y) ∈ st.similar ↔ ∃ b ∈ nlist.bonds, b.q = x ∧ b.p = y ∧
      RawMatch thr (envVectors envNlist.bonds x) (envVectors envNlist.bonds y) := by
    intro x y
    rw [g3]
    simp only [List.not_mem_nil, false_or]
    constructor
    · rintro ⟨b, hb, e, hr⟩
      obtain ⟨rfl, rfl⟩ := Prod.mk.inj e
      exact ⟨b.1, mem_of_zipIdx hb, rfl, rfl, hr⟩
    · rintro ⟨b, hb, rfl, rfl, hr⟩
      obtain ⟨k, hk, rfl⟩ := List.getElem_of_mem hb
      exact ⟨(nlist.bonds[k], k), List.mem_zipIdx_iff_getElem?.mpr (by simp [hk]), rfl, hr⟩
  constructor
  · intro h
    refine eqvGen_mono (fun a b hab => ?_) h
    exact (hsim a b).mp (g2.sub _ hab)
  · intro h
    have : st.dj.rep i = st.dj.rep j := by
      refine eqvGen_eq st.dj.rep (fun a b hab => ?_) h
      exact g2.same _ ((hsim a b).mpr hab)
    exact g2.conn i hi j hj this

open MatchEnv in
/-- **C69**: with a new object, the environment reported for a point is a rotated and reordered copy of
its environment; there is a set of bonds whose chains connect exactly the points of a cluster, such that
the reported environments of the two points of each of these bonds agree place by place within the
threshold; and the environment of a cluster is the mean, place by place, of those of its points. -/
theorem C69_aligned (np : ℕ) (nlist envNlist : NList K) (thr : K)
    (reg : ℕ → Option (Fitter K)) (hin : ClusterInput np nlist envNlist)
    (hreg : RegistrationOK nlist envNlist reg) :
    ∃ (o' : Obj K) (pairs : List (ℕ × ℕ)), compute Obj.new np nlist envNlist thr reg = some o' ∧
      o'.pointEnvs.length = np ∧
      (∀ i < np, RotatedCopy (envVectors envNlist.bonds i) (o'.pointEnvs.getD i [])) ∧
      (∀ i < np, ∀ j < np, o'.envIndex.getD i 0 = o'.envIndex.getD j 0 ↔
        Relation.EqvGen (fun a b => (a, b) ∈ pairs) i j) ∧
      (∀ p ∈ pairs, (∃ b ∈ nlist.bonds, p = (b.q, b.p)) ∧
        AgreeWithin thr (o'.pointEnvs.getD p.1 []) (o'.pointEnvs.getD p.2 [])) ∧
      (∀ i < np, o'.clusterEnvs.getD (o'.envIndex.getD i 0) [] = meanEnv (envVectors envNlist.bonds i).length
        (((List.range np).filter (fun j => decide (o'.envIndex.getD j 0 = o'.envIndex.getD i 0))).map
          (fun j => o'.pointEnvs.getD j []))) := by
  obtain ⟨st, g1, g2, g3⟩ := clusterLoop_spec np nlist envNlist thr reg hin hreg
  obtain ⟨heads, h1, h2, h3, h4⟩ := populate_spec st.dj g2.inv (fun _ _ => rfl)
  obtain ⟨pe, h5, h6, h7⟩ := h4 Obj.new
  have hget : ∀ i < np, ((List.range st.dj.s.length).map (fun i => heads.idxOf (st.dj.rep i))).getD i 0 =
      heads.idxOf (st.dj.rep i) := by
    intro i hi
    rw [g2.len]
    simp [List.getD_eq_getElem?_getD, hi]
  have hpe : ∀ i < np, pe.getD i [] = (st.dj.env i).properD := by
    intro i hi
    rw [h7, g2.len, if_pos hi]
    simp [Obj.new]
  refine ⟨_, st.merged, by rw [compute_eq _ _ _ _ _ hin, g1, Option.bind_some, h5],
    by simp [h6, g2.len, Obj.new], ?_, ?_, ?_, ?_⟩
  · intro i hi
    simp only
    rw [hpe i hi]
    exact properD_rotated st.dj g2.inv i (by rw [g2.len]; exact hi)
  · intro i hi j hj
    rw [hget i hi, hget j hj]
    exact labels_iff g2 heads h2 i j hi hj
  · intro p hp
    have hl := g2.lt p (g2.sub p hp)
    refine ⟨g3 p (g2.sub p hp), ?_⟩
    simp only
    rw [hpe _ hl.1, hpe _ hl.2]
    exact (g2.aligned p hp).2
  · intro i hi
    simp only
    have hmem : st.dj.rep i ∈ heads := (h2 _).mpr ⟨i, by rw [g2.len]; exact hi, rfl⟩
    have hlt := List.idxOf_lt_length_of_mem hmem
    rw [hget i hi]
    have e1 : (heads.map (clusterMean (fun i => (envVectors envNlist.bonds i, false)) st.dj)).getD
        (heads.idxOf (st.dj.rep i)) [] = clusterMean (fun i => (envVectors envNlist.bonds i, false)) st.dj i := by
      rw [← clusterMean_rep st.dj g2.inv i (by rw [g2.len]; exact hi)]
      simp [List.getD_eq_getElem?_getD, hlt]
    rw [e1]
    unfold clusterMean
    rw [g2.len]
    congr 1
    have e2 : (List.range np).filter (fun j => decide (st.dj.rep j = st.dj.rep i)) =
        (List.range np).filter (fun j => decide (((List.range np).map
          (fun i => heads.idxOf (st.dj.rep i))).getD j 0 = heads.idxOf (st.dj.rep i))) := by
      apply List.filter_congr
      intro j hj
      rw [List.mem_range] at hj
      have := hget j hj
      rw [g2.len] at this
      rw [this]
      simp only [decide_eq_decide]
      rw [List.idxOf_inj ((h2 _).mpr ⟨j, by rw [g2.len]; exact hj, rfl⟩)]
    rw [e2]
    apply List.map_congr_left
    intro j hj
    rw [List.mem_filter, List.mem_range] at hj
    exact (hpe j hj.1).symm

open MatchEnv in
/-- **C49** (what does not depend on the history): the labels, the number of clusters and the cluster
environments are the same whatever was computed before. What is missing: the point environments are
not; those of the new points are appended to the entries left by earlier computations, and empty
entries are added (`C49_second_compute_counterexample`). -/
theorem C49_history_partial (np : ℕ) (nlist envNlist : NList K) (thr : K)
    (reg : ℕ → Option (Fitter K)) (hin : ClusterInput np nlist envNlist)
    (hreg : RegistrationOK nlist envNlist reg) :
    ∃ fresh : Obj K, compute Obj.new np nlist envNlist thr reg = some fresh ∧ fresh.pointEnvs.length = np ∧
      ∀ o : Obj K, ∃ o', compute o np nlist envNlist thr reg = some o' ∧
        o'.envIndex = fresh.envIndex ∧ o'.numClusters = fresh.numClusters ∧ o'.clusterEnvs = fresh.clusterEnvs ∧
        o'.pointEnvs.length = o.pointEnvs.length + np ∧
        ∀ i, o'.pointEnvs.getD i [] = o.pointEnvs.getD i [] ++ fresh.pointEnvs.getD i [] := by
  obtain ⟨st, g1, g2, g3⟩ := clusterLoop_spec np nlist envNlist thr reg hin hreg
  obtain ⟨heads, h1, h2, h3, h4⟩ := populate_spec st.dj g2.inv (fun _ _ => rfl)
  obtain ⟨pe, h5, h6, h7⟩ := h4 Obj.new
  refine ⟨_, by rw [compute_eq _ _ _ _ _ hin, g1, Option.bind_some, h5], by simp [h6, g2.len, Obj.new], ?_⟩
  intro o
  obtain ⟨pe', k5, k6, k7⟩ := h4 o
  refine ⟨⟨pe', _, _, _⟩, by rw [compute_eq _ _ _ _ _ hin, g1, Option.bind_some, k5], rfl, rfl, rfl,
    by rw [← g2.len]; exact k6, ?_⟩
  intro i
  simp only
  rw [k7, h7]
  simp [Obj.new]

/-- Four points in a row, neighbors of the next and the one before; the environments of the inner points
are equal. -/
def exRow : NList ℚ := ⟨4, 4, [⟨0, 1, 1, 1, ⟨1, 0, 0⟩⟩, ⟨1, 0, 1, 1, ⟨-1, 0, 0⟩⟩, ⟨1, 2, 1, 1, ⟨1, 0, 0⟩⟩,
  ⟨2, 3, 1, 1, ⟨1, 0, 0⟩⟩, ⟨2, 1, 1, 1, ⟨-11 / 10, 0, 0⟩⟩, ⟨3, 2, 1, 1, ⟨-1, 0, 0⟩⟩], false, [], []⟩

example : ClusterInput 4 exRow exRow ∧ RegistrationOK exRow exRow (fun _ => none) ∧
    (∀ b ∈ exRow.bonds, Unambiguous (2 / 10) (envVectors exRow.bonds b.q) (envVectors exRow.bonds b.p)) := by
  refine ⟨⟨rfl, rfl, rfl, rfl, ?_, ?_⟩, fun k fit h => by simp at h, ?_⟩
  · exact ⟨by decide, by decide, by decide, by decide⟩
  · exact ⟨by decide, by decide, by decide, by decide⟩
  · unfold Unambiguous
    decide +kernel

example : (MatchEnv.compute MatchEnv.Obj.new 4 exRow exRow (2 / 10) (fun _ => none)).map
    (fun o => (o.envIndex, o.numClusters, o.pointEnvs)) = some ([0, 1, 1, 2], 3, [[⟨1, 0, 0⟩],
      [⟨-1, 0, 0⟩, ⟨1, 0, 0⟩], [⟨-11 / 10, 0, 0⟩, ⟨1, 0, 0⟩], [⟨-1, 0, 0⟩]]) := by decide +kernel

/-- **C49** is false as stated: computing the same system twice with one object leaves eight point
environments for the four points, and those of the four points hold their vectors twice. -/
theorem C49_second_compute_counterexample :
    ((MatchEnv.compute MatchEnv.Obj.new 4 exRow exRow (2 / 10) (fun _ => none)).bind fun o =>
      (MatchEnv.compute o 4 exRow exRow (2 / 10) (fun _ => none)).map (·.pointEnvs)) =
    some [[⟨1, 0, 0⟩, ⟨1, 0, 0⟩], [⟨-1, 0, 0⟩, ⟨1, 0, 0⟩, ⟨-1, 0, 0⟩, ⟨1, 0, 0⟩],
      [⟨-11 / 10, 0, 0⟩, ⟨1, 0, 0⟩, ⟨-11 / 10, 0, 0⟩, ⟨1, 0, 0⟩], [⟨-1, 0, 0⟩, ⟨-1, 0, 0⟩], [], [], [], []] := by
  decide +kernel

end Freud
