import Verif.Lemmas.MotifMatch

/-!
# C49, C70, C71: matching the environments of points with a motif
-/

namespace Freud
set_option linter.unusedSectionVars false
variable {K : Type*} [Field K] [LinearOrder K] [IsStrictOrderedRing K]

/-- The neighbor list is for the points of the system and sorted. -/
structure Spec.MotifInput (np : ℕ) (nlist : NList K) : Prop where
  n1 : nlist.numQueryPoints = np
  n2 : nlist.numPoints = np
  good : GoodList nlist

/-- What is reported for one point with environment `env`: the environment `pe` and whether it matches
the motif. -/
structure Spec.MotifResult (motif env : List (Vec3 K)) (thr : K) (pe : List (Vec3 K)) (isMatch : Bool) :
    Prop where
  copy : RotatedCopy env pe
  yes : isMatch = true → AgreeWithin thr motif pe ∧ motif ≠ []
  no : isMatch = false → pe = env

open Spec

namespace MatchEnv

theorem rotatedCopy_self (v : List (Vec3 K)) : RotatedCopy v v := by
  refine ⟨Mat3.one, rotation_one, ?_⟩
  rw [funext one_mulVec]
  simp

/-- One round of the loop of `EnvironmentMotifMatch::compute`. -/
theorem motifStep_spec {motif : List (Vec3 K)} {bonds : List (Bond K)} {np k : ℕ} {d : EnvDJ K} (thr : K)
    (reg : ℕ → Option (Fitter K)) (hs : (bonds.map (·.q)).Pairwise (· ≤ ·))
    (h : MotifInv motif bonds np k d) (hk : k < np)
    (hreg : ∀ fit, reg k = some fit → Registers fit ∧ motif ≠ []) :
    ∃ d' pe b rot m, MotifInv motif bonds np (k + 1) d' ∧
      MotifResult motif (envVectors bonds k) thr pe b ∧
      isSimilar (makeEnvironment (fun v => v) motif) (makeEnvironment (fun v => v) (envVectors bonds k))
        (thr * thr) (reg k) = some (rot, m) ∧ b = decide (m.size ≠ 0) ∧
      ∀ obj : MotifObj K, motifStep (thr * thr) reg ⟨d, bonds.filter (fun b => decide (k ≤ b.q)), obj⟩ k =
        some ⟨d', bonds.filter (fun b => decide (k + 1 ≤ b.q)),
          ⟨appendEnv obj.pointEnvs k pe, if b then obj.isMatch.set k true else obj.isMatch⟩⟩ := by
  obtain ⟨hp, hnew⟩ := motifInv_push h hk
  set e : Env K := ⟨k + 1, envVectors bonds k, false, (envVectors bonds k).length,
    List.range (envVectors bonds k).length, Mat3.one⟩ with he
  set d1 : EnvDJ K := { d with s := d.s ++ [e] } with hd1
  have hbuild : buildEnv k (k + 1) (bonds.filter (fun b => decide (k ≤ b.q))) =
      (e, bonds.filter (fun b => decide (k + 1 ≤ b.q))) := by
    rw [buildEnv_spec k (k + 1) _ (sorted_filter bonds hs _) (fun b hb => by
      rw [List.mem_filter] at hb; exact of_decide_eq_true hb.2), filter_filter_ge,
      envVectors_rest bonds k k le_rfl]
  have l0 : 0 < d1.s.length := by rw [hp.len]; omega
  have l1 : k + 1 < d1.s.length := by rw [hp.len]; omega
  have wf1 : (makeEnvironment (fun v => v) motif).WF := makeEnvironment_wf _ _
  have wf2 : (makeEnvironment (fun v => v) (envVectors bonds k)).WF := makeEnvironment_wf _ _
  obtain ⟨rot, m, g1, g2, g3⟩ := isSimilar_spec (makeEnvironment (fun v => v) motif)
    (makeEnvironment (fun v => v) (envVectors bonds k)) wf1 wf2 (thr * thr) (reg k) (by
      intro fit hf
      obtain ⟨a, b⟩ := hreg fit hf
      refine ⟨a, ?_⟩
      rw [makeEnvironment_spec]
      simpa using List.length_pos_iff.mpr b)
  rw [makeEnvironment_properD, makeEnvironment_properD, List.map_id', List.map_id'] at g2
  have g1' : isSimilar (d1.env 0) (d1.env (k + 1)) (thr * thr) (reg k) = some (rot, m) := by
    rw [hp.head, hnew, he, isSimilar_fresh]
    exact g1
  have hstep : ∀ obj : MotifObj K, motifStep (thr * thr) reg ⟨d, bonds.filter (fun b => decide (k ≤ b.q)), obj⟩ k =
      (if m.size = 0 then some (d1, obj.isMatch)
        else (d1.merge 0 (k + 1) m rot).map fun d' => (d', obj.isMatch.set k true)).bind fun dm =>
        (dm.1.getIndividualEnv (k + 1)).map fun part =>
          ⟨dm.1, bonds.filter (fun b => decide (k + 1 ≤ b.q)), ⟨appendEnv obj.pointEnvs k part, dm.2⟩⟩ := by
    intro obj
    unfold motifStep
    simp only [hbuild]
    rw [← hd1, EnvDJ.getElem?_env d1 0 l0, EnvDJ.getElem?_env d1 (k + 1) l1]
    simp only [Option.bind_some, g1']
  have hind : ∀ d' : EnvDJ K, MotifInv motif bonds np (k + 1) d' →
      d'.getIndividualEnv (k + 1) = some (d'.env (k + 1)).properD := by
    intro d' hd'
    have : k + 1 < d'.s.length := by rw [hd'.len]; omega
    unfold EnvDJ.getIndividualEnv
    rw [EnvDJ.getElem?_env d' (k + 1) this, Option.bind_some, Env.proper_eq _ (hd'.inv.wf _ this)]
  by_cases hm : m.size = 0
  · refine ⟨d1, envVectors bonds k, false, rot, m, hp,
      ⟨rotatedCopy_self _, fun h => by simp at h, fun _ => rfl⟩, g1, by simp [hm], fun obj => ?_⟩
    rw [hstep, if_pos hm]
    simp only [Option.bind_some]
    rw [hind d1 hp, hnew, properD_fresh]
    rfl
  · obtain h0 | ⟨hl, hsz, hb, hc⟩ := g2.full
    · exact absurd h0 hm
    obtain ⟨d', k1, k2, k3, σ, k4⟩ := motif_merge hp hnew rot m g2.rotation g2.inv hl hsz hb
    have l1' : k + 1 < d'.s.length := by rw [k2.len]; omega
    refine ⟨d', (d'.env (k + 1)).properD, true, rot, m, k2, ⟨?_, ?_, fun h => by simp at h⟩, g1, by simp [hm],
      fun obj => ?_⟩
    · exact properD_rotated d' k2.inv (k + 1) l1'
    · intro _
      refine ⟨⟨k3.symm, fun q hq => ?_⟩, ?_⟩
      · rw [(k4 q hq).2]
        exact hc _ (k4 q hq).1
      · intro h0
        rw [h0] at hsz
        exact hm hsz
    · rw [hstep, if_neg hm, k1]
      simp only [Option.map_some, Option.bind_some]
      rw [hind d' k2]
      rfl

/-- The loop of `EnvironmentMotifMatch::compute`. -/
theorem motif_loop (np : ℕ) (nlist : NList K) (wrap : Vec3 K → Vec3 K) (motif : List (Vec3 K)) (thr : K)
    (reg : ℕ → Option (Fitter K)) (hin : MotifInput np nlist)
    (hreg : ∀ i fit, reg i = some fit → Registers fit ∧ motif ≠ []) :
    ∃ (pe : ℕ → List (Vec3 K)) (b : ℕ → Bool),
      (∀ i < np, MotifResult (motif.map wrap) (envVectors nlist.bonds i) thr (pe i) (b i) ∧
        ∃ rot m, isSimilar (makeEnvironment (fun v => v) (motif.map wrap))
          (makeEnvironment (fun v => v) (envVectors nlist.bonds i)) (thr * thr) (reg i) = some (rot, m) ∧
          b i = decide (m.size ≠ 0)) ∧
      ∀ o : MotifObj K, ∃ o', motifCompute o np nlist wrap motif thr reg = some o' ∧
        o'.isMatch = (List.range np).map b ∧ o'.pointEnvs.length = o.pointEnvs.length + np ∧
        ∀ j, o'.pointEnvs.getD j [] = o.pointEnvs.getD j [] ++ (if j < np then pe j else []) := by
  have key : ∀ k, k ≤ np → ∃ (d : EnvDJ K) (pe : ℕ → List (Vec3 K)) (b : ℕ → Bool),
      MotifInv (motif.map wrap) nlist.bonds np k d ∧
      (∀ i < k, MotifResult (motif.map wrap) (envVectors nlist.bonds i) thr (pe i) (b i) ∧
        ∃ rot m, isSimilar (makeEnvironment (fun v => v) (motif.map wrap))
          (makeEnvironment (fun v => v) (envVectors nlist.bonds i)) (thr * thr) (reg i) = some (rot, m) ∧
          b i = decide (m.size ≠ 0)) ∧
      ∀ o : MotifObj K, ∃ obj, (List.range k).foldlM (motifStep (thr * thr) reg)
          ⟨⟨[makeEnvironment wrap motif], List.replicate (np + 1) 0⟩, nlist.bonds,
            ⟨o.pointEnvs, List.replicate np false⟩⟩ =
          some ⟨d, nlist.bonds.filter (fun b => decide (k ≤ b.q)), obj⟩ ∧
        obj.isMatch = (List.range np).map (fun i => decide (i < k) && b i) ∧
        obj.pointEnvs.length = o.pointEnvs.length + k ∧
        ∀ j, obj.pointEnvs.getD j [] = o.pointEnvs.getD j [] ++ (if j < k then pe j else []) := by
    intro k
    induction k with
    | zero =>
      intro _
      refine ⟨_, fun _ => [], fun _ => false, motifInv_init wrap motif nlist.bonds np, by simp, fun o => ?_⟩
      refine ⟨⟨o.pointEnvs, List.replicate np false⟩, ?_, ?_, rfl, by simp⟩
      · have e : nlist.bonds.filter (fun b => decide (0 ≤ b.q)) = nlist.bonds := by
          rw [List.filter_eq_self]; intro b _; simp
        rw [e]
        rfl
      · simp
    | succ k ih =>
      intro hk
      obtain ⟨d, pe, b, g1, g2, g3⟩ := ih (by omega)
      obtain ⟨d', pe', b', rot, m, k1, k2, k3, k4, k5⟩ := motifStep_spec thr reg hin.good.sorted g1 (by omega)
        (fun fit hf => by
          obtain ⟨a, c⟩ := hreg k fit hf
          exact ⟨a, by simpa using c⟩)
      refine ⟨d', Function.update pe k pe', Function.update b k b', k1, ?_, fun o => ?_⟩
      · intro i hi
        rcases Nat.lt_succ_iff_lt_or_eq.mp hi with hi | rfl
        · rw [Function.update_of_ne (by omega), Function.update_of_ne (by omega)]
          exact g2 i hi
        · rw [Function.update_self, Function.update_self]
          exact ⟨k2, rot, m, k3, k4⟩
      · obtain ⟨obj, f1, f2, f3, f4⟩ := g3 o
        refine ⟨_, by rw [List.range_succ, List.foldlM_append, f1]; simp [k5]; rfl, ?_, ?_, ?_⟩
        · simp only
          rw [f2]
          apply List.ext_getElem
          · by_cases hb : b' = true <;> simp [hb]
          · intro i h1 h2
            have hi : i < np := by simpa using h2
            by_cases hik : i = k
            · subst hik
              cases b' <;> simp
            · have e2 : (i ≤ k) ↔ i < k := by omega
              cases b'
              · simp [hik, Function.update_of_ne, e2]
              · simp [hik, Function.update_of_ne, Ne.symm hik, e2]
        · simp only
          rw [(appendEnv_spec obj.pointEnvs k pe' (by rw [f3]; omega)).1, f3]
          omega
        · intro j
          simp only
          rw [(appendEnv_spec obj.pointEnvs k pe' (by rw [f3]; omega)).2, f4, List.append_assoc]
          congr 1
          by_cases h1 : j = k
          · subst h1; simp
          · rw [Function.update_of_ne h1, if_neg h1, List.append_nil]
            by_cases h2 : j < k
            · simp [h2, Nat.lt_succ_of_lt h2]
            · rw [if_neg h2, if_neg (by omega)]
  obtain ⟨d, pe, b, g1, g2, g3⟩ := key np le_rfl
  refine ⟨pe, b, g2, fun o => ?_⟩
  obtain ⟨obj, f1, f2, f3, f4⟩ := g3 o
  refine ⟨obj, ?_, ?_, f3, f4⟩
  · unfold motifCompute
    rw [if_pos ⟨hin.n1, hin.n2⟩, f1]
    rfl
  · rw [f2]
    apply List.map_congr_left
    intro i hi
    simp [List.mem_range.mp hi]

end MatchEnv

open MatchEnv in
/-- **C70**: with a new object, for every point: the reported environment is a rotated and reordered copy
of its environment; if the point matches, it agrees with the motif place by place within the
threshold, and otherwise it is unchanged. Whether it matches is what the comparison of the motif with
this environment alone says (**C48**), whatever the other points are. -/
theorem C70_motif_match (np : ℕ) (nlist : NList K) (wrap : Vec3 K → Vec3 K) (motif : List (Vec3 K)) (thr : K)
    (reg : ℕ → Option (Fitter K)) (hin : MotifInput np nlist)
    (hreg : ∀ i fit, reg i = some fit → Registers fit ∧ motif ≠ []) :
    ∃ o', motifCompute ⟨[], []⟩ np nlist wrap motif thr reg = some o' ∧ o'.isMatch.length = np ∧
      o'.pointEnvs.length = np ∧
      ∀ i < np, MotifResult (motif.map wrap) (envVectors nlist.bonds i) thr (o'.pointEnvs.getD i [])
          (o'.isMatch.getD i false) ∧
        ∃ rot m, isSimilar (makeEnvironment (fun v => v) (motif.map wrap))
            (makeEnvironment (fun v => v) (envVectors nlist.bonds i)) (thr * thr) (reg i) = some (rot, m) ∧
          (o'.isMatch.getD i false = true ↔ m.size ≠ 0) := by
  obtain ⟨pe, b, g1, g2⟩ := motif_loop np nlist wrap motif thr reg hin hreg
  obtain ⟨o', f1, f2, f3, f4⟩ := g2 ⟨[], []⟩
  refine ⟨o', f1, by rw [f2]; simp, by rw [f3]; simp, fun i hi => ?_⟩
  have e1 : o'.isMatch.getD i false = b i := by
    rw [f2]; simp [List.getD_eq_getElem?_getD, hi]
  have e2 : o'.pointEnvs.getD i [] = pe i := by rw [f4, if_pos hi]; simp
  obtain ⟨a1, rot, m, a2, a3⟩ := g1 i hi
  rw [e1, e2]
  exact ⟨a1, rot, m, a2, by rw [a3, decide_eq_true_eq]⟩

open MatchEnv in
/-- **C70** (which points): without registration, when no vector of the motif or of the environment is
within the threshold of two of the other, a point matches exactly when a one-to-one matching of its
environment with the motif exists, and the motif is not empty. -/
theorem C70_complete_partial (np : ℕ) (nlist : NList K) (wrap : Vec3 K → Vec3 K) (motif : List (Vec3 K)) (thr : K)
    (hin : MotifInput np nlist) :
    ∃ o', motifCompute ⟨[], []⟩ np nlist wrap motif thr (fun _ => none) = some o' ∧
      ∀ i < np, Unambiguous thr (motif.map wrap) (envVectors nlist.bonds i) →
        (o'.isMatch.getD i false = true ↔ motif ≠ [] ∧ motif.length = (envVectors nlist.bonds i).length ∧
          ∃ f, Matching thr (motif.map wrap) (envVectors nlist.bonds i) f) := by
  obtain ⟨o', h1, -, -, h2⟩ := C70_motif_match np nlist wrap motif thr (fun _ => none) hin
    (fun _ fit h => by simp at h)
  refine ⟨o', h1, fun i hi hu => ?_⟩
  obtain ⟨-, rot, m, h3, h4⟩ := h2 i hi
  rw [h4]
  set e1 := makeEnvironment (fun v : Vec3 K => v) (motif.map wrap) with he1
  set e2 := makeEnvironment (fun v : Vec3 K => v) (envVectors nlist.bonds i) with he2
  have l1 : e1.vecs.length = motif.length := by rw [he1, makeEnvironment_spec]; simp
  have l2 : e2.vecs.length = (envVectors nlist.bonds i).length := by rw [he2, makeEnvironment_spec]; simp
  have v1 : e1.properD = motif.map wrap := by rw [he1, makeEnvironment_properD, List.map_id']
  have v2 : e2.properD = envVectors nlist.bonds i := by rw [he2, makeEnvironment_properD, List.map_id']
  unfold isSimilar at h3
  by_cases hl : motif.length = (envVectors nlist.bonds i).length
  · rw [l1, l2, if_neg (by simpa using hl), Env.proper_eq _ (makeEnvironment_wf _ _),
      Env.proper_eq _ (makeEnvironment_wf _ _), v1, v2] at h3
    simp only [Option.bind_some, Option.map_some] at h3
    have hf := full_iff hu
    rw [List.length_map, ← exists_matching_iff (by simpa using hl) hu] at hf
    by_cases hc : (compareAll (thr * thr) (motif.map wrap) (envVectors nlist.bonds i)).size = motif.length
    · rw [if_pos hc] at h3
      obtain ⟨-, rfl⟩ := Prod.mk.inj (Option.some.inj h3)
      rw [hc]
      have := hf.mp hc
      simp only [this, hl, and_true]
      rw [Ne, Ne, ← List.length_eq_zero_iff, hl]
    · rw [if_neg hc] at h3
      obtain ⟨-, rfl⟩ := Prod.mk.inj (Option.some.inj h3)
      simp only [BiMap.size_new, ne_eq, not_true, false_iff]
      rintro ⟨-, -, hm⟩
      exact hc (hf.mpr hm)
  · rw [l1, l2, if_pos hl] at h3
    obtain ⟨-, rfl⟩ := Prod.mk.inj (Option.some.inj h3)
    simp [hl, BiMap.size_new]

open MatchEnv in
/-- **C49** (motifs): which points match does not depend on earlier computations. What is missing: the
point environments do; those of the new points are appended to what is already there. -/
theorem C49_motif_history_partial (np : ℕ) (nlist : NList K) (wrap : Vec3 K → Vec3 K) (motif : List (Vec3 K))
    (thr : K) (reg : ℕ → Option (Fitter K)) (hin : MotifInput np nlist)
    (hreg : ∀ i fit, reg i = some fit → Registers fit ∧ motif ≠ []) :
    ∃ fresh, motifCompute ⟨[], []⟩ np nlist wrap motif thr reg = some fresh ∧
      ∀ o : MotifObj K, ∃ o', motifCompute o np nlist wrap motif thr reg = some o' ∧ o'.isMatch = fresh.isMatch ∧
        o'.pointEnvs.length = o.pointEnvs.length + np ∧
        ∀ i, o'.pointEnvs.getD i [] = o.pointEnvs.getD i [] ++ fresh.pointEnvs.getD i [] := by
  obtain ⟨pe, b, g1, g2⟩ := motif_loop np nlist wrap motif thr reg hin hreg
  obtain ⟨o1, f1, f2, f3, f4⟩ := g2 ⟨[], []⟩
  refine ⟨o1, f1, fun o => ?_⟩
  obtain ⟨o', h1, h2, h3, h4⟩ := g2 o
  refine ⟨o', h1, by rw [h2, f2], h3, fun i => ?_⟩
  rw [h4, f4]
  simp

/-- The inner points of a row match their common environment. -/
example : MotifInput 4 exRow := ⟨rfl, rfl, ⟨by decide, by decide, by decide, by decide⟩⟩

example : (MatchEnv.motifCompute ⟨[], []⟩ 4 exRow (fun v => v) [⟨1, 0, 0⟩, ⟨-1, 0, 0⟩] (2 / 10) (fun _ => none)).map
    (fun o => (o.isMatch, o.pointEnvs)) = some ([false, true, true, false], [[⟨1, 0, 0⟩],
      [⟨1, 0, 0⟩, ⟨-1, 0, 0⟩], [⟨1, 0, 0⟩, ⟨-11 / 10, 0, 0⟩], [⟨-1, 0, 0⟩]]) := by decide +kernel

end Freud
