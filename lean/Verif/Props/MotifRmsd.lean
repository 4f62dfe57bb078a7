import Verif.Props.MotifMatch

/-!
# C49, C71: the root mean square distances of environments to a motif
-/

namespace Freud
set_option linter.unusedSectionVars false
variable {K : Type*} [Field K] [LinearOrder K] [IsStrictOrderedRing K]

open Spec

/-- A registration, as in `Spec.Registers`, with this square root and this sort. -/
def Spec.RegistersWith (sqrt : K → K) (sort : List (ℕ × K) → List (ℕ × K)) (fit : Fitter K) : Prop :=
  ∃ (kabsch : List (Vec3 K) → List (Vec3 K) → Mat3 K) (tol : K), (∀ P Q, Rotation (kabsch P Q)) ∧
    ∀ ref pts, pts.length = ref.length → 0 < pts.length →
      ∃ pick, PickOK pts.length pick ∧ fit ref pts = Reg.fit kabsch sqrt sort tol pick ref pts

/-- The root of the mean squared distance of equally long lists, place by place. -/
def Spec.rootMeanSq (sqrt : K → K) (a b : List (Vec3 K)) : K :=
  sqrt (((List.range a.length).map (fun k => Spec.sqDistance (a.getD k 0) (b.getD k 0))).sum / a.length)

/-- What is reported for one point with environment `env`: its environment `pe` and its distance. -/
structure Spec.RmsdResult (sqrt : K → K) (motif env pe : List (Vec3 K)) (rmsd : K) : Prop where
  copy : RotatedCopy env pe
  same : env.length = motif.length → rmsd = rootMeanSq sqrt motif pe
  differ : env.length ≠ motif.length → rmsd = -1 ∧ pe = env

namespace MatchEnv

/-- What is known about the result of `minimizeRMSD`. -/
theorem minimizeRMSD_spec (sqrt : K → K) (hsq : ∀ x, 0 ≤ sqrt x) (sort : List (ℕ × K) → List (ℕ × K))
    (hs : SortOK sort) (t1 t2 : ℕ) (g1 g2 : Bool) (v1 v2 : List (Vec3 K)) (reg : Option (Fitter K))
    (h0 : v1 ≠ []) (hl : v1.length = v2.length) (hreg : ∀ fit, reg = some fit → RegistersWith sqrt sort fit) :
    ∃ rot m r, minimizeRMSD sqrt sort (⟨t1, v1, g1, v1.length, List.range v1.length, Mat3.one⟩ : Env K)
        ⟨t2, v2, g2, v2.length, List.range v2.length, Mat3.one⟩ reg = some (rot, m, r) ∧
      Rotation rot ∧ BiMap.Inv m ∧ Bijection v2.length m.pairs ∧
      r = sqrt (meanSqDistance v1 (v2.map rot.mulVec) m.pairs) ∧ (reg = none → rot = Mat3.one) := by
  have hpos : 0 < v2.length := by rw [← hl]; exact List.length_pos_iff.mpr h0
  have wf : ∀ (t : ℕ) (g : Bool) (v : List (Vec3 K)),
      (⟨t, v, g, v.length, List.range v.length, Mat3.one⟩ : Env K).proper = some v := by
    intro t g v
    rw [Env.proper_eq _ (by unfold Env.WF; simp), properD_fresh]
  unfold minimizeRMSD
  rw [if_neg (by simpa using hl), wf, wf]
  simp only [Option.bind_some]
  cases reg with
  | none =>
    obtain ⟨r, m, a1, a2, a3, a4, -⟩ := Reg.aligned_spec sqrt sort hs v1 v2 hl.symm
    refine ⟨Mat3.one, m, r, by simp [a1], rotation_one, a2, a3, ?_, fun _ => rfl⟩
    rw [a4, funext one_mulVec, List.map_id']
  | some fit =>
    obtain ⟨kabsch, tol, b1, b2⟩ := hreg fit rfl
    obtain ⟨pick, b3, b4⟩ := b2 v1 v2 hl.symm hpos
    obtain ⟨st, a1, a2, a3, a4, ⟨t, -, a5⟩, -⟩ := Reg.fit_spec kabsch sqrt hsq sort hs tol pick v1 v2 hl.symm hpos b3
    exact ⟨st.rotation, st.map, st.rmsd, by simp [b4, a1], by rw [a5]; exact b1 _ _, a2, a3, a4,
      fun h => by simp at h⟩

/-- The mean over the matched pairs is the mean over the places of the reordered list. -/
theorem mean_places (v1 v2 pe : List (Vec3 K)) (rot : Mat3 K) (pairs : List (ℕ × ℕ)) (σ : ℕ → ℕ)
    (hl : v1.length = v2.length) (hb : Bijection v2.length pairs)
    (h : ∀ q < v1.length, (q, σ q) ∈ pairs ∧ pe.getD q 0 = rot.mulVec (v2.getD (σ q) 0)) :
    meanSqDistance v1 (v2.map rot.mulVec) pairs =
      ((List.range v1.length).map (fun k => sqDistance (v1.getD k 0) (pe.getD k 0))).sum / v1.length := by
  unfold meanSqDistance
  rw [List.length_map, hl]
  congr 1
  have hnd : (pairs.map (·.1)).Nodup := hb.1.symm.nodup (List.nodup_range)
  have hp : (List.range v2.length).map (fun q => (q, σ q)) |>.Perm pairs := by
    apply List.Subperm.perm_of_length_le
    · apply List.Nodup.subperm
      · exact List.Nodup.map (fun a b hab => (Prod.mk.inj hab).1) List.nodup_range
      · intro x hx
        obtain ⟨q, hq, rfl⟩ := List.mem_map.mp hx
        exact (h q (by rw [hl]; exact List.mem_range.mp hq)).1
    · have := hb.1.length_eq
      simp only [List.length_map, List.length_range] at this ⊢
      omega
  rw [← (hp.map _).sum_eq, List.map_map]
  congr 1
  apply List.map_congr_left
  intro q hq
  have hq' := List.mem_range.mp hq
  obtain ⟨a1, a2⟩ := h q (by rw [hl]; exact hq')
  have hσ : σ q < v2.length := by
    have : σ q ∈ pairs.map (·.2) := List.mem_map.mpr ⟨_, a1, rfl⟩
    exact List.mem_range.mp (hb.2.mem_iff.mp this)
  simp only [Function.comp]
  rw [a2]
  congr 1
  simp [List.getD_eq_getElem?_getD, hσ]

/-- One round of the loop of `EnvironmentRMSDMinimizer::compute`. -/
theorem rmsdStep_spec {motif : List (Vec3 K)} {bonds : List (Bond K)} {np k : ℕ} {d : EnvDJ K}
    (sqrt : K → K) (hsq : ∀ x, 0 ≤ sqrt x) (sort : List (ℕ × K) → List (ℕ × K)) (hsort : SortOK sort)
    (reg : ℕ → Option (Fitter K)) (hs : (bonds.map (·.q)).Pairwise (· ≤ ·))
    (h : MotifInv motif bonds np k d) (hk : k < np) (h0 : motif ≠ [])
    (hreg : ∀ fit, reg k = some fit → RegistersWith sqrt sort fit) :
    ∃ d' pe r, MotifInv motif bonds np (k + 1) d' ∧
      RmsdResult sqrt motif (envVectors bonds k) pe r ∧
      (reg k = none → pe.Perm (envVectors bonds k)) ∧
      ∀ obj : RmsdObj K, rmsdStep sqrt sort reg ⟨d, bonds.filter (fun b => decide (k ≤ b.q)), obj⟩ k =
        some ⟨d', bonds.filter (fun b => decide (k + 1 ≤ b.q)),
          ⟨appendEnv obj.pointEnvs k pe, obj.rmsds.set k r⟩⟩ := by
  obtain ⟨hp, hnew⟩ := motifInv_push h hk
  set e : Env K := ⟨k + 1, envVectors bonds k, false, (envVectors bonds k).length,
    List.range (envVectors bonds k).length, Mat3.one⟩ with he
  set d1 : EnvDJ K := { d with s := d.s ++ [e] } with hd1
  have hbuild : buildEnv k (k + 1) (bonds.filter (fun b => decide (k ≤ b.q))) =
      (e, bonds.filter (fun b => decide (k + 1 ≤ b.q))) := by
    rw [buildEnv_spec k (k + 1) _ (sorted_filter bonds hs _) (fun b hb => by
      rw [List.mem_filter] at hb; exact of_decide_eq_true hb.2), filter_filter_ge,
      envVectors_rest bonds k k le_rfl]
  have l0 : 0 < d1.s.length := by rw [hp.len]; omega
  have l1 : k + 1 < d1.s.length := by rw [hp.len]; omega
  have hstep : ∀ (obj : RmsdObj K) rot m r, minimizeRMSD sqrt sort (d1.env 0) (d1.env (k + 1)) (reg k) =
      some (rot, m, r) → rmsdStep sqrt sort reg ⟨d, bonds.filter (fun b => decide (k ≤ b.q)), obj⟩ k =
      (if m.size = 0 then some d1 else d1.merge 0 (k + 1) m rot).bind fun d' =>
        (d'.getIndividualEnv (k + 1)).map fun part =>
          ⟨d', bonds.filter (fun b => decide (k + 1 ≤ b.q)), ⟨appendEnv obj.pointEnvs k part, obj.rmsds.set k r⟩⟩ := by
    intro obj rot m r hr
    unfold rmsdStep
    simp only [hbuild]
    rw [← hd1, EnvDJ.getElem?_env d1 0 l0, EnvDJ.getElem?_env d1 (k + 1) l1]
    simp only [Option.bind_some, hr]
  have hind : ∀ d' : EnvDJ K, MotifInv motif bonds np (k + 1) d' →
      d'.getIndividualEnv (k + 1) = some (d'.env (k + 1)).properD := by
    intro d' hd'
    have : k + 1 < d'.s.length := by rw [hd'.len]; omega
    unfold EnvDJ.getIndividualEnv
    rw [EnvDJ.getElem?_env d' (k + 1) this, Option.bind_some, Env.proper_eq _ (hd'.inv.wf _ this)]
  by_cases hl : motif.length = (envVectors bonds k).length
  · obtain ⟨rot, m, r, a1, a2, a3, a4, a5, a6⟩ := minimizeRMSD_spec sqrt hsq sort hsort 0 (k + 1) true false motif
      (envVectors bonds k) (reg k) h0 hl hreg
    have a1' : minimizeRMSD sqrt sort (d1.env 0) (d1.env (k + 1)) (reg k) = some (rot, m, r) := by
      rw [hp.head, hnew, he]; exact a1
    have hsz : m.size = motif.length := by
      have e1 := a4.1.length_eq
      rw [List.length_map, List.length_range, ← hl] at e1
      rw [← e1]
      exact BiMap.size_pairs m a3
    have hm : m.size ≠ 0 := by rw [hsz]; simpa using h0
    obtain ⟨d', k1, k2, k3, σ, k4⟩ := motif_merge hp hnew rot m a2 a3 hl hsz (by rw [hl]; exact a4)
    have l1' : k + 1 < d'.s.length := by rw [k2.len]; omega
    refine ⟨d', (d'.env (k + 1)).properD, r, k2, ⟨properD_rotated d' k2.inv (k + 1) l1', fun _ => ?_,
      fun h => absurd hl.symm h⟩, fun hr => ?_, fun obj => ?_⟩
    · rw [a5, mean_places motif (envVectors bonds k) _ rot m.pairs σ hl a4 k4]
      rfl
    · have hσ : ∀ q < motif.length, σ q < (envVectors bonds k).length := by
        intro q hq
        have : σ q ∈ m.pairs.map (·.2) := List.mem_map.mpr ⟨_, (k4 q hq).1, rfl⟩
        exact List.mem_range.mp (a4.2.mem_iff.mp this)
      have hsnd : (m.pairs.map (·.2)).Nodup := a4.2.symm.nodup List.nodup_range
      have e1 : (d'.env (k + 1)).properD = (List.range motif.length).map (fun q => (envVectors bonds k).getD (σ q) 0) := by
        apply List.ext_getElem
        · simp [k3]
        · intro q h1 h2
          have hq : q < motif.length := by simpa using h2
          have := (k4 q hq).2
          rw [a6 hr, one_mulVec, List.getD_eq_getElem?_getD, List.getElem?_eq_getElem h1, Option.getD_some] at this
          simp [this]
      have e2 : ((List.range motif.length).map σ).Perm (List.range motif.length) := by
        apply nodup_perm_range
        · apply List.Nodup.map_on _ List.nodup_range
          intro x hx y hy hxy
          have hx' := (k4 x (List.mem_range.mp hx)).1
          have hy' := (k4 y (List.mem_range.mp hy)).1
          have := List.inj_on_of_nodup_map hsnd hx' hy' hxy
          exact (Prod.mk.inj this).1
        · intro x hx
          obtain ⟨q, hq, rfl⟩ := List.mem_map.mp hx
          rw [hl]; exact hσ q (List.mem_range.mp hq)
        · simp
      rw [e1]
      have e3 := e2.map (fun q => (envVectors bonds k).getD q 0)
      rw [List.map_map] at e3
      refine e3.trans ?_
      rw [hl]
      have e4 : (List.range (envVectors bonds k).length).map (fun q => (envVectors bonds k).getD q 0) =
          envVectors bonds k := by
        apply List.ext_getElem
        · simp
        · intro q h1 h2
          simp [List.getD_eq_getElem?_getD, h2]
      rw [e4]
    · rw [hstep obj rot m r a1', if_neg hm, k1, Option.bind_some, hind d' k2]
      rfl
  · have a1' : minimizeRMSD sqrt sort (d1.env 0) (d1.env (k + 1)) (reg k) = some (Mat3.one, BiMap.new, -1) := by
      unfold minimizeRMSD
      rw [hp.head, hnew, he, if_pos (by simpa using hl)]
    refine ⟨d1, envVectors bonds k, -1, hp, ⟨rotatedCopy_self _, fun h => absurd h.symm hl, fun _ => ⟨rfl, rfl⟩⟩,
      fun _ => List.Perm.refl _, fun obj => ?_⟩
    rw [hstep obj _ _ _ a1', if_pos BiMap.size_new, Option.bind_some, hind d1 hp, hnew, properD_fresh]
    rfl

/-- The loop of `EnvironmentRMSDMinimizer::compute`. -/
theorem rmsd_loop (sqrt : K → K) (hsq : ∀ x, 0 ≤ sqrt x) (sort : List (ℕ × K) → List (ℕ × K)) (hsort : SortOK sort)
    (np : ℕ) (nlist : NList K) (wrap : Vec3 K → Vec3 K) (motif : List (Vec3 K))
    (reg : ℕ → Option (Fitter K)) (hin : MotifInput np nlist) (h0 : motif ≠ [])
    (hreg : ∀ i fit, reg i = some fit → RegistersWith sqrt sort fit) :
    ∃ (pe : ℕ → List (Vec3 K)) (r : ℕ → K),
      (∀ i < np, RmsdResult sqrt (motif.map wrap) (envVectors nlist.bonds i) (pe i) (r i) ∧
        (reg i = none → (pe i).Perm (envVectors nlist.bonds i))) ∧
      ∀ o : RmsdObj K, ∃ o', rmsdCompute sqrt sort o np nlist wrap motif reg = some o' ∧
        o'.rmsds = (List.range np).map r ∧ o'.pointEnvs.length = o.pointEnvs.length + np ∧
        ∀ j, o'.pointEnvs.getD j [] = o.pointEnvs.getD j [] ++ (if j < np then pe j else []) := by
  have key : ∀ k, k ≤ np → ∃ (d : EnvDJ K) (pe : ℕ → List (Vec3 K)) (r : ℕ → K),
      MotifInv (motif.map wrap) nlist.bonds np k d ∧
      (∀ i < k, RmsdResult sqrt (motif.map wrap) (envVectors nlist.bonds i) (pe i) (r i) ∧
        (reg i = none → (pe i).Perm (envVectors nlist.bonds i))) ∧
      ∀ o : RmsdObj K, ∃ obj, (List.range k).foldlM (rmsdStep sqrt sort reg)
          ⟨⟨[makeEnvironment wrap motif], List.replicate (np + 1) 0⟩, nlist.bonds,
            ⟨o.pointEnvs, List.replicate np 0⟩⟩ =
          some ⟨d, nlist.bonds.filter (fun b => decide (k ≤ b.q)), obj⟩ ∧
        obj.rmsds = (List.range np).map (fun i => if i < k then r i else 0) ∧
        obj.pointEnvs.length = o.pointEnvs.length + k ∧
        ∀ j, obj.pointEnvs.getD j [] = o.pointEnvs.getD j [] ++ (if j < k then pe j else []) := by
    intro k
    induction k with
    | zero =>
      intro _
      refine ⟨_, fun _ => [], fun _ => 0, motifInv_init wrap motif nlist.bonds np, by simp, fun o => ?_⟩
      refine ⟨⟨o.pointEnvs, List.replicate np 0⟩, ?_, ?_, rfl, by simp⟩
      · have e : nlist.bonds.filter (fun b => decide (0 ≤ b.q)) = nlist.bonds := by
          rw [List.filter_eq_self]; intro b _; simp
        rw [e]
        rfl
      · simp
    | succ k ih =>
      intro hk
      obtain ⟨d, pe, r, g1, g2, g3⟩ := ih (by omega)
      obtain ⟨d', pe', r', k1, k2, k3, k5⟩ := rmsdStep_spec sqrt hsq sort hsort reg hin.good.sorted g1 (by omega)
        (by simpa using h0) (hreg k)
      refine ⟨d', Function.update pe k pe', Function.update r k r', k1, ?_, fun o => ?_⟩
      · intro i hi
        rcases Nat.lt_succ_iff_lt_or_eq.mp hi with hi | rfl
        · rw [Function.update_of_ne (by omega), Function.update_of_ne (by omega)]
          exact g2 i hi
        · rw [Function.update_self, Function.update_self]
          exact ⟨k2, k3⟩
      · obtain ⟨obj, f1, f2, f3, f4⟩ := g3 o
        refine ⟨_, by rw [List.range_succ, List.foldlM_append, f1]; simp [k5]; rfl, ?_, ?_, ?_⟩
        · simp only
          rw [f2]
          apply List.ext_getElem
          · simp
          · intro i h1 h2
            have hi : i < np := by simpa using h2
            by_cases hik : i = k
            · subst hik
              simp
            · have e2 : (i ≤ k) ↔ i < k := by omega
              simp [hik, Function.update_of_ne, Ne.symm hik, e2]
        · simp only
          rw [(appendEnv_spec obj.pointEnvs k pe' (by rw [f3]; omega)).1, f3]
          omega
        · intro j
          simp only
          rw [(appendEnv_spec obj.pointEnvs k pe' (by rw [f3]; omega)).2, f4, List.append_assoc]
          congr 1
          by_cases h1 : j = k
          · subst h1; simp
          · rw [Function.update_of_ne h1, if_neg h1, List.append_nil]
            by_cases h2 : j < k
            · simp [h2, Nat.lt_succ_of_lt h2]
            · rw [if_neg h2, if_neg (by omega)]
  obtain ⟨d, pe, r, g1, g2, g3⟩ := key np le_rfl
  refine ⟨pe, r, g2, fun o => ?_⟩
  obtain ⟨obj, f1, f2, f3, f4⟩ := g3 o
  refine ⟨obj, ?_, ?_, f3, f4⟩
  · unfold rmsdCompute
    rw [f1]
    rfl
  · rw [f2]
    apply List.map_congr_left
    intro i hi
    simp [List.mem_range.mp hi]

end MatchEnv

open MatchEnv in
/-- **C71**: with a new object and a motif that is not empty, for every point: if its environment has as
many vectors as the motif, the reported distance is the root of the mean squared distance, place by
place, of the motif and the reported environment, which is a rotated and reordered copy of the point's
environment (only reordered without registration); otherwise the distance is −1 and the environment
unchanged. -/
theorem C71_rmsd (sqrt : K → K) (hsq : ∀ x, 0 ≤ sqrt x) (sort : List (ℕ × K) → List (ℕ × K)) (hsort : SortOK sort)
    (np : ℕ) (nlist : NList K) (wrap : Vec3 K → Vec3 K) (motif : List (Vec3 K))
    (reg : ℕ → Option (Fitter K)) (hin : MotifInput np nlist) (h0 : motif ≠ [])
    (hreg : ∀ i fit, reg i = some fit → RegistersWith sqrt sort fit) :
    ∃ o', rmsdCompute sqrt sort ⟨[], []⟩ np nlist wrap motif reg = some o' ∧ o'.rmsds.length = np ∧
      o'.pointEnvs.length = np ∧
      ∀ i < np, RmsdResult sqrt (motif.map wrap) (envVectors nlist.bonds i) (o'.pointEnvs.getD i [])
          (o'.rmsds.getD i 0) ∧
        (reg i = none → (o'.pointEnvs.getD i []).Perm (envVectors nlist.bonds i)) := by
  obtain ⟨pe, r, g1, g2⟩ := rmsd_loop sqrt hsq sort hsort np nlist wrap motif reg hin h0 hreg
  obtain ⟨o', f1, f2, f3, f4⟩ := g2 ⟨[], []⟩
  refine ⟨o', f1, by rw [f2]; simp, by rw [f3]; simp, fun i hi => ?_⟩
  have e1 : o'.rmsds.getD i 0 = r i := by
    rw [f2]; simp [List.getD_eq_getElem?_getD, hi]
  have e2 : o'.pointEnvs.getD i [] = pe i := by rw [f4, if_pos hi]; simp
  rw [e1, e2]
  exact g1 i hi

open MatchEnv in
/-- **C71** (sign): the reported distance is −1 exactly for the points whose environment differs in size
from the motif; all the others have a distance that is not negative. -/
theorem C71_sizes (sqrt : K → K) (hsq : ∀ x, 0 ≤ sqrt x) (sort : List (ℕ × K) → List (ℕ × K)) (hsort : SortOK sort)
    (np : ℕ) (nlist : NList K) (wrap : Vec3 K → Vec3 K) (motif : List (Vec3 K))
    (reg : ℕ → Option (Fitter K)) (hin : MotifInput np nlist) (h0 : motif ≠ [])
    (hreg : ∀ i fit, reg i = some fit → RegistersWith sqrt sort fit) :
    ∃ o', rmsdCompute sqrt sort ⟨[], []⟩ np nlist wrap motif reg = some o' ∧
      ∀ i < np, (o'.rmsds.getD i 0 = -1 ↔ (envVectors nlist.bonds i).length ≠ motif.length) ∧
        (o'.rmsds.getD i 0 ≠ -1 → 0 ≤ o'.rmsds.getD i 0) := by
  obtain ⟨o', f1, -, -, f2⟩ := C71_rmsd sqrt hsq sort hsort np nlist wrap motif reg hin h0 hreg
  refine ⟨o', f1, fun i hi => ?_⟩
  obtain ⟨⟨-, a2, a3⟩, -⟩ := f2 i hi
  rw [List.length_map] at a2 a3
  by_cases hl : (envVectors nlist.bonds i).length = motif.length
  · have h1 : 0 ≤ o'.rmsds.getD i 0 := by rw [a2 hl]; exact hsq _
    refine ⟨⟨fun h => ?_, fun h => absurd hl h⟩, fun _ => h1⟩
    rw [h] at h1
    linarith
  · exact ⟨⟨fun _ => hl, fun _ => (a3 hl).1⟩, fun h => absurd (a3 hl).1 h⟩

open MatchEnv in
/-- **C49** (distances to a motif): the distances do not depend on earlier computations. What is missing:
the point environments do; those of the new points are appended to what is already there. -/
theorem C49_rmsd_history_partial (sqrt : K → K) (hsq : ∀ x, 0 ≤ sqrt x) (sort : List (ℕ × K) → List (ℕ × K))
    (hsort : SortOK sort) (np : ℕ) (nlist : NList K) (wrap : Vec3 K → Vec3 K) (motif : List (Vec3 K))
    (reg : ℕ → Option (Fitter K)) (hin : MotifInput np nlist) (h0 : motif ≠ [])
    (hreg : ∀ i fit, reg i = some fit → RegistersWith sqrt sort fit) :
    ∃ fresh, rmsdCompute sqrt sort ⟨[], []⟩ np nlist wrap motif reg = some fresh ∧
      ∀ o : RmsdObj K, ∃ o', rmsdCompute sqrt sort o np nlist wrap motif reg = some o' ∧ o'.rmsds = fresh.rmsds ∧
        o'.pointEnvs.length = o.pointEnvs.length + np ∧
        ∀ i, o'.pointEnvs.getD i [] = o.pointEnvs.getD i [] ++ fresh.pointEnvs.getD i [] := by
  obtain ⟨pe, r, g1, g2⟩ := rmsd_loop sqrt hsq sort hsort np nlist wrap motif reg hin h0 hreg
  obtain ⟨o1, f1, f2, f3, f4⟩ := g2 ⟨[], []⟩
  refine ⟨o1, f1, fun o => ?_⟩
  obtain ⟨o', h1, h2, h3, h4⟩ := g2 o
  refine ⟨o', h1, by rw [h2, f2], h3, fun i => ?_⟩
  rw [h4, f4]
  simp

/-- The distances of the points of a row to the environment of an inner point; the square root is
replaced by the absolute value so that the numbers stay rational. -/
example : (MatchEnv.rmsdCompute (fun x : ℚ => |x|) exRefSort ⟨[], []⟩ 4 exRow (fun v => v) [⟨1, 0, 0⟩, ⟨-1, 0, 0⟩]
    (fun _ => none)).map (fun o => (o.rmsds, o.pointEnvs)) = some ([-1, 0, 1 / 200, -1], [[⟨1, 0, 0⟩],
      [⟨1, 0, 0⟩, ⟨-1, 0, 0⟩], [⟨1, 0, 0⟩, ⟨-11 / 10, 0, 0⟩], [⟨-1, 0, 0⟩]]) := by decide +kernel

/-- The assumptions of the theorems hold for it. -/
example : MotifInput 4 exRow ∧ ([⟨1, 0, 0⟩, ⟨-1, 0, 0⟩] : List (Vec3 ℚ)) ≠ [] ∧ SortOK exRefSort :=
  ⟨⟨rfl, rfl, ⟨by decide, by decide, by decide, by decide⟩⟩, by simp, exRefSort_ok⟩

end Freud
