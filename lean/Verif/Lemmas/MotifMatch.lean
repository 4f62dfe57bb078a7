import Verif.Lemmas.EnvPopulate
import Verif.Props.EnvCluster

/-!
# Lemmas on matching the environments of points with a motif
-/

namespace Freud
set_option linter.unusedSectionVars false
variable {K : Type*} [Field K] [LinearOrder K] [IsStrictOrderedRing K]

open Spec

namespace MatchEnv

/-- What the disjoint set holds: the motif, and the environments of the points. -/
def motifBase (motif : List (Vec3 K)) (bonds : List (Bond K)) : ℕ → List (Vec3 K) × Bool
  | 0 => (motif, true)
  | i + 1 => (envVectors bonds i, false)

/-- The disjoint set after `k` points. The ranks of the points are never raised. -/
structure MotifInv (motif : List (Vec3 K)) (bonds : List (Bond K)) (np k : ℕ) (d : EnvDJ K) : Prop where
  inv : EnvDJ.Inv (motifBase motif bonds) d
  len : d.s.length = k + 1
  rlen : d.rank.length = np + 1
  rank : ∀ j, 0 < j → d.rank.getD j 0 = 0
  head : d.env 0 = ⟨0, motif, true, motif.length, List.range motif.length, Mat3.one⟩

theorem properD_fresh (t : ℕ) (g : Bool) (vs : List (Vec3 K)) :
    (⟨t, vs, g, vs.length, List.range vs.length, Mat3.one⟩ : Env K).properD = vs := by
  unfold Env.properD
  apply List.ext_getElem
  · simp
  · intro i h1 h2
    simp [one_mulVec, List.getD_eq_getElem?_getD, h2]

theorem motifInv_init (wrap : Vec3 K → Vec3 K) (motif : List (Vec3 K)) (bonds : List (Bond K)) (np : ℕ) :
    MotifInv (motif.map wrap) bonds np 0 ⟨[makeEnvironment wrap motif], List.replicate (np + 1) 0⟩ := by
  have he : (⟨[makeEnvironment wrap motif], List.replicate (np + 1) 0⟩ : EnvDJ K).env 0 =
      ⟨0, motif.map wrap, true, (motif.map wrap).length, List.range (motif.map wrap).length, Mat3.one⟩ := by
    simp [EnvDJ.env, makeEnvironment_spec]
  have hi : ∀ i, i < [makeEnvironment wrap motif].length → i = 0 := by intro i hi; simpa using hi
  have hr : (⟨[makeEnvironment wrap motif], List.replicate (np + 1) 0⟩ : EnvDJ K).rep 0 = 0 := by
    unfold EnvDJ.rep; rw [he]
  refine ⟨⟨by simp, ?_, ?_, ?_, ?_, ?_, ?_, ?_⟩, rfl, by simp, ?_, he⟩
  · intro i h; obtain rfl := hi i h; rw [hr]; simp
  · intro i h; obtain rfl := hi i h; rw [hr, hr]
  · intro i h; obtain rfl := hi i h; rw [he]; unfold Env.WF; simp
  · intro i h; obtain rfl := hi i h; rw [he]; exact rotation_one
  · intro i h; obtain rfl := hi i h; rw [he]; rfl
  · intro i h; obtain rfl := hi i h; rw [he]; rfl
  · intro i h; obtain rfl := hi i h; rw [hr]
  · intro j hj
    rw [List.getD_eq_getElem?_getD, List.getElem?_replicate]
    split_ifs <;> rfl

/-- The set after the environment of the next point was added. -/
theorem motifInv_push {motif : List (Vec3 K)} {bonds : List (Bond K)} {np k : ℕ} {d : EnvDJ K}
    (h : MotifInv motif bonds np k d) (hk : k < np) :
    MotifInv motif bonds np (k + 1) { d with s := d.s ++ [⟨k + 1, envVectors bonds k, false,
      (envVectors bonds k).length, List.range (envVectors bonds k).length, Mat3.one⟩] } ∧
    ({ d with s := d.s ++ [⟨k + 1, envVectors bonds k, false,
      (envVectors bonds k).length, List.range (envVectors bonds k).length, Mat3.one⟩] } : EnvDJ K).env (k + 1) =
      ⟨k + 1, envVectors bonds k, false, (envVectors bonds k).length,
        List.range (envVectors bonds k).length, Mat3.one⟩ := by
  set e : Env K := ⟨k + 1, envVectors bonds k, false, (envVectors bonds k).length,
    List.range (envVectors bonds k).length, Mat3.one⟩ with he
  set d1 : EnvDJ K := { d with s := d.s ++ [e] } with hd1
  have hold : ∀ i < d.s.length, d1.env i = d.env i := by
    intro i hi
    simp [EnvDJ.env, hd1, List.getElem?_append_left hi]
  have hnew : d1.env (k + 1) = e := by
    simp [EnvDJ.env, hd1, ← h.len]
  have hlen : d1.s.length = k + 2 := by simp [hd1, h.len]
  have hrep : ∀ i < d.s.length, d1.rep i = d.rep i := fun i hi => by
    unfold EnvDJ.rep; rw [hold i hi]
  have hrepn : d1.rep (k + 1) = k + 1 := by unfold EnvDJ.rep; rw [hnew]
  have hcase : ∀ i < d1.s.length, i < d.s.length ∨ i = k + 1 := by
    intro i hi; rw [hlen] at hi; rw [h.len]; omega
  refine ⟨⟨⟨?_, ?_, ?_, ?_, ?_, ?_, ?_, ?_⟩, hlen, h.rlen, h.rank, by rw [hold 0 (by rw [h.len]; omega)]; exact h.head⟩, hnew⟩
  · rw [hlen, show d1.rank.length = np + 1 from h.rlen]; omega
  · intro i hi
    rcases hcase i hi with hi' | rfl
    · rw [hrep i hi', hlen]; have := h.inv.lt i hi'; rw [h.len] at this; omega
    · rw [hrepn]; exact hi
  · intro i hi
    rcases hcase i hi with hi' | rfl
    · rw [hrep i hi', hrep _ (h.inv.lt i hi')]; exact h.inv.flat i hi'
    · rw [hrepn, hrepn]
  · intro i hi
    rcases hcase i hi with hi' | rfl
    · rw [hold i hi']; exact h.inv.wf i hi'
    · rw [hnew]; unfold Env.WF; simp [he]
  · intro i hi
    rcases hcase i hi with hi' | rfl
    · rw [hold i hi']; exact h.inv.rot i hi'
    · rw [hnew]; exact rotation_one
  · intro i hi
    rcases hcase i hi with hi' | rfl
    · rw [hold i hi']; exact h.inv.vecs i hi'
    · rw [hnew]; rfl
  · intro i hi
    rcases hcase i hi with hi' | rfl
    · rw [hold i hi']; exact h.inv.ghost i hi'
    · rw [hnew]; rfl
  · intro i hi
    rcases hcase i hi with hi' | rfl
    · rw [hrep i hi']; exact h.inv.same i hi'
    · rw [hrepn]

/-- A merge of the newest point with the motif. -/
theorem motif_merge {motif : List (Vec3 K)} {bonds : List (Bond K)} {np k : ℕ} {d : EnvDJ K}
    (h : MotifInv motif bonds np (k + 1) d)
    (hnew : d.env (k + 1) = ⟨k + 1, envVectors bonds k, false, (envVectors bonds k).length,
        List.range (envVectors bonds k).length, Mat3.one⟩)
    (rot : Mat3 K) (m : BiMap ℕ ℕ) (hrot : Rotation rot) (hinv : BiMap.Inv m)
    (hl : motif.length = (envVectors bonds k).length) (hs : m.size = motif.length)
    (hb : Bijection motif.length m.pairs) :
    ∃ d', d.merge 0 (k + 1) m rot = some d' ∧ MotifInv motif bonds np (k + 1) d' ∧
      (d'.env (k + 1)).properD.length = motif.length ∧
      ∃ σ : ℕ → ℕ, ∀ q < motif.length, (q, σ q) ∈ m.pairs ∧
        (d'.env (k + 1)).properD.getD q 0 = rot.mulVec ((envVectors bonds k).getD (σ q) 0) := by
  have h0 : (0 : ℕ) < d.s.length := by rw [h.len]; omega
  have h1 : k + 1 < d.s.length := by rw [h.len]; omega
  have r0 : d.rep 0 = 0 := by unfold EnvDJ.rep; rw [h.head]
  have r1 : d.rep (k + 1) = k + 1 := by unfold EnvDJ.rep; rw [hnew]
  have hne : d.rep 0 ≠ d.rep (k + 1) := by rw [r0, r1]; omega
  obtain ⟨σ, s1, s2, s3⟩ := EnvDJ.leftAt_bij m hinv hb
  have hbase : (motifBase motif bonds (k + 1)).1.length = motif.length := hl.symm
  obtain ⟨d', g1, g2⟩ := EnvDJ.join_eq d h.inv 0 (k + 1) m.leftAt σ rot h0 h1 hne motif.length hbase
    (fun q hq => (s1 q hq).1) s2
  have hmerge : d.merge 0 (k + 1) m rot = some d' := by
    unfold EnvDJ.merge
    have hra : d.rep 0 < d.rank.length := lt_of_lt_of_le (h.inv.lt 0 h0) h.inv.rank
    have hrb : d.rep (k + 1) < d.rank.length := lt_of_lt_of_le (h.inv.lt _ h1) h.inv.rank
    have ea : (d.env 0).envInd = d.rep 0 := rfl
    have eb : (d.env (k + 1)).envInd = d.rep (k + 1) := rfl
    rw [EnvDJ.getElem?_env d 0 h0, EnvDJ.getElem?_env d (k + 1) h1]
    simp only [Option.bind_some, ea, eb]
    rw [List.getElem?_eq_getElem hra, List.getElem?_eq_getElem hrb]
    simp only [Option.bind_some]
    have hz : d.rank[d.rep (k + 1)] = 0 := by
      have := h.rank (d.rep (k + 1)) (by rw [r1]; omega)
      rw [List.getD_eq_getElem?_getD, List.getElem?_eq_getElem hrb] at this
      simpa using this
    rw [hz, hs]
    by_cases hc : d.rank[d.rep 0] = 0
    · rw [if_pos hc]; exact g1
    · rw [if_neg hc, if_pos (Nat.pos_of_ne_zero hc)]; exact g1
  have hinv' : EnvDJ.Inv (motifBase motif bonds) d' := by
    refine g2.inv h.inv h0 h1 hne hrot hbase.symm ?_
    rw [hbase]
    exact s3
  have henv : d'.env (k + 1) = (d.env (k + 1)).moved (d.rep 0) σ rot := by
    rw [g2.env _ h1, if_pos rfl]
  have hvl : (d.env (k + 1)).vecs.length = motif.length := by rw [hnew]; exact hl.symm
  refine ⟨d', hmerge, ⟨hinv', by rw [g2.slen, h.len], by rw [g2.rlen, h.rlen], ?_, ?_⟩, ?_, σ, fun q hq => ⟨(s1 q hq).2, ?_⟩⟩
  · intro j hj
    rw [List.getD_eq_getElem?_getD, g2.other j (by rw [r0]; omega), ← List.getD_eq_getElem?_getD]
    exact h.rank j hj
  · rw [g2.env 0 h0, if_neg hne]
    exact h.head
  · rw [henv, Env.properD_length]
    exact hvl
  · rw [henv, Env.moved_properD _ _ _ _ (by rw [hvl]; exact s2) q (by rw [hvl]; exact hq), hnew,
      properD_fresh]

/-- The comparison depends on the vectors only. -/
theorem isSimilar_fresh (t1 t2 : ℕ) (g1 g2 : Bool) (v1 v2 : List (Vec3 K)) (thrSq : K) (reg : Option (Fitter K)) :
    isSimilar (⟨t1, v1, g1, v1.length, List.range v1.length, Mat3.one⟩ : Env K)
      ⟨t2, v2, g2, v2.length, List.range v2.length, Mat3.one⟩ thrSq reg =
    isSimilar (makeEnvironment (fun v => v) v1) (makeEnvironment (fun v => v) v2) thrSq reg := by
  rw [makeEnvironment_spec, makeEnvironment_spec, List.map_id', List.map_id']
  rfl

end MatchEnv
end Freud
