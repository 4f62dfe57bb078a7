import Verif.Lemmas.EnvCluster

/-!
# Lemmas on the results of environment clusters
-/

namespace Freud
set_option linter.unusedSectionVars false
variable {K : Type*} [Field K] [LinearOrder K] [IsStrictOrderedRing K]

/-- The mean of some vectors. -/
def Spec.meanVec (l : List (Vec3 K)) : Vec3 K :=
  ⟨(l.map (·.x)).sum / (l.length : K), (l.map (·.y)).sum / (l.length : K), (l.map (·.z)).sum / (l.length : K)⟩

/-- The mean of some environments of `n` vectors, place by place. -/
def Spec.meanEnv (n : ℕ) (l : List (List (Vec3 K))) : List (Vec3 K) :=
  (List.range n).map (fun k => meanVec (l.map (fun e => e.getD k 0)))

open Spec

namespace EnvDJ

/-- Sums of the components. -/
def sumVec (l : List (Vec3 K)) : Vec3 K := ⟨(l.map (·.x)).sum, (l.map (·.y)).sum, (l.map (·.z)).sum⟩

theorem sumVec_snoc (l : List (Vec3 K)) (v : Vec3 K) : sumVec (l ++ [v]) = sumVec l + v := by
  ext <;> simp [sumVec]

theorem addEnv_nil (vs : List (Vec3 K)) : addEnv [] vs = vs := by
  induction vs with
  | nil => rfl
  | cons v vs ih => rw [addEnv, ih]

theorem addEnv_eq (a b : List (Vec3 K)) (h : a.length = b.length) : addEnv a b = List.zipWith (· + ·) a b := by
  induction a generalizing b with
  | nil => cases b with
    | nil => rfl
    | cons _ _ => simp at h
  | cons x a ih => cases b with
    | nil => simp at h
    | cons y b => rw [addEnv, List.zipWith_cons_cons, ih b (by simpa using h)]

theorem getAvgEnv_eq {base : ℕ → List (Vec3 K) × Bool} (d : EnvDJ K) (h : Inv base d)
    (hg : ∀ i < d.s.length, (base i).2 = false) (c : ℕ) (hc : c < d.s.length) :
    d.getAvgEnv (d.rep c) = some (d, meanEnv (base c).1.length
      (((List.range d.s.length).filter (fun i => decide (d.rep i = d.rep c))).map (fun i => (d.env i).properD))) := by
  set N := (base c).1.length with hN
  have hlen : ∀ i < d.s.length, d.rep i = d.rep c → (d.env i).properD.length = N := by
    intro i hi e
    rw [Env.properD_length, h.vecs i hi, ← h.same i hi, e, h.same c hc]
  -- the sums over the members in `l`
  have key : ∀ (l done : List ℕ), (∀ i ∈ l, i < d.s.length) → (∀ i ∈ done, i < d.s.length ∧ d.rep i = d.rep c) →
      l.foldlM (avgStep (d.rep c)) (d, (if done = [] then [] else (List.range N).map (fun k =>
        sumVec (done.map (fun i => (d.env i).properD.getD k 0)))), done.length) =
      some (d, (if done ++ l.filter (fun i => decide (d.rep i = d.rep c)) = [] then [] else
        (List.range N).map (fun k => sumVec ((done ++ l.filter (fun i => decide (d.rep i = d.rep c))).map
          (fun i => (d.env i).properD.getD k 0)))),
        (done ++ l.filter (fun i => decide (d.rep i = d.rep c))).length) := by
    intro l
    induction l with
    | nil => intro done _ _; simp
    | cons i l ih =>
      intro done hl hd
      have hi := hl i List.mem_cons_self
      rw [List.foldlM_cons]
      unfold avgStep
      simp only [getElem?_env d i hi, Option.bind_some, h.ghost i hi, hg i hi]
      have e : (d.env i).envInd = d.rep i := rfl
      rw [e, find_eq d h _ (h.lt i hi), h.flat i hi]
      simp only [Option.bind_some, getElem?_env d i hi, Env.proper_eq _ (h.wf i hi), Option.map_some]
      by_cases hh : d.rep i = d.rep c
      · rw [if_neg (by simp), if_pos hh]
        simp only [Option.bind_eq_bind, Option.bind_some]
        have e2 : addEnv (if done = [] then [] else (List.range N).map (fun k =>
            sumVec (done.map (fun i => (d.env i).properD.getD k 0)))) (d.env i).properD =
            if done ++ [i] = [] then [] else (List.range N).map (fun k =>
              sumVec ((done ++ [i]).map (fun i => (d.env i).properD.getD k 0))) := by
          have hl2 := hlen i hi hh
          rw [if_neg (show ¬ done ++ [i] = [] by simp)]
          by_cases hdn : done = []
          · subst hdn
            rw [if_pos rfl, addEnv_nil]
            apply List.ext_getElem
            · simp [hl2]
            · intro k h1 h2
              simp [sumVec, List.getD_eq_getElem?_getD, h1]
          · rw [if_neg hdn, addEnv_eq _ _ (by simp [hl2])]
            apply List.ext_getElem
            · simp [hl2]
            · intro k h1 h2
              have hk : k < (d.env i).properD.length := by rw [hl2]; simpa using h2
              rw [List.getElem_zipWith]
              simp only [List.getElem_map, List.getElem_range, List.map_append, List.map_cons, List.map_nil]
              rw [sumVec_snoc]
              simp [List.getD_eq_getElem?_getD, hk]
        rw [e2]
        have e3 : done.length + 1 = (done ++ [i]).length := by simp
        rw [e3]
        have := ih (done ++ [i]) (fun j hj => hl j (List.mem_cons_of_mem _ hj)) (by
          intro j hj
          rcases List.mem_append.mp hj with hj | hj
          · exact hd j hj
          · rw [List.mem_singleton] at hj; subst hj; exact ⟨hi, hh⟩)
        unfold avgStep at this
        rw [this]
        simp [hh]
      · rw [if_neg (by simp), if_neg hh]
        simp only [Option.bind_eq_bind, Option.bind_some]
        have := ih done (fun j hj => hl j (List.mem_cons_of_mem _ hj)) hd
        unfold avgStep at this
        rw [this]
        simp [hh]
  have hk := key (List.range d.s.length) [] (fun i hi => List.mem_range.mp hi) (by simp)
  rw [if_pos rfl, List.length_nil, List.nil_append] at hk
  unfold getAvgEnv
  rw [hk, Option.bind_some]
  set S := (List.range d.s.length).filter (fun i => decide (d.rep i = d.rep c)) with hS
  have hne : S ≠ [] := by
    have : c ∈ S := by simp [hS, hc]
    exact List.ne_nil_of_mem this
  have hcnt : S.length ≠ 0 := by rwa [Ne, List.length_eq_zero_iff]
  simp only [hcnt, if_false, hne]
  congr 2
  unfold meanEnv
  rw [List.map_map]
  apply List.map_congr_left
  intro k _
  ext <;> simp [meanVec, sumVec, Vec3.smul, List.map_map, Function.comp_def, div_eq_inv_mul]

end EnvDJ

namespace MatchEnv

theorem lookup_zipIdx (l : List ℕ) (x : ℕ) (s : ℕ) :
    (l.zipIdx s).lookup x = if x ∈ l then some (s + l.idxOf x) else none := by
  induction l generalizing s with
  | nil => simp
  | cons a l ih =>
    rw [List.zipIdx_cons, List.lookup_cons]
    by_cases h : x = a
    · subst h; simp
    · have h1 : (x == a) = false := by simpa using h
      rw [h1]
      simp only
      rw [ih, List.idxOf_cons_ne _ (Ne.symm h)]
      by_cases h2 : x ∈ l
      · simp [h2]; omega
      · simp [h2, h]

theorem appendEnv_spec (pe : List (List (Vec3 K))) (i : ℕ) (vs : List (Vec3 K)) (hi : i ≤ pe.length) :
    (appendEnv pe i vs).length = pe.length + 1 ∧
    ∀ j, (appendEnv pe i vs).getD j [] = pe.getD j [] ++ (if j = i then vs else []) := by
  constructor
  · simp [appendEnv]
  · intro j
    unfold appendEnv
    simp only [List.getD_eq_getElem?_getD, List.getElem?_modify]
    by_cases hji : j = i
    · subst hji
      rcases Nat.lt_or_ge j pe.length with h | h
      · simp [List.getElem?_append_left h, List.getElem?_eq_getElem h]
      · have : j = pe.length := by omega
        subst this
        simp
    · have e : (fun a : List (Vec3 K) => if i = j then a ++ vs else a) = id := by
        funext a
        rw [if_neg (Ne.symm hji)]
        rfl
      rw [e, if_neg hji, List.append_nil, id_map]
      rcases Nat.lt_or_ge j pe.length with h | h
      · simp [List.getElem?_append_left h]
      · rw [List.getElem?_append_right h, List.getElem?_eq_none (l := pe) h]
        rcases Nat.eq_zero_or_pos (j - pe.length) with h0 | h0
        · rw [h0]; rfl
        · rw [List.getElem?_eq_none (by simp; omega)]

/-- The members of the set of `i`, and their mean. -/
def clusterMean (base : ℕ → List (Vec3 K) × Bool) (d : EnvDJ K) (i : ℕ) : List (Vec3 K) :=
  meanEnv (base i).1.length
    (((List.range d.s.length).filter (fun j => decide (d.rep j = d.rep i))).map (fun j => (d.env j).properD))

/-- The state of `populateEnv` after `k` points. -/
structure PopInv (base : ℕ → List (Vec3 K) × Bool) (d : EnvDJ K) (old : List (List (Vec3 K))) (k : ℕ)
    (heads : List ℕ) (st : PopState K) : Prop where
  dj : st.dj = d
  labels : st.labels = heads.zipIdx
  nodup : heads.Nodup
  env : st.clusterEnvs = heads.map (clusterMean base d)
  index : st.index = (List.range k).map (fun i => heads.idxOf (d.rep i))
  mem : ∀ h, h ∈ heads ↔ ∃ i < k, d.rep i = h
  order : ∀ i < k, ∀ l < heads.idxOf (d.rep i), ∃ j < i, heads.idxOf (d.rep j) = l
  peLen : st.pointEnvs.length = old.length + k
  pe : ∀ j, st.pointEnvs.getD j [] = old.getD j [] ++ (if j < k then (d.env j).properD else [])

theorem clusterMean_rep {base : ℕ → List (Vec3 K) × Bool} (d : EnvDJ K) (h : EnvDJ.Inv base d) (i : ℕ)
    (hi : i < d.s.length) : clusterMean base d (d.rep i) = clusterMean base d i := by
  unfold clusterMean
  rw [h.same i hi, h.flat i hi]

theorem popStep_spec {base : ℕ → List (Vec3 K) × Bool} (d : EnvDJ K) (h : EnvDJ.Inv base d)
    (hg : ∀ i < d.s.length, (base i).2 = false) (old : List (List (Vec3 K))) (k : ℕ) (hk : k < d.s.length)
    (heads : List ℕ) (st : PopState K) (hp : PopInv base d old k heads st) :
    ∃ st' heads', popStep st k = some st' ∧ PopInv base d old (k + 1) heads' st' := by
  have hidx : st.index.length = k := by rw [hp.index]; simp
  have hgi : (d.env k).ghost = false := by rw [h.ghost k hk, hg k hk]
  have hind : d.getIndividualEnv k = some (d.env k).properD := by
    unfold EnvDJ.getIndividualEnv
    rw [EnvDJ.getElem?_env d k hk, Option.bind_some, Env.proper_eq _ (h.wf k hk)]
  have hpe := appendEnv_spec st.pointEnvs k (d.env k).properD (by rw [hp.peLen]; omega)
  have hpeL : (appendEnv st.pointEnvs k (d.env k).properD).length = old.length + (k + 1) := by
    rw [hpe.1, hp.peLen]; omega
  have hpeV : ∀ j, (appendEnv st.pointEnvs k (d.env k).properD).getD j [] =
      old.getD j [] ++ (if j < k + 1 then (d.env j).properD else []) := by
    intro j
    rw [hpe.2, hp.pe, List.append_assoc]
    congr 1
    by_cases h1 : j = k
    · subst h1; simp
    · by_cases h2 : j < k
      · simp [h1, h2, Nat.lt_succ_of_lt h2]
      · have : ¬ j < k + 1 := by omega
        simp [h1, h2, this]
  have hstep : popStep st k = match st.labels.lookup (d.rep k) with
      | none => (d.getAvgEnv (d.rep k)).map fun g =>
          ⟨g.1, st.labels ++ [(d.rep k, st.clusterEnvs.length)], st.clusterEnvs ++ [g.2],
            st.index ++ [st.clusterEnvs.length], appendEnv st.pointEnvs st.index.length (d.env k).properD⟩
      | some l => some ⟨d, st.labels, st.clusterEnvs, st.index ++ [l],
          appendEnv st.pointEnvs st.index.length (d.env k).properD⟩ := by
    unfold popStep
    rw [hp.dj, EnvDJ.getElem?_env d k hk]
    simp only [Option.bind_some, hgi]
    rw [if_neg (by simp), hind]
    simp only [Option.bind_some]
    rw [EnvDJ.find_eq d h k hk]
    rfl
  rw [hstep, hp.labels, lookup_zipIdx, hidx]
  by_cases hm : d.rep k ∈ heads
  · rw [if_pos hm]
    refine ⟨_, heads, rfl, rfl, rfl, hp.nodup, hp.env, ?_, ?_, ?_, hpeL, hpeV⟩
    · simp only
      rw [List.range_succ, List.map_append, ← hp.index]
      simp
    · intro x
      rw [hp.mem]
      constructor
      · rintro ⟨i, hi, e⟩; exact ⟨i, by omega, e⟩
      · rintro ⟨i, hi, e⟩
        rcases Nat.lt_succ_iff_lt_or_eq.mp hi with hi | rfl
        · exact ⟨i, hi, e⟩
        · exact e ▸ (hp.mem _).mp hm
    · intro i hi l hl
      rcases Nat.lt_succ_iff_lt_or_eq.mp hi with hi | rfl
      · exact hp.order i hi l hl
      · obtain ⟨j, hj, e⟩ := (hp.mem _).mp hm
        rw [← e] at hl
        obtain ⟨j', hj', e'⟩ := hp.order j hj l hl
        exact ⟨j', by omega, e'⟩
  · rw [if_neg hm]
    simp only
    rw [EnvDJ.getAvgEnv_eq d h hg k hk, Option.map_some]
    have hnd : (heads ++ [d.rep k]).Nodup := by
      rw [List.nodup_append]
      refine ⟨hp.nodup, by simp, ?_⟩
      intro a ha b hb
      rw [List.mem_singleton] at hb
      subst hb
      exact fun e => hm (e ▸ ha)
    have hcl : st.clusterEnvs.length = heads.length := by rw [hp.env]; simp
    have hold : ∀ i < k, (heads ++ [d.rep k]).idxOf (d.rep i) = heads.idxOf (d.rep i) := by
      intro i hi
      rw [List.idxOf_append_of_mem ((hp.mem _).mpr ⟨i, hi, rfl⟩)]
    have hnew : (heads ++ [d.rep k]).idxOf (d.rep k) = heads.length := by
      rw [List.idxOf_append_of_notMem hm]; simp
    refine ⟨_, heads ++ [d.rep k], rfl, rfl, ?_, hnd, ?_, ?_, ?_, ?_, hpeL, hpeV⟩
    · simp only
      rw [List.zipIdx_append, hcl]
      simp
    · simp only
      rw [List.map_append, hp.env]
      simp only [List.map_cons, List.map_nil]
      rw [clusterMean_rep d h k hk]
      rfl
    · simp only
      rw [List.range_succ, List.map_append]
      simp only [List.map_cons, List.map_nil]
      rw [hnew, hcl, hp.index]
      congr 1
      apply List.map_congr_left
      intro i hi
      rw [hold i (List.mem_range.mp hi)]
    · intro x
      rw [List.mem_append, List.mem_singleton, hp.mem]
      constructor
      · rintro (⟨i, hi, e⟩ | rfl)
        · exact ⟨i, by omega, e⟩
        · exact ⟨k, by omega, rfl⟩
      · rintro ⟨i, hi, e⟩
        rcases Nat.lt_succ_iff_lt_or_eq.mp hi with hi | rfl
        · exact Or.inl ⟨i, hi, e⟩
        · exact Or.inr e.symm
    · intro i hi l hl
      rcases Nat.lt_succ_iff_lt_or_eq.mp hi with hi | rfl
      · rw [hold i hi] at hl
        obtain ⟨j, hj, e⟩ := hp.order i hi l hl
        exact ⟨j, hj, by rw [hold j (by omega)]; exact e⟩
      · rw [hnew] at hl
        obtain ⟨j, hj, e⟩ := (hp.mem _).mp (List.getElem_mem hl)
        refine ⟨j, hj, ?_⟩
        rw [hold j hj, e]
        exact hp.nodup.idxOf_getElem l hl

/-- The results of `populateEnv`. -/
theorem populate_spec {base : ℕ → List (Vec3 K) × Bool} (d : EnvDJ K) (h : EnvDJ.Inv base d)
    (hg : ∀ i < d.s.length, (base i).2 = false) :
    ∃ heads : List ℕ, heads.Nodup ∧ (∀ x, x ∈ heads ↔ ∃ i < d.s.length, d.rep i = x) ∧
      (∀ i < d.s.length, ∀ l < heads.idxOf (d.rep i), ∃ j < i, heads.idxOf (d.rep j) = l) ∧
      ∀ o : Obj K, ∃ pe, populate d o = some ⟨pe, heads.map (clusterMean base d),
          (List.range d.s.length).map (fun i => heads.idxOf (d.rep i)), heads.length⟩ ∧
        pe.length = o.pointEnvs.length + d.s.length ∧
        ∀ j, pe.getD j [] = o.pointEnvs.getD j [] ++ (if j < d.s.length then (d.env j).properD else []) := by
  have key : ∀ (o : Obj K) (k : ℕ), k ≤ d.s.length → ∃ heads st,
      (List.range k).foldlM popStep ⟨d, [], [], [], o.pointEnvs⟩ = some st ∧
        PopInv base d o.pointEnvs k heads st := by
    intro o k
    induction k with
    | zero =>
      intro _
      refine ⟨[], _, rfl, rfl, rfl, List.nodup_nil, rfl, rfl, by simp, by simp, rfl, by simp⟩
    | succ k ih =>
      intro hk
      obtain ⟨heads, st, g1, g2⟩ := ih (by omega)
      obtain ⟨st', heads', g3, g4⟩ := popStep_spec d h hg o.pointEnvs k (by omega) heads st g2
      refine ⟨heads', st', ?_, g4⟩
      rw [List.range_succ, List.foldlM_append, g1]
      simp [g3]
  -- the heads do not depend on the object
  have uniq : ∀ (h1 h2 : List ℕ) (o1 o2 : List (List (Vec3 K))) (s1 s2 : PopState K),
      PopInv base d o1 d.s.length h1 s1 → PopInv base d o2 d.s.length h2 s2 → s1.labels = s2.labels → h1 = h2 := by
    intro h1 h2 o1 o2 s1 s2 p1 p2 e
    rw [p1.labels, p2.labels] at e
    have := congrArg (List.map (·.1)) e
    simpa [List.zipIdx_map_fst] using this
  have indep : ∀ (l : List ℕ) (s1 s2 t1 t2 : PopState K), s1.dj = s2.dj → s1.labels = s2.labels →
      s1.clusterEnvs = s2.clusterEnvs → s1.index = s2.index → l.foldlM popStep s1 = some t1 →
      l.foldlM popStep s2 = some t2 → t1.labels = t2.labels := by
    intro l
    induction l with
    | nil =>
      intro s1 s2 t1 t2 _ h2 _ _ e1 e2
      simp at e1 e2
      rw [← e1, ← e2, h2]
    | cons i l ih =>
      intro s1 s2 t1 t2 h1 h2 h3 h4 e1 e2
      rw [List.foldlM_cons] at e1 e2
      obtain ⟨a1, f1, k1⟩ := Option.bind_eq_some_iff.mp e1
      obtain ⟨a2, f2, k2⟩ := Option.bind_eq_some_iff.mp e2
      have : a1.dj = a2.dj ∧ a1.labels = a2.labels ∧ a1.clusterEnvs = a2.clusterEnvs ∧ a1.index = a2.index := by
        unfold popStep at f1 f2
        rw [h1, h2, h3, h4] at f1
        obtain ⟨e, he, f1⟩ := Option.bind_eq_some_iff.mp f1
        rw [he, Option.bind_some] at f2
        split_ifs at f1 f2
        · obtain rfl := Option.some.inj f1
          obtain rfl := Option.some.inj f2
          exact ⟨h1, h2, h3, h4⟩
        · obtain ⟨part, hpart, f1⟩ := Option.bind_eq_some_iff.mp f1
          rw [hpart, Option.bind_some] at f2
          obtain ⟨f, hf, f1⟩ := Option.bind_eq_some_iff.mp f1
          rw [hf, Option.bind_some] at f2
          cases hlk : s2.labels.lookup f.2 with
          | none =>
            rw [hlk] at f1 f2
            simp only at f1 f2
            obtain ⟨g, hgg, rfl⟩ := Option.map_eq_some_iff.mp f1
            rw [hgg, Option.map_some] at f2
            obtain rfl := Option.some.inj f2
            exact ⟨rfl, rfl, rfl, rfl⟩
          | some l' =>
            rw [hlk] at f1 f2
            obtain rfl := Option.some.inj f1
            obtain rfl := Option.some.inj f2
            exact ⟨rfl, rfl, rfl, rfl⟩
      exact ih a1 a2 t1 t2 this.1 this.2.1 this.2.2.1 this.2.2.2 k1 k2
  obtain ⟨heads, st, g1, g2⟩ := key Obj.new d.s.length le_rfl
  refine ⟨heads, g2.nodup, g2.mem, g2.order, fun o => ?_⟩
  obtain ⟨heads', st', g3, g4⟩ := key o d.s.length le_rfl
  have he : heads' = heads := uniq _ _ _ _ _ _ g4 g2
    (indep _ ⟨d, [], [], [], o.pointEnvs⟩ ⟨d, [], [], [], Obj.new.pointEnvs⟩ _ _ rfl rfl rfl rfl g3 g1)
  subst he
  refine ⟨st'.pointEnvs, ?_, g4.peLen, g4.pe⟩
  unfold populate
  rw [g3, Option.map_some, g4.env, g4.index]
  simp

end MatchEnv
end Freud
