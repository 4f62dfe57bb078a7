import Verif.Lemmas.EnvDJ
import Verif.Props.MatchEnv
import Mathlib.Logic.Relation

/-!
# Lemmas on environment clusters
-/

namespace Freud
set_option linter.unusedSectionVars false
variable {K : Type*} [Field K] [LinearOrder K] [IsStrictOrderedRing K]

/-- The environment vectors of point `i`: the vectors of its bonds, except bonds to itself. -/
def Spec.envVectors (bonds : List (Bond K)) (i : ℕ) : List (Vec3 K) :=
  (bonds.filter (fun b => decide (b.q = i ∧ b.p ≠ i))).map (·.vec)

open Spec

namespace MatchEnv

theorem cursor_take {A : Type*} (key : A → ℕ) (l : List A) (s : ℕ) (hs : (l.map key).Pairwise (· ≤ ·))
    (hq : ∀ a ∈ l, s ≤ key a) :
    l.takeWhile (fun a => decide (key a = s)) = l.filter (fun a => decide (key a = s)) ∧
    l.dropWhile (fun a => decide (key a = s)) = l.filter (fun a => decide (s + 1 ≤ key a)) := by
  induction l with
  | nil => simp
  | cons a l ih =>
    rw [List.map_cons, List.pairwise_cons] at hs
    obtain ⟨h1, h2⟩ := ih hs.2 (fun b hb => hq b (List.mem_cons_of_mem _ hb))
    have ha := hq a List.mem_cons_self
    by_cases h : key a = s
    · have hlt : ¬ s + 1 ≤ key a := by omega
      simp [h, h1, h2]
    · have hgt : s + 1 ≤ key a := by omega
      have hall : ∀ b ∈ l, s + 1 ≤ key b := fun b hb =>
        le_trans hgt (hs.1 _ (List.mem_map.mpr ⟨b, hb, rfl⟩))
      have e1 : l.filter (fun a => decide (key a = s)) = [] := by
        rw [List.filter_eq_nil_iff]
        intro b hb
        have := hall b hb
        simp; omega
      have e2 : l.filter (fun a => decide (s + 1 ≤ key a)) = l := by
        rw [List.filter_eq_self]
        intro b hb
        simpa using hall b hb
      rw [List.takeWhile_cons_of_neg (by simpa using h), List.dropWhile_cons_of_neg (by simpa using h),
        List.filter_cons_of_neg (by simpa using h), List.filter_cons_of_pos (by simpa using hgt), e1, e2]
      exact ⟨rfl, rfl⟩

theorem buildEnv_spec (i t : ℕ) (rest : List (Bond K)) (hs : (rest.map (·.q)).Pairwise (· ≤ ·))
    (hq : ∀ b ∈ rest, i ≤ b.q) :
    buildEnv i t rest = (⟨t, envVectors rest i, false, (envVectors rest i).length,
      List.range (envVectors rest i).length, Mat3.one⟩, rest.filter (fun b => decide (i + 1 ≤ b.q))) := by
  obtain ⟨h1, h2⟩ := cursor_take (fun b : Bond K => b.q) rest i hs hq
  unfold buildEnv
  rw [h1, h2]
  congr 1
  have key : ∀ (l : List (Bond K)) (done : List (Vec3 K)),
      l.foldl (fun e b => if i ≠ b.p then Env.addVec e b.vec else e)
        (⟨t, done, false, done.length, List.range done.length, Mat3.one⟩ : Env K) =
      ⟨t, done ++ (l.filter (fun b => decide (b.p ≠ i))).map (·.vec), false,
        (done ++ (l.filter (fun b => decide (b.p ≠ i))).map (·.vec)).length,
        List.range (done ++ (l.filter (fun b => decide (b.p ≠ i))).map (·.vec)).length, Mat3.one⟩ := by
    intro l
    induction l with
    | nil => intro done; simp
    | cons b l ih =>
      intro done
      rw [List.foldl_cons]
      by_cases h : b.p = i
      · rw [if_neg (by simp [h]), ih, List.filter_cons_of_neg (by simp [h])]
      · rw [if_pos (fun e => h e.symm), List.filter_cons_of_pos (by simpa using h)]
        have e : Env.addVec (⟨t, done, false, done.length, List.range done.length, Mat3.one⟩ : Env K) b.vec =
            ⟨t, done ++ [b.vec], false, (done ++ [b.vec]).length, List.range (done ++ [b.vec]).length, Mat3.one⟩ := by
          simp [Env.addVec, List.range_succ]
        rw [e, ih]
        simp
  have := key (rest.filter (fun b => decide (b.q = i))) []
  have e : ((rest.filter (fun b => decide (b.q = i))).filter (fun b => decide (b.p ≠ i))).map (·.vec) =
      envVectors rest i := by
    rw [List.filter_filter, envVectors]
    congr 2
    funext b
    by_cases h1 : b.q = i <;> by_cases h2 : b.p = i <;> simp [h1, h2]
  rw [List.nil_append, e] at this
  exact this

/-- The bonds of points from `s` on. -/
theorem envVectors_rest (bonds : List (Bond K)) (s i : ℕ) (h : s ≤ i) :
    envVectors (bonds.filter (fun b => decide (s ≤ b.q))) i = envVectors bonds i := by
  unfold envVectors
  rw [List.filter_filter]
  congr 2
  funext b
  by_cases hb : b.q = i
  · simp [hb, h]
  · simp [hb]

theorem filter_filter_ge (bonds : List (Bond K)) (s : ℕ) :
    (bonds.filter (fun b => decide (s ≤ b.q))).filter (fun b => decide (s + 1 ≤ b.q)) =
      bonds.filter (fun b => decide (s + 1 ≤ b.q)) := by
  rw [List.filter_filter]
  congr 1
  funext b
  by_cases h : s + 1 ≤ b.q
  · simp [h]; omega
  · simp [h]

theorem sorted_filter (bonds : List (Bond K)) (hs : (bonds.map (·.q)).Pairwise (· ≤ ·)) (p : Bond K → Bool) :
    ((bonds.filter p).map (·.q)).Pairwise (· ≤ ·) :=
  hs.sublist (List.filter_sublist.map _)

/-- The environment of a point before the merges. -/
def env0 (bonds : List (Bond K)) (i : ℕ) : Env K :=
  ⟨i, envVectors bonds i, false, (envVectors bonds i).length,
    List.range (envVectors bonds i).length, Mat3.one⟩

theorem buildAll_spec (bonds : List (Bond K)) (hs : (bonds.map (·.q)).Pairwise (· ≤ ·)) (n : ℕ) :
    buildAll (List.range n) bonds = (List.range n).map (env0 bonds) := by
  have key : ∀ (n s : ℕ), buildAll (List.range' s n) (bonds.filter (fun b => decide (s ≤ b.q))) =
      (List.range' s n).map (env0 bonds) := by
    intro n
    induction n with
    | zero => intro s; rfl
    | succ n ih =>
      intro s
      rw [List.range'_succ, List.map_cons]
      simp only [buildAll]
      rw [buildEnv_spec s s _ (sorted_filter bonds hs _) (fun b hb => by
        rw [List.mem_filter] at hb; exact of_decide_eq_true hb.2)]
      simp only
      rw [filter_filter_ge, ih (s + 1), envVectors_rest bonds s s le_rfl]
      rfl
  have := key n 0
  rw [← List.range_eq_range'] at this
  have e : bonds.filter (fun b => decide (0 ≤ b.q)) = bonds := by
    rw [List.filter_eq_self]; intro b _; simp
  rwa [e] at this

theorem pointLoop_eq (thrSq : K) (reg : ℕ → Option (Fitter K)) (n : ℕ) :
    ∀ (s : ℕ) (bonds : List (Bond K × ℕ)) (st : LoopState K), (bonds.map (·.1.q)).Pairwise (· ≤ ·) →
      (∀ b ∈ bonds, s ≤ b.1.q ∧ b.1.q < s + n) →
      pointLoop thrSq reg (List.range' s n) bonds st =
        bonds.foldlM (fun st b => bondStep thrSq reg b.1.q st b) st := by
  induction n with
  | zero =>
    intro s bonds st _ hb
    have : bonds = [] := by
      cases bonds with
      | nil => rfl
      | cons b l => have := hb b List.mem_cons_self; omega
    subst this
    rfl
  | succ n ih =>
    intro s bonds st hs hb
    obtain ⟨h1, h2⟩ := cursor_take (fun b : Bond K × ℕ => b.1.q) bonds s hs (fun b h => (hb b h).1)
    rw [List.range'_succ]
    simp only [pointLoop]
    have e1 : (bonds.takeWhile (fun b => decide (b.1.q = s))).foldlM (bondStep thrSq reg s) st =
        (bonds.takeWhile (fun b => decide (b.1.q = s))).foldlM
          (fun st b => bondStep thrSq reg b.1.q st b) st := by
      have : ∀ (l : List (Bond K × ℕ)) (st : LoopState K), (∀ b ∈ l, b.1.q = s) →
          l.foldlM (bondStep thrSq reg s) st = l.foldlM (fun st b => bondStep thrSq reg b.1.q st b) st := by
        intro l
        induction l with
        | nil => intro st _; rfl
        | cons b l ih =>
          intro st hl
          rw [List.foldlM_cons, List.foldlM_cons, hl b List.mem_cons_self]
          congr 1
          funext st'
          exact ih st' (fun c hc => hl c (List.mem_cons_of_mem _ hc))
      apply this
      intro b hb'
      rw [h1, List.mem_filter] at hb'
      exact of_decide_eq_true hb'.2
    rw [e1]
    conv_rhs => rw [← List.takeWhile_append_dropWhile (p := fun b : Bond K × ℕ => decide (b.1.q = s)) (l := bonds),
      List.foldlM_append]
    rw [Option.bind_eq_bind]
    congr 1
    funext st'
    apply ih
    · rw [h2]
      exact hs.sublist (List.filter_sublist.map _)
    · intro b hb'
      rw [h2, List.mem_filter] at hb'
      have := hb b hb'.1
      have := of_decide_eq_true hb'.2
      omega

/-- The invariant of the loop over the bonds. -/
structure LoopInv (base : ℕ → List (Vec3 K) × Bool) (n : ℕ) (thrSq : K) (st : LoopState K) : Prop where
  inv : EnvDJ.Inv base st.dj
  len : st.dj.s.length = n
  lt : ∀ p ∈ st.similar, p.1 < n ∧ p.2 < n
  sub : ∀ p ∈ st.merged, p ∈ st.similar
  same : ∀ p ∈ st.similar, st.dj.rep p.1 = st.dj.rep p.2
  aligned : ∀ p ∈ st.merged, EnvDJ.Aligned thrSq st.dj p.1 p.2
  conn : ∀ i < n, ∀ j < n, st.dj.rep i = st.dj.rep j →
    Relation.EqvGen (fun a b => (a, b) ∈ st.merged) i j

theorem eqvGen_mono {A : Type*} {r s : A → A → Prop} (h : ∀ a b, r a b → s a b) {a b : A}
    (hr : Relation.EqvGen r a b) : Relation.EqvGen s a b := by
  induction hr with
  | rel a b hab => exact .rel a b (h a b hab)
  | refl a => exact .refl a
  | symm a b _ ih => exact .symm a b ih
  | trans a b c _ _ ih1 ih2 => exact .trans a b c ih1 ih2

theorem eqvGen_eq {A B : Type*} {r : A → A → Prop} (f : A → B) (h : ∀ a b, r a b → f a = f b) {a b : A}
    (hr : Relation.EqvGen r a b) : f a = f b := by
  induction hr with
  | rel a b hab => exact h a b hab
  | refl a => rfl
  | symm a b _ ih => exact ih.symm
  | trans a b c _ _ ih1 ih2 => exact ih1.trans ih2

/-- What one round of the loop does. -/
theorem bondStep_spec {base : ℕ → List (Vec3 K) × Bool} {n : ℕ} {thrSq : K} {st : LoopState K}
    (h : LoopInv base n thrSq st) (reg : ℕ → Option (Fitter K)) (b : Bond K × ℕ) (hq : b.1.q < n)
    (hp : b.1.p < n) (hreg : ∀ fit, reg b.2 = some fit → Registers fit ∧ 0 < (base b.1.q).1.length) :
    ∃ st' rot m, bondStep thrSq reg b.1.q st b = some st' ∧ LoopInv base n thrSq st' ∧
      isSimilar (st.dj.env b.1.q) (st.dj.env b.1.p) thrSq (reg b.2) = some (rot, m) ∧
      (reg b.2 = none → rot = Mat3.one) ∧
      st'.similar = (if m.size = 0 then st.similar else st.similar ++ [(b.1.q, b.1.p)]) ∧
      (rot = Mat3.one → (∀ i < n, (st.dj.env i).rot = Mat3.one) → ∀ i < n, (st'.dj.env i).rot = Mat3.one) := by
  have hq' : b.1.q < st.dj.s.length := by rw [h.len]; exact hq
  have hp' : b.1.p < st.dj.s.length := by rw [h.len]; exact hp
  obtain ⟨rot, m, g1, g2, g3⟩ := isSimilar_spec (st.dj.env b.1.q) (st.dj.env b.1.p) (h.inv.wf _ hq')
    (h.inv.wf _ hp') thrSq (reg b.2) (by rw [h.inv.vecs _ hq']; exact hreg)
  have hstep : bondStep thrSq reg b.1.q st b = if m.size = 0 then some st
      else if st.dj.rep b.1.q ≠ st.dj.rep b.1.p then (st.dj.merge b.1.q b.1.p m rot).map fun d' =>
          ⟨d', st.similar ++ [(b.1.q, b.1.p)], st.merged ++ [(b.1.q, b.1.p)]⟩
        else some ⟨st.dj, st.similar ++ [(b.1.q, b.1.p)], st.merged⟩ := by
    unfold bondStep
    simp only
    rw [EnvDJ.getElem?_env _ _ hq', EnvDJ.getElem?_env _ _ hp']
    simp only [Option.bind_some, g1]
    rw [EnvDJ.find_eq st.dj h.inv _ hq']
    simp only [Option.bind_some]
    rw [EnvDJ.find_eq st.dj h.inv _ hp']
    simp only [Option.bind_some]
  rw [hstep]
  by_cases hm : m.size = 0
  · rw [if_pos hm]
    exact ⟨st, rot, m, rfl, h, g1, g3, by rw [if_pos hm], fun _ ho => ho⟩
  rw [if_neg hm]
  have hlt : ∀ p ∈ st.similar ++ [(b.1.q, b.1.p)], p.1 < n ∧ p.2 < n := by
    intro p hp2
    rcases List.mem_append.mp hp2 with hp2 | hp2
    · exact h.lt p hp2
    · rw [List.mem_singleton] at hp2; subst hp2; exact ⟨hq, hp⟩
  by_cases hr : st.dj.rep b.1.q = st.dj.rep b.1.p
  · rw [if_neg (by simpa using hr)]
    refine ⟨_, rot, m, rfl, ⟨h.inv, h.len, hlt, fun p hp => List.mem_append_left _ (h.sub p hp), ?_, h.aligned,
      h.conn⟩, g1, g3, by rw [if_neg hm], fun _ ho => ho⟩
    intro p hp2
    rcases List.mem_append.mp hp2 with hp2 | hp2
    · exact h.same p hp2
    · rw [List.mem_singleton] at hp2; subst hp2; exact hr
  · rw [if_pos hr]
    obtain ⟨d', e1, e2⟩ := EnvDJ.merge_spec thrSq st.dj h.inv b.1.q b.1.p hq' hp' hr rot m g2 hm
    rw [e1]
    have hlen := h.len
    refine ⟨_, rot, m, rfl, ⟨e2.inv, by rw [← h.len]; exact e2.slen, hlt, ?_, ?_, ?_, ?_⟩, g1, g3,
      by rw [if_neg hm], fun ho hall => ?_⟩
    · intro p hp2
      rcases List.mem_append.mp hp2 with hp2 | hp2
      · exact List.mem_append_left _ (h.sub p hp2)
      · exact List.mem_append_right _ hp2
    · intro p hp2
      rcases List.mem_append.mp hp2 with hp2 | hp2
      · have hl := h.lt p hp2
        rw [e2.rep _ (by omega) _ (by omega)]
        exact Or.inl (h.same p hp2)
      · rw [List.mem_singleton] at hp2
        subst hp2
        rw [e2.rep _ hq' _ hp']
        exact Or.inr (Or.inl ⟨rfl, rfl⟩)
    · intro p hp2
      rcases List.mem_append.mp hp2 with hp2 | hp2
      · have hl := h.lt p (h.sub p hp2)
        exact e2.aligned _ (by omega) _ (by omega) (h.aligned p hp2)
      · rw [List.mem_singleton] at hp2
        subst hp2
        exact e2.pair
    · intro i hi j hj hij
      rw [e2.rep i (by omega) j (by omega)] at hij
      have mono : ∀ {x y : ℕ}, Relation.EqvGen (fun a b => (a, b) ∈ st.merged) x y →
          Relation.EqvGen (fun a c => (a, c) ∈ st.merged ++ [(b.1.q, b.1.p)]) x y := fun hxy =>
        eqvGen_mono (fun _ _ hab => List.mem_append_left _ hab) hxy
      have hnew : Relation.EqvGen (fun a c => (a, c) ∈ st.merged ++ [(b.1.q, b.1.p)]) b.1.q b.1.p :=
        .rel _ _ (List.mem_append_right _ (by simp))
      rcases hij with hij | ⟨h1, h2⟩ | ⟨h1, h2⟩
      · exact mono (h.conn i hi j hj hij)
      · exact .trans _ _ _ (mono (h.conn i hi _ hq h1)) (.trans _ _ _ hnew (mono (h.conn _ hp j hj h2.symm)))
      · exact .trans _ _ _ (mono (h.conn i hi _ hp h1))
          (.trans _ _ _ (.symm _ _ hnew) (mono (h.conn _ hq j hj h2.symm)))
    · intro i hi
      exact e2.one ho (fun i hi => hall i (by omega)) i (by omega)

/-- The whole loop. -/
theorem loop_spec {base : ℕ → List (Vec3 K) × Bool} {n : ℕ} {thrSq : K} (reg : ℕ → Option (Fitter K))
    (bonds : List (Bond K × ℕ)) (hb : ∀ b ∈ bonds, b.1.q < n ∧ b.1.p < n)
    (hreg : ∀ b ∈ bonds, ∀ fit, reg b.2 = some fit → Registers fit ∧ 0 < (base b.1.q).1.length) :
    ∀ st : LoopState K, LoopInv base n thrSq st →
      ∃ st', bonds.foldlM (fun st b => bondStep thrSq reg b.1.q st b) st = some st' ∧
        LoopInv base n thrSq st' ∧ (∀ p ∈ st.similar, p ∈ st'.similar) ∧
        (∀ p ∈ st'.similar, p ∈ st.similar ∨ ∃ b ∈ bonds, p = (b.1.q, b.1.p)) := by
  induction bonds with
  | nil => intro st h; exact ⟨st, rfl, h, fun p hp => hp, fun p hp => Or.inl hp⟩
  | cons b l ih =>
    intro st h
    obtain ⟨st1, rot, m, g1, g2, -, -, g3, -⟩ := bondStep_spec h reg b (hb b List.mem_cons_self).1
      (hb b List.mem_cons_self).2 (hreg b List.mem_cons_self)
    obtain ⟨st', k1, k2, k3, k4⟩ := ih (fun c hc => hb c (List.mem_cons_of_mem _ hc))
      (fun c hc => hreg c (List.mem_cons_of_mem _ hc)) st1 g2
    refine ⟨st', by rw [List.foldlM_cons, g1]; exact k1, k2, fun p hp => k3 p ?_, fun p hp => ?_⟩
    · rw [g3]
      split_ifs
      · exact hp
      · exact List.mem_append_left _ hp
    · rcases k4 p hp with hp | ⟨c, hc, e⟩
      · rw [g3] at hp
        split_ifs at hp
        · exact Or.inl hp
        · rcases List.mem_append.mp hp with hp | hp
          · exact Or.inl hp
          · rw [List.mem_singleton] at hp
            exact Or.inr ⟨b, List.mem_cons_self, hp⟩
      · exact Or.inr ⟨c, List.mem_cons_of_mem _ hc, e⟩

theorem properD_perm (e : Env K) (h : e.WF) (hr : e.rot = Mat3.one) : e.properD.Perm e.vecs := by
  have : e.properD = e.vecInd.map (fun k => e.vecs.getD k 0) := by
    unfold Env.properD
    apply List.ext_getElem
    · simp [h.length]
    · intro i h1 h2
      have : i < e.vecInd.length := by simpa using h2
      simp [hr, one_mulVec, List.getD_eq_getElem?_getD, this]
  rw [this]
  refine (h.map _).trans ?_
  have e2 : (List.range e.vecs.length).map (fun k => e.vecs.getD k 0) = e.vecs := by
    apply List.ext_getElem
    · simp
    · intro i h1 h2
      simp [List.getD_eq_getElem?_getD, h2]
  rw [e2]

/-- Two lists of vectors, not empty and of the same length, have a matching. -/
def RawMatch (thr : K) (a b : List (Vec3 K)) : Prop :=
  a ≠ [] ∧ a.length = b.length ∧ ∃ f, Matching thr a b f

/-- Without registration and without ambiguity, two points are found similar exactly when their vectors
can be matched, whatever happened before. -/
theorem similar_raw {base : ℕ → List (Vec3 K) × Bool} {n : ℕ} {thr : K} {st : LoopState K}
    (h : LoopInv base n (thr * thr) st) (hone : ∀ i < n, (st.dj.env i).rot = Mat3.one) (i j : ℕ) (hi : i < n)
    (hj : j < n) (hu : Unambiguous thr (base i).1 (base j).1) (rot : Mat3 K) (m : BiMap ℕ ℕ)
    (hs : isSimilar (st.dj.env i) (st.dj.env j) (thr * thr) none = some (rot, m)) :
    m.size ≠ 0 ↔ RawMatch thr (base i).1 (base j).1 := by
  unfold RawMatch
  have hi' : i < st.dj.s.length := by rw [h.len]; exact hi
  have hj' : j < st.dj.s.length := by rw [h.len]; exact hj
  have vi := h.inv.vecs i hi'
  have vj := h.inv.vecs j hj'
  have pi := properD_perm _ (h.inv.wf i hi') (hone i hi)
  have pj := properD_perm _ (h.inv.wf j hj') (hone j hj)
  rw [vi] at pi
  rw [vj] at pj
  by_cases hl : (base i).1.length = (base j).1.length
  · have hu' : Unambiguous thr (st.dj.env i).properD (st.dj.env j).properD := by
      refine ⟨fun x hx => ?_, fun y hy => ?_⟩
      · rw [pj.countP_eq]; exact hu.1 x (pi.mem_iff.mp hx)
      · rw [pi.countP_eq]; exact hu.2 y (pj.mem_iff.mp hy)
    have hf := full_iff hu'
    rw [pi.length_eq] at hf
    have hmat := exists_matching_iff hl hu
    have heq : (∀ x ∈ (st.dj.env i).properD, ∃ y ∈ (st.dj.env j).properD, sqDistance x y < thr * thr) ↔
        ∀ x ∈ (base i).1, ∃ y ∈ (base j).1, sqDistance x y < thr * thr := by
      simp only [pi.mem_iff, pj.mem_iff]
    rw [hmat, ← heq, ← hf]
    unfold isSimilar at hs
    rw [vi, vj, if_neg (by simpa using hl), Env.proper_eq _ (h.inv.wf i hi'), Env.proper_eq _ (h.inv.wf j hj')] at hs
    simp only [Option.bind_some, Option.map_some] at hs
    by_cases hc : (compareAll (thr * thr) (st.dj.env i).properD (st.dj.env j).properD).size = (base i).1.length
    · rw [if_pos hc] at hs
      obtain ⟨-, rfl⟩ := Prod.mk.inj (Option.some.inj hs)
      simp only [hc, hl, and_true]
      rw [Ne, Ne, ← List.length_eq_zero_iff, hl]
    · rw [if_neg hc] at hs
      obtain ⟨-, rfl⟩ := Prod.mk.inj (Option.some.inj hs)
      simp [hc, BiMap.size_new]
  · unfold isSimilar at hs
    rw [vi, vj, if_pos hl] at hs
    obtain ⟨-, rfl⟩ := Prod.mk.inj (Option.some.inj hs)
    simp [hl, BiMap.size_new]

/-- The loop without registration and without ambiguity. -/
theorem loop_raw {base : ℕ → List (Vec3 K) × Bool} {n : ℕ} {thr : K} (reg : ℕ → Option (Fitter K))
    (hreg : ∀ k, reg k = none) (bonds : List (Bond K × ℕ)) (hb : ∀ b ∈ bonds, b.1.q < n ∧ b.1.p < n)
    (hu : ∀ b ∈ bonds, Unambiguous thr (base b.1.q).1 (base b.1.p).1) :
    ∀ st : LoopState K, LoopInv base n (thr * thr) st → (∀ i < n, (st.dj.env i).rot = Mat3.one) →
      ∃ st', bonds.foldlM (fun st b => bondStep (thr * thr) reg b.1.q st b) st = some st' ∧
        LoopInv base n (thr * thr) st' ∧
        ∀ p, p ∈ st'.similar ↔ p ∈ st.similar ∨ ∃ b ∈ bonds, p = (b.1.q, b.1.p) ∧
          RawMatch thr (base b.1.q).1 (base b.1.p).1 := by
  induction bonds with
  | nil => intro st h _; exact ⟨st, rfl, h, fun p => by simp⟩
  | cons b l ih =>
    intro st h hone
    have hbb := hb b List.mem_cons_self
    obtain ⟨st1, rot, m, g1, g2, g4, g5, g3, g6⟩ := bondStep_spec h reg b hbb.1
      hbb.2 (fun fit hf => by rw [hreg] at hf; simp at hf)
    rw [hreg] at g4
    have hiff := similar_raw h hone b.1.q b.1.p hbb.1 hbb.2 (hu b List.mem_cons_self) rot m g4
    obtain ⟨st', k1, k2, k3⟩ := ih (fun c hc => hb c (List.mem_cons_of_mem _ hc))
      (fun c hc => hu c (List.mem_cons_of_mem _ hc)) st1 g2 (g6 (g5 (hreg _)) hone)
    refine ⟨st', by rw [List.foldlM_cons, g1]; exact k1, k2, fun p => ?_⟩
    rw [k3, g3]
    rw [List.exists_mem_cons_iff, ← hiff]
    by_cases hm : m.size = 0
    · simp [hm]
    · simp [hm, or_assoc]

end MatchEnv
end Freud
