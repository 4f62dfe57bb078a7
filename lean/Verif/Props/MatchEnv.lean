import Verif.Lemmas.MatchEnv
import Mathlib.Data.Rat.Floor

/-!
# C48: matching two environments
-/

namespace Freud
set_option linter.unusedSectionVars false
variable {K : Type*} [Field K] [LinearOrder K] [IsStrictOrderedRing K]

/-- `f` matches every vector of `a` with one of `b`, one-to-one and onto, and matched vectors are
closer than `thr`. -/
structure Spec.Matching (thr : K) (a b : List (Vec3 K)) (f : ℕ → Option ℕ) : Prop where
  total : ∀ i, (f i).isSome ↔ i < a.length
  range : ∀ i j, f i = some j → j < b.length
  inj : ∀ i i' j, f i = some j → f i' = some j → i = i'
  onto : ∀ j, j < b.length → ∃ i, f i = some j
  close : ∀ i j, f i = some j → sqDistance (a.getD i 0) (b.getD j 0) < thr * thr

/-- No vector is closer than `thr` to two vectors of the other environment. -/
def Spec.Unambiguous (thr : K) (a b : List (Vec3 K)) : Prop :=
  (∀ x ∈ a, b.countP (fun y => decide (sqDistance x y < thr * thr)) ≤ 1) ∧
  (∀ y ∈ b, a.countP (fun x => decide (sqDistance x y < thr * thr)) ≤ 1)

open Spec

namespace MatchEnv

theorem countP_index {A : Type*} (p : A → Bool) (l : List A) (h : l.countP p ≤ 1) (i j : ℕ)
    (hi : i < l.length) (hj : j < l.length) (pi : p l[i] = true) (pj : p l[j] = true) : i = j := by
  induction l generalizing i j with
  | nil => simp at hi
  | cons a l ih =>
    rw [List.countP_cons] at h
    rcases i with _ | i <;> rcases j with _ | j
    · rfl
    · have h1 : 0 < l.countP p := List.countP_pos_iff.mpr ⟨l[j]'(by simpa using hj), List.getElem_mem _, by simpa using pj⟩
      simp at pi
      rw [if_pos pi] at h
      omega
    · have h1 : 0 < l.countP p := List.countP_pos_iff.mpr ⟨l[i]'(by simpa using hi), List.getElem_mem _, by simpa using pi⟩
      simp at pj
      rw [if_pos pj] at h
      omega
    · rw [ih (by omega) i j (by simpa using hi) (by simpa using hj) (by simpa using pi) (by simpa using pj)]

theorem unambiguous_left {thr : K} {a b : List (Vec3 K)} (h : Unambiguous thr a b) (i j j' : ℕ)
    (h1 : (i, j) ∈ cands (thr * thr) a b) (h2 : (i, j') ∈ cands (thr * thr) a b) : j = j' := by
  rw [mem_cands] at h1 h2
  have e1 : b.getD j 0 = b[j]'h1.2.1 := by simp [List.getD_eq_getElem?_getD, h1.2.1]
  have e2 : b.getD j' 0 = b[j']'h2.2.1 := by simp [List.getD_eq_getElem?_getD, h2.2.1]
  have hx : a.getD i 0 ∈ a := by
    have : a.getD i 0 = a[i]'h1.1 := by simp [List.getD_eq_getElem?_getD, h1.1]
    rw [this]
    exact List.getElem_mem _
  refine countP_index _ b (h.1 _ hx) j j' h1.2.1 h2.2.1 ?_ ?_
  · rw [← e1]; exact decide_eq_true h1.2.2
  · rw [← e2]; exact decide_eq_true h2.2.2

theorem unambiguous_right {thr : K} {a b : List (Vec3 K)} (h : Unambiguous thr a b) (i i' j : ℕ)
    (h1 : (i, j) ∈ cands (thr * thr) a b) (h2 : (i', j) ∈ cands (thr * thr) a b) : i = i' := by
  rw [mem_cands] at h1 h2
  have e1 : a.getD i 0 = a[i]'h1.1 := by simp [List.getD_eq_getElem?_getD, h1.1]
  have e2 : a.getD i' 0 = a[i']'h2.1 := by simp [List.getD_eq_getElem?_getD, h2.1]
  have hx : b.getD j 0 ∈ b := by
    have : b.getD j 0 = b[j]'h1.2.1 := by simp [List.getD_eq_getElem?_getD, h1.2.1]
    rw [this]
    exact List.getElem_mem _
  refine countP_index _ a (h.2 _ hx) i i' h1.1 h2.1 ?_ ?_
  · rw [← e1]; exact decide_eq_true h1.2.2
  · rw [← e2]; exact decide_eq_true h2.2.2

/-- Without ambiguity the double loop matches everything exactly when every vector has a partner. -/
theorem full_iff {thr : K} {a b : List (Vec3 K)} (hu : Unambiguous thr a b) :
    (compareAll (thr * thr) a b).size = a.length ↔
      ∀ x ∈ a, ∃ y ∈ b, sqDistance x y < thr * thr := by
  have hp := compareAll_unambiguous (thr * thr) a b (unambiguous_left hu) (unambiguous_right hu)
  have hs : (compareAll (thr * thr) a b).size = (cands (thr * thr) a b).length := by
    rw [← hp, compareAll_eq, BiMap.ofList_size]
  have hinv : BiMap.Inv (compareAll (thr * thr) a b) := by rw [compareAll_eq]; exact BiMap.ofList_inv _
  have hnd : ((cands (thr * thr) a b).map (·.1)).Nodup := by rw [← hp]; exact hinv.left
  have hlt : ∀ x ∈ (cands (thr * thr) a b).map (·.1), x < a.length := by
    intro x hx
    obtain ⟨y, hy, rfl⟩ := List.mem_map.mp hx
    exact ((mem_cands _ _ _ y.1 y.2).mp hy).1
  rw [hs]
  constructor
  · intro h x hx
    have hperm := nodup_perm_range hnd hlt (by simpa using h)
    obtain ⟨i, hi, rfl⟩ := List.getElem_of_mem hx
    obtain ⟨y, hy, hyi⟩ := List.mem_map.mp (hperm.mem_iff.mpr (List.mem_range.mpr hi))
    have := (mem_cands _ _ _ y.1 y.2).mp hy
    rw [hyi] at this
    refine ⟨b[y.2]'this.2.1, List.getElem_mem _, ?_⟩
    have h3 := this.2.2
    simpa [List.getD_eq_getElem?_getD, hi, this.2.1] using h3
  · intro h
    have : ((cands (thr * thr) a b).map (·.1)).Perm (List.range a.length) := by
      rw [List.perm_ext_iff_of_nodup hnd List.nodup_range]
      intro i
      constructor
      · intro hi; exact List.mem_range.mpr (hlt i hi)
      · intro hi
        rw [List.mem_range] at hi
        obtain ⟨y, hy, hd⟩ := h a[i] (List.getElem_mem _)
        obtain ⟨j, hj, rfl⟩ := List.getElem_of_mem hy
        refine List.mem_map.mpr ⟨(i, j), (mem_cands _ _ _ i j).mpr ⟨hi, hj, ?_⟩, rfl⟩
        simpa [List.getD_eq_getElem?_getD, hi, hj] using hd
    simpa using this.length_eq

theorem makeEnvironment_spec (wrap : Vec3 K → Vec3 K) (pts : List (Vec3 K)) :
    makeEnvironment wrap pts = ⟨0, pts.map wrap, true, pts.length, List.range pts.length, Mat3.one⟩ := by
  have key : ∀ (l : List (Vec3 K)) (done : List (Vec3 K)),
      l.foldl (fun e v => Env.addVec e (wrap v)) (⟨0, done, true, done.length, List.range done.length, Mat3.one⟩ : Env K)
        = ⟨0, done ++ l.map wrap, true, done.length + l.length, List.range (done.length + l.length), Mat3.one⟩ := by
    intro l
    induction l with
    | nil => intro done; simp
    | cons v l ih =>
      intro done
      rw [List.foldl_cons]
      have h := ih (done ++ [wrap v])
      have e : Env.addVec (⟨0, done, true, done.length, List.range done.length, Mat3.one⟩ : Env K) (wrap v) =
          ⟨0, done ++ [wrap v], true, (done ++ [wrap v]).length, List.range (done ++ [wrap v]).length, Mat3.one⟩ := by
        simp [Env.addVec, List.range_succ]
      rw [e, h]
      simp [Nat.add_assoc, Nat.add_comm 1]
  have := key pts []
  simpa [makeEnvironment, Env.new] using this

theorem makeEnvironment_wf (wrap : Vec3 K → Vec3 K) (pts : List (Vec3 K)) : (makeEnvironment wrap pts).WF := by
  rw [makeEnvironment_spec, Env.WF]
  simp

theorem makeEnvironment_properD (wrap : Vec3 K → Vec3 K) (pts : List (Vec3 K)) :
    (makeEnvironment wrap pts).properD = pts.map wrap := by
  rw [makeEnvironment_spec, Env.properD]
  apply List.ext_getElem
  · simp
  · intro i h1 h2
    have hi : i < pts.length := by simpa using h2
    simp [one_mulVec, List.getD_eq_getElem?_getD, hi]

theorem matching_of_outcome (thr : K) (a b : List (Vec3 K)) (rot : Mat3 K) (m : BiMap ℕ ℕ)
    (h : Outcome (thr * thr) a b rot m) (hs : m.size ≠ 0) : Matching thr a (b.map rot.mulVec) m.asMap := by
  rcases h.full with h0 | ⟨hl, hsz, hb, hc⟩
  · exact absurd h0 hs
  have ha := BiMap.asMap_spec m h.inv
  refine ⟨fun i => ?_, fun i j hij => ?_, fun i i' j h1 h2 => ?_, fun j hj => ?_, fun i j hij => ?_⟩
  · rw [← List.mem_range, ← hb.1.mem_iff, Option.isSome_iff_exists]
    simp only [ha, List.mem_map, Prod.exists, exists_and_right, exists_eq_right]
  · rw [ha] at hij
    have := hb.2.mem_iff.mp (List.mem_map.mpr ⟨_, hij, rfl⟩)
    rw [List.mem_range] at this
    simpa [← hl] using this
  · rw [ha] at h1 h2
    exact (Prod.mk.inj (List.inj_on_of_nodup_map h.inv.right h1 h2 rfl)).1
  · rw [List.length_map, ← hl, ← List.mem_range, ← hb.2.mem_iff] at hj
    obtain ⟨x, hx, rfl⟩ := List.mem_map.mp hj
    exact ⟨x.1, (ha _ _).mpr hx⟩
  · rw [ha] at hij
    have h2 := hb.2.mem_iff.mp (List.mem_map.mpr ⟨_, hij, rfl⟩)
    rw [List.mem_range, hl] at h2
    have := hc _ hij
    have e : (b.map rot.mulVec).getD j 0 = rot.mulVec (b.getD j 0) := by
      simp [List.getD_eq_getElem?_getD, List.getElem?_eq_getElem h2]
    rw [e]
    exact this

theorem asMap_empty (m : BiMap ℕ ℕ) (h : BiMap.Inv m) (h0 : m.size = 0) : m.asMap = fun _ => none := by
  funext i
  apply Option.ext
  intro j
  rw [BiMap.asMap_spec m h]
  have : m.container = [] := List.length_eq_zero_iff.mp h0
  simp [BiMap.pairs, this]

theorem exists_matching_iff {thr : K} {a b : List (Vec3 K)} (hl : a.length = b.length)
    (hu : Unambiguous thr a b) : (∃ f, Matching thr a b f) ↔
      ∀ x ∈ a, ∃ y ∈ b, sqDistance x y < thr * thr := by
  constructor
  · rintro ⟨f, hf⟩ x hx
    obtain ⟨i, hi, rfl⟩ := List.getElem_of_mem hx
    obtain ⟨j, hj⟩ := Option.isSome_iff_exists.mp ((hf.total i).mpr hi)
    have hj' := hf.range i j hj
    refine ⟨b[j], List.getElem_mem _, ?_⟩
    have := hf.close i j hj
    simpa [List.getD_eq_getElem?_getD, hi, hj'] using this
  · intro h
    by_cases h0 : a.length = 0
    · refine ⟨fun _ => none, ⟨fun i => by simp [h0], fun i j h => by simp at h, fun i i' j h => by simp at h,
        fun j hj => by rw [← hl, h0] at hj; omega, fun i j h => by simp at h⟩⟩
    have hs := (full_iff hu).mpr h
    have hb : ∀ x ∈ cands (thr * thr) a b, x.1 < a.length ∧ x.2 < a.length := fun x hx => by
      have := (mem_cands _ _ _ x.1 x.2).mp hx
      rw [← hl] at this
      exact ⟨this.1, this.2.1⟩
    have ho : Outcome (thr * thr) a b Mat3.one (compareAll (thr * thr) a b) := by
      refine ⟨rotation_one, by rw [compareAll_eq]; exact BiMap.ofList_inv _, Or.inr ⟨hl, hs, ?_, ?_⟩⟩
      · rw [compareAll_eq] at hs ⊢
        exact bijection_of_full _ hb hs
      · intro p hp
        rw [compareAll_eq] at hp
        rw [one_mulVec]
        exact ((mem_cands _ _ _ p.1 p.2).mp (BiMap.ofList_mem _ _ hp)).2.2
    have := matching_of_outcome thr a b Mat3.one _ ho (by rw [hs]; exact h0)
    rw [funext one_mulVec] at this
    exact ⟨_, by simpa using this⟩

end MatchEnv

/-- **C48**: comparing two lists of vectors always gives a rotation and a map; without registration the
vectors are not rotated. The map is empty, or it matches all the vectors of the first list with all the
rotated vectors of the second one-to-one, within the threshold. -/
theorem C48_matching (wrap : Vec3 K → Vec3 K) (ref pts : List (Vec3 K)) (thr : K) (reg : Option (Fitter K))
    (hreg : ∀ fit, reg = some fit → Registers fit) (hl : ref.length = pts.length) (h0 : reg ≠ none → 0 < ref.length) :
    ∃ rot f, MatchEnv.isSimilarPoints wrap ref pts thr reg = some ((pts.map wrap).map rot.mulVec, f) ∧
      Rotation rot ∧ (reg = none → (pts.map wrap).map rot.mulVec = pts.map wrap) ∧
      ((∀ i, f i = none) ∨ Matching thr (ref.map wrap) ((pts.map wrap).map rot.mulVec) f) := by
  obtain ⟨rot, m, g1, g2, g3⟩ := MatchEnv.isSimilar_spec (MatchEnv.makeEnvironment wrap ref)
    (MatchEnv.makeEnvironment wrap pts) (MatchEnv.makeEnvironment_wf _ _) (MatchEnv.makeEnvironment_wf _ _)
    (thr * thr) reg (fun fit hf => ⟨hreg fit hf, by
      rw [MatchEnv.makeEnvironment_spec]
      simpa using h0 (by rw [hf]; simp)⟩)
  rw [MatchEnv.makeEnvironment_properD, MatchEnv.makeEnvironment_properD] at g2
  refine ⟨rot, m.asMap, ?_, g2.rotation, ?_, ?_⟩
  · unfold MatchEnv.isSimilarPoints
    rw [if_neg (by simpa using hl), g1, MatchEnv.makeEnvironment_spec]
    rfl
  · intro hn
    rw [g3 hn]
    simp [funext MatchEnv.one_mulVec]
  · by_cases hs : m.size = 0
    · left
      intro i
      rw [MatchEnv.asMap_empty m g2.inv hs]
    · exact Or.inr (MatchEnv.matching_of_outcome thr _ _ rot m g2 hs)

/-- **C48** (sizes): lists of different sizes are rejected; in the analysis, environments of different
sizes are never similar. -/
theorem C48_sizes_differ (wrap : Vec3 K → Vec3 K) (ref pts : List (Vec3 K)) (thr : K) (reg : Option (Fitter K))
    (e1 e2 : Env K) (hl : ref.length ≠ pts.length) (he : e1.vecs.length ≠ e2.vecs.length) :
    MatchEnv.isSimilarPoints wrap ref pts thr reg = none ∧
    ∃ rot m, MatchEnv.isSimilar e1 e2 thr reg = some (rot, m) ∧ m.pairs = [] := by
  refine ⟨by rw [MatchEnv.isSimilarPoints, if_pos hl], Mat3.one, BiMap.new, ?_, ?_⟩
  · rw [MatchEnv.isSimilar, if_pos he]
  · simp [BiMap.new, BiMap.pairs]

/-- **C48** (completeness). What is missing: when some vector has two possible partners, a matching may
exist and not be found (`C48_greedy_counterexample`); and with registration nothing is claimed. When no
vector has two possible partners and a matching of the vectors exists, that matching is returned. -/
theorem C48_found_partial (wrap : Vec3 K → Vec3 K) (ref pts : List (Vec3 K)) (thr : K) (f : ℕ → Option ℕ)
    (hl : ref.length = pts.length) (hu : Unambiguous thr (ref.map wrap) (pts.map wrap))
    (hm : Matching thr (ref.map wrap) (pts.map wrap) f) :
    MatchEnv.isSimilarPoints wrap ref pts thr none = some (pts.map wrap, f) := by
  set e1 := MatchEnv.makeEnvironment wrap ref with he1
  set e2 := MatchEnv.makeEnvironment wrap pts with he2
  have v1 : e1.properD = ref.map wrap := MatchEnv.makeEnvironment_properD _ _
  have v2 : e2.properD = pts.map wrap := MatchEnv.makeEnvironment_properD _ _
  have hpairs := MatchEnv.compareAll_unambiguous (thr * thr) (ref.map wrap) (pts.map wrap)
    (MatchEnv.unambiguous_left hu) (MatchEnv.unambiguous_right hu)
  set c := MatchEnv.compareAll (thr * thr) (ref.map wrap) (pts.map wrap) with hc
  have hinv : BiMap.Inv c := by rw [hc, MatchEnv.compareAll_eq]; exact BiMap.ofList_inv _
  have hasMap : c.asMap = f := by
    funext i
    apply Option.ext
    intro j
    rw [BiMap.asMap_spec c hinv, hpairs, MatchEnv.mem_cands]
    constructor
    · rintro ⟨h1, h2, h3⟩
      obtain ⟨j', hj'⟩ := Option.isSome_iff_exists.mp ((hm.total i).mpr h1)
      rw [hj', MatchEnv.unambiguous_left hu i j j' ((MatchEnv.mem_cands _ _ _ _ _).mpr ⟨h1, h2, h3⟩)
        ((MatchEnv.mem_cands _ _ _ _ _).mpr ⟨h1, hm.range i j' hj', hm.close i j' hj'⟩)]
    · intro h
      exact ⟨(hm.total i).mp (by rw [h]; rfl), hm.range i j h, hm.close i j h⟩
  have hsize : c.size = ref.length := by
    have h1 : c.size = c.pairs.length := by rw [hc, MatchEnv.compareAll_eq]; exact BiMap.ofList_size _
    have h2 : (c.pairs.map (·.1)).Perm (List.range ref.length) := by
      rw [List.perm_ext_iff_of_nodup hinv.left List.nodup_range]
      intro i
      rw [List.mem_range]
      have ht := hm.total i
      rw [List.length_map] at ht
      rw [← ht, Option.isSome_iff_exists, ← hasMap]
      simp only [BiMap.asMap_spec c hinv, List.mem_map, Prod.exists, exists_and_right, exists_eq_right]
    have := h2.length_eq
    rw [h1]
    simpa using this
  have hs : MatchEnv.isSimilar e1 e2 (thr * thr) none = some (Mat3.one, c) := by
    unfold MatchEnv.isSimilar
    have l1 : e1.vecs.length = ref.length := by rw [he1, MatchEnv.makeEnvironment_spec]; simp
    have l2 : e2.vecs.length = pts.length := by rw [he2, MatchEnv.makeEnvironment_spec]; simp
    rw [if_neg (by rw [l1, l2]; simpa using hl), Env.proper_eq e1 (MatchEnv.makeEnvironment_wf _ _),
      Env.proper_eq e2 (MatchEnv.makeEnvironment_wf _ _), v1, v2]
    simp only [Option.bind_some, Option.map_some]
    rw [← hc, if_pos (by rw [hsize, l1])]
  unfold MatchEnv.isSimilarPoints
  rw [if_neg (by simpa using hl), ← he1, ← he2, hs, Option.map_some, hasMap]
  have : e2.vecs = pts.map wrap := by rw [he2, MatchEnv.makeEnvironment_spec]
  simp [this, funext MatchEnv.one_mulVec]

/-- **C48** is false as stated: the vectors 0 and 1 match -0.4 and 0.5 one-to-one within 0.6, but the
code first pairs 0 with 0.5, so that nothing is left for 1, and reports that the two differ. -/
theorem C48_greedy_counterexample :
    Matching (6 / 10 : ℚ) [⟨0, 0, 0⟩, ⟨1, 0, 0⟩] [⟨1 / 2, 0, 0⟩, ⟨-4 / 10, 0, 0⟩]
      (fun i => if i = 0 then some 1 else if i = 1 then some 0 else none) ∧
    (MatchEnv.isSimilarPoints (fun v => v) [⟨0, 0, 0⟩, ⟨1, 0, 0⟩] [⟨1 / 2, 0, 0⟩, ⟨-4 / 10, 0, 0⟩]
      (6 / 10 : ℚ) none).map (fun r => (r.2 0, r.2 1)) = some (none, none) := by
  refine ⟨⟨?_, ?_, ?_, ?_, ?_⟩, by decide +kernel⟩
  · intro i
    rcases i with _ | _ | i <;> simp
  · intro i j h
    rcases i with _ | _ | i <;> simp at h <;> subst h <;> simp
  · intro i i' j h h'
    split_ifs at h h' <;> simp only [Option.some.injEq, reduceCtorEq] at h h' <;> omega
  · intro j hj
    rcases j with _ | _ | j
    · exact ⟨1, by simp⟩
    · exact ⟨0, by simp⟩
    · simp at hj
  · intro i j h
    rcases i with _ | _ | i <;> simp at h <;> subst h <;> decide +kernel

/-- **C48** (empty environments): two environments without vectors are compared without error when there
is no registration, but the map of a match would be empty too, so they are never reported similar. -/
theorem C48_no_vectors (wrap : Vec3 K → Vec3 K) (thr : K) :
    (MatchEnv.isSimilarPoints wrap [] [] thr none).map (fun r => (r.1, r.2 0)) = some ([], none) := rfl

example : (MatchEnv.isSimilarPoints (fun v => v) [⟨0, 0, 0⟩, ⟨1, 0, 0⟩] [⟨11 / 10, 0, 0⟩, ⟨-1 / 10, 0, 0⟩]
    (3 / 10 : ℚ) none).map (fun r => (r.1, r.2 0, r.2 1, r.2 2)) =
    some ([⟨11 / 10, 0, 0⟩, ⟨-1 / 10, 0, 0⟩], some 1, some 0, none) := by decide +kernel

/-- A registration that meets the hypotheses of `C48_matching`. -/
theorem exReg_registers : Registers (K := ℚ)
    (fun ref pts => Reg.fit (fun _ _ => Mat3.one) (fun x => max x 0) exRefSort (1 / 1000)
      (List.range (Reg.numPts pts.length)) ref pts) := by
  refine ⟨fun _ _ => Mat3.one, fun x => max x 0, exRefSort, 1 / 1000, fun _ _ => MatchEnv.rotation_one,
    fun x => le_max_right _ _, exRefSort_ok, fun ref pts hl h0 => ⟨_, ⟨by simp, List.nodup_range, ?_⟩, rfl⟩⟩
  intro i hi
  rw [List.mem_range, numPts_eq _ h0] at hi
  omega

example : (MatchEnv.isSimilarPoints (fun v => v) [⟨0, 0, 0⟩, ⟨1, 0, 0⟩] [⟨11 / 10, 0, 0⟩, ⟨-1 / 10, 0, 0⟩]
    (3 / 10 : ℚ) (some (fun ref pts => Reg.fit (fun _ _ => Mat3.one) (fun x => max x 0) exRefSort (1 / 1000)
      (List.range (Reg.numPts pts.length)) ref pts))).map (fun r => (r.1, r.2 0, r.2 1, r.2 2)) =
    some ([⟨11 / 10, 0, 0⟩, ⟨-1 / 10, 0, 0⟩], some 1, some 0, none) := by decide +kernel

end Freud
