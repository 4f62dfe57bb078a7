import Verif.Model.MatchEnv
import Verif.Props.Registration
import Verif.Props.Kabsch
import Verif.Lemmas.Quat

/-!
# Lemmas on environments and their comparison
-/

namespace Freud
set_option linter.unusedSectionVars false
variable {K : Type*} [Field K] [LinearOrder K] [IsStrictOrderedRing K]

open Spec

namespace BiMap

/-- Emplacing the pairs of a list one after the other. -/
def ofList (l : List (ℕ × ℕ)) : BiMap ℕ ℕ := l.foldl (fun m p => (m.emplace p.1 p.2).1) BiMap.new

theorem ofList_eq_run (l : List (ℕ × ℕ)) :
    ofList l = BiMap.run (l.map (fun p => BiMap.Op.emplace p.1 p.2)) := by
  unfold ofList BiMap.run
  rw [List.foldl_map]
  rfl

theorem ofList_inv (l : List (ℕ × ℕ)) : Inv (ofList l) := by
  rw [ofList_eq_run]; exact run_inv _

theorem ofList_size (l : List (ℕ × ℕ)) : (ofList l).size = (ofList l).pairs.length := by
  have h := C51_bijection (l.map (fun p => BiMap.Op.emplace p.1 p.2))
  rw [ofList_eq_run, h.2.2.2, h.1]

theorem ofList_mem (l : List (ℕ × ℕ)) (x : ℕ × ℕ) (h : x ∈ (ofList l).pairs) : x ∈ l := by
  have key : ∀ (l : List (ℕ × ℕ)) (m : BiMap ℕ ℕ), Inv m →
      x ∈ (l.foldl (fun m p => (m.emplace p.1 p.2).1) m).pairs → x ∈ m.pairs ∨ x ∈ l := by
    intro l
    induction l with
    | nil => intro m _ hx; exact Or.inl hx
    | cons p l ih =>
      intro m hm hx
      obtain ⟨g1, -, g3⟩ := emplace_spec m hm p.1 p.2
      rw [List.foldl_cons] at hx
      rcases ih _ g1 hx with h | h
      · rw [g3] at h
        split_ifs at h
        · rcases List.mem_append.mp h with h | h
          · exact Or.inl h
          · rw [List.mem_singleton] at h
            subst h
            exact Or.inr List.mem_cons_self
        · exact Or.inl h
      · exact Or.inr (List.mem_cons_of_mem _ h)
  rcases key l new inv_new h with h | h
  · simp [new, pairs] at h
  · exact h

theorem ofList_nodup (l : List (ℕ × ℕ)) (h1 : (l.map (·.1)).Nodup) (h2 : (l.map (·.2)).Nodup) :
    (ofList l).pairs = l := by
  have key : ∀ (l done : List (ℕ × ℕ)) (c : BiMap ℕ ℕ), Inv c → c.pairs = done →
      ((done ++ l).map (·.1)).Nodup → ((done ++ l).map (·.2)).Nodup →
        (l.foldl (fun c p => (c.emplace p.1 p.2).1) c).pairs = done ++ l := by
    intro l
    induction l with
    | nil => intro done c hc hd _ _; simpa using hd
    | cons x l ih =>
      intro done c hc hd h1 h2
      obtain ⟨g1, g2, g3⟩ := emplace_spec c hc x.1 x.2
      have ht : (c.emplace x.1 x.2).2 = true := by
        rw [g2, hd]
        rw [List.map_append, List.map_cons] at h1 h2
        constructor
        · intro b' hb
          exact (List.nodup_append.mp h1).2.2 x.1 (List.mem_map.mpr ⟨_, hb, rfl⟩) x.1
            List.mem_cons_self rfl
        · intro a' ha
          exact (List.nodup_append.mp h2).2.2 x.2 (List.mem_map.mpr ⟨_, ha, rfl⟩) x.2
            List.mem_cons_self rfl
      rw [ht, if_pos rfl, hd] at g3
      have := ih (done ++ [(x.1, x.2)]) (c.emplace x.1 x.2).1 g1 g3
        (by simpa using h1) (by simpa using h2)
      simpa using this
  simpa [ofList] using key l [] new inv_new (by simp [new, pairs]) (by simpa using h1) (by simpa using h2)

theorem size_new : (BiMap.new : BiMap ℕ ℕ).size = 0 := rfl

end BiMap

theorem nodup_perm_range {n : ℕ} {l : List ℕ} (h1 : l.Nodup) (h2 : ∀ x ∈ l, x < n) (h3 : l.length = n) :
    l.Perm (List.range n) := by
  apply List.Subperm.perm_of_length_le
  · exact h1.subperm (fun x hx => List.mem_range.mpr (h2 x hx))
  · simp [h3]

theorem bijection_of_full {n : ℕ} (l : List (ℕ × ℕ)) (hb : ∀ x ∈ l, x.1 < n ∧ x.2 < n)
    (h : (BiMap.ofList l).size = n) : Bijection n (BiMap.ofList l).pairs := by
  have hi := BiMap.ofList_inv l
  rw [BiMap.ofList_size] at h
  refine ⟨nodup_perm_range hi.left ?_ (by simpa using h), nodup_perm_range hi.right ?_ (by simpa using h)⟩
  · intro x hx
    obtain ⟨y, hy, rfl⟩ := List.mem_map.mp hx
    exact (hb y (BiMap.ofList_mem l y hy)).1
  · intro x hx
    obtain ⟨y, hy, rfl⟩ := List.mem_map.mp hx
    exact (hb y (BiMap.ofList_mem l y hy)).2

namespace Env

/-- The vector indices of a well-formed environment are a permutation. -/
def WF (e : Env K) : Prop := e.vecInd.Perm (List.range e.vecs.length)

/-- The vectors in proper order and orientation. -/
def properD (e : Env K) : List (Vec3 K) :=
  (List.range e.vecs.length).map (fun m => e.rot.mulVec (e.vecs.getD (e.vecInd.getD m 0) 0))

theorem WF.length {e : Env K} (h : WF e) : e.vecInd.length = e.vecs.length := by
  simpa using h.length_eq

theorem proper_eq (e : Env K) (h : WF e) : e.proper = some e.properD := by
  unfold proper properD
  apply Reg.mapM_some_of
  intro m hm
  rw [List.mem_range] at hm
  have hm' : m < e.vecInd.length := by rw [h.length]; exact hm
  have hk : e.vecInd[m] < e.vecs.length := by
    have := h.mem_iff.mp (List.getElem_mem hm')
    simpa using this
  rw [List.getElem?_eq_getElem hm', Option.bind_some, List.getElem?_eq_getElem hk, Option.map_some]
  simp [List.getD_eq_getElem?_getD, List.getElem?_eq_getElem hm', List.getElem?_eq_getElem hk]

theorem properD_length (e : Env K) : e.properD.length = e.vecs.length := by simp [properD]

theorem properD_getD (e : Env K) (k : ℕ) (hk : k < e.vecs.length) :
    e.properD.getD k 0 = e.rot.mulVec (e.vecs.getD (e.vecInd.getD k 0) 0) := by
  simp [properD, List.getD_eq_getElem?_getD, List.getElem?_map, List.getElem?_range hk]

end Env

namespace MatchEnv

/-- The pairs of vectors within the threshold, in the order in which the double loop sees them. -/
def cands (thrSq : K) (v1 v2 : List (Vec3 K)) : List (ℕ × ℕ) :=
  v1.zipIdx.flatMap (fun a =>
    (v2.zipIdx.filter (fun b => decide (Reg.dist2 a.1 b.1 < thrSq))).map (fun b => (a.2, b.2)))

theorem compareAll_eq (thrSq : K) (v1 v2 : List (Vec3 K)) :
    compareAll thrSq v1 v2 = BiMap.ofList (cands thrSq v1 v2) := by
  unfold compareAll BiMap.ofList cands
  rw [List.foldl_flatMap]
  congr 1
  funext m a
  rw [List.foldl_map, List.foldl_filter]
  congr 1
  funext m b
  by_cases h : Reg.dist2 a.1 b.1 < thrSq <;> simp [h]

theorem mem_cands (thrSq : K) (v1 v2 : List (Vec3 K)) (i j : ℕ) : (i, j) ∈ cands thrSq v1 v2 ↔
    i < v1.length ∧ j < v2.length ∧ sqDistance (v1.getD i 0) (v2.getD j 0) < thrSq := by
  simp only [cands, List.mem_flatMap, List.mem_map, List.mem_filter, decide_eq_true_eq, Prod.mk.injEq]
  constructor
  · rintro ⟨a, ha, b, ⟨hb, hd⟩, rfl, rfl⟩
    have h1 := List.mem_zipIdx' ha
    have h2 := List.mem_zipIdx' hb
    refine ⟨h1.1, h2.1, ?_⟩
    rw [← dist2_eq]
    simpa [List.getD_eq_getElem?_getD, List.getElem?_eq_getElem h1.1, List.getElem?_eq_getElem h2.1,
      ← h1.2, ← h2.2] using hd
  · rintro ⟨h1, h2, hd⟩
    refine ⟨(v1[i], i), List.mem_zipIdx_iff_getElem?.mpr (by simp [h1]), (v2[j], j),
      ⟨List.mem_zipIdx_iff_getElem?.mpr (by simp [h2]), ?_⟩, rfl, rfl⟩
    rw [← dist2_eq] at hd
    simpa [List.getD_eq_getElem?_getD, List.getElem?_eq_getElem h1, List.getElem?_eq_getElem h2] using hd

theorem nodup_cands (thrSq : K) (v1 v2 : List (Vec3 K)) : (cands thrSq v1 v2).Nodup := by
  unfold cands
  have hz : ∀ v : List (Vec3 K), (v.zipIdx.map (·.2)).Nodup := by
    intro v
    rw [List.zipIdx_map_snd]
    exact List.nodup_range'
  rw [List.nodup_flatMap]
  constructor
  · intro a _
    have h1 : ((v2.zipIdx.filter (fun b => decide (Reg.dist2 a.1 b.1 < thrSq))).map (·.2)).Nodup :=
      (List.filter_sublist.map (fun b : Vec3 K × ℕ => b.2)).nodup (hz v2)
    have : (v2.zipIdx.filter (fun b => decide (Reg.dist2 a.1 b.1 < thrSq))).map (fun b => (a.2, b.2)) =
        ((v2.zipIdx.filter (fun b => decide (Reg.dist2 a.1 b.1 < thrSq))).map (·.2)).map (fun j => (a.2, j)) := by
      rw [List.map_map]; rfl
    rw [this]
    exact h1.map (fun x y h => (Prod.mk.inj h).2)
  · have : v1.zipIdx.Pairwise (fun a b => a.2 ≠ b.2) := List.pairwise_map.mp (hz v1)
    refine this.imp ?_
    intro a b hab x h1 h2
    obtain ⟨y, -, rfl⟩ := List.mem_map.mp h1
    obtain ⟨z, -, hz⟩ := List.mem_map.mp h2
    exact hab (Prod.mk.inj hz).1.symm

theorem comparePairs_eq (thrSq : K) (v1 v2 : List (Vec3 K)) (pairs : List (ℕ × ℕ))
    (hb : ∀ p ∈ pairs, p.1 < v1.length ∧ p.2 < v2.length) :
    comparePairs thrSq v1 v2 pairs = some (BiMap.ofList (pairs.filter
      (fun p => decide (sqDistance (v1.getD p.1 0) (v2.getD p.2 0) < thrSq)))) := by
  unfold comparePairs BiMap.ofList
  generalize (BiMap.new : BiMap ℕ ℕ) = m
  induction pairs generalizing m with
  | nil => rfl
  | cons p ps ih =>
    obtain ⟨h1, h2⟩ := hb p List.mem_cons_self
    rw [List.foldlM_cons, List.getElem?_eq_getElem h1, List.getElem?_eq_getElem h2]
    simp only [Option.bind_some, Option.map_some, Option.bind_eq_bind]
    rw [ih (fun q hq => hb q (List.mem_cons_of_mem _ hq))]
    have e : Reg.dist2 v1[p.1] v2[p.2] = sqDistance (v1.getD p.1 0) (v2.getD p.2 0) := by
      simp [dist2_eq, List.getD_eq_getElem?_getD, List.getElem?_eq_getElem h1, List.getElem?_eq_getElem h2]
    rw [e]
    by_cases h : sqDistance (v1.getD p.1 0) (v2.getD p.2 0) < thrSq
    · rw [if_pos h, List.filter_cons_of_pos (by simpa using h), List.foldl_cons]
    · rw [if_neg h, List.filter_cons_of_neg (by simpa using h)]

end MatchEnv

/-- A registration: `Fit` with some draw of the reference points, with a Kabsch rotation that is a
rotation, a square root that is not negative and a correct sort. -/
def Spec.Registers (fit : Fitter K) : Prop :=
  ∃ (kabsch : List (Vec3 K) → List (Vec3 K) → Mat3 K) (sqrt : K → K) (sort : List (ℕ × K) → List (ℕ × K))
    (tol : K), (∀ P Q, Rotation (kabsch P Q)) ∧ (∀ x, 0 ≤ sqrt x) ∧ SortOK sort ∧
    ∀ ref pts, pts.length = ref.length → 0 < pts.length →
      ∃ pick, PickOK pts.length pick ∧ fit ref pts = Reg.fit kabsch sqrt sort tol pick ref pts

namespace MatchEnv

/-- What is known about the result of `isSimilar`: a rotation and a map that is empty or matches all
the vectors within the threshold. -/
structure Outcome (thrSq : K) (v1 v2 : List (Vec3 K)) (rot : Mat3 K) (m : BiMap ℕ ℕ) : Prop where
  rotation : Rotation rot
  inv : BiMap.Inv m
  full : m.size = 0 ∨ (v1.length = v2.length ∧ m.size = v1.length ∧ Bijection v1.length m.pairs ∧
    ∀ p ∈ m.pairs, sqDistance (v1.getD p.1 0) (rot.mulVec (v2.getD p.2 0)) < thrSq)

theorem rotation_one : Rotation (Mat3.one : Mat3 K) := by
  constructor
  · ext <;> quat_simp <;> ring
  · quat_simp; ring

theorem one_mulVec (v : Vec3 K) : (Mat3.one : Mat3 K).mulVec v = v := by
  ext <;> quat_simp <;> ring

theorem outcome_empty (thrSq : K) (v1 v2 : List (Vec3 K)) (rot : Mat3 K) (h : Rotation rot) :
    Outcome thrSq v1 v2 rot BiMap.new := ⟨h, BiMap.inv_new, Or.inl rfl⟩

theorem isSimilar_spec (e1 e2 : Env K) (h1 : e1.WF) (h2 : e2.WF) (thrSq : K) (reg : Option (Fitter K))
    (hreg : ∀ fit, reg = some fit → Registers fit ∧ 0 < e1.vecs.length) :
    ∃ rot m, isSimilar e1 e2 thrSq reg = some (rot, m) ∧ Outcome thrSq e1.properD e2.properD rot m ∧
      (reg = none → rot = Mat3.one) := by
  unfold isSimilar
  by_cases hl : e1.vecs.length ≠ e2.vecs.length
  · rw [if_pos hl]
    exact ⟨_, _, rfl, outcome_empty _ _ _ _ rotation_one, fun _ => rfl⟩
  rw [if_neg hl]
  push Not at hl
  rw [Env.proper_eq e1 h1, Env.proper_eq e2 h2]
  simp only [Option.bind_some]
  have l1 := e1.properD_length
  have l2 := e2.properD_length
  cases reg with
  | none =>
    simp only [Option.map_some]
    rw [compareAll_eq]
    by_cases hs : (BiMap.ofList (cands thrSq e1.properD e2.properD)).size = e1.vecs.length
    · rw [if_pos hs]
      refine ⟨_, _, rfl, ⟨rotation_one, BiMap.ofList_inv _, Or.inr ⟨by rw [l1, l2, hl], by rw [l1, hs], ?_, ?_⟩⟩,
        fun _ => rfl⟩
      · rw [l1]
        refine bijection_of_full _ (fun x hx => ?_) hs
        have := (mem_cands thrSq _ _ x.1 x.2).mp hx
        exact ⟨by rw [← l1]; exact this.1, by rw [hl, ← l2]; exact this.2.1⟩
      · intro p hp
        rw [one_mulVec]
        exact ((mem_cands thrSq _ _ p.1 p.2).mp (BiMap.ofList_mem _ _ hp)).2.2
    · rw [if_neg hs]
      exact ⟨_, _, rfl, outcome_empty _ _ _ _ rotation_one, fun _ => rfl⟩
  | some fit =>
    obtain ⟨⟨kabsch, sqrt, sort, tol, hk, hsq, hso, hf⟩, h0⟩ := hreg fit rfl
    obtain ⟨pick, hp, hfit⟩ := hf e1.properD e2.properD (by rw [l1, l2, hl]) (by rw [l2, ← hl]; exact h0)
    obtain ⟨st, g1, g2, -, ⟨t, -, grot⟩, -⟩ := C52_registration kabsch sqrt hsq sort hso tol pick
      e1.properD e2.properD (by rw [l1, l2, hl]) (by rw [l2, ← hl]; exact h0) hp
    have hrot : Rotation st.rotation := by rw [grot]; exact hk _ _
    simp only [hfit, g1, Option.bind_some]
    have hb : ∀ p ∈ st.map.pairs, p.1 < e1.vecs.length ∧ p.2 < e1.vecs.length := by
      intro p hp
      have a1 := g2.1.mem_iff.mp (List.mem_map.mpr ⟨p, hp, rfl⟩)
      have a2 := g2.2.mem_iff.mp (List.mem_map.mpr ⟨p, hp, rfl⟩)
      rw [List.mem_range, l2, ← hl] at a1 a2
      exact ⟨a1, a2⟩
    rw [comparePairs_eq _ _ _ _ (fun p hp => by
      rw [List.length_map, l1, l2, ← hl]; exact hb p hp)]
    simp only [Option.map_some]
    set L := st.map.pairs.filter (fun p => decide (sqDistance (e1.properD.getD p.1 0)
      ((e2.properD.map st.rotation.mulVec).getD p.2 0) < thrSq)) with hL
    by_cases hs : (BiMap.ofList L).size = e1.vecs.length
    · rw [if_pos hs]
      refine ⟨_, _, rfl, ⟨hrot, BiMap.ofList_inv _, Or.inr ⟨by rw [l1, l2, hl], by rw [l1, hs], ?_, ?_⟩⟩,
        fun h => absurd h (by simp)⟩
      · rw [l1]
        refine bijection_of_full _ (fun x hx => ?_) hs
        exact hb x (List.mem_of_mem_filter hx)
      · intro p hp
        have hm := BiMap.ofList_mem _ _ hp
        have hd := (List.mem_filter.mp hm).2
        have hlt : p.2 < e2.properD.length := by rw [l2, ← hl]; exact (hb p (List.mem_of_mem_filter hm)).2
        have : (e2.properD.map st.rotation.mulVec).getD p.2 0 = st.rotation.mulVec (e2.properD.getD p.2 0) := by
          simp [List.getD_eq_getElem?_getD, List.getElem?_eq_getElem hlt]
        rw [this] at hd
        simpa using hd
    · rw [if_neg hs]
      exact ⟨_, _, rfl, outcome_empty _ _ _ _ hrot, fun h => absurd h (by simp)⟩

/-- When every vector has at most one partner on each side, all pairs are matched. -/
theorem compareAll_unambiguous (thrSq : K) (v1 v2 : List (Vec3 K))
    (h1 : ∀ i j j', (i, j) ∈ cands thrSq v1 v2 → (i, j') ∈ cands thrSq v1 v2 → j = j')
    (h2 : ∀ i i' j, (i, j) ∈ cands thrSq v1 v2 → (i', j) ∈ cands thrSq v1 v2 → i = i') :
    (compareAll thrSq v1 v2).pairs = cands thrSq v1 v2 := by
  rw [compareAll_eq]
  apply BiMap.ofList_nodup
  · refine List.Nodup.map_on ?_ (nodup_cands thrSq v1 v2)
    rintro ⟨i, j⟩ hx ⟨i', j'⟩ hy h
    simp only at h
    subst h
    rw [h1 i j j' hx hy]
  · refine List.Nodup.map_on ?_ (nodup_cands thrSq v1 v2)
    rintro ⟨i, j⟩ hx ⟨i', j'⟩ hy h
    simp only at h
    subst h
    rw [h2 i i' j hx hy]

end MatchEnv
end Freud
