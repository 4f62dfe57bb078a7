import Verif.Lemmas.MatchEnv
import Mathlib.Data.List.Nodup

/-!
# Lemmas on the disjoint set of environments
-/

namespace Freud
set_option linter.unusedSectionVars false
variable {K : Type*} [Field K] [LinearOrder K] [IsStrictOrderedRing K]

open Spec

namespace MatchEnv

theorem sqDistance_rot (R : Mat3 K) (h : Rotation R) (a b : Vec3 K) :
    sqDistance (R.mulVec a) (R.mulVec b) = sqDistance a b := by
  have hn := Kabsch.norm_mulVec R h.1 (a - b)
  have e : R.mulVec (a - b) = R.mulVec a - R.mulVec b := by
    ext <;> quat_simp <;> ring
  rw [e] at hn
  simp only [sqDistance, Vec3.dot, Vec3.sub_x, Vec3.sub_y, Vec3.sub_z] at hn ⊢
  linear_combination hn

theorem mulVec_mulVec (A B : Mat3 K) (v : Vec3 K) : (A.mul B).mulVec v = A.mulVec (B.mulVec v) := by
  ext <;> quat_simp <;> ring

theorem one_mul_one : (Mat3.one : Mat3 K).mul Mat3.one = Mat3.one := by
  ext <;> quat_simp <;> ring

theorem one_transpose : (Mat3.one : Mat3 K).transpose = Mat3.one := rfl

theorem rotation_mul {A B : Mat3 K} (hA : Rotation A) (hB : Rotation B) : Rotation (A.mul B) := by
  have h1 : A.toM * A.toM.transpose = 1 := by
    rw [← Mat3.toM_transpose, ← Mat3.toM_mul, hA.1, Mat3.toM_one]
  have h2 : B.toM * B.toM.transpose = 1 := by
    rw [← Mat3.toM_transpose, ← Mat3.toM_mul, hB.1, Mat3.toM_one]
  constructor
  · apply Mat3.toM_injective
    rw [Mat3.toM_mul, Mat3.toM_transpose, Mat3.toM_mul, Matrix.transpose_mul, Mat3.toM_one,
      Matrix.mul_assoc, ← Matrix.mul_assoc B.toM, h2, Matrix.one_mul, h1]
  · rw [← Mat3.toM_det, Mat3.toM_mul, Matrix.det_mul, Mat3.toM_det, Mat3.toM_det, hA.2, hB.2, one_mul]

theorem transpose_mul_self {A : Mat3 K} (hA : Rotation A) : A.transpose.mul A = Mat3.one := by
  have h1 : A.toM * A.toM.transpose = 1 := by
    rw [← Mat3.toM_transpose, ← Mat3.toM_mul, hA.1, Mat3.toM_one]
  apply Mat3.toM_injective
  rw [Mat3.toM_mul, Mat3.toM_transpose, Mat3.toM_one]
  exact mul_eq_one_comm.mp h1

theorem rotation_transpose {A : Mat3 K} (hA : Rotation A) : Rotation A.transpose := by
  constructor
  · have : A.transpose.transpose = A := rfl
    rw [this]
    exact transpose_mul_self hA
  · rw [← Mat3.toM_det, Mat3.toM_transpose, Matrix.det_transpose, Mat3.toM_det, hA.2]

end MatchEnv

namespace Env

/-- An environment after it joined the set of `t`: its vectors are renumbered by `σ` and turned by `R`. -/
def moved (t : ℕ) (σ : ℕ → ℕ) (R : Mat3 K) (e : Env K) : Env K :=
  { e with
    vecInd := (List.range e.vecs.length).map (fun k => e.vecInd.getD (σ k) 0)
    envInd := t
    rot := R.mul e.rot }

theorem moved_wf (t : ℕ) (σ : ℕ → ℕ) (R : Mat3 K) (e : Env K) (h : e.WF)
    (hσ : ((List.range e.vecs.length).map σ).Perm (List.range e.vecs.length)) : (moved t σ R e).WF := by
  unfold WF moved
  have e1 : (List.range e.vecs.length).map (fun k => e.vecInd.getD (σ k) 0) =
      ((List.range e.vecs.length).map σ).map (fun k => e.vecInd.getD k 0) := by
    rw [List.map_map]; rfl
  have e2 : (List.range e.vecs.length).map (fun k => e.vecInd.getD k 0) = e.vecInd := by
    apply List.ext_getElem
    · simp [h.length]
    · intro i h1 h2
      simp [List.getD_eq_getElem?_getD, h2]
  simp only
  rw [e1]
  refine (hσ.map _).trans ?_
  rw [e2]
  exact h

theorem moved_properD (t : ℕ) (σ : ℕ → ℕ) (R : Mat3 K) (e : Env K)
    (hσ : ∀ k < e.vecs.length, σ k < e.vecs.length) (k : ℕ) (hk : k < e.vecs.length) :
    (moved t σ R e).properD.getD k 0 = R.mulVec (e.properD.getD (σ k) 0) := by
  rw [properD_getD _ k (by exact hk), properD_getD _ _ (hσ k hk)]
  simp only [moved]
  rw [MatchEnv.mulVec_mulVec]
  congr 3
  simp [List.getD_eq_getElem?_getD, hk]

end Env

namespace EnvDJ

/-- The environment of a node. -/
def env (d : EnvDJ K) (i : ℕ) : Env K := (d.s[i]?).getD (Env.new true)

/-- The head of the set of a node. -/
def rep (d : EnvDJ K) (i : ℕ) : ℕ := (d.env i).envInd

theorem getElem?_env (d : EnvDJ K) (i : ℕ) (h : i < d.s.length) : d.s[i]? = some (d.env i) := by
  simp [env, h]

/-- The invariant: every node points directly to its head; the nodes of a set have the same number of
vectors; orders are permutations and orientations are rotations. `vecs` and `ghost` never change. -/
structure Inv (base : ℕ → List (Vec3 K) × Bool) (d : EnvDJ K) : Prop where
  rank : d.s.length ≤ d.rank.length
  lt : ∀ i < d.s.length, d.rep i < d.s.length
  flat : ∀ i < d.s.length, d.rep (d.rep i) = d.rep i
  wf : ∀ i < d.s.length, (d.env i).WF
  rot : ∀ i < d.s.length, Rotation (d.env i).rot
  vecs : ∀ i < d.s.length, (d.env i).vecs = (base i).1
  ghost : ∀ i < d.s.length, (d.env i).ghost = (base i).2
  same : ∀ i < d.s.length, (base (d.rep i)).1.length = (base i).1.length

theorem find_eq {base : ℕ → List (Vec3 K) × Bool} (d : EnvDJ K) (h : Inv base d) (c : ℕ)
    (hc : c < d.s.length) : d.find c = some (d, d.rep c) := by
  have h1 := getElem?_env d c hc
  have h2 := getElem?_env d (d.rep c) (h.lt c hc)
  have hr : (d.env (d.rep c)).envInd = d.rep c := h.flat c hc
  obtain ⟨n, hn⟩ : ∃ n, d.s.length = n + 1 := ⟨d.s.length - 1, by omega⟩
  have hhead : head d.s (d.s.length + 1) c = some (d.rep c) := by
    rw [hn]
    simp only [head, h1, Option.bind_some]
    by_cases hcc : (d.env c).envInd = c
    · rw [if_neg (by simpa using hcc)]
      rw [rep, hcc]
    · rw [if_pos hcc]
      have : (d.env c).envInd = d.rep c := rfl
      rw [this, h2, Option.bind_some, hr, if_neg (by simp)]
  unfold find
  rw [hhead, Option.bind_some]
  by_cases hcc : c = d.rep c
  · have : compress (d.rep c) (d.s.length + 1) d.s c = some d.s := by
      simp only [compress]
      rw [if_neg (by simpa using hcc)]
    rw [this]
    rfl
  · have : compress (d.rep c) (d.s.length + 1) d.s c = some d.s := by
      rw [hn]
      simp only [compress, h1, Option.bind_some]
      rw [if_pos hcc]
      have e1 : (d.env c).envInd = d.rep c := rfl
      rw [e1, if_neg (by simp)]
      congr 1
      have e2 : ({ d.env c with envInd := d.rep c } : Env K) = d.env c := rfl
      rw [e2]
      have := (List.getElem?_eq_some_iff.mp h1)
      obtain ⟨_, h3⟩ := this
      rw [← h3, List.set_getElem_self]
    rw [this]
    rfl

theorem findSet_eq {base : ℕ → List (Vec3 K) × Bool} (d : EnvDJ K) (h : Inv base d) (c : ℕ)
    (hc : c < d.s.length) : d.findSet (d.rep c) =
      some (d, (List.range d.s.length).filter (fun i => decide (d.rep i = d.rep c))) := by
  have key : ∀ (l done : List ℕ), (∀ i ∈ l, i < d.s.length) →
      l.foldlM (findSetStep (d.rep c)) (d, done) =
        some (d, done ++ l.filter (fun i => decide (d.rep i = d.rep c))) := by
    intro l
    induction l with
    | nil => intro done _; simp
    | cons i l ih =>
      intro done hl
      have hi := hl i List.mem_cons_self
      rw [List.foldlM_cons]
      have : findSetStep (d.rep c) (d, done) i =
          some (d, if d.rep i = d.rep c then done ++ [i] else done) := by
        unfold findSetStep
        simp only [getElem?_env d i hi, Option.bind_some]
        have e : (d.env i).envInd = d.rep i := rfl
        rw [e, find_eq d h _ (h.lt i hi), h.flat i hi]
        rfl
      rw [this]
      simp only [Option.bind_eq_bind, Option.bind_some]
      rw [ih _ (fun j hj => hl j (List.mem_cons_of_mem _ hj))]
      by_cases hh : d.rep i = d.rep c
      · simp [hh]
      · simp [hh]
  unfold findSet
  rw [key _ [] (fun i hi => List.mem_range.mp hi), Option.bind_some]
  rw [List.nil_append, if_neg]
  have : c ∈ (List.range d.s.length).filter (fun i => decide (d.rep i = d.rep c)) := by
    simp [hc]
  simp only [List.isEmpty_iff]
  intro h0
  rw [h0] at this
  simp at this

theorem reorder_eq (look : ℕ → Option ℕ) (size : ℕ) (σ : ℕ → ℕ) (old : List ℕ) (hl : old.length = size)
    (hlook : ∀ k < size, look k = some (σ k)) (hσ : ∀ k < size, σ k < size) :
    reorder look size old = some ((List.range size).map (fun k => old.getD (σ k) 0)) := by
  have key : ∀ n, n ≤ size → (List.range n).foldlM (fun v i => (look i).bind fun k => (old[k]?).bind fun x =>
      if i < v.length then some (v.set i x) else none) old =
        some ((List.range n).map (fun k => old.getD (σ k) 0) ++ old.drop n) := by
    intro n
    induction n with
    | zero => intro _; simp
    | succ n ih =>
      intro hn
      rw [List.range_succ, List.foldlM_append, ih (by omega)]
      simp only [Option.bind_eq_bind, Option.bind_some, List.foldlM_cons, List.foldlM_nil]
      rw [hlook n (by omega)]
      have h1 : σ n < old.length := by rw [hl]; exact hσ n (by omega)
      simp only [Option.bind_some, List.getElem?_eq_getElem h1]
      rw [if_pos (by simp; omega)]
      simp only [Option.bind_some, pure]
      congr 1
      have h2 : old.drop n = old[n]'(by omega) :: old.drop (n + 1) := List.drop_eq_getElem_cons (by omega)
      rw [List.set_append_right _ _ (by simp), h2]
      simp [List.getD_eq_getElem?_getD, h1]
      rw [h2, List.set_cons_zero]
  have := key size le_rfl
  unfold reorder
  rw [this, List.drop_eq_nil_of_le (by omega), List.append_nil]

theorem absorb_eq (t : ℕ) (look : ℕ → Option ℕ) (σ : ℕ → ℕ) (R : Mat3 K) (d : EnvDJ K) (node : ℕ)
    (hn : node < d.s.length) (ht : t < d.s.length) (hne : t ≠ node) (hw : (d.env node).WF)
    (hlook : ∀ k < (d.env node).vecs.length, look k = some (σ k))
    (hσ : ∀ k < (d.env node).vecs.length, σ k < (d.env node).vecs.length)
    (hr : d.rep t < d.rank.length) :
    ∃ rk, absorb t look (d.env node).vecs.length R d node =
      some ⟨d.s.set node ((d.env node).moved (d.rep t) σ R), d.rank.set (d.rep t) rk⟩ := by
  refine ⟨d.rank[d.rep t] + 1, ?_⟩
  unfold absorb
  rw [getElem?_env d node hn, Option.bind_some, reorder_eq look _ σ _ hw.length hlook hσ, Option.bind_some,
    getElem?_env d t ht, Option.bind_some]
  simp only
  rw [List.getElem?_set_ne (Ne.symm hne), getElem?_env d t ht, Option.bind_some]
  have : (d.env t).envInd = d.rep t := rfl
  rw [this, List.getElem?_eq_getElem hr]
  rfl

theorem absorbAll (t : ℕ) (look : ℕ → Option ℕ) (σ : ℕ → ℕ) (R : Mat3 K) (n : ℕ)
    (hlook : ∀ k < n, look k = some (σ k)) (hσ : ∀ k < n, σ k < n) :
    ∀ (l : List ℕ) (d : EnvDJ K), l.Nodup → t ∉ l → t < d.s.length → d.rep t < d.rank.length →
      (∀ i ∈ l, i < d.s.length ∧ (d.env i).WF ∧ (d.env i).vecs.length = n) →
      ∃ d', l.foldlM (absorb t look n R) d = some d' ∧ d'.s.length = d.s.length ∧
        d'.rank.length = d.rank.length ∧ (∀ k, k ≠ d.rep t → d'.rank[k]? = d.rank[k]?) ∧
        ∀ i < d.s.length, d'.env i = if i ∈ l then (d.env i).moved (d.rep t) σ R else d.env i := by
  intro l
  induction l with
  | nil => intro d _ _ _ _ _; exact ⟨d, rfl, rfl, rfl, fun _ _ => rfl, fun i _ => by simp⟩
  | cons x l ih =>
    intro d hnd htl ht hr hl
    obtain ⟨hx, hxw, hxn⟩ := hl x List.mem_cons_self
    have htx : t ≠ x := fun h => htl (h ▸ List.mem_cons_self)
    obtain ⟨rk, hab⟩ := absorb_eq t look σ R d x hx ht htx hxw (by rw [hxn]; exact hlook)
      (by rw [hxn]; exact hσ) hr
    rw [hxn] at hab
    set d1 : EnvDJ K := ⟨d.s.set x ((d.env x).moved (d.rep t) σ R), d.rank.set (d.rep t) rk⟩ with hd1
    have henv : ∀ i < d.s.length, d1.env i = if i = x then (d.env i).moved (d.rep t) σ R else d.env i := by
      intro i hi
      by_cases h : i = x
      · subst h
        simp [env, hd1, hx]
      · rw [if_neg h]
        simp [env, hd1, List.getElem?_set_ne (Ne.symm h)]
    have hrep : d1.rep t = d.rep t := by
      unfold rep
      rw [henv t ht, if_neg htx]
    have hlen : d1.s.length = d.s.length := by simp [hd1]
    rw [List.nodup_cons] at hnd
    obtain ⟨d', g1, g2, g3, g4, g5⟩ := ih d1 hnd.2 (fun h => htl (List.mem_cons_of_mem _ h)) (by rw [hlen]; exact ht)
      (by rw [hrep]; simpa [hd1] using hr) (by
        intro i hi
        have hil := hl i (List.mem_cons_of_mem _ hi)
        have hix : i ≠ x := fun h => hnd.1 (h ▸ hi)
        rw [hlen, henv i hil.1, if_neg hix]
        exact hil)
    refine ⟨d', ?_, by rw [g2, hlen], by rw [g3]; simp [hd1], ?_, ?_⟩
    · rw [List.foldlM_cons, hab]
      exact g1
    · intro k hk
      rw [g4 k (by rw [hrep]; exact hk)]
      simp [hd1, List.getElem?_set_ne (Ne.symm hk)]
    · intro i hi
      rw [g5 i (by rw [hlen]; exact hi), henv i hi, hrep]
      by_cases h1 : i = x
      · subst h1
        rw [if_neg hnd.1, if_pos rfl, if_pos List.mem_cons_self]
      · by_cases h2 : i ∈ l
        · rw [if_pos h2, if_neg h1, if_pos (List.mem_cons_of_mem _ h2)]
        · rw [if_neg h2, if_neg h1, if_neg (by simp [h1, h2])]

/-- `d'` is `d` after the set of `src` joined the set of `t`. -/
structure Joined (d d' : EnvDJ K) (t src : ℕ) (σ : ℕ → ℕ) (R : Mat3 K) : Prop where
  slen : d'.s.length = d.s.length
  rlen : d'.rank.length = d.rank.length
  other : ∀ k, k ≠ d.rep t → d'.rank[k]? = d.rank[k]?
  env : ∀ i < d.s.length, d'.env i =
    if d.rep i = d.rep src then (d.env i).moved (d.rep t) σ R else d.env i

theorem join_eq {base : ℕ → List (Vec3 K) × Bool} (d : EnvDJ K) (h : Inv base d) (t src : ℕ)
    (look : ℕ → Option ℕ) (σ : ℕ → ℕ) (R : Mat3 K) (ht : t < d.s.length) (hs : src < d.s.length)
    (hne : d.rep t ≠ d.rep src) (n : ℕ) (hn : (base src).1.length = n)
    (hlook : ∀ k < n, look k = some (σ k)) (hσ : ∀ k < n, σ k < n) :
    ∃ d', ((d.find src).bind fun f => (f.1.findSet f.2).bind fun fs =>
      fs.2.foldlM (absorb t look n R) fs.1) = some d' ∧ Joined d d' t src σ R := by
  rw [find_eq d h src hs, Option.bind_some]
  simp only
  rw [findSet_eq d h src hs, Option.bind_some]
  simp only
  obtain ⟨d', g1, g2, g3, g4, g5⟩ := absorbAll t look σ R n hlook hσ
    ((List.range d.s.length).filter (fun i => decide (d.rep i = d.rep src))) d
    (List.nodup_range.filter _) (by simp [hne]) ht (lt_of_lt_of_le (h.lt t ht) h.rank) (by
      intro i hi
      rw [List.mem_filter, List.mem_range, decide_eq_true_eq] at hi
      refine ⟨hi.1, h.wf i hi.1, ?_⟩
      rw [h.vecs i hi.1, ← h.same i hi.1, hi.2, h.same src hs, hn])
  refine ⟨d', g1, g2, g3, g4, fun i hi => ?_⟩
  rw [g5 i hi]
  simp [hi]

theorem Joined.rep {base : ℕ → List (Vec3 K) × Bool} {d d' : EnvDJ K} {t src : ℕ} {σ : ℕ → ℕ} {R : Mat3 K}
    (_ : Inv base d) (j : Joined d d' t src σ R) (i : ℕ) (hi : i < d.s.length) :
    d'.rep i = if d.rep i = d.rep src then d.rep t else d.rep i := by
  have e : d'.rep i = (d'.env i).envInd := rfl
  rw [e, j.env i hi]
  split_ifs <;> rfl

theorem Joined.inv {base : ℕ → List (Vec3 K) × Bool} {d d' : EnvDJ K} {t src : ℕ} {σ : ℕ → ℕ} {R : Mat3 K}
    (h : Inv base d) (j : Joined d d' t src σ R) (ht : t < d.s.length) (hs : src < d.s.length)
    (hne : d.rep t ≠ d.rep src) (hR : Rotation R) (hl : (base t).1.length = (base src).1.length)
    (hσ : ((List.range (base src).1.length).map σ).Perm (List.range (base src).1.length)) :
    Inv base d' := by
  have hrep := j.rep h
  have hsame : ∀ i < d.s.length, d.rep i = d.rep src → (base i).1.length = (base src).1.length := by
    intro i hi e
    rw [← h.same i hi, e, h.same src hs]
  refine ⟨by rw [j.slen, j.rlen]; exact h.rank, ?_, ?_, ?_, ?_, ?_, ?_, ?_⟩ <;> rw [j.slen] <;> intro i hi
  · rw [hrep i hi]
    split_ifs
    · exact h.lt t ht
    · exact h.lt i hi
  · rw [hrep i hi]
    split_ifs with h1
    · rw [hrep _ (h.lt t ht), h.flat t ht, if_neg hne]
    · rw [hrep _ (h.lt i hi), h.flat i hi, if_neg h1]
  · rw [j.env i hi]
    split_ifs with h1
    · refine Env.moved_wf _ _ _ _ (h.wf i hi) ?_
      rw [h.vecs i hi, hsame i hi h1]
      exact hσ
    · exact h.wf i hi
  · rw [j.env i hi]
    split_ifs with h1
    · exact MatchEnv.rotation_mul hR (h.rot i hi)
    · exact h.rot i hi
  · rw [j.env i hi]
    split_ifs with h1
    · exact h.vecs i hi
    · exact h.vecs i hi
  · rw [j.env i hi]
    split_ifs with h1
    · exact h.ghost i hi
    · exact h.ghost i hi
  · rw [hrep i hi]
    split_ifs with h1
    · rw [h.same t ht, hl, hsame i hi h1]
    · exact h.same i hi

theorem leftAt_bij {n : ℕ} (m : BiMap ℕ ℕ) (hi : BiMap.Inv m) (hb : Bijection n m.pairs) :
    ∃ σ : ℕ → ℕ, (∀ k < n, m.leftAt k = some (σ k) ∧ (k, σ k) ∈ m.pairs) ∧ (∀ k < n, σ k < n) ∧
      ((List.range n).map σ).Perm (List.range n) := by
  refine ⟨fun k => (m.leftAt k).getD 0, ?_⟩
  have h1 : ∀ k < n, m.leftAt k = some ((m.leftAt k).getD 0) ∧ (k, (m.leftAt k).getD 0) ∈ m.pairs := by
    intro k hk
    have : k ∈ m.pairs.map (·.1) := hb.1.mem_iff.mpr (List.mem_range.mpr hk)
    obtain ⟨p, hp, rfl⟩ := List.mem_map.mp this
    have e := (BiMap.leftAt_spec m hi p.1 p.2).mpr hp
    rw [e]
    exact ⟨rfl, hp⟩
  have h2 : ∀ k < n, (m.leftAt k).getD 0 < n := by
    intro k hk
    have := hb.2.mem_iff.mp (List.mem_map.mpr ⟨_, (h1 k hk).2, rfl⟩)
    exact List.mem_range.mp this
  refine ⟨h1, h2, nodup_perm_range ?_ ?_ (by simp)⟩
  · refine List.Nodup.map_on ?_ List.nodup_range
    intro x hx y hy e
    rw [List.mem_range] at hx hy
    have hx' := (h1 x hx).2
    have hy' := (h1 y hy).2
    rw [← e] at hy'
    exact (Prod.mk.inj (List.inj_on_of_nodup_map hi.right hx' hy' rfl)).1
  · intro x hx
    obtain ⟨k, hk, rfl⟩ := List.mem_map.mp hx
    exact h2 k (List.mem_range.mp hk)

theorem rightAt_bij {n : ℕ} (m : BiMap ℕ ℕ) (hi : BiMap.Inv m) (hb : Bijection n m.pairs) :
    ∃ σ : ℕ → ℕ, (∀ k < n, m.rightAt k = some (σ k) ∧ (σ k, k) ∈ m.pairs) ∧ (∀ k < n, σ k < n) ∧
      ((List.range n).map σ).Perm (List.range n) := by
  refine ⟨fun k => (m.rightAt k).getD 0, ?_⟩
  have h1 : ∀ k < n, m.rightAt k = some ((m.rightAt k).getD 0) ∧ ((m.rightAt k).getD 0, k) ∈ m.pairs := by
    intro k hk
    have : k ∈ m.pairs.map (·.2) := hb.2.mem_iff.mpr (List.mem_range.mpr hk)
    obtain ⟨p, hp, rfl⟩ := List.mem_map.mp this
    have e := (BiMap.rightAt_spec m hi p.1 p.2).mpr hp
    rw [e]
    exact ⟨rfl, hp⟩
  have h2 : ∀ k < n, (m.rightAt k).getD 0 < n := by
    intro k hk
    have := hb.1.mem_iff.mp (List.mem_map.mpr ⟨_, (h1 k hk).2, rfl⟩)
    exact List.mem_range.mp this
  refine ⟨h1, h2, nodup_perm_range ?_ ?_ (by simp)⟩
  · refine List.Nodup.map_on ?_ List.nodup_range
    intro x hx y hy e
    rw [List.mem_range] at hx hy
    have hx' := (h1 x hx).2
    have hy' := (h1 y hy).2
    rw [← e] at hy'
    exact (Prod.mk.inj (List.inj_on_of_nodup_map hi.left hx' hy' rfl)).2
  · intro x hx
    obtain ⟨k, hk, rfl⟩ := List.mem_map.mp hx
    exact h2 k (List.mem_range.mp hk)

/-- The vectors of two nodes agree place by place. -/
def Aligned (thrSq : K) (d : EnvDJ K) (i j : ℕ) : Prop :=
  d.rep i = d.rep j ∧ (d.env i).properD.length = (d.env j).properD.length ∧
    ∀ k < (d.env i).properD.length,
      sqDistance ((d.env i).properD.getD k 0) ((d.env j).properD.getD k 0) < thrSq

/-- What a merge does. -/
structure Merged (base : ℕ → List (Vec3 K) × Bool) (thrSq : K) (rot : Mat3 K) (d d' : EnvDJ K) (a b : ℕ) :
    Prop where
  inv : Inv base d'
  slen : d'.s.length = d.s.length
  rlen : d'.rank.length = d.rank.length
  rep : ∀ i < d.s.length, ∀ j < d.s.length, (d'.rep i = d'.rep j ↔ d.rep i = d.rep j ∨
    (d.rep i = d.rep a ∧ d.rep j = d.rep b) ∨ (d.rep i = d.rep b ∧ d.rep j = d.rep a))
  aligned : ∀ i < d.s.length, ∀ j < d.s.length, Aligned thrSq d i j → Aligned thrSq d' i j
  pair : Aligned thrSq d' a b
  one : rot = Mat3.one → (∀ i < d.s.length, (d.env i).rot = Mat3.one) →
    ∀ i < d.s.length, (d'.env i).rot = Mat3.one

theorem Joined.merged {base : ℕ → List (Vec3 K) × Bool} {d d' : EnvDJ K} {t src : ℕ} {σ : ℕ → ℕ} {R : Mat3 K}
    (thrSq : K) (h : Inv base d) (j : Joined d d' t src σ R) (ht : t < d.s.length) (hs : src < d.s.length)
    (hne : d.rep t ≠ d.rep src) (hR : Rotation R) (hl : (base t).1.length = (base src).1.length)
    (hlt : ∀ k < (base src).1.length, σ k < (base src).1.length)
    (hσ : ((List.range (base src).1.length).map σ).Perm (List.range (base src).1.length))
    (hc : ∀ k < (base src).1.length, sqDistance ((d.env t).properD.getD k 0)
      (R.mulVec ((d.env src).properD.getD (σ k) 0)) < thrSq) (rot : Mat3 K)
    (hro : rot = Mat3.one → R = Mat3.one) : Merged base thrSq rot d d' t src := by
  have hrep := j.rep h
  have hi' := j.inv h ht hs hne hR hl hσ
  have hlen : ∀ i < d.s.length, (d.env i).properD.length = (base i).1.length := by
    intro i hi
    rw [Env.properD_length, h.vecs i hi]
  have hlen' : ∀ i < d.s.length, (d'.env i).properD.length = (base i).1.length := by
    intro i hi
    rw [Env.properD_length, hi'.vecs i (by rw [j.slen]; exact hi)]
  have hsame : ∀ i < d.s.length, d.rep i = d.rep src → (base i).1.length = (base src).1.length := by
    intro i hi e
    rw [← h.same i hi, e, h.same src hs]
  have hmoved : ∀ i < d.s.length, d.rep i = d.rep src → ∀ k < (base i).1.length,
      (d'.env i).properD.getD k 0 = R.mulVec ((d.env i).properD.getD (σ k) 0) := by
    intro i hi e k hk
    rw [j.env i hi, if_pos e]
    apply Env.moved_properD
    · rw [h.vecs i hi, hsame i hi e]
      exact hlt
    · rw [h.vecs i hi]
      exact hk
  have hstay : ∀ i < d.s.length, d.rep i ≠ d.rep src → d'.env i = d.env i := by
    intro i hi e
    rw [j.env i hi, if_neg e]
  refine ⟨hi', j.slen, j.rlen, ?_, ?_, ?_, ?_⟩
  · intro i hi k hk
    rw [hrep i hi, hrep k hk]
    by_cases h1 : d.rep i = d.rep src <;> by_cases h2 : d.rep k = d.rep src
    · simp [h1, h2]
    · simp only [h1, if_true, if_neg h2]
      constructor
      · intro e; exact Or.inr (Or.inr ⟨trivial, e.symm⟩)
      · rintro (e | ⟨e, _⟩ | ⟨_, e⟩)
        · exact absurd e.symm h2
        · exact absurd e.symm hne
        · exact e.symm
    · simp only [h2, if_true, if_neg h1]
      constructor
      · intro e; exact Or.inr (Or.inl ⟨e, trivial⟩)
      · rintro (e | ⟨e, _⟩ | ⟨e, _⟩)
        · exact absurd e h1
        · exact e
        · exact absurd e h1
    · simp [h1, h2]
  · rintro i hi k hk ⟨e1, e2, e3⟩
    have hr : d'.rep i = d'.rep k := by rw [hrep i hi, hrep k hk, e1]
    refine ⟨hr, by rw [hlen' i hi, hlen' k hk, ← hlen i hi, ← hlen k hk, e2], ?_⟩
    intro q hq
    rw [hlen' i hi] at hq
    have hq2 : q < (base k).1.length := by rw [← hlen k hk, ← e2, hlen i hi]; exact hq
    by_cases h1 : d.rep i = d.rep src
    · rw [hmoved i hi h1 q hq, hmoved k hk (e1 ▸ h1) q hq2, MatchEnv.sqDistance_rot R hR]
      apply e3
      rw [hlen i hi, hsame i hi h1]
      rw [hsame i hi h1] at hq
      exact hlt q hq
    · rw [hstay i hi h1, hstay k hk (e1 ▸ h1)]
      exact e3 q (by rw [hlen i hi]; exact hq)
  · refine ⟨by rw [hrep t ht, hrep src hs, if_neg hne, if_pos rfl], by rw [hlen' t ht, hlen' src hs, hl], ?_⟩
    intro k hk
    rw [hlen' t ht, hl] at hk
    rw [hstay t ht hne, hmoved src hs rfl k hk]
    exact hc k hk
  · intro hr hall i hi
    rw [j.env i hi]
    split_ifs
    · simp only [Env.moved]
      rw [hall i hi, hro hr, MatchEnv.one_mul_one]
    · exact hall i hi

theorem Merged.symm {base : ℕ → List (Vec3 K) × Bool} {thrSq : K} {rot : Mat3 K} {d d' : EnvDJ K} {a b : ℕ}
    (h : Merged base thrSq rot d d' a b) : Merged base thrSq rot d d' b a := by
  refine ⟨h.inv, h.slen, h.rlen, fun i hi j hj => ?_, h.aligned, ?_, h.one⟩
  · rw [h.rep i hi j hj]
    tauto
  · obtain ⟨h1, h2, h3⟩ := h.pair
    refine ⟨h1.symm, h2.symm, fun k hk => ?_⟩
    have := h3 k (by rw [h2]; exact hk)
    have e : ∀ x y : Vec3 K, sqDistance x y = sqDistance y x := fun x y => by
      simp only [sqDistance]; ring
    rw [e]
    exact this

/-- A merge of two different sets whose nodes were found similar. -/
theorem merge_spec {base : ℕ → List (Vec3 K) × Bool} (thrSq : K) (d : EnvDJ K) (h : Inv base d) (a b : ℕ)
    (ha : a < d.s.length) (hb : b < d.s.length) (hne : d.rep a ≠ d.rep b) (rot : Mat3 K) (m : BiMap ℕ ℕ)
    (ho : MatchEnv.Outcome thrSq (d.env a).properD (d.env b).properD rot m) (hs : m.size ≠ 0) :
    ∃ d', d.merge a b m rot = some d' ∧ Merged base thrSq rot d d' a b := by
  obtain h0 | ⟨hl, hsz, hbij, hc⟩ := ho.full
  · exact absurd h0 hs
  rw [Env.properD_length, Env.properD_length, h.vecs a ha, h.vecs b hb] at hl
  rw [Env.properD_length, h.vecs a ha] at hsz hbij
  have hra : d.rep a < d.rank.length := lt_of_lt_of_le (h.lt a ha) h.rank
  have hrb : d.rep b < d.rank.length := lt_of_lt_of_le (h.lt b hb) h.rank
  have ea : (d.env a).envInd = d.rep a := rfl
  have eb : (d.env b).envInd = d.rep b := rfl
  unfold merge
  rw [getElem?_env d a ha, getElem?_env d b hb]
  simp only [Option.bind_some, ea, eb]
  rw [List.getElem?_eq_getElem hra, List.getElem?_eq_getElem hrb]
  simp only [Option.bind_some]
  -- `b` joins `a`
  have hleft : ∃ d', ((d.find b).bind fun f => (f.1.findSet f.2).bind fun fs =>
      fs.2.foldlM (absorb a m.leftAt m.size rot) fs.1) = some d' ∧ Merged base thrSq rot d d' a b := by
    obtain ⟨σ, s1, s2, s3⟩ := leftAt_bij m ho.inv hbij
    rw [hl] at s1 s2 s3
    rw [hsz, hl]
    obtain ⟨d', g1, g2⟩ := join_eq d h a b m.leftAt σ rot ha hb hne _ rfl (fun k hk => (s1 k hk).1) s2
    refine ⟨d', g1, g2.merged thrSq h ha hb hne ho.rotation hl s2 s3 ?_ rot id⟩
    intro k hk
    exact hc _ (s1 k hk).2
  have hright : ∃ d', ((d.find a).bind fun f => (f.1.findSet f.2).bind fun fs =>
      fs.2.foldlM (absorb b m.rightAt m.size rot.transpose) fs.1) = some d' ∧ Merged base thrSq rot d d' a b := by
    obtain ⟨σ, s1, s2, s3⟩ := rightAt_bij m ho.inv hbij
    rw [hsz]
    obtain ⟨d', g1, g2⟩ := join_eq d h b a m.rightAt σ rot.transpose hb ha hne.symm _ rfl
      (fun k hk => (s1 k hk).1) s2
    refine ⟨d', g1, (g2.merged thrSq h hb ha hne.symm (MatchEnv.rotation_transpose ho.rotation) hl.symm s2 s3 ?_
      rot (fun h => by rw [h, MatchEnv.one_transpose])).symm⟩
    intro k hk
    have := hc _ (s1 k hk).2
    rw [← MatchEnv.sqDistance_rot _ (MatchEnv.rotation_transpose ho.rotation), ← MatchEnv.mulVec_mulVec,
      MatchEnv.transpose_mul_self ho.rotation, MatchEnv.one_mulVec] at this
    have e : ∀ x y : Vec3 K, sqDistance x y = sqDistance y x := fun x y => by
      simp only [sqDistance]; ring
    rw [e]
    exact this
  split_ifs
  · exact hleft
  · exact hleft
  · exact hright

end EnvDJ
end Freud
