import Verif.Lemmas.Registration
import Verif.Props.BiMap
import Mathlib.Algebra.Order.Field.Rat
import Mathlib.Data.Rat.Floor
import Mathlib.Algebra.BigOperators.Group.List.Basic
import Mathlib.Data.List.GetD

/-!
# C52: registration tries every tuple of points and returns a bijection
-/

namespace Freud
set_option linter.unusedSectionVars false
variable {K : Type*} [Field K] [LinearOrder K] [IsStrictOrderedRing K]

/-- The pairs `(i, r)` match every reference point with one point and every point with one reference
point. -/
def Spec.Bijection (n : ℕ) (pairs : List (ℕ × ℕ)) : Prop :=
  (pairs.map (·.1)).Perm (List.range n) ∧ (pairs.map (·.2)).Perm (List.range n)

/-- Squared distance of two vectors. -/
def Spec.sqDistance (a b : Vec3 K) : K :=
  (a.x - b.x) * (a.x - b.x) + (a.y - b.y) * (a.y - b.y) + (a.z - b.z) * (a.z - b.z)

/-- Mean squared distance of the matched points. -/
def Spec.meanSqDistance (ref points : List (Vec3 K)) (pairs : List (ℕ × ℕ)) : K :=
  ((pairs.map (fun x => Spec.sqDistance (ref.getD x.1 0) (points.getD x.2 0))).sum) / points.length

/-- The tuples of different point indices that can be laid over the chosen reference points. -/
def Spec.Tuple (N : ℕ) (t : List ℕ) : Prop :=
  t.length = min N 3 ∧ t.Nodup ∧ ∀ x ∈ t, x < N

open Spec

theorem dist2_eq (a b : Vec3 K) : Reg.dist2 a b = sqDistance a b := rfl

theorem numPts_eq (N : ℕ) (hN : 0 < N) : Reg.numPts N = min N 3 := by
  unfold Reg.numPts
  split_ifs <;> omega

/-- **C52** (enumeration): the nested loops over combinations and permutations end, and they lay every
ordered tuple of different points over the reference points exactly once. -/
theorem C52_tries_every_tuple (N : ℕ) (hN : 0 < N) :
    ∃ l, Reg.tuples N = some l ∧ l.Nodup ∧ ∀ t, t ∈ l ↔ Tuple N t := by
  obtain ⟨l, h1, h2, h3⟩ := Reg.tuples_spec N hN
  exact ⟨l, h1, h2, fun t => by rw [h3 t, numPts_eq N hN]; rfl⟩

/-- With four points there are 24 ordered triples. -/
example : (Reg.tuples 4).map List.length = some 24 := by decide +kernel

namespace Reg

/-- The invariant of the loop of `AlignedRMSDTree` after the points `0 … r - 1`. -/
structure TreeInv (ref points : List (Vec3 K)) (r : ℕ) (st : TreeState K) : Prop where
  inv : BiMap.Inv st.map
  snd : st.map.pairs.map (·.2) = List.range r
  fst : (st.map.pairs.map (·.1) ++ st.unused).Perm (List.range ref.length)
  sum : st.sum = (st.map.pairs.map (fun x => sqDistance (ref.getD x.1 0) (points.getD x.2 0))).sum
  greedy : ∀ x ∈ st.map.pairs, ∀ i, (i ∈ st.unused ∨ ∃ y ∈ st.map.pairs, y.1 = i ∧ x.2 ≤ y.2) →
    sqDistance (ref.getD x.1 0) (points.getD x.2 0) ≤ sqDistance (ref.getD i 0) (points.getD x.2 0)

theorem mapM_some_of {A B : Type*} (l : List A) (f : A → Option B) (g : A → B)
    (h : ∀ a ∈ l, f a = some (g a)) : l.mapM f = some (l.map g) := by
  induction l with
  | nil => rfl
  | cons a l ih =>
    rw [List.mapM_cons, h a List.mem_cons_self, ih (fun b hb => h b (List.mem_cons_of_mem _ hb))]
    rfl

theorem treeStep_spec (sort : List (ℕ × K) → List (ℕ × K)) (hs : SortOK sort)
    (ref points : List (Vec3 K)) (r : ℕ) (hr : r < points.length) (hlen : r < ref.length)
    (st : TreeState K) (h : TreeInv ref points r st) :
    ∃ st', treeStep sort ref st (points.getD r 0, r) = some st' ∧ TreeInv ref points (r + 1) st' := by
  have hmem : ∀ i ∈ st.unused, i < ref.length := by
    intro i hi
    have := h.fst.mem_iff.mp (List.mem_append_right _ hi)
    simpa using this
  have hds : st.unused.mapM (fun i => (ref[i]?).map (fun p => (i, dist2 p (points.getD r 0)))) =
      some (st.unused.map (fun i => (i, sqDistance (ref.getD i 0) (points.getD r 0)))) := by
    apply mapM_some_of
    intro i hi
    have : ref.getD i 0 = ref[i]'(hmem i hi) := by
      rw [List.getD_eq_getElem?_getD, List.getElem?_eq_getElem (hmem i hi), Option.getD_some]
    rw [List.getElem?_eq_getElem (hmem i hi), Option.map_some, dist2_eq, this]
  have hlenp : st.map.pairs.length = r := by
    have := congrArg List.length h.snd
    simpa using this
  have hlenu : st.unused.length = ref.length - r := by
    have := h.fst.length_eq
    simp only [List.length_append, List.length_map, List.length_range, hlenp] at this
    omega
  set ds := st.unused.map (fun i => (i, sqDistance (ref.getD i 0) (points.getD r 0))) with hdsdef
  obtain ⟨hperm, hsorted⟩ := hs ds
  have hne : sort ds ≠ [] := by
    intro he
    have := hperm.length_eq
    rw [he] at this
    simp [hdsdef, hlenu] at this
    omega
  obtain ⟨best, rest, hbr⟩ := List.exists_cons_of_ne_nil hne
  have hbm : best ∈ ds := hperm.mem_iff.mp (by rw [hbr]; exact List.mem_cons_self)
  obtain ⟨i0, hi0, hb⟩ := List.mem_map.mp hbm
  have hmin : ∀ i ∈ st.unused, sqDistance (ref.getD i0 0) (points.getD r 0) ≤
      sqDistance (ref.getD i 0) (points.getD r 0) := by
    intro i hi
    have hx : (i, sqDistance (ref.getD i 0) (points.getD r 0)) ∈ sort ds :=
      hperm.mem_iff.mpr (List.mem_map.mpr ⟨i, hi, rfl⟩)
    rw [hbr] at hx hsorted
    rw [List.pairwise_cons] at hsorted
    rcases List.mem_cons.mp hx with hx | hx
    · rw [← hb] at hx
      have := (Prod.mk.inj hx).1
      rw [this]
    · have := hsorted.1 _ hx
      rw [← hb] at this
      exact this
  subst hb
  have hnd : (st.map.pairs.map (·.1) ++ st.unused).Nodup := h.fst.nodup_iff.mpr List.nodup_range
  have hnd' := List.nodup_append.mp hnd
  obtain ⟨e1, e2, e3⟩ := BiMap.emplace_spec st.map h.inv i0 r
  have hnew : (st.map.emplace i0 r).2 = true := by
    rw [e2]
    refine ⟨fun b' hb' => ?_, fun a' ha' => ?_⟩
    · exact hnd'.2.2 i0 (List.mem_map.mpr ⟨_, hb', rfl⟩) i0 hi0 rfl
    · have : r ∈ st.map.pairs.map (·.2) := List.mem_map.mpr ⟨_, ha', rfl⟩
      rw [h.snd] at this
      simp at this
  rw [hnew, if_pos rfl] at e3
  refine ⟨⟨st.unused.erase i0, (st.map.emplace i0 r).1,
    st.sum + sqDistance (ref.getD i0 0) (points.getD r 0)⟩, ?_, ?_⟩
  · simp only [treeStep, hds, Option.bind_some]
    rw [hbr]
    rfl
  · refine ⟨e1, ?_, ?_, ?_, ?_⟩
    · rw [e3, List.map_append, h.snd, List.range_succ]; rfl
    · rw [e3, List.map_append]
      refine List.Perm.trans ?_ h.fst
      rw [List.append_assoc]
      refine List.Perm.append_left _ ?_
      simpa using (List.perm_cons_erase hi0).symm
    · rw [e3, List.map_append, List.sum_append, ← h.sum]
      simp
    · rw [e3]
      intro x hx i hi
      rcases List.mem_append.mp hx with hx | hx
      · apply h.greedy x hx i
        rcases hi with hi | ⟨y, hy, hyi, hle⟩
        · exact Or.inl (List.mem_of_mem_erase hi)
        · rcases List.mem_append.mp hy with hy | hy
          · exact Or.inr ⟨y, hy, hyi, hle⟩
          · rw [List.mem_singleton] at hy
            subst hy
            exact Or.inl (hyi ▸ hi0)
      · rw [List.mem_singleton] at hx
        subst hx
        rcases hi with hi | ⟨y, hy, hyi, hle⟩
        · exact hmin i (List.mem_of_mem_erase hi)
        · rcases List.mem_append.mp hy with hy | hy
          · exfalso
            have : y.2 ∈ st.map.pairs.map (·.2) := List.mem_map.mpr ⟨_, hy, rfl⟩
            rw [h.snd, List.mem_range] at this
            simp only at hle
            omega
          · rw [List.mem_singleton] at hy
            subst hy
            subst hyi
            exact le_refl _

theorem tree_spec (sort : List (ℕ × K) → List (ℕ × K)) (hs : SortOK sort)
    (ref points : List (Vec3 K)) (hl : points.length ≤ ref.length) :
    ∃ st, points.zipIdx.foldlM (treeStep sort ref) ⟨List.range ref.length, BiMap.new, 0⟩ = some st ∧
      TreeInv ref points points.length st := by
  have key : ∀ (l : List (Vec3 K)) (r : ℕ) (st : TreeState K), points.drop r = l → r ≤ points.length →
      TreeInv ref points r st →
      ∃ st', (l.zipIdx r).foldlM (treeStep sort ref) st = some st' ∧
        TreeInv ref points points.length st' := by
    intro l
    induction l with
    | nil =>
      intro r st hd hr h
      have : points.length ≤ r := List.drop_eq_nil_iff.mp hd
      have : r = points.length := by omega
      subst this
      exact ⟨st, rfl, h⟩
    | cons p l ih =>
      intro r st hd hr h
      have hlt : r < points.length := by
        by_contra hc
        rw [List.drop_eq_nil_of_le (by omega)] at hd
        exact absurd hd (by simp)
      have hp : p = points.getD r 0 ∧ points.drop (r + 1) = l := by
        rw [List.drop_eq_getElem_cons hlt] at hd
        obtain ⟨h1, h2⟩ := List.cons_eq_cons.mp hd
        refine ⟨?_, h2⟩
        rw [List.getD_eq_getElem?_getD, List.getElem?_eq_getElem hlt, Option.getD_some, h1]
      obtain ⟨st1, g1, g2⟩ := treeStep_spec sort hs ref points r hlt (by omega) st h
      obtain ⟨st2, g3, g4⟩ := ih (r + 1) st1 hp.2 (by omega) g2
      refine ⟨st2, ?_, g4⟩
      rw [List.zipIdx_cons, List.foldlM_cons, hp.1, g1]
      exact g3
  refine key points 0 _ (by simp) (by omega) ⟨BiMap.inv_new, by simp [BiMap.new, BiMap.pairs], ?_, ?_, ?_⟩
  · simp [BiMap.new, BiMap.pairs]
  · simp [BiMap.new, BiMap.pairs]
  · intro x hx
    simp [BiMap.new, BiMap.pairs] at hx

/-- What the rest of the development uses about `AlignedRMSDTree`. -/
theorem aligned_spec (sqrt : K → K) (sort : List (ℕ × K) → List (ℕ × K)) (hs : SortOK sort)
    (ref points : List (Vec3 K)) (hl : points.length = ref.length) :
    ∃ rmsd m, alignedRMSDTree sqrt sort ref points = some (rmsd, m) ∧ BiMap.Inv m ∧
      Bijection points.length m.pairs ∧ rmsd = sqrt (meanSqDistance ref points m.pairs) ∧
      ∀ x ∈ m.pairs, ∀ y ∈ m.pairs, x.2 ≤ y.2 →
        sqDistance (ref.getD x.1 0) (points.getD x.2 0) ≤ sqDistance (ref.getD y.1 0) (points.getD x.2 0) := by
  obtain ⟨st, h1, h2⟩ := tree_spec sort hs ref points hl.le
  refine ⟨sqrt (st.sum / points.length), st.map, by simp [alignedRMSDTree, h1], h2.inv, ⟨?_, ?_⟩, ?_, ?_⟩
  · have hlen := h2.fst.length_eq
    have hp := congrArg List.length h2.snd
    simp only [List.length_append, List.length_map, List.length_range] at hlen hp
    have : st.unused = [] := List.length_eq_zero_iff.mp (by omega)
    have h3 := h2.fst
    rw [this, List.append_nil] at h3
    rw [hl]; exact h3
  · rw [h2.snd]
  · rw [h2.sum]; rfl
  · intro x hx y hy hle
    exact h2.greedy x hx y.1 (Or.inr ⟨y, hy, rfl, hle⟩)

end Reg

/-- **C52** (matching): for equally many points and reference points (at least one: for none the
reported value is 0/0) the matching is a bijection, the reported value is the root of the mean squared distance of the matched points, and every point gets the
nearest reference point that no earlier point took. -/
theorem C52_matching_is_bijection (sqrt : K → K) (sort : List (ℕ × K) → List (ℕ × K)) (hs : SortOK sort)
    (ref points : List (Vec3 K)) (hl : points.length = ref.length) (_ : 0 < points.length) :
    ∃ rmsd m, Reg.alignedRMSDTree sqrt sort ref points = some (rmsd, m) ∧
      Bijection points.length m.pairs ∧ rmsd = sqrt (meanSqDistance ref points m.pairs) ∧
      ∀ x ∈ m.pairs, ∀ y ∈ m.pairs, x.2 ≤ y.2 →
        sqDistance (ref.getD x.1 0) (points.getD x.2 0) ≤ sqDistance (ref.getD y.1 0) (points.getD x.2 0) := by
  obtain ⟨rmsd, m, h1, -, h2⟩ := Reg.aligned_spec sqrt sort hs ref points hl
  exact ⟨rmsd, m, h1, h2⟩

/-- A sort that satisfies the assumption. -/
def exRefSort : List (ℕ × ℚ) → List (ℕ × ℚ) := fun l => l.insertionSort (fun a b => a.2 ≤ b.2)

theorem exRefSort_ok : SortOK exRefSort := by
  intro l
  haveI : Std.Total (fun a b : ℕ × ℚ => a.2 ≤ b.2) := ⟨fun a b => le_total _ _⟩
  haveI : IsTrans (ℕ × ℚ) (fun a b => a.2 ≤ b.2) := ⟨fun a b c => le_trans⟩
  exact ⟨List.perm_insertionSort _ l, List.pairwise_insertionSort _ l⟩

/-- The matching does not minimise the root mean square distance: here it gives (16 + 400)/2 while
exchanging the two partners gives (36 + 100)/2. -/
theorem C52_not_minimal_counterexample :
    let ref : List (Vec3 ℚ) := [⟨0, 0, 0⟩, ⟨10, 0, 0⟩]
    let pts : List (Vec3 ℚ) := [⟨4, 0, 0⟩, ⟨-10, 0, 0⟩]
    (Reg.alignedRMSDTree id exRefSort ref pts).map (fun r => (r.1, r.2.pairs)) =
      some (208, [(0, 0), (1, 1)]) ∧
    meanSqDistance ref pts [(1, 0), (0, 1)] = 68 := by
  decide +kernel

namespace Reg

/-- What one tuple contributes. -/
def Cand (kabsch : List (Vec3 K) → List (Vec3 K) → Mat3 K) (sqrt : K → K)
    (sort : List (ℕ × K) → List (ℕ × K)) (ref points p : List (Vec3 K)) (t : List ℕ)
    (c : K) (rot : Mat3 K) (m : BiMap ℕ ℕ) : Prop :=
  rot = kabsch (t.map (fun i => points.getD i 0)) p ∧
  alignedRMSDTree sqrt sort ref (points.map rot.mulVec) = some (c, m)

theorem fitLoop_spec (kabsch : List (Vec3 K) → List (Vec3 K) → Mat3 K) (sqrt : K → K)
    (hsq : ∀ x, 0 ≤ sqrt x) (sort : List (ℕ × K) → List (ℕ × K)) (hs : SortOK sort) (tol : K)
    (ref points p : List (Vec3 K)) (hl : points.length = ref.length) (all : List (List ℕ))
    (hall : ∀ t ∈ all, ∀ i ∈ t, i < points.length) :
    ∀ (ts : List (List ℕ)) (st : FitState K), (∀ t ∈ ts, t ∈ all) →
      (st.rmsdMin = -1 ∨ (st.rmsdMin = st.rmsd ∧ 0 ≤ st.rmsd ∧
        ∃ t ∈ all, Cand kabsch sqrt sort ref points p t st.rmsd st.rotation st.map)) →
      ∃ st', fitLoop kabsch sqrt sort tol ref points p ts st = some st' ∧
        ((ts = [] ∧ st' = st) ∨ ∃ t ∈ all, Cand kabsch sqrt sort ref points p t st'.rmsd st'.rotation st'.map) ∧
        (0 ≤ st.rmsdMin → st'.rmsd ≤ st.rmsd) ∧
        (st'.rmsd < tol ∨ ∀ t ∈ ts, ∀ c rot m, Cand kabsch sqrt sort ref points p t c rot m → st'.rmsd ≤ c) := by
  intro ts
  induction ts with
  | nil => intro st _ _; exact ⟨st, rfl, Or.inl ⟨rfl, rfl⟩, fun _ => le_refl _, Or.inr (by simp)⟩
  | cons t ts ih =>
    intro st hts hst
    have htall := hts t List.mem_cons_self
    have hq : t.mapM (fun i => points[i]?) = some (t.map (fun i => points.getD i 0)) := by
      apply mapM_some_of
      intro i hi
      have := hall t htall i hi
      rw [List.getD_eq_getElem?_getD, List.getElem?_eq_getElem this, Option.getD_some]
    set rot := kabsch (t.map (fun i => points.getD i 0)) p with hrot
    obtain ⟨c, m, hc, -, -, hcv, -⟩ := aligned_spec sqrt sort hs ref (points.map rot.mulVec)
      (by simpa using hl)
    have hc0 : 0 ≤ c := by rw [hcv]; exact hsq _
    have hcand : Cand kabsch sqrt sort ref points p t c rot m := ⟨hrot, hc⟩
    have huniq : ∀ c' rot' m', Cand kabsch sqrt sort ref points p t c' rot' m' → c' = c := by
      rintro c' rot' m' ⟨rfl, h2⟩
      rw [hc] at h2
      exact ((Prod.mk.inj (Option.some.inj h2)).1).symm
    have hbody : fitBody kabsch sqrt sort tol ref points p t st =
        some (if c < st.rmsdMin ∨ st.rmsdMin < 0 then (⟨c, c, rot, m⟩, decide (c < tol)) else (st, false)) := by
      simp only [fitBody, hq, Option.bind_some]
      rw [← hrot, hc]
      rfl
    rw [fitLoop, hbody]
    simp only [Option.bind_some]
    by_cases hcond : c < st.rmsdMin ∨ st.rmsdMin < 0
    · simp only [if_pos hcond]
      have hle : 0 ≤ st.rmsdMin → c ≤ st.rmsd := by
        intro h0
        rcases hst with h | ⟨h, -⟩
        · rw [h] at h0; linarith
        · rcases hcond with h' | h'
          · linarith
          · linarith
      by_cases htol : c < tol
      · simp only [htol, decide_true, if_true]
        exact ⟨_, rfl, Or.inr ⟨t, htall, hcand⟩, hle, Or.inl htol⟩
      · simp only [htol, decide_false, Bool.false_eq_true, if_false]
        obtain ⟨st', g1, g2, g3, g4⟩ := ih ⟨c, c, rot, m⟩ (fun u hu => hts u (List.mem_cons_of_mem _ hu))
          (Or.inr ⟨rfl, hc0, t, htall, hcand⟩)
        have g3' := g3 hc0
        refine ⟨st', g1, Or.inr ?_, fun h => le_trans g3' (hle h), ?_⟩
        · rcases g2 with ⟨-, rfl⟩ | g2
          · exact ⟨t, htall, hcand⟩
          · exact g2
        · rcases g4 with g4 | g4
          · exact Or.inl g4
          · right
            intro u hu c' rot' m' hu'
            rcases List.mem_cons.mp hu with rfl | hu
            · rw [huniq c' rot' m' hu']; exact g3'
            · exact g4 u hu c' rot' m' hu'
    · simp only [if_neg hcond, Bool.false_eq_true, if_false]
      push Not at hcond
      have hst' : st.rmsdMin = st.rmsd ∧ 0 ≤ st.rmsd ∧
          ∃ t ∈ all, Cand kabsch sqrt sort ref points p t st.rmsd st.rotation st.map := by
        rcases hst with h | h
        · rw [h] at hcond; linarith [hcond.2]
        · exact h
      obtain ⟨st', g1, g2, g3, g4⟩ := ih st (fun u hu => hts u (List.mem_cons_of_mem _ hu)) (Or.inr hst')
      have g3' := g3 hcond.2
      refine ⟨st', g1, Or.inr ?_, g3, ?_⟩
      · rcases g2 with ⟨-, rfl⟩ | g2
        · exact hst'.2.2
        · exact g2
      · rcases g4 with g4 | g4
        · exact Or.inl g4
        · right
          intro u hu c' rot' m' hu'
          rcases List.mem_cons.mp hu with rfl | hu
          · rw [huniq c' rot' m' hu']
            rw [hst'.1] at hcond
            exact le_trans g3' hcond.1
          · exact g4 u hu c' rot' m' hu'

/-- What the rest of the development uses about `Fit`. -/
theorem fit_spec (kabsch : List (Vec3 K) → List (Vec3 K) → Mat3 K) (sqrt : K → K)
    (hsq : ∀ x, 0 ≤ sqrt x) (sort : List (ℕ × K) → List (ℕ × K)) (hs : SortOK sort) (tol : K)
    (pick : List ℕ) (ref points : List (Vec3 K)) (hl : points.length = ref.length)
    (h0 : 0 < points.length) (hp : PickOK points.length pick) :
    let chosen := pick.map (fun i => ref.getD i 0)
    let rotated := fun rot : Mat3 K => points.map rot.mulVec
    ∃ st, fit kabsch sqrt sort tol pick ref points = some st ∧
      BiMap.Inv st.map ∧ Bijection points.length st.map.pairs ∧
      st.rmsd = sqrt (meanSqDistance ref (rotated st.rotation) st.map.pairs) ∧
      (∃ t, Tuple points.length t ∧ st.rotation = kabsch (t.map (fun i => points.getD i 0)) chosen) ∧
      (st.rmsd < tol ∨ ∀ t, Tuple points.length t →
        ∀ c m, alignedRMSDTree sqrt sort ref
          (rotated (kabsch (t.map (fun i => points.getD i 0)) chosen)) = some (c, m) → st.rmsd ≤ c) := by
  intro chosen rotated
  obtain ⟨ts, hts, -, hmem⟩ := C52_tries_every_tuple points.length h0
  have hpick : pick.mapM (fun i => ref[i]?) = some chosen := by
    apply Reg.mapM_some_of
    intro i hi
    have : i < ref.length := by rw [← hl]; exact hp.2.2 i hi
    rw [List.getD_eq_getElem?_getD, List.getElem?_eq_getElem this, Option.getD_some]
  obtain ⟨st, g1, g2, -, g4⟩ := Reg.fitLoop_spec kabsch sqrt hsq sort hs tol ref points chosen hl ts
    (fun t ht => ((hmem t).mp ht).2.2) ts ⟨-1, 0, Mat3.one, BiMap.new⟩ (fun t h => h) (Or.inl rfl)
  have hne : ts ≠ [] := by
    intro h
    have : List.range (min points.length 3) ∈ ts := by
      rw [hmem]
      refine ⟨by simp, List.nodup_range, fun x hx => ?_⟩
      rw [List.mem_range] at hx
      omega
    rw [h] at this
    simp at this
  obtain ⟨t, ht, hrot, hal⟩ : ∃ t ∈ ts, Reg.Cand kabsch sqrt sort ref points chosen t st.rmsd
      st.rotation st.map := by
    rcases g2 with ⟨h, -⟩ | h
    · exact absurd h hne
    · exact h
  have hal' : Reg.alignedRMSDTree sqrt sort ref (rotated st.rotation) = some (st.rmsd, st.map) := hal
  obtain ⟨c, m, h1, hinv, h2, h3, -⟩ := Reg.aligned_spec sqrt sort hs ref (rotated st.rotation)
    (by simpa [rotated] using hl)
  rw [hal'] at h1
  obtain ⟨rfl, rfl⟩ := Prod.mk.inj (Option.some.inj h1)
  refine ⟨st, ?_, hinv, by simpa [rotated] using h2, h3, ⟨t, (hmem t).mp ht, hrot⟩, ?_⟩
  · unfold Reg.fit
    rw [if_neg (by simpa using hl), hpick, Option.bind_some, hts, Option.bind_some]
    exact g1
  · rcases g4 with g4 | g4
    · exact Or.inl g4
    · right
      intro t ht c m hc
      exact g4 t ((hmem t).mpr ht) c _ m ⟨rfl, hc⟩

end Reg

/-- **C52** (registration): for equally many points and reference points (at least one), the
registration ends without an error; the rotation it returns is the Kabsch rotation of one of the
ordered tuples, its matching is a bijection whose root mean square distance after the rotation is the
reported one, and no tuple gives a smaller one unless the reported one is already below the tolerance. -/
theorem C52_registration (kabsch : List (Vec3 K) → List (Vec3 K) → Mat3 K) (sqrt : K → K)
    (hsq : ∀ x, 0 ≤ sqrt x) (sort : List (ℕ × K) → List (ℕ × K)) (hs : SortOK sort) (tol : K)
    (pick : List ℕ) (ref points : List (Vec3 K)) (hl : points.length = ref.length)
    (h0 : 0 < points.length) (hp : PickOK points.length pick) :
    let chosen := pick.map (fun i => ref.getD i 0)
    let rotated := fun rot : Mat3 K => points.map rot.mulVec
    ∃ st, Reg.fit kabsch sqrt sort tol pick ref points = some st ∧
      Bijection points.length st.map.pairs ∧
      st.rmsd = sqrt (meanSqDistance ref (rotated st.rotation) st.map.pairs) ∧
      (∃ t, Tuple points.length t ∧ st.rotation = kabsch (t.map (fun i => points.getD i 0)) chosen) ∧
      (st.rmsd < tol ∨ ∀ t, Tuple points.length t →
        ∀ c m, Reg.alignedRMSDTree sqrt sort ref
          (rotated (kabsch (t.map (fun i => points.getD i 0)) chosen)) = some (c, m) → st.rmsd ≤ c) := by
  obtain ⟨st, g1, -, g2⟩ := Reg.fit_spec kabsch sqrt hsq sort hs tol pick ref points hl h0 hp
  exact ⟨st, g1, g2⟩

/-- **C52** (different sizes): the registration refuses point sets of different sizes. -/
theorem C52_sizes_differ (kabsch : List (Vec3 K) → List (Vec3 K) → Mat3 K) (sqrt : K → K)
    (sort : List (ℕ × K) → List (ℕ × K)) (tol : K) (pick : List ℕ) (ref points : List (Vec3 K))
    (hl : points.length ≠ ref.length) : Reg.fit kabsch sqrt sort tol pick ref points = none := by
  unfold Reg.fit
  rw [if_pos hl]

/-- **C52** does not extend to empty point sets: the loops read rows that do not exist, whatever was
drawn. -/
theorem C52_empty_counterexample (kabsch : List (Vec3 K) → List (Vec3 K) → Mat3 K) (sqrt : K → K)
    (sort : List (ℕ × K) → List (ℕ × K)) (tol : K) (pick : List ℕ) :
    Reg.fit kabsch sqrt sort tol pick [] [] = none := by
  have ht : Reg.tuples 0 = some [[0, 1, 2], [0, 2, 1], [1, 0, 2], [1, 2, 0], [2, 0, 1], [2, 1, 0]] := by
    decide +kernel
  unfold Reg.fit
  cases pick with
  | nil =>
    rw [if_neg (by simp)]
    simp [ht, Reg.fitLoop, Reg.fitBody]
  | cons a l => simp

/-- Three points and the same three points in another order, with the identity for the Kabsch
rotation: the matching is found. -/
example :
    (Reg.fit (K := ℚ) (fun _ _ => Mat3.one) id exRefSort (1 / 1000) [2, 0, 1]
      [⟨1, 0, 0⟩, ⟨0, 1, 0⟩, ⟨0, 0, 1⟩] [⟨0, 1, 0⟩, ⟨0, 0, 1⟩, ⟨1, 0, 0⟩]).map
        (fun st => (st.rmsd, st.map.pairs)) = some (0, [(1, 0), (2, 1), (0, 2)]) := by
  decide +kernel

example : PickOK 3 [2, 0, 1] := by
  refine ⟨rfl, by decide, by decide⟩

end Freud
