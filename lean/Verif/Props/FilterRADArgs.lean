import Verif.Model.FilterRADArgs
import Verif.Props.FilterCutoff

/-!
# Property C118: what the radii do in FilterRAD
-/

set_option linter.unusedSectionVars false

namespace Freud
open Spec NList Bond

variable {K : Type*} [Field K] [LinearOrder K] [IsStrictOrderedRing K] [FloorRing K]

/-- An argument for the radii of `n` particles that is in order: nothing, or `n` positive numbers. -/
def Spec.GoodRadii (n : ℕ) (arg : Option (List (Option K))) : Prop :=
  ∀ a, arg = some a → a.length = n ∧ ∀ x ∈ a, ∃ r, x = some r ∧ 0 < r

/-- Both arguments ask for radii that are in proportion: the second ones are `c` times the first ones. An argument that
is not given stands for ones. -/
def Spec.InProportion (n : ℕ) (c : K) (arg arg' : Option (List (Option K))) : Prop :=
  arg'.getD (List.replicate n (some 1)) = (arg.getD (List.replicate n (some 1))).map (Option.map fun r => c * r)

theorem radiiArg_some {n : ℕ} {arg : Option (List (Option K))} (h : GoodRadii n arg) :
    ∃ l : List K, FilterRAD.radiiArg n arg = some l ∧ l.length = n ∧
      arg.getD (List.replicate n (some 1)) = l.map some ∧ ∀ r ∈ l, 0 < r := by
  have key : ∀ a : List (Option K), (∀ x ∈ a, ∃ r, x = some r ∧ 0 < r) →
      ∃ l : List K, a = l.map some ∧ ∀ r ∈ l, 0 < r := by
    intro a
    induction a with
    | nil => exact fun _ => ⟨[], rfl, by simp⟩
    | cons x a ih =>
      intro hx
      obtain ⟨l, rfl, hl⟩ := ih fun y hy => hx y (List.mem_cons_of_mem _ hy)
      obtain ⟨r, rfl, hr⟩ := hx x List.mem_cons_self
      refine ⟨r :: l, rfl, ?_⟩
      intro s hs
      rcases List.mem_cons.mp hs with rfl | hs
      · exact hr
      · exact hl s hs
  have hgood : (arg.getD (List.replicate n (some 1))).length = n ∧
      ∀ x ∈ arg.getD (List.replicate n (some (1 : K))), ∃ r, x = some r ∧ 0 < r := by
    cases arg with
    | none =>
      refine ⟨by simp, ?_⟩
      intro x hx
      exact ⟨1, (List.mem_replicate.mp hx).2, one_pos⟩
    | some a => exact h a rfl
  obtain ⟨l, hl, hp⟩ := key _ hgood.2
  refine ⟨l, ?_, ?_, hl, hp⟩
  · unfold FilterRAD.radiiArg
    simp only
    rw [hl, if_neg (by rw [← hl, hgood.1]; simp), if_neg (by simp), if_neg (by simpa using hp)]
    simp
  · rw [← hgood.1, hl, List.length_map]

theorem radiiArg_none {n : ℕ} {arg : Option (List (Option K))} (h : ¬ GoodRadii n arg) :
    FilterRAD.radiiArg n arg = none := by
  cases arg with
  | none => exact absurd (fun a e => by cases e) h
  | some a =>
    unfold FilterRAD.radiiArg
    simp only [Option.getD_some]
    by_contra hne
    apply h
    split_ifs at hne with h1 h2 h3
    · exact absurd rfl hne
    · exact absurd rfl hne
    · exact absurd rfl hne
    intro b hb
    cases hb
    refine ⟨not_not.mp h1, fun x hx => ?_⟩
    cases x with
    | none => exact absurd (List.any_eq_true.mpr ⟨none, hx, rfl⟩) h2
    | some r =>
      refine ⟨r, rfl, ?_⟩
      by_contra hr
      exact h3 (List.any_eq_true.mpr ⟨some r, hx, by simpa using hr⟩)

/-- **C118**: `FilterRAD.compute` accepts exactly the radii that are in order: one positive number for each particle, or
nothing. Otherwise it raises. -/
theorem C118_rejects (box : Box K) (qpt pt : ℕ → Vec3 K) (closed : Bool) (n : NList K) (nq np : ℕ) (allow : Bool)
    (pr qr : Option (List (Option K))) (ev : List (ℕ × ℕ)) (r : Option (NList K))
    (h : ¬ (GoodRadii np pr ∧ GoodRadii nq qr)) :
    FilterRAD.PyCompute box qpt pt closed n nq np allow pr qr ev r ↔ r = none := by
  unfold FilterRAD.PyCompute
  by_cases hp : GoodRadii np pr
  · rw [radiiArg_none (fun hq => h ⟨hp, hq⟩)]
    cases FilterRAD.radiiArg np pr <;> exact Iff.rfl
  · rw [radiiArg_none hp]

theorem pyCompute_iff {box : Box K} {qpt pt : ℕ → Vec3 K} {closed : Bool} {n : NList K} {nq np : ℕ} {allow : Bool}
    {pr qr : Option (List (Option K))} {ev : List (ℕ × ℕ)} {r : Option (NList K)} {l : List K}
    (hl : FilterRAD.radiiArg np pr = some l) (hq : GoodRadii nq qr) :
    FilterRAD.PyCompute box qpt pt closed n nq np allow pr qr ev r ↔
      FilterRAD.Compute box qpt pt (fun j => l.getD j 0) closed n nq np allow ev r := by
  obtain ⟨l', h', -⟩ := radiiArg_some hq
  unfold FilterRAD.PyCompute
  rw [hl, h']

/-- **C118**: the radii that are accepted are used as they are: without any, all radii are 1. -/
theorem C118_accepts (box : Box K) (qpt pt : ℕ → Vec3 K) (closed : Bool) (n : NList K) (nq np : ℕ) (allow : Bool)
    (qr : Option (List (Option K))) (hq : GoodRadii nq qr) (ev : List (ℕ × ℕ)) (r : Option (NList K)) :
    (∀ l : List K, l.length = np → (∀ x ∈ l, 0 < x) →
      (FilterRAD.PyCompute box qpt pt closed n nq np allow (some (l.map some)) qr ev r ↔
        FilterRAD.Compute box qpt pt (fun j => l.getD j 0) closed n nq np allow ev r)) ∧
    (FilterRAD.PyCompute box qpt pt closed n nq np allow none qr ev r ↔
      FilterRAD.PyCompute box qpt pt closed n nq np allow (some (List.replicate np (some 1))) qr ev r) := by
  constructor
  · intro l hlen hpos
    have hg : GoodRadii np (some (l.map some)) := by
      rintro a ⟨⟩
      refine ⟨by rw [List.length_map, hlen], fun x hx => ?_⟩
      obtain ⟨y, hy, rfl⟩ := List.mem_map.mp hx
      exact ⟨y, rfl, hpos y hy⟩
    obtain ⟨l', h', -, e, -⟩ := radiiArg_some hg
    have : l = l' := List.map_injective_iff.mpr (Option.some_injective K) e
    subst this
    exact pyCompute_iff h' hq
  · exact Iff.rfl

/-- **C118**: the radii of the query points do not matter, as long as they are in order. -/
theorem C118_query_radii (box : Box K) (qpt pt : ℕ → Vec3 K) (closed : Bool) (n : NList K) (nq np : ℕ) (allow : Bool)
    (pr qr qr' : Option (List (Option K))) (hq : GoodRadii nq qr) (hq' : GoodRadii nq qr') (ev : List (ℕ × ℕ))
    (r : Option (NList K)) :
    FilterRAD.PyCompute box qpt pt closed n nq np allow pr qr ev r ↔
      FilterRAD.PyCompute box qpt pt closed n nq np allow pr qr' ev r := by
  by_cases hp : GoodRadii np pr
  · obtain ⟨l, hl, -⟩ := radiiArg_some hp
    rw [pyCompute_iff hl hq, pyCompute_iff hl hq']
  · rw [C118_rejects box qpt pt closed n nq np allow pr qr ev r fun h => hp h.1,
      C118_rejects box qpt pt closed n nq np allow pr qr' ev r fun h => hp h.1]

theorem blocks_scaled (box : Box K) (qp : Vec3 K) (pt : ℕ → Vec3 K) (radius : ℕ → K) {c : K} (hc : 0 < c)
    (bj bk : Bond K) :
    FilterRAD.blocks box qp pt (fun j => c * radius j) bj bk = FilterRAD.blocks box qp pt radius bj bk := by
  unfold FilterRAD.blocks
  simp only [decide_eq_decide]
  have h2 : 0 < c * c := mul_pos hc hc
  rw [← mul_lt_mul_iff_right₀ h2 (b := radius bj.p * radius bj.p * _ * _ * _)]
  rw [iff_iff_eq]
  congr 1 <;> ring

/-- **C118**: only the ratios of the radii matter: radii multiplied by a positive number lead to the same outcomes. In
particular equal radii act as no radii. -/
theorem C118_ratios (box : Box K) (qpt pt : ℕ → Vec3 K) (closed : Bool) (n : NList K) (nq np : ℕ) (allow : Bool)
    (c : K) (hc : 0 < c) (pr pr' qr : Option (List (Option K))) (h : InProportion np c pr pr') (hp : GoodRadii np pr)
    (ev : List (ℕ × ℕ)) (r : Option (NList K)) :
    FilterRAD.PyCompute box qpt pt closed n nq np allow pr qr ev r ↔
      FilterRAD.PyCompute box qpt pt closed n nq np allow pr' qr ev r := by
  obtain ⟨l, hl, hlen, e, hpos⟩ := radiiArg_some hp
  have hp' : GoodRadii np pr' := by
    rintro a rfl
    unfold InProportion at h
    rw [Option.getD_some, e] at h
    subst h
    refine ⟨by simp [hlen], fun x hx => ?_⟩
    rw [List.map_map] at hx
    obtain ⟨y, hy, rfl⟩ := List.mem_map.mp hx
    exact ⟨c * y, rfl, mul_pos hc (hpos y hy)⟩
  obtain ⟨l', hl', -, e', -⟩ := radiiArg_some hp'
  have hll : l' = l.map (c * ·) := by
    unfold InProportion at h
    rw [e, e', List.map_map] at h
    refine List.map_injective_iff.mpr (Option.some_injective K) (h.trans ?_)
    rw [List.map_map]
    rfl
  by_cases hq : GoodRadii nq qr
  · rw [pyCompute_iff hl hq, pyCompute_iff hl' hq]
    have : (fun j => l'.getD j 0) = fun j => c * l.getD j 0 := by
      funext j
      rw [hll]
      simp only [List.getD_eq_getElem?_getD, List.getElem?_map]
      cases l[j]? <;> simp
    rw [this]
    unfold FilterRAD.Compute
    have hpt : FilterRAD.point box qpt pt (fun j => c * l.getD j 0) closed =
        FilterRAD.point box qpt pt (fun j => l.getD j 0) closed := by
      funext s i
      unfold FilterRAD.point
      have : ∀ q, FilterRAD.blocks box q pt (fun j => c * l.getD j 0) =
          FilterRAD.blocks box q pt (fun j => l.getD j 0) := by
        intro q; funext bj bk; exact blocks_scaled box q pt (fun j => l.getD j 0) hc bj bk
      simp only [this]
    rw [hpt]
  · rw [C118_rejects box qpt pt closed n nq np allow pr qr ev r fun h => hq h.2,
      C118_rejects box qpt pt closed n nq np allow pr' qr ev r fun h => hq h.2]

/-- What the open mode keeps under one set of radii, it keeps under others that block less. -/
theorem open_keeps (box : Box K) (qpt pt : ℕ → Vec3 K) (radius radius' : ℕ → K)
    (n : NList K) (h : GoodList n) (allow allow' : Bool) (ev ev' : List (ℕ × ℕ))
    (hev : IsExecution n.numQueryPoints ev) (hev' : IsExecution n.numQueryPoints ev') (nl nl' : NList K)
    (hr : FilterRAD.Compute box qpt pt radius false n n.numQueryPoints n.numPoints allow ev (some nl))
    (hr' : FilterRAD.Compute box qpt pt radius' false n n.numQueryPoints n.numPoints allow' ev' (some nl'))
    (b : Bond K) (hb : b ∈ nl.bonds)
    (hless : ∀ bj ∈ n.bonds, ∀ bk ∈ n.bonds, bj.p = b.p → RadTest box (qpt b.q) pt radius' bj bk →
      RadTest box (qpt b.q) pt radius bj bk) : b ∈ nl'.bonds := by
  obtain ⟨sorted, s, hs, e, -, -, h2, -⟩ := rad_some box qpt pt radius false n h allow ev hev nl hr
  obtain ⟨sorted', s', hs', e', -, g1, -, -⟩ := rad_some box qpt pt radius' false n h allow' ev' hev' nl' hr'
  obtain ⟨hlt, hbm⟩ := h2 b hb
  obtain ⟨hg, -, hc⟩ := sorted_row n h sorted s hs e b.q
  obtain ⟨hg', hrow', hc'⟩ := sorted_row n h sorted' s' hs' e' b.q
  rw [radPoint_open box qpt pt radius s hg b.q (bondsOf s b.q) rfl (hc hlt)] at hbm
  simp only [Option.getD_some] at hbm
  obtain ⟨j, hj, hjb⟩ := List.mem_filterMap.mp hbm
  obtain ⟨b0, hb0, hb1⟩ := Option.map_eq_some_iff.mp hjb
  have hnb : ¬ Blocked (RadTest box (qpt b.q) pt radius) (bondsOf s b.q) j :=
    @of_decide_eq_true _ (_) (List.mem_filter.mp hj).2
  have hcol := rows_columns n h sorted sorted' s s' hs hs' e e' b.q
  have hmem : b ∈ bondsOf nl' b.q := by
    refine (g1 b.q hlt).symm.subset ?_
    rw [radPoint_open box qpt pt radius' s' hg' b.q (bondsOf s' b.q) rfl (hc' hlt)]
    simp only [Option.getD_some]
    rw [List.mem_filterMap]
    have h1 := congrArg (fun l => l[j]?) hcol
    simp only [List.getElem?_map, hb0, Option.map_some] at h1
    obtain ⟨b0', hb0', h3⟩ := Option.map_eq_some_iff.mp h1.symm
    simp only [Prod.mk.injEq] at h3
    refine ⟨j, ?_, ?_⟩
    · rw [List.mem_filter, List.mem_range]
      refine ⟨(List.getElem?_eq_some_iff.mp hb0').1, @decide_eq_true _ (_) ?_⟩
      rintro ⟨k, hk, bj, bk, hbj, hbk, ht⟩
      have hin : ∀ x ∈ bondsOf s' b.q, x ∈ n.bonds := fun x hx =>
        (List.mem_filter.mp (hrow'.1.subset hx)).1
      refine hnb (blocked_congr box (qpt b.q) pt radius hcol.symm ⟨k, hk, bj, bk, hbj, hbk, hless bj
        (hin _ (List.mem_of_getElem? hbj)) bk (hin _ (List.mem_of_getElem? hbk)) ?_ ht⟩)
      rw [hb0'] at hbj
      cases hbj
      rw [h3.1, ← hb1]
      rfl
    · rw [hb0', Option.map_some, Option.some.injEq, ← hb1]
      unfold radBond
      have q1 := bondsOf_q (List.mem_of_getElem? hb0')
      have q2 := bondsOf_q (List.mem_of_getElem? hb0)
      simp only [h3.1, h3.2, q1, q2]
  unfold bondsOf at hmem
  exact (List.mem_filter.mp hmem).1

/-- **C118** (open mode): when one particle is made larger, it keeps all bonds to it, and no other particle gets a bond
that it did not have before. -/
theorem C118_growth (box : Box K) (qpt pt : ℕ → Vec3 K) (n : NList K) (h : GoodList n)
    (hd : ∀ b ∈ n.bonds, 0 ≤ b.dist) (allow allow' : Bool) (l l' : List K) (m : ℕ)
    (hlen : l.length = n.numPoints) (hlen' : l'.length = n.numPoints) (hpos : ∀ x ∈ l, 0 < x)
    (hm : l.getD m 0 ≤ l'.getD m 0) (hsame : ∀ j, j ≠ m → l'.getD j 0 = l.getD j 0)
    (qr : Option (List (Option K))) (ev ev' : List (ℕ × ℕ))
    (hev : IsExecution n.numQueryPoints ev) (hev' : IsExecution n.numQueryPoints ev') (nl nl' : NList K)
    (hr : FilterRAD.PyCompute box qpt pt false n n.numQueryPoints n.numPoints allow (some (l.map some)) qr ev (some nl))
    (hr' : FilterRAD.PyCompute box qpt pt false n n.numQueryPoints n.numPoints allow' (some (l'.map some)) qr ev'
      (some nl')) :
    (∀ b ∈ nl.bonds, b.p = m → b ∈ nl'.bonds) ∧ (∀ b ∈ nl'.bonds, b.p ≠ m → b ∈ nl.bonds) := by
  have hq : GoodRadii n.numQueryPoints qr := by
    by_contra hq
    have := (C118_rejects box qpt pt false n _ _ allow _ qr ev (some nl) fun h => hq h.2).mp hr
    cases this
  have hl0 : ∀ j, 0 ≤ l.getD j 0 := by
    intro j
    rw [List.getD_eq_getElem?_getD]
    cases hj : l[j]? with
    | none => exact le_refl _
    | some x => exact (hpos x (List.mem_of_getElem? hj)).le
  have hle : ∀ j, l.getD j 0 ≤ l'.getD j 0 := by
    intro j
    by_cases hj : j = m
    · subst hj; exact hm
    · exact (hsame j hj).ge
  have hpos' : ∀ x ∈ l', 0 < x := by
    intro x hx
    obtain ⟨j, hj, rfl⟩ := List.getElem_of_mem hx
    have h1 := hle j
    simp only [List.getD_eq_getElem?_getD, List.getElem?_eq_getElem hj, Option.getD_some,
      List.getElem?_eq_getElem (show j < l.length by omega)] at h1
    exact (hpos _ (List.getElem_mem _)).trans_le h1
  rw [(C118_accepts box qpt pt false n _ _ allow qr hq ev (some nl)).1 l hlen hpos] at hr
  rw [(C118_accepts box qpt pt false n _ _ allow' qr hq ev' (some nl')).1 l' hlen' hpos'] at hr'
  have hsq : ∀ v : Vec3 K, 0 ≤ v.dot v := fun v => by
    exact add_nonneg (add_nonneg (mul_self_nonneg _) (mul_self_nonneg _)) (mul_self_nonneg _)
  constructor
  · rintro b hb rfl
    refine open_keeps box qpt pt _ _ n h allow allow' ev ev' hev hev' nl nl' hr hr' b hb ?_
    intro bj hbj bk hbk hp ht
    unfold RadTest at ht ⊢
    simp only at ht ⊢
    by_cases hk : bk.p = b.p
    · -- the blocking neighbor is the same particle: the radii cancel
      rw [hp, hk] at ht ⊢
      have h2 : 0 < l'.getD b.p 0 ^ 2 := by
        by_contra h0
        have h0 : l'.getD b.p 0 ^ 2 = 0 := le_antisymm (not_lt.mp h0) (sq_nonneg _)
        rw [h0] at ht
        simp at ht
      have h3 : 0 < l.getD b.p 0 ^ 2 := by
        have hb' : b.p < l.length := by
          rw [hlen, ← hp]
          exact h.plt bj hbj
        refine pow_pos ?_ 2
        rw [List.getD_eq_getElem?_getD, List.getElem?_eq_getElem hb', Option.getD_some]
        exact hpos _ (List.getElem_mem _)
      rw [mul_assoc, mul_assoc] at ht ⊢
      exact mul_lt_mul_of_pos_left (lt_of_mul_lt_mul_left ht h2.le) h3
    · rw [hp] at ht ⊢
      rw [hsame bk.p hk] at ht
      refine lt_of_le_of_lt ?_ ht
      have := mul_nonneg (hsq (box.wrap (qpt b.q - pt bk.p))) (mul_nonneg (hd bj hbj) (hd bk hbk))
      rw [mul_assoc, mul_assoc]
      exact mul_le_mul_of_nonneg_right (pow_le_pow_left₀ (hl0 _) (hle _) 2) this
  · intro b hb hbm
    refine open_keeps box qpt pt _ _ n h allow' allow ev' ev hev' hev nl' nl hr' hr b hb ?_
    intro bj hbj bk hbk hp ht
    unfold RadTest at ht ⊢
    simp only at ht ⊢
    have h0 := mul_nonneg (mul_nonneg (sq_nonneg (l.getD bj.p 0)) (hsq (box.wrap (qpt b.q - pt bk.p))))
      (mul_nonneg (hd bj hbj) (hd bk hbk))
    rw [hsame bj.p (by rw [hp]; exact hbm)]
    refine lt_of_lt_of_le ht ?_
    have hnn : 0 ≤ (box.wrap (qpt b.q - pt bj.p)).dot (box.wrap (qpt b.q - pt bj.p)) *
        (box.wrap (qpt b.q - pt bj.p)).dot (box.wrap (qpt b.q - pt bk.p)) := by
      by_contra hneg
      have := mul_nonpos_of_nonneg_of_nonpos (sq_nonneg (l.getD bk.p 0)) (not_le.mp hneg).le
      rw [← mul_assoc] at this
      exact absurd (h0.trans_lt ht) (not_lt.mpr this)
    rw [mul_assoc, mul_assoc]
    exact mul_le_mul_of_nonneg_right (pow_le_pow_left₀ (hl0 _) (hle _) 2) hnn

/-! ### Witnesses -/

/-- Two points in one direction from the origin and a third one, further away, in another direction. -/
def exGrowPt (j : ℕ) : Vec3 ℚ := if j = 0 then ⟨1, 0, 0⟩ else if j = 1 then ⟨2, 0, 0⟩ else ⟨0, 3, 0⟩

/-- The three neighbors of the origin. -/
def exGrow : NList ℚ :=
  ⟨1, 3, [⟨0, 0, 1, 1, ⟨1, 0, 0⟩⟩, ⟨0, 1, 2, 1, ⟨2, 0, 0⟩⟩, ⟨0, 2, 3, 1, ⟨0, 3, 0⟩⟩], false, [], []⟩

theorem exGrow_good : GoodList exGrow := by
  refine ⟨by simp [exGrow], ?_, ?_, by simp [exGrow]⟩ <;> intro b hb <;>
    simp only [exGrow, List.mem_cons, List.not_mem_nil, or_false] at hb ⊢ <;>
    rcases hb with rfl | rfl | rfl <;> simp

/-- One run of the filter on the example. -/
theorem exGrow_compute (closed : Bool) (l : List ℚ) (out : List (Bond ℚ)) (nl : NList ℚ)
    (hl : l.length = 3) (hpos : ∀ x ∈ l, 0 < x)
    (e : (Filter.sortedList exGrow exGrow.bonds).bind
      (fun s => Filter.collect (FilterRAD.point exBox10 (fun _ => ⟨0, 0, 0⟩) exGrowPt (fun j => l.getD j 0)
        closed s) s.numQueryPoints true [(0, 0)]) = some out)
    (hs : out.Pairwise fun a b => Bond.less true b a = false) (h : NList.ofBonds out = some nl) :
    FilterRAD.PyCompute exBox10 (fun _ => ⟨0, 0, 0⟩) exGrowPt closed exGrow 1 3 true (some (l.map some)) none
      [(0, 0)] (some nl) := by
  rw [(C118_accepts exBox10 (fun _ => ⟨0, 0, 0⟩) exGrowPt closed exGrow 1 3 true none (fun a e => by cases e) [(0, 0)]
    (some nl)).1 l hl hpos]
  unfold FilterRAD.Compute Filter.Run
  rw [if_neg (by decide +kernel)]
  refine ⟨exGrow.bonds, ⟨List.Perm.refl _, by decide +kernel⟩, ?_⟩
  rw [e]
  exact ⟨_, ⟨List.Perm.refl _, hs⟩, h.symm⟩

/-- The hypotheses of `C118_growth` are met: with equal radii the second point is blocked, with a radius of 3 it is
not. -/
example : GoodList exGrow ∧ (∀ b ∈ exGrow.bonds, 0 ≤ b.dist) ∧ IsExecution exGrow.numQueryPoints [(0, 0)] ∧
    ∃ nl nl', FilterRAD.PyCompute exBox10 (fun _ => ⟨0, 0, 0⟩) exGrowPt false exGrow 1 3 true
        (some ([1, 1, 1].map some)) none [(0, 0)] (some nl) ∧
      FilterRAD.PyCompute exBox10 (fun _ => ⟨0, 0, 0⟩) exGrowPt false exGrow 1 3 true
        (some ([1, 3, 1].map some)) none [(0, 0)] (some nl') ∧
      nl.bonds.map (·.p) = [0, 2] ∧ nl'.bonds.map (·.p) = [0, 1, 2] :=
  ⟨exGrow_good, by decide +kernel, by simp [IsExecution, exGrow], _, _,
    exGrow_compute false [1, 1, 1] [⟨0, 0, 1, 1, ⟨-1, 0, 0⟩⟩, ⟨0, 2, 3, 1, ⟨0, -3, 0⟩⟩] _ rfl (by decide +kernel)
      (by decide +kernel) (by decide +kernel) rfl,
    exGrow_compute false [1, 3, 1] [⟨0, 0, 1, 1, ⟨-1, 0, 0⟩⟩, ⟨0, 1, 2, 1, ⟨-2, 0, 0⟩⟩, ⟨0, 2, 3, 1, ⟨0, -3, 0⟩⟩] _ rfl
      (by decide +kernel) (by decide +kernel) (by decide +kernel) rfl, rfl, rfl⟩

/-- The second part of `C118_growth` is about the open mode only: in closed mode a larger second point also gives a bond
to the third one, because the search no longer stops before it. -/
theorem C118_growth_closed_counterexample :
    ∃ nl nl' : NList ℚ, FilterRAD.PyCompute exBox10 (fun _ => ⟨0, 0, 0⟩) exGrowPt true exGrow 1 3 true
        (some ([1, 1, 1].map some)) none [(0, 0)] (some nl) ∧
      FilterRAD.PyCompute exBox10 (fun _ => ⟨0, 0, 0⟩) exGrowPt true exGrow 1 3 true
        (some ([1, 3, 1].map some)) none [(0, 0)] (some nl') ∧
      nl.bonds.map (·.p) = [0] ∧ nl'.bonds.map (·.p) = [0, 1, 2] :=
  ⟨_, _,
    exGrow_compute true [1, 1, 1] [⟨0, 0, 1, 1, ⟨-1, 0, 0⟩⟩] _ rfl (by decide +kernel)
      (by decide +kernel) (by decide +kernel) rfl,
    exGrow_compute true [1, 3, 1] [⟨0, 0, 1, 1, ⟨-1, 0, 0⟩⟩, ⟨0, 1, 2, 1, ⟨-2, 0, 0⟩⟩, ⟨0, 2, 3, 1, ⟨0, -3, 0⟩⟩] _ rfl
      (by decide +kernel) (by decide +kernel) (by decide +kernel) rfl, rfl, rfl⟩

/-- A radius of zero, one that is not finite and a missing one are not in order; equal radii are in proportion to the
default. -/
example : ¬ GoodRadii 2 (some [some (1 : ℚ), some 0]) ∧ ¬ GoodRadii 2 (some [some (1 : ℚ), none]) ∧
    ¬ GoodRadii 2 (some [some (1 : ℚ)]) ∧ GoodRadii 2 (some [some (1 : ℚ), some 2]) ∧
    InProportion 2 (3 : ℚ) none (some [some 3, some 3]) := by
  refine ⟨fun h => ?_, fun h => ?_, fun h => ?_, ?_, by simp [InProportion, List.replicate]⟩
  · obtain ⟨r, e, hr⟩ := (h _ rfl).2 (some 0) (by simp)
    cases e
    exact lt_irrefl _ hr
  · obtain ⟨r, e, -⟩ := (h _ rfl).2 none (by simp)
    cases e
  · have := (h _ rfl).1
    simp at this
  · rintro a ⟨⟩
    exact ⟨rfl, by simp⟩

end Freud
