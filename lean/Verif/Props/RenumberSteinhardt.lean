import Verif.Props.Renumber
import Verif.Props.Steinhardt
import Mathlib.Data.Multiset.Bind

/-!
# Property C86 for Steinhardt order parameters
-/

namespace Freud
open Spec

namespace Steinhardt

/-- A distribution without the order of its directions. -/
def asM (L : Option (List (ℝ × Vec3 ℝ))) : Option (Multiset (ℝ × Vec3 ℝ)) :=
  L.map fun l => (l : Multiset (ℝ × Vec3 ℝ))

theorem asM_eq_none {L : Option (List (ℝ × Vec3 ℝ))} : asM L = none ↔ L = none := by
  cases L <;> simp [asM]

theorem holds_asM {Y : ℤ → Vec3 ℝ → ℂ} {l : ℕ} {row : Row} {L L' : Option (List (ℝ × Vec3 ℝ))}
    (e : asM L = asM L') (h : Holds Y l row L) : Holds Y l row L' := by
  match row, L, L', e, h with
  | none, none, none, _, _ => trivial
  | some r, some L, some L', e, ⟨h1, h2⟩ =>
    have hp : L.Perm L' := Multiset.coe_eq_coe.mp (Option.some.inj e)
    refine ⟨fun d hd => h1 d (hp.mem_iff.mpr hd), fun m hm hm' => ?_⟩
    rw [h2 m hm hm']
    exact (hp.map fun d => (d.1 : ℂ) * Y m d.2).sum_eq

theorem normalized_perm {l l' : List (ℝ × Vec3 ℝ)} (h : l.Perm l') :
    asM (normalized l) = asM (normalized l') := by
  unfold normalized
  rw [(h.map (·.1)).sum_eq]
  split_ifs with h0
  · rfl
  · exact congrArg some (Multiset.coe_eq_coe.mpr (h.map _))

open Classical in
/-- `mix` without orders. -/
noncomputable def mixM (S : Multiset (Option (Multiset (ℝ × Vec3 ℝ)))) : Option (Multiset (ℝ × Vec3 ℝ)) :=
  if none ∈ S then none
  else some (S.bind fun L => (L.getD 0).map fun d => (d.1 / (Multiset.card S : ℝ), d.2))

theorem asM_mix (Ls : List (Option (List (ℝ × Vec3 ℝ)))) : asM (mix Ls) = mixM (Ls.map asM) := by
  have hmem : (none : Option (Multiset (ℝ × Vec3 ℝ))) ∈
      ((Ls.map asM : List _) : Multiset (Option (Multiset (ℝ × Vec3 ℝ)))) ↔ none ∈ Ls := by
    rw [Multiset.mem_coe, List.mem_map]
    exact ⟨fun ⟨L, h, e⟩ => asM_eq_none.mp e ▸ h, fun h => ⟨none, h, rfl⟩⟩
  unfold mix mixM
  by_cases h : none ∈ Ls
  · rw [if_pos h, if_pos (hmem.mpr h)]; rfl
  · rw [if_neg h, if_neg (fun h' => h (hmem.mp h'))]
    refine congrArg some ?_
    rw [← Multiset.map_coe, Multiset.bind_map, Multiset.card_map, Multiset.coe_card, ← Multiset.coe_bind]
    refine Multiset.bind_congr fun L _ => ?_
    cases L with
    | none => rfl
    | some L => rfl

theorem mix_perm {Ls Ls' : List (Option (List (ℝ × Vec3 ℝ)))} (h : (Ls.map asM).Perm (Ls'.map asM)) :
    asM (mix Ls) = asM (mix Ls') := by
  rw [asM_mix, asM_mix, Multiset.coe_eq_coe.mpr h]

/-- Two calls of `compute` on two descriptions of the same particles. -/
structure _root_.Freud.Spec.SameCall (t : Vec3 ℝ) (σ : Equiv.Perm ℕ) (c c' : Call) : Prop where
  valid : Valid c.box
  box : c'.box = c.box
  planar : ∀ v ∈ c.points, Planar c.box v
  points : Renumbered c.box t σ c.points c'.points
  bonds : SameBonds σ c.nlist c'.nlist

theorem directions_renumbered {t : Vec3 ℝ} {σ : Equiv.Perm ℕ} {c c' : Call} (h : SameCall t σ c c')
    (h' : ListFor c'.nlist c'.points.length) (weighted : Bool) {i : ℕ} (hi : i < c'.points.length) :
    (directions c'.box c'.points weighted c'.nlist.bonds i).Perm
      (directions c.box c.points weighted c.nlist.bonds (σ i)) := by
  unfold directions
  refine List.Perm.trans (List.Perm.of_eq ?_) ((filter_relabel h.bonds i).map _).symm
  rw [List.map_map]
  refine List.map_congr_left fun nb hnb => ?_
  obtain ⟨h3, h4⟩ := List.mem_filter.mp hnb
  obtain rfl : nb.q = i := of_decide_eq_true h4
  simp only [Function.comp, relabel, bondVector]
  rw [h.box, separation_renumbered h.valid h.planar h.points hi (h'.points nb h3 hi)]

theorem dist_renumbered {t : Vec3 ℝ} {σ : Equiv.Perm ℕ} {c c' : Call} (h : SameCall t σ c c')
    (h' : ListFor c'.nlist c'.points.length) (p : Params) (av : Bool) {i : ℕ} (hi : i < c'.points.length) :
    asM (dist p c' av i) = asM (dist p c av (σ i)) := by
  unfold dist distribution
  cases av with
  | false =>
    simp only [Bool.false_eq_true, if_false]
    exact normalized_perm (directions_renumbered h h' p.weighted hi)
  | true =>
    simp only [if_true]
    refine mix_perm ?_
    rw [List.map_map, List.map_map]
    have hp : ((c.nlist.bonds.filter (fun nb => nb.q = σ i)).map (·.p) ++ [σ i]).Perm
        (((c'.nlist.bonds.filter (fun nb => nb.q = i)).map (·.p) ++ [i]).map σ) := by
      rw [List.map_append, List.map_map]
      refine List.Perm.append_right _ ?_
      have := (filter_relabel h.bonds i).map (·.p)
      rwa [List.map_map] at this
    refine List.Perm.trans (List.Perm.of_eq ?_) (hp.map _).symm
    rw [List.map_map]
    refine List.map_congr_left fun j hj => ?_
    have hj' : j < c'.points.length := by
      rw [List.mem_append, List.mem_singleton] at hj
      rcases hj with hj | rfl
      · obtain ⟨nb, hnb, rfl⟩ := List.mem_map.mp hj
        obtain ⟨h3, h4⟩ := List.mem_filter.mp hnb
        exact h'.points nb h3 (by have := of_decide_eq_true h4; omega)
      · exact hi
    exact normalized_perm (directions_renumbered h h' p.weighted hj')

theorem system_renumbered {t : Vec3 ℝ} {σ : Equiv.Perm ℕ} {c c' : Call} (h : SameCall t σ c c')
    (h' : ListFor c'.nlist c'.points.length) (p : Params) (av : Bool) :
    asM (mix ((List.range c'.points.length).map (dist p c' av))) =
      asM (mix ((List.range c.points.length).map (dist p c av))) := by
  refine mix_perm ?_
  rw [List.map_map, List.map_map]
  have hp : ((List.range c'.points.length).map σ).Perm (List.range c.points.length) := by
    refine (List.perm_ext_iff_of_nodup (List.nodup_range.map σ.injective) List.nodup_range).mpr fun j => ?_
    rw [List.mem_map, List.mem_range]
    constructor
    · rintro ⟨i, hi, rfl⟩
      exact (h.points.lt_iff i).mpr (List.mem_range.mp hi)
    · intro hj
      exact ⟨σ.symm j, List.mem_range.mpr ((h.points.lt_iff _).mp (by simpa using hj)), by simp⟩
  refine List.Perm.trans (List.Perm.of_eq ?_) (hp.map _)
  rw [List.map_map]
  exact List.map_congr_left fun i hi => dist_renumbered h h' p av (List.mem_range.mp hi)

theorem get_row {A : Type*} (f : Row → A) {rows : List Row} {n i : ℕ} (h : rows.length = n) (hi : i < n) :
    (rows.map f)[i]? = some (f (rows.getD i none)) := by
  have hi : i < rows.length := by omega
  rw [List.getElem?_map, List.getElem?_eq_getElem hi, Option.map_some, List.getD_eq_getElem?_getD,
    List.getElem?_eq_getElem hi, Option.getD_some]

end Steinhardt

/-- Two calls, after any histories: particles with the same distribution have the same results, and so do
systems. -/
theorem steinhardt_local {sph : Steinhardt.Sph} {p : Steinhardt.Params} {Y : ℤ → Vec3 ℝ → ℂ}
    (hf : FsphOK sph p.l Y) (hl : p.wl = true → p.l ≤ 20) {history history' : List Steinhardt.Call}
    (hh : ∀ c ∈ history, LegalSteinhardt p.l c) (hh' : ∀ c ∈ history', LegalSteinhardt p.l c)
    {c c' : Steinhardt.Call} (hc : LegalSteinhardt p.l c) (hc' : LegalSteinhardt p.l c') :
    ∃ r r', Steinhardt.resultAfter sph p history c = some r ∧
      Steinhardt.resultAfter sph p history' c' = some r' ∧
      (∀ i < c'.points.length, ∀ j < c.points.length,
        Steinhardt.asM (Steinhardt.dist p c' false i) = Steinhardt.asM (Steinhardt.dist p c false j) →
        Steinhardt.asM (Steinhardt.dist p c' p.average i) = Steinhardt.asM (Steinhardt.dist p c p.average j) →
        r'.qli[i]? = r.qli[j]? ∧ (r'.getQl p)[i]? = (r.getQl p)[j]? ∧
          (r'.particleOrder p)[i]? = (r.particleOrder p)[j]?) ∧
      ((∀ row, Steinhardt.Holds Y p.l row (mix ((List.range c'.points.length).map (Steinhardt.dist p c' p.average))) →
        Steinhardt.Holds Y p.l row (mix ((List.range c.points.length).map (Steinhardt.dist p c p.average)))) →
        r'.order = r.order) := by
  obtain ⟨r, used, sys, e, hlen, hb, hul, hu, hsys, h1, h2, h3, h4⟩ :=
    Steinhardt.result_spec hf hl history hh c hc
  obtain ⟨r', used', sys', e', hlen', hb', hul', hu', hsys', h1', h2', h3', h4'⟩ :=
    Steinhardt.result_spec hf hl history' hh' c' hc'
  refine ⟨r, r', e, e', fun i hi' j hσ d1 d2 => ?_, fun hsystem => ?_⟩
  · have q1 := Steinhardt.ql_congr (Steinhardt.holds_asM d1 (hb' i hi')) (hb _ hσ)
    have q2h := Steinhardt.holds_asM d2 (hu' i hi')
    have q2 := Steinhardt.ql_congr q2h (hu _ hσ)
    have g : (r'.getQl p)[i]? = (r.getQl p)[j]? := by
      rw [h2', h2, Steinhardt.get_row _ hul' hi', Steinhardt.get_row _ hul hσ, q2]
    refine ⟨?_, g, ?_⟩
    · rw [h1', h1, Steinhardt.get_row _ hlen' hi', Steinhardt.get_row _ hlen hσ, q1]
    · unfold Steinhardt.Result.particleOrder
      cases hw : p.wl with
      | false => simpa using g
      | true =>
        rw [if_pos rfl, if_pos rfl]
        obtain ⟨l1, v1⟩ := Steinhardt.mapM_getD _ _ _ (h3 hw).1
        obtain ⟨l2, v2⟩ := Steinhardt.mapM_getD _ _ _ (h3' hw).1
        have := Steinhardt.wlValue_congr (hl hw) q2h (hu _ hσ)
        rw [v1 _ (by omega), v2 _ (by omega)] at this
        have a1 : i < r'.wli.length := by omega
        have a2 : j < r.wli.length := by omega
        simp only [List.getD_eq_getElem?_getD, List.getElem?_eq_getElem a1,
          List.getElem?_eq_getElem a2, Option.getD_some] at this ⊢
        exact this
  · have hsys'' := hsystem _ hsys'
    cases hw : p.wl with
    | false => rw [h4 hw, h4' hw]; exact Steinhardt.ql_congr hsys'' hsys
    | true =>
      have := Steinhardt.wlValue_congr (hl hw) hsys'' hsys
      rw [(h3 hw).2, (h3' hw).2] at this
      exact Option.some.inj this

/-- The results of two calls, where the points of the second have the distributions of points of the
first. -/
theorem steinhardt_maps {sph : Steinhardt.Sph} {p : Steinhardt.Params} {Y : ℤ → Vec3 ℝ → ℂ}
    (hf : FsphOK sph p.l Y) (hl : p.wl = true → p.l ≤ 20) {history history' : List Steinhardt.Call}
    (hh : ∀ c ∈ history, LegalSteinhardt p.l c) (hh' : ∀ c ∈ history', LegalSteinhardt p.l c)
    {c c' : Steinhardt.Call} (hc : LegalSteinhardt p.l c) (hc' : LegalSteinhardt p.l c') (σ : ℕ → ℕ)
    (hσc : ∀ i < c'.points.length, σ i < c.points.length)
    (hdist : ∀ av, ∀ i < c'.points.length,
      Steinhardt.asM (Steinhardt.dist p c' av i) = Steinhardt.asM (Steinhardt.dist p c av (σ i)))
    (hsystem : ∀ av row, Steinhardt.Holds Y p.l row (mix ((List.range c'.points.length).map (Steinhardt.dist p c' av))) →
      Steinhardt.Holds Y p.l row (mix ((List.range c.points.length).map (Steinhardt.dist p c av)))) :
    ∃ r r', Steinhardt.resultAfter sph p history c = some r ∧
      Steinhardt.resultAfter sph p history' c' = some r' ∧
      (∀ i < c'.points.length, r'.qli[i]? = r.qli[σ i]? ∧ (r'.getQl p)[i]? = (r.getQl p)[σ i]? ∧
        (r'.particleOrder p)[i]? = (r.particleOrder p)[σ i]?) ∧ r'.order = r.order := by
  obtain ⟨r, r', e, e', h, ho⟩ := steinhardt_local hf hl hh hh' hc hc'
  exact ⟨r, r', e, e', fun i hi => h i hi _ (hσc i hi) (hdist false i hi) (hdist p.average i hi), ho (hsystem p.average)⟩

/-- The results of two calls with the same distributions. -/
theorem steinhardt_congr {sph : Steinhardt.Sph} {p : Steinhardt.Params} {Y : ℤ → Vec3 ℝ → ℂ}
    (hf : FsphOK sph p.l Y) (hl : p.wl = true → p.l ≤ 20) {history history' : List Steinhardt.Call}
    (hh : ∀ c ∈ history, LegalSteinhardt p.l c) (hh' : ∀ c ∈ history', LegalSteinhardt p.l c)
    {c c' : Steinhardt.Call} (hc : LegalSteinhardt p.l c) (hc' : LegalSteinhardt p.l c') (σ : ℕ → ℕ)
    (hlenc : c'.points.length = c.points.length) (hσc : ∀ i < c'.points.length, σ i < c.points.length)
    (hdist : ∀ av, ∀ i < c'.points.length,
      Steinhardt.asM (Steinhardt.dist p c' av i) = Steinhardt.asM (Steinhardt.dist p c av (σ i)))
    (hsystem : ∀ av, Steinhardt.asM (mix ((List.range c'.points.length).map (Steinhardt.dist p c' av))) =
      Steinhardt.asM (mix ((List.range c.points.length).map (Steinhardt.dist p c av)))) :
    ∃ r r', Steinhardt.resultAfter sph p history c = some r ∧
      Steinhardt.resultAfter sph p history' c' = some r' ∧
      (∀ i < c.points.length, r'.qli[i]? = r.qli[σ i]? ∧ (r'.getQl p)[i]? = (r.getQl p)[σ i]? ∧
        (r'.particleOrder p)[i]? = (r.particleOrder p)[σ i]?) ∧ r'.order = r.order := by
  have := steinhardt_maps hf hl hh hh' hc hc' σ hσc hdist fun av row h => Steinhardt.holds_asM (hsystem av) h
  rwa [hlenc] at this

/-- **C86**: the Steinhardt order parameters of the particles (`q_l` and `w_l`, averaged or not,
weighted or not, after any history of calls) move with the particles, and the order parameter of the
system does not change. -/
theorem C86_steinhardt (sph : Steinhardt.Sph) (p : Steinhardt.Params) (Y : ℤ → Vec3 ℝ → ℂ)
    (hf : FsphOK sph p.l Y) (hl : p.wl = true → p.l ≤ 20) (history history' : List Steinhardt.Call)
    (hh : ∀ c ∈ history, LegalSteinhardt p.l c) (hh' : ∀ c ∈ history', LegalSteinhardt p.l c)
    (c c' : Steinhardt.Call) (hc : LegalSteinhardt p.l c) (hc' : LegalSteinhardt p.l c') (t : Vec3 ℝ)
    (σ : Equiv.Perm ℕ) (h : SameCall t σ c c') :
    ∃ r r', Steinhardt.resultAfter sph p history c = some r ∧
      Steinhardt.resultAfter sph p history' c' = some r' ∧
      (∀ i < c.points.length, r'.qli[i]? = r.qli[σ i]? ∧ (r'.getQl p)[i]? = (r.getQl p)[σ i]? ∧
        (r'.particleOrder p)[i]? = (r.particleOrder p)[σ i]?) ∧ r'.order = r.order := by
  exact steinhardt_congr hf hl hh hh' hc hc' σ h.points.length (fun i hi => (h.points.lt_iff i).mpr hi)
    (fun av i hi => Steinhardt.dist_renumbered h hc'.list p av hi)
    (fun av => Steinhardt.system_renumbered h hc'.list p av)

namespace Steinhardt

/-- The pair of C76, exchanged, moved by (3, 0, 0), the second of its particles taken one box back. -/
noncomputable def movedPair : Call :=
  { imagePair 0 with
    points := [⟨-6, 0, 0⟩, ⟨3, 0, 0⟩]
    nlist := { (imagePair 0).nlist with
      bonds := [⟨0, 1, 1, 1, ⟨-1, 0, 0⟩⟩, ⟨1, 0, 1, 1, ⟨1, 0, 0⟩⟩] } }

theorem movedPair_vectors :
    bondVector movedPair.box movedPair.points ⟨0, 1, 1, 1, ⟨-1, 0, 0⟩⟩ = ⟨-1, 0, 0⟩ ∧
    bondVector movedPair.box movedPair.points ⟨1, 0, 1, 1, ⟨1, 0, 0⟩⟩ = ⟨1, 0, 0⟩ := by
  have h1 : modulusPositive (((3 : ℝ) - -6 + 5) / 10) 1 = 4 / 10 := by
    rw [modulusPositive_one, show ((3 : ℝ) - -6 + 5) / 10 = 4 / 10 + ((1 : ℤ) : ℝ) by norm_num,
      Int.fract_add_intCast, Int.fract_eq_self.mpr (by norm_num)]
  have h2 : modulusPositive (((-6 : ℝ) - 3 + 5) / 10) 1 = 6 / 10 := by
    rw [modulusPositive_one, show ((-6 : ℝ) - 3 + 5) / 10 = 6 / 10 + ((-1 : ℤ) : ℝ) by norm_num,
      Int.fract_add_intCast, Int.fract_eq_self.mpr (by norm_num)]
  constructor
  · simp only [bondVector, movedPair, imagePair, pair, Box.wrap, Box.makeFractional, Box.makeAbsolute]
    simp only [List.getD_cons_zero, List.getD_cons_succ, Vec3.sub_x, Vec3.sub_y, Vec3.sub_z]
    simp [Vec3.cmul]
    norm_num at h1 ⊢
    rw [h1]; norm_num
  · simp only [bondVector, movedPair, imagePair, pair, Box.wrap, Box.makeFractional, Box.makeAbsolute]
    simp only [List.getD_cons_zero, List.getD_cons_succ, Vec3.sub_x, Vec3.sub_y, Vec3.sub_z]
    simp [h2, Vec3.cmul]
    norm_num

theorem movedPair_ok : LegalSteinhardt 1 movedPair := by
  refine ⟨⟨⟨?_, ?_, ?_, ?_⟩, ?_⟩, ?_, pair_ok.ev, pair_ok.evAve, pair_ok.order⟩
  · simp [movedPair, imagePair, pair]
  · simp [movedPair, imagePair, pair]
  · simp [movedPair, imagePair, pair]
  · simp [movedPair, imagePair, pair]
  · simp [movedPair, imagePair, pair]
  · intro nb hnb _
    simp only [movedPair, List.mem_cons, List.not_mem_nil, or_false] at hnb
    rcases hnb with rfl | rfl
    · rw [movedPair_vectors.1]; simp [Vec3.dot]
    · rw [movedPair_vectors.2]; simp [Vec3.dot]

theorem movedPair_same : SameCall ⟨3, 0, 0⟩ (Equiv.swap 0 1) (imagePair 0) movedPair := by
  refine ⟨⟨?_, ?_, ?_, ?_, ?_⟩, rfl, ?_, ⟨rfl, fun i p' hp' => ?_⟩, ?_⟩
  · simp [imagePair]; norm_num
  · simp [imagePair]
  · simp [imagePair]
  · simp [imagePair]
  · simp [imagePair]
  · intro v _ h
    simp [imagePair] at h
  · match i, hp' with
    | 0, hp' =>
      simp only [movedPair, List.getElem?_cons_zero, Option.some.injEq] at hp'
      subst hp'
      refine ⟨⟨1, 0, 0⟩, by simp [imagePair], ⟨-1, 0, 0⟩, ⟨by simp [imagePair], by simp, by simp⟩, ?_⟩
      simp [lattice, comb, a1, imagePair, Vec3.ext_iff]; norm_num
    | 1, hp' =>
      simp only [movedPair, List.getElem?_cons_succ, List.getElem?_cons_zero, Option.some.injEq] at hp'
      subst hp'
      refine ⟨⟨0, 0, 0⟩, by simp [imagePair], ⟨0, 0, 0⟩, ⟨by simp, by simp, by simp⟩, ?_⟩
      simp [lattice, comb, Vec3.ext_iff]
    | i + 2, hp' => simp [movedPair] at hp'
  · simp only [SameBonds, movedPair, imagePair, pair, List.map_cons, List.map_nil, relabel,
      Equiv.swap_apply_left, Equiv.swap_apply_right]
    exact List.Perm.swap _ _ _

end Steinhardt

/-- The hypotheses of `C86_steinhardt` are met. -/
example (av w : Bool) : ∃ r r',
    Steinhardt.resultAfter Steinhardt.sph1 ⟨1, av, w, w, w⟩ [] (Steinhardt.imagePair 0) = some r ∧
    Steinhardt.resultAfter Steinhardt.sph1 ⟨1, av, w, w, w⟩ [Steinhardt.pair] Steinhardt.movedPair = some r' ∧
      r'.qli[0]? = r.qli[1]? ∧ r'.order = r.order := by
  obtain ⟨r, r', h1, h2, h3, h4⟩ := C86_steinhardt Steinhardt.sph1 ⟨1, av, w, w, w⟩ Steinhardt.y1
    Steinhardt.sph1_ok (by simp) [] [Steinhardt.pair] (by simp)
    (by intro c hc; rw [List.mem_singleton.mp hc]; exact Steinhardt.pair_ok) _ _
    (Steinhardt.imagePair_ok 0) Steinhardt.movedPair_ok _ _ Steinhardt.movedPair_same
  exact ⟨r, r', h1, h2, by simpa using (h3 0 (by simp [Steinhardt.imagePair])).1, h4⟩

end Freud
