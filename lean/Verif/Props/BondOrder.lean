import Verif.Lemmas.BondOrder
import Verif.Props.Quat
import Mathlib.Algebra.BigOperators.Intervals
import Mathlib.Algebra.BigOperators.Field
import Mathlib.Algebra.Order.BigOperators.Group.Finset

/-!
# Property C79: bond order diagrams
-/

set_option linter.unusedSectionVars false

namespace Freud
open Spec BondOrder

/-- **C79**: the constructor succeeds exactly for at least two bins in each angle. -/
theorem C79_constructor (nT nP : ℕ) : (BondOrder.mk nT nP).isSome ↔ 2 ≤ nT ∧ 2 ≤ nP := by
  have hpi := Real.pi_pos
  simp only [BondOrder.mk]
  split_ifs with h1 h2 h3 h4
  · simp; omega
  · simp; omega
  · exfalso
    have : (1 : ℝ) ≤ nT := by exact_mod_cast (by omega : 1 ≤ nT)
    have : 2 * Real.pi / (nT : ℝ) ≤ 2 * Real.pi := div_le_self (by positivity) this
    linarith
  · exfalso
    have : (1 : ℝ) ≤ nP := by exact_mod_cast (by omega : 1 ≤ nP)
    have : Real.pi / (nP : ℝ) ≤ Real.pi := div_le_self (by positivity) this
    linarith
  · simp; omega

theorem BondOrder.mk_eq {nT nP : ℕ} {g : BondOrder.Grid} (hg : BondOrder.mk nT nP = some g) :
    2 ≤ nT ∧ 2 ≤ nP ∧ g.axes = [⟨nT, 0, 2 * Real.pi⟩, ⟨nP, 0, Real.pi⟩] ∧
    ∀ i < nT, ∀ j < nP, g.sa.getD (i * nP + j) 0 = solidAngle nT nP j := by
  obtain ⟨h1, h2⟩ := (C79_constructor nT nP).mp (by rw [hg]; rfl)
  unfold BondOrder.mk at hg
  rw [if_neg (by omega), if_neg (by omega)] at hg
  dsimp only at hg
  split_ifs at hg with h3 h4
  rw [Option.some.injEq] at hg
  subst hg
  refine ⟨h1, h2, rfl, fun i hi j hj => ?_⟩
  dsimp only
  rw [flatMap_const_getD nT nP _ 0 i j hi hj]
  unfold solidAngle
  congr 3 <;> ring

/-- **C79**: the solid angles that a bond order diagram divides by are positive, and those of all
sectors add up to that of the sphere, 4 pi. -/
theorem C79_solid_angles (nT nP : ℕ) (hT : 2 ≤ nT) (hP : 2 ≤ nP) :
    (∀ j < nP, 0 < solidAngle nT nP j) ∧
    ∑ _i ∈ Finset.range nT, ∑ j ∈ Finset.range nP, solidAngle nT nP j = 4 * Real.pi := by
  have hpi := Real.pi_pos
  have hT' : (0 : ℝ) < nT := by exact_mod_cast (by omega : 0 < nT)
  have hP' : (0 : ℝ) < nP := by exact_mod_cast (by omega : 0 < nP)
  refine ⟨fun j hj => ?_, ?_⟩
  · have hj' : (j : ℝ) + 1 ≤ nP := by exact_mod_cast hj
    have h1 : Real.pi * (j + 1) / nP ≤ Real.pi := by
      rw [div_le_iff₀ hP']; nlinarith
    have h2 : Real.pi * j / nP < Real.pi * (j + 1) / nP := by
      apply div_lt_div_of_pos_right _ hP'; linarith
    have := Real.cos_lt_cos_of_nonneg_of_le_pi (by positivity) h1 h2
    unfold solidAngle
    exact mul_pos (by positivity) (by linarith)
  · have h : ∑ j ∈ Finset.range nP, solidAngle nT nP j = 2 * Real.pi / nT * 2 := by
      unfold solidAngle
      rw [← Finset.mul_sum]
      congr 1
      have := Finset.sum_range_sub' (fun j : ℕ => Real.cos (Real.pi * j / nP)) nP
      push_cast at this
      rw [this]
      have e : Real.pi * (nP : ℝ) / nP = Real.pi := by field_simp
      rw [e]; simp; norm_num
    rw [Finset.sum_const, h, Finset.card_range, nsmul_eq_mul]
    field_simp
    ring

/-- **C79**: after every history of resets, calls (each executed under any thread schedule) and
reads, with at least one call since the last reset, reading `bond_order` succeeds and entry `(i, j)`
is the number of bonds of those calls whose direction points into sector `(i, j)`, divided by the
solid angle of the sector and the number of calls. -/
theorem C79_value (nT nP : ℕ) (g : BondOrder.Grid) (hg : BondOrder.mk nT nP = some g)
    (hn : nT * nP ≤ OVERFLOW_BIN) (mode : Mode) (box0 : Box ℝ) (history : List BondOrder.Op)
    (hl : ∀ o ∈ history, BOLegal nT nP mode o) (order : List ℕ)
    (hord : order.Perm (List.range (nT * nP))) (hc : callsSince history [] ≠ []) :
    ∃ s s' bo, run g mode (new g box0) history = some s ∧
      bondOrder g s order = some (s', bo) ∧ bo.length = nT * nP ∧
      ∀ i < nT, ∀ j < nP, bo[i * nP + j]? = some (
        (howMany (InSector nT nP i j) ((callsSince history []).flatMap (callDirections mode)) : ℝ) /
          solidAngle nT nP j / ((callsSince history []).length : ℝ)) := by
  have hpi := Real.pi_pos
  obtain ⟨h1, h2, hax, hsa⟩ := BondOrder.mk_eq hg
  have hnT : nT ≤ OVERFLOW_BIN := le_trans (Nat.le_mul_of_pos_right nT (by omega)) hn
  have hnP : nP ≤ OVERFLOW_BIN := le_trans (Nat.le_mul_of_pos_left nP (by omega)) hn
  have hlegal : ∀ o ∈ history.map (conv mode), HCLegalOp g.axes o := by
    intro o ho
    obtain ⟨o, ho', rfl⟩ := List.mem_map.mp ho
    have := hl o ho'
    cases o with
    | reset => exact trivial
    | read ord => simpa [conv, HCLegalOp, hax, BOLegal] using this
    | accumulate c =>
      refine ⟨this.1, fun i hi s hs => ?_⟩
      obtain ⟨b, hb, hbs⟩ := List.mem_filterMap.mp hs
      rw [sample_eq _ _ _ _ (this.2 _ (mem_callDirections hi hb)), Option.some.injEq] at hbs
      rw [← hbs, hax]; rfl
  obtain ⟨s, s', e1, e2, hout, hh, haxes, hcnt⟩ := hc_read (fun (_ : Unit) (_ : Box ℝ) => fill g)
    (zero g) g.axes (by
      intro a ha
      rw [hax] at ha
      simp only [List.mem_cons, List.not_mem_nil, or_false] at ha
      rcases ha with rfl | rfl
      · exact ⟨by simp; omega, hnT, by simp; exact hpi⟩
      · exact ⟨by simp; omega, hnP, by simp; exact hpi⟩) (by rw [hax]; simpa using hn) () box0
    (history.map (conv mode)) hlegal order (by rw [hax]; simpa using hord)
  obtain ⟨hf, hnz⟩ := frames_eq nT nP mode history [] hl (by simp)
  simp only [List.map_nil] at hf
  rw [hf, List.length_map] at hout
  have hlen := fill_length g.axes hh haxes
  rw [hax] at hlen
  simp only [List.map_cons, List.map_nil, List.prod_cons, List.prod_nil, mul_one] at hlen
  refine ⟨s, s', s'.out, ?_, ?_, ?_, ?_⟩
  · rw [run_eq g nT nP mode history _ hl]; exact e1
  · unfold bondOrder; rw [e2]; rfl
  · rw [hout]; simp [fill, hlen]
  · intro i hi j hj
    have hv : ValidIndex [i, j] (g.axes.map (·.nbins)) := by rw [hax]; simp [ValidIndex, hi, hj]
    have hij := hcnt [i, j] hv
    rw [hf, flatMap_angles] at hij
    have hvs : ∀ v ∈ (callsSince history []).flatMap (callDirections mode), v ≠ ⟨0, 0, 0⟩ := by
      intro v hv
      obtain ⟨c, hc, hv⟩ := List.mem_flatMap.mp hv
      exact hnz c hc v hv
    rw [hax, countIn_angles nT nP i j (by omega) (by omega) hi hj _ hvs] at hij
    have := fill_at g.axes hh haxes [i, j] hv _ hij
      (fun l => 1 / g.sa.getD l 0 / ((callsSince history []).length : ℝ))
    rw [hax] at this
    simp only [List.map_cons, List.map_nil, rowMajor, List.prod_cons, List.prod_nil, mul_one,
      add_zero] at this
    rw [hsa i hi j hj] at this
    rw [hout]
    have e : ∀ (a b c : ℝ), a / b / c = a * (1 / b / c) := fun a b c => by
      rw [div_div, div_div, mul_one_div]
    have e2 : fill g (callsSince history []).length s'.bhc.histogram.counts.data =
        (List.range s'.bhc.histogram.counts.data.length).map (fun i =>
          (s'.bhc.histogram.counts.data.getD i 0 : ℝ) *
            (1 / g.sa.getD i 0 / ((callsSince history []).length : ℝ))) :=
      List.map_congr_left fun i _ => e _ _ _
    rw [e2, this, Option.some.injEq]
    exact (e _ _ _).symm

/-! ### How many bonds are counted -/

theorem BondOrder.sector_unique (nT nP : ℕ) (hT : 0 < nT) (hP : 0 < nP)
    (hnT : nT ≤ OVERFLOW_BIN) (hnP : nP ≤ OVERFLOW_BIN) (v : Vec3 ℝ) (hv : v ≠ ⟨0, 0, 0⟩) :
    ∃ i0 j0, (¬ Down v → i0 < nT ∧ j0 < nP) ∧
      ∀ i < nT, ∀ j < nP, InSector nT nP i j v ↔ (¬ Down v ∧ i = i0 ∧ j = j0) := by
  have hpi := Real.pi_pos
  obtain ⟨i0, hi0, h1⟩ := bins_sum nT hT hnT (2 * Real.pi) (by positivity) (theta v)
    (theta_range v).1
  obtain ⟨j0, hj0, h2⟩ := bins_sum nP hP hnP Real.pi hpi (phi v) (phi_range v).1
  have hd : ¬ Down v ↔ phi v < Real.pi := by
    rw [← phi_eq_pi_iff hv]
    exact ⟨fun h => lt_of_le_of_ne (phi_range v).2 h, fun h => h.ne⟩
  refine ⟨i0, j0, fun h => ⟨hi0 (theta_range v).2, hj0 (hd.mp h)⟩, fun i hi j hj => ?_⟩
  rw [← inBins_iff nT nP i j hT hP hi hj v hv, hd]
  simp only [InBins, and_true]
  rw [h1 i hi, h2 j hj]
  have := (theta_range v).2
  tauto

theorem BondOrder.howMany_cons (p : Vec3 ℝ → Prop) [Decidable (p v)] (vs : List (Vec3 ℝ)) :
    howMany p (v :: vs) = (if p v then 1 else 0) + howMany p vs := by
  classical
  unfold howMany
  rw [List.filter_cons]
  by_cases h : p v
  · rw [if_pos (by simpa using h), if_pos h, List.length_cons]; ring
  · rw [if_neg (by simpa using h), if_neg h, zero_add]

theorem BondOrder.sum_howMany (nT nP : ℕ) (hT : 0 < nT) (hP : 0 < nP)
    (hnT : nT ≤ OVERFLOW_BIN) (hnP : nP ≤ OVERFLOW_BIN) (vs : List (Vec3 ℝ))
    (hv : ∀ v ∈ vs, v ≠ ⟨0, 0, 0⟩) :
    ∑ i ∈ Finset.range nT, ∑ j ∈ Finset.range nP, howMany (InSector nT nP i j) vs =
      howMany (fun v => ¬ Down v) vs := by
  classical
  induction vs with
  | nil => simp [howMany]
  | cons v vs ih =>
    have ih := ih (fun v h => hv v (by simp [h]))
    simp only [BondOrder.howMany_cons, Finset.sum_add_distrib]
    rw [ih]
    congr 1
    obtain ⟨i0, j0, hr, h⟩ := BondOrder.sector_unique nT nP hT hP hnT hnP v (hv v (by simp))
    have e : ∀ i ∈ Finset.range nT, ∑ j ∈ Finset.range nP, (if InSector nT nP i j v then 1 else 0) =
        if i = i0 then (if Down v then 0 else 1) else 0 := by
      intro i hi
      have hi := Finset.mem_range.mp hi
      have e1 : ∀ j ∈ Finset.range nP, (if InSector nT nP i j v then 1 else 0) =
          if j = j0 then (if i = i0 then (if Down v then 0 else 1) else 0) else 0 := by
        intro j hj
        have := h i hi j (Finset.mem_range.mp hj)
        by_cases h1 : Down v <;> by_cases h2 : i = i0 <;> by_cases h3 : j = j0 <;> simp_all
      rw [Finset.sum_congr rfl e1, Finset.sum_ite_eq' (Finset.range nP) j0]
      by_cases h1 : Down v
      · simp [h1]
      · rw [if_pos (Finset.mem_range.mpr (hr h1).2)]
    rw [Finset.sum_congr rfl e, Finset.sum_ite_eq' (Finset.range nT) i0]
    by_cases h1 : Down v
    · simp [h1]
    · rw [if_pos (Finset.mem_range.mpr (hr h1).1)]; simp [h1]

/-- **C79**: multiplied with the solid angles and summed over all sectors, the diagram gives the
mean number of bonds per call, except that bonds pointing straight down (azimuthal angle 0, polar
angle pi) are counted nowhere: the last bin of the polar angle does not contain its upper end. The
full property, that every bond is counted, fails for them (`C79_down_counterexample`). -/
theorem C79_total_partial (nT nP : ℕ) (g : BondOrder.Grid) (hg : BondOrder.mk nT nP = some g)
    (hn : nT * nP ≤ OVERFLOW_BIN) (mode : Mode) (box0 : Box ℝ) (history : List BondOrder.Op)
    (hl : ∀ o ∈ history, BOLegal nT nP mode o) (order : List ℕ)
    (hord : order.Perm (List.range (nT * nP))) (hc : callsSince history [] ≠ []) :
    ∃ s s' bo, run g mode (new g box0) history = some s ∧
      bondOrder g s order = some (s', bo) ∧
      ∑ i ∈ Finset.range nT, ∑ j ∈ Finset.range nP,
          bo.getD (i * nP + j) 0 * solidAngle nT nP j =
        (howMany (fun v => ¬ Down v) ((callsSince history []).flatMap (callDirections mode)) : ℝ) /
          ((callsSince history []).length : ℝ) := by
  obtain ⟨s, s', bo, e1, e2, -, h⟩ := C79_value nT nP g hg hn mode box0 history hl order hord hc
  obtain ⟨h1, h2, -, -⟩ := BondOrder.mk_eq hg
  have hnT : nT ≤ OVERFLOW_BIN := le_trans (Nat.le_mul_of_pos_right nT (by omega)) hn
  have hnP : nP ≤ OVERFLOW_BIN := le_trans (Nat.le_mul_of_pos_left nP (by omega)) hn
  refine ⟨s, s', bo, e1, e2, ?_⟩
  have hvs : ∀ v ∈ (callsSince history []).flatMap (callDirections mode), v ≠ ⟨0, 0, 0⟩ := by
    intro v hv
    obtain ⟨c, hc, hv⟩ := List.mem_flatMap.mp hv
    exact (frames_eq nT nP mode history [] hl (by simp)).2 c hc v hv
  rw [← BondOrder.sum_howMany nT nP (by omega) (by omega) hnT hnP _ hvs]
  push_cast
  rw [Finset.sum_div]
  refine Finset.sum_congr rfl fun i hi => ?_
  rw [Finset.sum_div]
  refine Finset.sum_congr rfl fun j hj => ?_
  have hi := Finset.mem_range.mp hi
  have hj := Finset.mem_range.mp hj
  rw [List.getD_eq_getElem?_getD, h i hi j hj, Option.getD_some]
  have hp := (C79_solid_angles nT nP h1 h2).1 j hj
  rw [div_right_comm, div_mul_cancel₀ _ hp.ne']

/-! ### The directions -/

theorem BondOrder.rotate_neg (q : Quat ℝ) (v : Vec3 ℝ) : Quat.rotate q (-v) = -Quat.rotate q v := by
  ext <;> simp [Quat.rotate, Vec3.smul, Vec3.dot, Vec3.cross] <;> ring

/-- **C79**: what the modes bin, for unit quaternions. `bod`: the bond vector. `lbod`: the vector
that, turned by the orientation of the point, is the bond vector. `obcd`: the bond vector turned by
the rotation that takes the orientation of the point to that of the query point. `oocd`: the vector
that, turned by the orientation of the point, is the director (the turned z axis) of the query
point. In all modes but `oocd` the vector is as long as the bond. -/
theorem C79_directions (ori queryOri : ℕ → Quat ℝ) (b : Bond ℝ)
    (hp : Quat.norm2 (ori b.p) = 1) (hq : Quat.norm2 (queryOri b.q) = 1) :
    direction .bod ori queryOri b = b.vec ∧
    Quat.rotate (ori b.p) (direction .lbod ori queryOri b) = b.vec ∧
    (∃ t : Quat ℝ, Quat.norm2 t = 1 ∧ Quat.mul t (ori b.p) = queryOri b.q ∧
      direction .obcd ori queryOri b = Quat.rotate t b.vec) ∧
    Quat.rotate (ori b.p) (direction .oocd ori queryOri b) =
      Quat.rotate (queryOri b.q) ⟨0, 0, 1⟩ ∧
    (∀ mode, mode ≠ .oocd → Vec3.dot (direction mode ori queryOri b) (direction mode ori queryOri b) =
      Vec3.dot b.vec b.vec) := by
  have hd : ∀ (q : Quat ℝ) (v : Vec3 ℝ), Quat.norm2 q = 1 →
      Vec3.dot (Quat.rotate q v) (Quat.rotate q v) = Vec3.dot v v := by
    intro q v h
    rw [Quat.dot_rotate, h]; ring
  have hcp : Quat.norm2 (Quat.conj (ori b.p)) = 1 := by rw [Quat.norm2_conj, hp]
  refine ⟨rfl, Quat.rotate_rotate_conj _ hp _, ⟨Quat.mul (queryOri b.q) (Quat.conj (ori b.p)), ?_, ?_, ?_⟩,
    Quat.rotate_rotate_conj _ hp _, ?_⟩
  · rw [Quat.norm2_mul, hcp, hq, mul_one]
  · rw [Quat.mul_assoc', Quat.conj_mul_self _ hp, Quat.mul_one']
  · rw [Quat.rotate_mul]; rfl
  · intro mode hm
    cases mode with
    | bod => rfl
    | lbod => exact hd _ _ hcp
    | obcd => exact (hd _ _ hq).trans (hd _ _ hcp)
    | oocd => exact absurd rfl hm

/-- **C79**: turning the whole system (bond vectors and orientations) leaves the directions of
`lbod` and `oocd` as they are and turns those of `bod` and `obcd`. -/
theorem C79_rotation (t : Quat ℝ) (ht : Quat.norm2 t = 1) (ori queryOri : ℕ → Quat ℝ) (b : Bond ℝ) :
    let ori' := fun i => Quat.mul t (ori i)
    let queryOri' := fun i => Quat.mul t (queryOri i)
    let b' : Bond ℝ := { b with vec := Quat.rotate t b.vec }
    direction .lbod ori' queryOri' b' = direction .lbod ori queryOri b ∧
    direction .oocd ori' queryOri' b' = direction .oocd ori queryOri b ∧
    direction .bod ori' queryOri' b' = Quat.rotate t (direction .bod ori queryOri b) ∧
    direction .obcd ori' queryOri' b' = Quat.rotate t (direction .obcd ori queryOri b) := by
  simp only [direction, Quat.conj_mul, Quat.rotate_mul, Quat.rotate_conj_rotate t ht, and_self]

/-- **C79**: for a system with itself and a list in which every bond appears in both directions, the
directions of `lbod` are those of the neighbors in the frame of the particle they are neighbors of,
all reversed; those of `oocd` are the directors of the neighbors in the frame of the particle. -/
theorem C79_symmetric_list (ori : ℕ → Quat ℝ) (bonds : List (Bond ℝ))
    (hs : (bonds.map reversed).Perm bonds) :
    (bonds.map (direction .lbod ori ori)).Perm
      (bonds.map (fun b => -Quat.rotate (Quat.conj (ori b.q)) b.vec)) ∧
    (bonds.map (direction .oocd ori ori)).Perm
      (bonds.map (fun b => Quat.rotate (Quat.conj (ori b.q)) (Quat.rotate (ori b.p) ⟨0, 0, 1⟩))) := by
  constructor
  · refine ((hs.map (direction .lbod ori ori)).symm).trans (List.Perm.of_eq ?_)
    rw [List.map_map]
    refine List.map_congr_left fun b _ => ?_
    simp only [Function.comp, direction, reversed, BondOrder.rotate_neg]
  · refine ((hs.map (direction .oocd ori ori)).symm).trans (List.Perm.of_eq ?_)
    rw [List.map_map]
    rfl

/-! ### Concrete cases -/

/-- Two particles above each other, as neighbors of each other; the second bond points down. -/
noncomputable def BondOrder.stacked : BondOrder.Call where
  box := Box.mk' 10 10 10 0 0 0 false
  ori := fun _ => Quat.one
  queryOri := fun _ => Quat.one
  n := 2
  bonds := fun i => if i = 0 then [⟨0, 1, 1, 1, ⟨0, 0, 1⟩⟩] else [⟨1, 0, 1, 1, ⟨0, 0, -1⟩⟩]
  ev := [(0, 0), (1, 1)]

theorem BondOrder.stacked_directions :
    callDirections .bod BondOrder.stacked = [⟨0, 0, 1⟩, ⟨0, 0, -1⟩] := by
  simp [callDirections, BondOrder.stacked, direction, List.range_succ]

theorem BondOrder.stacked_legal (nT nP : ℕ) :
    BOLegal nT nP .bod (.accumulate BondOrder.stacked) := by
  refine ⟨?_, ?_⟩
  · simp [IsExecution, BondOrder.stacked, List.range_succ]
  · rw [BondOrder.stacked_directions]
    intro v hv
    simp only [List.mem_cons, List.not_mem_nil, or_false] at hv
    rcases hv with rfl | rfl
    · intro h
      have := congrArg Vec3.z h
      norm_num at this
    · intro h
      have := congrArg Vec3.z h
      norm_num at this

/-- **C79**: of two particles above each other, each with one bond to the other, only one bond is
counted: weighted with the solid angles the diagram adds up to 1, not to the 2 bonds there are. -/
theorem C79_down_counterexample : ∃ (g : BondOrder.Grid) (s s' : _) (bo : List ℝ),
    BondOrder.mk 4 4 = some g ∧
    run g .bod (new g BondOrder.stacked.box) [.accumulate BondOrder.stacked] = some s ∧
    bondOrder g s (List.range 16) = some (s', bo) ∧
    (callDirections .bod BondOrder.stacked).length = 2 ∧
    ∑ i ∈ Finset.range 4, ∑ j ∈ Finset.range 4, bo.getD (i * 4 + j) 0 * solidAngle 4 4 j = 1 := by
  obtain ⟨g, hg⟩ := Option.isSome_iff_exists.mp ((C79_constructor 4 4).mpr ⟨by norm_num, by norm_num⟩)
  obtain ⟨s, s', bo, e1, e2, h⟩ := C79_total_partial 4 4 g hg (by norm_num [OVERFLOW_BIN]) .bod
    BondOrder.stacked.box [.accumulate BondOrder.stacked]
    (by simpa using BondOrder.stacked_legal 4 4) (List.range 16) (List.Perm.refl _)
    (by simp [callsSince])
  refine ⟨g, s, s', bo, hg, e1, e2, by rw [BondOrder.stacked_directions]; rfl, ?_⟩
  rw [h]
  classical
  simp only [callsSince, List.nil_append, List.flatMap_cons, List.flatMap_nil, List.append_nil,
    BondOrder.stacked_directions, BondOrder.howMany_cons, Down]
  norm_num [howMany]

/-- The hypotheses of `C79_value` and `C79_total_partial` hold for a history with a reset, reads and
two calls. -/
example : ∀ o ∈ [.accumulate BondOrder.stacked, .read (List.range 16), .reset,
    .accumulate BondOrder.stacked, .accumulate BondOrder.stacked],
    BOLegal 4 4 .bod o := by
  intro o ho
  simp only [List.mem_cons, List.not_mem_nil, or_false] at ho
  rcases ho with rfl | rfl | rfl | rfl | rfl
  · exact BondOrder.stacked_legal 4 4
  · exact List.Perm.refl _
  · exact trivial
  · exact BondOrder.stacked_legal 4 4
  · exact BondOrder.stacked_legal 4 4

/-- The orientations of two particles, the second turned by half a turn about the z axis. -/
noncomputable def BondOrder.halfTurn (i : ℕ) : Quat ℝ := if i = 1 then ⟨0, ⟨0, 0, 1⟩⟩ else Quat.one

/-- Two particles next to each other along x, each a neighbor of the other. -/
noncomputable def BondOrder.sideBySide : List (Bond ℝ) :=
  [⟨0, 1, 1, 1, ⟨1, 0, 0⟩⟩, ⟨1, 0, 1, 1, ⟨-1, 0, 0⟩⟩]

/-- **C79**: `lbod` is documented to bin the neighbors in the local frame of the particle. For two
particles that both have their neighbor at +x in their own frame, it bins two bonds along -x. -/
theorem C79_lbod_frame_counterexample :
    (BondOrder.sideBySide.map reversed).Perm BondOrder.sideBySide ∧
    (∀ i, Quat.norm2 (BondOrder.halfTurn i) = 1) ∧
    BondOrder.sideBySide.map (fun b => Quat.rotate (Quat.conj (BondOrder.halfTurn b.q)) b.vec) =
      [⟨1, 0, 0⟩, ⟨1, 0, 0⟩] ∧
    BondOrder.sideBySide.map (direction .lbod BondOrder.halfTurn BondOrder.halfTurn) =
      [⟨-1, 0, 0⟩, ⟨-1, 0, 0⟩] := by
  have hneg : ∀ x y z : ℝ, -(⟨x, y, z⟩ : Vec3 ℝ) = ⟨-x, -y, -z⟩ := fun _ _ _ => rfl
  refine ⟨?_, ?_, ?_, ?_⟩
  · simp only [BondOrder.sideBySide, List.map_cons, List.map_nil, reversed, hneg, neg_zero, neg_neg]
    exact List.Perm.swap _ _ _
  · intro i
    unfold BondOrder.halfTurn
    split_ifs <;> simp [Quat.norm2, Quat.one, Vec3.dot]
  · simp [BondOrder.sideBySide, BondOrder.halfTurn, Quat.rotate, Quat.conj, Quat.one, Vec3.dot,
      Vec3.smul, Vec3.cross, Vec3.ext_iff]
  · simp [BondOrder.sideBySide, direction, BondOrder.halfTurn, Quat.rotate, Quat.conj, Quat.one,
      Vec3.dot, Vec3.smul, Vec3.cross, Vec3.ext_iff]

end Freud
