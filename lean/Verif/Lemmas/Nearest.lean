import Verif.Model.NearestQuery
import Verif.Props.BallQuery

/-!
# Lemmas on the search for nearest neighbors
-/

namespace Freud
open Spec NearIter

/-! ### The map of minimal distances -/

structure MinInv (rMin : ℝ) (l : List (Bond ℝ)) (s : MinState) : Prop where
  none_iff : ∀ j, s.1 j = none ↔ ∀ bd ∈ l, bd.p ≠ j
  some_spec : ∀ j bd, s.1 j = some bd → bd ∈ l ∧ bd.p = j ∧ ∀ bd' ∈ l, bd'.p = j → bd.dist ≤ bd'.dist
  below : ∀ j, j ∈ s.2 ↔ ∃ bd, s.1 j = some bd ∧ bd.dist < rMin

theorem minInv_nil (rMin : ℝ) : MinInv rMin [] (fun _ => none, ∅) := by
  constructor <;> simp

theorem minInv_snoc {rMin : ℝ} {l : List (Bond ℝ)} {s : MinState} (h : MinInv rMin l s)
    (nb : Bond ℝ) : MinInv rMin (l ++ [nb]) (minStep rMin s nb) := by
  obtain ⟨h1, h2, h3⟩ := h
  unfold minStep
  by_cases hc : ∀ old, s.1 nb.p = some old → nb.dist < old.dist
  · rw [if_pos hc]
    refine ⟨?_, ?_, ?_⟩
    · intro j
      simp only [Function.update_apply]
      by_cases hj : j = nb.p
      · subst hj
        simp only [if_true, reduceCtorEq, false_iff]
        intro h
        exact h nb (by simp) rfl
      · rw [if_neg hj, h1]
        constructor
        · intro h bd hbd
          rcases List.mem_append.mp hbd with h' | h'
          · exact h bd h'
          · rw [List.mem_singleton.mp h']; exact Ne.symm hj
        · intro h bd hbd; exact h bd (List.mem_append_left _ hbd)
    · intro j bd hbd
      simp only [Function.update_apply] at hbd
      by_cases hj : j = nb.p
      · subst hj
        rw [if_pos rfl] at hbd
        obtain rfl := Option.some.inj hbd
        refine ⟨by simp, rfl, ?_⟩
        intro bd' hbd' hp
        rcases List.mem_append.mp hbd' with h' | h'
        · cases ho : s.1 nb.p with
          | none => exact absurd hp ((h1 _).mp ho bd' h')
          | some old => exact (hc old ho).le.trans ((h2 _ _ ho).2.2 bd' h' hp)
        · rw [List.mem_singleton.mp h']
      · rw [if_neg hj] at hbd
        obtain ⟨m1, m2, m3⟩ := h2 j bd hbd
        refine ⟨List.mem_append_left _ m1, m2, ?_⟩
        intro bd' hbd' hp
        rcases List.mem_append.mp hbd' with h' | h'
        · exact m3 bd' h' hp
        · rw [List.mem_singleton.mp h'] at hp; exact absurd hp.symm hj
    · intro j
      simp only [Function.update_apply]
      by_cases hj : j = nb.p
      · subst hj
        simp only [if_true, Option.some.injEq, exists_eq_left']
        by_cases hr : nb.dist < rMin
        · simp [hr]
        · rw [if_neg hr, h3]
          constructor
          · rintro ⟨old, ho, hlt⟩
            exact (hc old ho).trans hlt
          · intro h; exact absurd h hr
      · rw [if_neg hj]
        by_cases hr : nb.dist < rMin
        · rw [if_pos hr, Finset.mem_insert, ← h3]
          simp [hj]
        · rw [if_neg hr, h3]
  · rw [if_neg hc]
    push Not at hc
    obtain ⟨old, ho, hle⟩ := hc
    refine ⟨?_, ?_, h3⟩
    · intro j
      rw [h1]
      constructor
      · intro h bd hbd
        rcases List.mem_append.mp hbd with h' | h'
        · exact h bd h'
        · rw [List.mem_singleton.mp h']
          intro hj
          have := (h1 j).mpr h
          rw [← hj, ho] at this
          cases this
      · intro h bd hbd; exact h bd (List.mem_append_left _ hbd)
    · intro j bd hbd
      obtain ⟨m1, m2, m3⟩ := h2 j bd hbd
      refine ⟨List.mem_append_left _ m1, m2, ?_⟩
      intro bd' hbd' hp
      rcases List.mem_append.mp hbd' with h' | h'
      · exact m3 bd' h' hp
      · rw [List.mem_singleton.mp h'] at hp ⊢
        rw [← hp, ho] at hbd
        rw [← Option.some.inj hbd]; exact hle

theorem minInv_foldl (rMin : ℝ) (l : List (Bond ℝ)) :
    MinInv rMin l (l.foldl (minStep rMin) (fun _ => none, ∅)) := by
  induction l using List.reverseRecOn with
  | nil => exact minInv_nil rMin
  | append_singleton l a ih =>
    rw [List.foldl_append]
    exact minInv_snoc ih a

theorem mem_mapBonds (n : ℕ) (m : ℕ → Option (Bond ℝ)) (bd : Bond ℝ) :
    bd ∈ mapBonds n m ↔ ∃ j < n, m j = some bd := by
  simp [mapBonds]

theorem mapBonds_nodup (n : ℕ) (m : ℕ → Option (Bond ℝ)) (hm : ∀ j bd, m j = some bd → bd.p = j) :
    ((mapBonds n m).map (·.p)).Nodup := by
  have key : ∀ l : List ℕ, List.Sublist ((l.filterMap m).map (·.p)) l := by
    intro l
    induction l with
    | nil => exact List.Sublist.refl _
    | cons a l ih =>
      cases h : m a with
      | none => rw [List.filterMap_cons_none h]; exact ih.cons _
      | some bd =>
        rw [List.filterMap_cons_some h, List.map_cons, hm a bd h]
        exact ih.cons_cons _
  exact (key _).nodup List.nodup_range

theorem filter_length (rMin : ℝ) (l : List (Bond ℝ)) (s : MinState) (h : MinInv rMin l s) (n : ℕ) :
    (mapBonds n s.1).length - s.2.card ≤
      ((mapBonds n s.1).filter (fun nb => decide (rMin ≤ nb.dist))).length := by
  have h1 : ((mapBonds n s.1).filter (fun nb => !decide (rMin ≤ nb.dist))).length ≤ s.2.card := by
    have hn := mapBonds_nodup n s.1 (fun j bd e => (h.some_spec j bd e).2.1)
    have hn' := (List.filter_sublist (p := fun nb : Bond ℝ => !decide (rMin ≤ nb.dist))
      (l := mapBonds n s.1)).map (·.p) |>.nodup hn
    rw [← List.length_map (f := (·.p)), ← List.toFinset_card_of_nodup hn']
    apply Finset.card_le_card
    intro j hj
    rw [List.mem_toFinset] at hj
    obtain ⟨bd, hbd, rfl⟩ := List.mem_map.mp hj
    obtain ⟨hb1, hb2⟩ := List.mem_filter.mp hbd
    obtain ⟨j, -, hj⟩ := (mem_mapBonds _ _ _).mp hb1
    rw [(h.some_spec j bd hj).2.1, h.below]
    exact ⟨bd, hj, by simpa using hb2⟩
  have h2 := List.length_eq_length_filter_add (l := mapBonds n s.1)
    (fun nb : Bond ℝ => decide (rMin ≤ nb.dist))
  omega

/-! ### One ball query of the search -/

theorem minTop_le (r : ℝ) (m : WithTop ℝ) : minTop r m ≤ r := by
  cases m with
  | top => exact le_rfl
  | coe m => exact min_le_left _ _

theorem minTop_pos {r : ℝ} {m : WithTop ℝ} (hr : 0 < r) (hm : ¬ m ≤ ((0 : ℝ) : WithTop ℝ)) :
    0 < minTop r m := by
  cases m with
  | top => exact hr
  | coe m =>
    rw [WithTop.coe_le_coe, not_le] at hm
    exact lt_min hr hm

theorem minTop_le_top (r : ℝ) (m : WithTop ℝ) : (minTop r m : WithTop ℝ) ≤ m := by
  cases m with
  | top => exact le_top
  | coe m => exact WithTop.coe_le_coe.mpr (min_le_right _ _)

theorem ballAt_some (it : NearIter) (r : ℝ) (hr : 0 < minTop r it.rMax) :
    ∃ ims, updateImageVectors it.aq.box (minTop r it.rMax) false = some ims ∧
      it.ballAt r = some ((((⟨it.aq, ims, it.qp, it.qi, minTop r it.rMax, 0, it.excludeII⟩ :
        BallIter).run 0 0 0).filter fun nb => !it.excludeII || decide (it.qi ≠ nb.p)).map
          fun nb => { nb with q := it.qi }) := by
  refine ⟨_, rfl, ?_⟩
  unfold ballAt BallIter.new
  rw [if_neg (not_le.mpr hr), if_neg (not_le.mpr hr)]
  rfl

/-- The vector of the copy of point `p` that is `n` boxes away. -/
noncomputable def copyVec (b : Box ℝ) (q p : Vec3 ℝ) (n : Vec3 ℤ) : Vec3 ℝ := p - q + lattice b n

/-- `n` is one of the at most 27 copies that are searched. -/
def Searched (b : Box ℝ) (n : Vec3 ℤ) : Prop :=
  AllowedShift b n ∧ (-1 ≤ n.x ∧ n.x ≤ 1) ∧ (-1 ≤ n.y ∧ n.y ≤ 1) ∧ (-1 ≤ n.z ∧ n.z ≤ 1)

theorem searched_neg {b : Box ℝ} {n : Vec3 ℤ} (h : Searched b n) : Searched b (-n) := by
  obtain ⟨hn, h1, h2, h3⟩ := h
  refine ⟨⟨fun e => by simp [hn.1 e], fun e => by simp [hn.2.1 e], fun e => by simp [hn.2.2 e]⟩, ?_⟩
  simp only [Vec3.neg_x, Vec3.neg_y, Vec3.neg_z]
  omega

structure Setting (b : Box ℝ) (pts : List (Vec3 ℝ)) (it : NearIter) : Prop where
  valid : Valid b
  new : AABBQuery.new b pts = some it.aq
  pts_in : ∀ p ∈ pts, InCell b p
  q_in : InCell b it.qp
  rMax_pos : ¬ it.rMax ≤ ((0 : ℝ) : WithTop ℝ)

theorem Setting.box {b : Box ℝ} {pts : List (Vec3 ℝ)} {it : NearIter} (h : Setting b pts it) :
    it.aq.box = b := new_box h.new

theorem Setting.pts_eq {b : Box ℝ} {pts : List (Vec3 ℝ)} {it : NearIter} (h : Setting b pts it) :
    it.aq.pts = pts := (new_parts h.new fun p hp => inCell_planar h.valid (h.pts_in p hp)).1

theorem mem_ballAt {b : Box ℝ} {pts : List (Vec3 ℝ)} {it : NearIter} (hs : Setting b pts it)
    {r : ℝ} (hr : 0 < r) {bonds : List (Bond ℝ)} (h : it.ballAt r = some bonds) (bd : Bond ℝ) :
    bd ∈ bonds ↔ bd.q = it.qi ∧ bd.weight = 1 ∧ bd.dist = Vec3.norm bd.vec ∧
      (it.excludeII = true → bd.p ≠ it.qi) ∧ Vec3.norm bd.vec < minTop r it.rMax ∧
      ∃ p n, pts[bd.p]? = some p ∧ Searched b n ∧ bd.vec = copyVec b it.qp p n := by
  have hpos := minTop_pos hr hs.rMax_pos
  obtain ⟨ims, hims, e⟩ := ballAt_some it r hpos
  rw [h] at e
  obtain rfl := Option.some.inj e
  rw [hs.box] at hims
  have hm := mem_run it.aq pts b hs.new (fun p hp => inCell_planar hs.valid (hs.pts_in p hp))
    ⟨it.aq, ims, it.qp, it.qi, minTop r it.rMax, 0, it.excludeII⟩ rfl hpos.le le_rfl
  simp only [flatten_planar (inCell_planar hs.valid hs.q_in)] at hm
  constructor
  · intro hbd
    obtain ⟨nb, hnb, rfl⟩ := List.mem_map.mp hbd
    obtain ⟨h1, -⟩ := List.mem_filter.mp hnb
    obtain ⟨g1, g2, g3, g4, -, g5, p, im, him, gp, gv⟩ := (hm nb).mp h1
    obtain ⟨n, hn, hst, rfl⟩ := (mem_images hims im).mp him
    refine ⟨rfl, g2, g3, g4, g5, p, -n, gp, searched_neg ⟨hn, (mem_imageSteps n).mp hst⟩, ?_⟩
    simp only [gv, copyVec]
    ext <;> simp [lattice, comb] <;> ring
  · rintro ⟨g1, g2, g3, g4, g5, p, n, gp, hn, gv⟩
    refine List.mem_map.mpr ⟨bd, List.mem_filter.mpr ⟨(hm bd).mpr ⟨g1, g2, g3, g4,
      norm_nonneg' _, g5, p, lattice b (-n), ?_, gp, ?_⟩, ?_⟩, ?_⟩
    · have := searched_neg hn
      exact (mem_images hims _).mpr ⟨-n, this.1, (mem_imageSteps _).mpr this.2, rfl⟩
    · rw [gv, copyVec]
      ext <;> simp [lattice, comb] <;> ring
    · cases hx : it.excludeII with
      | false => rfl
      | true => simpa using Ne.symm (g4 hx)
    · obtain ⟨a1, a2, a3, a4, a5⟩ := bd
      simp only at g1
      subst g1
      rfl

theorem belowHalf_of_minPlane {b : Box ℝ} {r : ℝ} (h : r < minPlane b / 2) : BelowHalf b r := by
  unfold minPlane at h
  refine ⟨fun _ => ?_, fun _ => ?_, fun _ h2 => ?_⟩
  · split at h
    · linarith [min_le_left b.getNearestPlaneDistance.x b.getNearestPlaneDistance.y]
    · linarith [min_le_left b.getNearestPlaneDistance.x b.getNearestPlaneDistance.y,
        min_le_left (min b.getNearestPlaneDistance.x b.getNearestPlaneDistance.y)
          b.getNearestPlaneDistance.z]
  · split at h
    · linarith [min_le_right b.getNearestPlaneDistance.x b.getNearestPlaneDistance.y]
    · linarith [min_le_right b.getNearestPlaneDistance.x b.getNearestPlaneDistance.y,
        min_le_left (min b.getNearestPlaneDistance.x b.getNearestPlaneDistance.y)
          b.getNearestPlaneDistance.z]
  · rw [h2] at h
    simp only [Bool.false_eq_true, if_false] at h
    linarith [min_le_right (min b.getNearestPlaneDistance.x b.getNearestPlaneDistance.y)
          b.getNearestPlaneDistance.z]

theorem exists_half {b : Box ℝ} {w : Vec3 ℝ} (h : Vec3.norm w < minPlane b / 2) :
    ∃ r, BelowHalf b r ∧ Vec3.norm w < r :=
  ⟨(Vec3.norm w + minPlane b / 2) / 2, belowHalf_of_minPlane (by linarith), by linarith⟩

theorem ballAt_nodup {b : Box ℝ} {pts : List (Vec3 ℝ)} {it : NearIter} (hs : Setting b pts it)
    {r : ℝ} (hr : 0 < r) (hhalf : r ≤ minPlane b / 2) {bonds : List (Bond ℝ)}
    (h : it.ballAt r = some bonds) : (bonds.map (·.p)).Nodup := by
  have hpos := minTop_pos hr hs.rMax_pos
  obtain ⟨ims, hims, e⟩ := ballAt_some it r hpos
  rw [h] at e
  obtain rfl := Option.some.inj e
  rw [hs.box] at hims
  have hn := run_nodup b hs.valid pts it.aq hs.new hs.pts_in it.qp hs.q_in it.qi
    (minTop r it.rMax) 0 hpos le_rfl it.excludeII ims false hims (fun v w hv hw hsh => by
      obtain ⟨r', hr', hw'⟩ := exists_half (hsh.trans_le ((minTop_le _ _).trans hhalf))
      exact (wrap_of_short hs.valid hr' hv hw hw').1)
  rw [List.map_map]
  exact (List.filter_sublist.map _).nodup hn

/-! ### The result of the search -/

/-- `cur` holds exactly the points whose shortest copy is in `[rMin, R)`, each once with a shortest
image. -/
structure Found (b : Box ℝ) (pts : List (Vec3 ℝ)) (it : NearIter) (R : ℝ)
    (cur : List (Bond ℝ)) : Prop where
  nodup : (cur.map (·.p)).Nodup
  sound : ∀ bd ∈ cur, bd.q = it.qi ∧ bd.weight = 1 ∧ bd.dist = Vec3.norm bd.vec ∧
    (it.excludeII = true → bd.p ≠ it.qi) ∧ it.rMin ≤ bd.dist ∧ bd.dist < R ∧
    ∃ p, pts[bd.p]? = some p ∧ NearestImage b (p - it.qp) bd.vec
  complete : ∀ j p w, pts[j]? = some p → (it.excludeII = true → j ≠ it.qi) →
    NearestImage b (p - it.qp) w → it.rMin ≤ Vec3.norm w → Vec3.norm w < R →
    ∃ bd ∈ cur, bd.p = j

theorem found_half {b : Box ℝ} {pts : List (Vec3 ℝ)} {it : NearIter} (hs : Setting b pts it)
    {r : ℝ} (hr : 0 < r) (hhalf : r ≤ minPlane b / 2) {bonds : List (Bond ℝ)}
    (h : it.ballAt r = some bonds) :
    Found b pts it (minTop r it.rMax) (bonds.filter (fun nb => decide (it.rMin ≤ nb.dist))) := by
  have hle : minTop r it.rMax ≤ minPlane b / 2 := (minTop_le _ _).trans hhalf
  have hpl : ∀ p ∈ pts, Planar b (p - it.qp) := fun p hp =>
    planar_sub (inCell_planar hs.valid (hs.pts_in p hp)) (inCell_planar hs.valid hs.q_in)
  refine ⟨(List.filter_sublist.map _).nodup (ballAt_nodup hs hr hhalf h), ?_, ?_⟩
  · intro bd hbd
    obtain ⟨h1, h2⟩ := List.mem_filter.mp hbd
    obtain ⟨g1, g2, g3, g4, g5, p, n, gp, hn, gv⟩ := (mem_ballAt hs hr h bd).mp h1
    refine ⟨g1, g2, g3, g4, by simpa using h2, by rw [g3]; exact g5, p, gp, ⟨n, hn.1, gv⟩, ?_⟩
    rintro w ⟨m, hm, rfl⟩
    obtain ⟨r', hr', hw'⟩ := exists_half (g5.trans_le hle)
    by_cases e : p - it.qp + lattice b m = bd.vec
    · rw [e]
    · exact ((wrap_of_short hs.valid hr' (hpl p (List.mem_of_getElem? gp)) ⟨n, hn.1, gv⟩ hw').2
        m hm e).le
  · rintro j p w gp gx ⟨⟨n, hn, rfl⟩, -⟩ hmin hR
    obtain ⟨r', hr', hw'⟩ := exists_half (hR.trans_le hle)
    have hst := short_image_steps hs.valid hr' (hs.pts_in p (List.mem_of_getElem? gp)) hs.q_in n hn hw'
    refine ⟨⟨it.qi, j, Vec3.norm (p - it.qp + lattice b n), 1, p - it.qp + lattice b n⟩,
      List.mem_filter.mpr ⟨(mem_ballAt hs hr h _).mpr
        ⟨rfl, rfl, rfl, gx, hR, p, n, gp, ⟨hn, hst⟩, rfl⟩, by simpa using hmin⟩, rfl⟩

theorem found_ext {b : Box ℝ} {pts : List (Vec3 ℝ)} {it : NearIter} (hs : Setting b pts it)
    (hnear : NearestReachable b pts it.qp) {r : ℝ} (hr : 0 < r) {bonds : List (Bond ℝ)}
    (h : it.ballAt r = some bonds) (s : MinState)
    (hst : s = bonds.foldl (minStep it.rMin) (fun _ => none, ∅)) :
    Found b pts it (minTop r it.rMax)
      ((mapBonds pts.length s.1).filter (fun nb => decide (it.rMin ≤ nb.dist))) := by
  have inv : MinInv it.rMin bonds s := by rw [hst]; exact minInv_foldl _ _
  refine ⟨(List.filter_sublist.map _).nodup
    (mapBonds_nodup _ _ (fun j bd e => (inv.some_spec j bd e).2.1)), ?_, ?_⟩
  · intro bd hbd
    obtain ⟨h1, h2⟩ := List.mem_filter.mp hbd
    obtain ⟨j, hj, hm⟩ := (mem_mapBonds _ _ _).mp h1
    obtain ⟨m1, rfl, m3⟩ := inv.some_spec j bd hm
    obtain ⟨g1, g2, g3, g4, g5, p, n, gp, hn, gv⟩ := (mem_ballAt hs hr h bd).mp m1
    refine ⟨g1, g2, g3, g4, by simpa using h2, by rw [g3]; exact g5, p, gp, ⟨n, hn.1, gv⟩, ?_⟩
    intro w hw
    obtain ⟨m, hm1, hm2, hm3⟩ := hnear p (List.mem_of_getElem? gp) w hw
    refine le_trans ?_ hm3
    by_cases hlt : Vec3.norm (p - it.qp + lattice b m) < minTop r it.rMax
    · rw [← g3]
      exact m3 ⟨it.qi, bd.p, Vec3.norm (p - it.qp + lattice b m), 1, p - it.qp + lattice b m⟩
        ((mem_ballAt hs hr h _).mpr ⟨rfl, rfl, rfl, g4, hlt, p, m, gp, ⟨hm1, hm2⟩, rfl⟩) rfl
    · exact g5.le.trans (not_lt.mp hlt)
  · rintro j p w gp gx ⟨hw, hw'⟩ hmin hR
    obtain ⟨m, hm1, hm2, hm3⟩ := hnear p (List.mem_of_getElem? gp) w hw
    have hmem := (mem_ballAt hs hr h ⟨it.qi, j, Vec3.norm (p - it.qp + lattice b m), 1,
      p - it.qp + lattice b m⟩).mpr
        ⟨rfl, rfl, rfl, gx, hm3.trans_lt hR, p, m, gp, ⟨hm1, hm2⟩, rfl⟩
    cases hc : s.1 j with
    | none => exact absurd rfl ((inv.none_iff j).mp hc _ hmem)
    | some bd =>
      obtain ⟨m1, m2, m3⟩ := inv.some_spec j bd hc
      refine ⟨bd, List.mem_filter.mpr ⟨(mem_mapBonds _ _ _).mpr
        ⟨j, (List.getElem?_eq_some_iff.mp gp).1, hc⟩, ?_⟩, m2⟩
      obtain ⟨g1, g2, g3, g4, g5, p', n, gp', hn, gv⟩ := (mem_ballAt hs hr h bd).mp m1
      rw [m2, gp] at gp'
      obtain rfl := Option.some.inj gp'
      have := hw' bd.vec ⟨n, hn.1, gv⟩
      rw [g3]
      simpa using hmin.trans this

/-- The search ends, and its result holds exactly the points in the last radius searched. -/
theorem search_spec {b : Box ℝ} {pts : List (Vec3 ℝ)} {it : NearIter} (hs : Setting b pts it)
    (hnear : NearestReachable b pts it.qp) (hsc : 1 < it.scale) :
    ∀ (r : ℝ) (ext : Bool), 0 < r → (ext = false → r ≤ minPlane b / 2) →
    (ext = true → 0 < it.k) →
    ∃ cur rl, it.search r ext = some cur ∧ r ≤ rl ∧
      Found b pts it (minTop rl it.rMax) cur ∧
      (it.k ≤ cur.length ∨ it.rMax ≤ ((rl * it.scale : ℝ) : WithTop ℝ) ∨
        maxPlane b ≤ rl * it.scale) := by
  intro r
  induction hN : ⌊Real.logb it.scale (maxPlane it.aq.box / r)⌋₊ using Nat.strong_induction_on
    generalizing r with
  | _ N ih =>
    intro ext hr hext hk
    obtain ⟨ims, -, hbonds⟩ := ballAt_some it r (minTop_pos hr hs.rMax_pos)
    generalize hB : List.map _ _ = bonds at hbonds
    have hb := hs.box
    rw [search, dif_pos ⟨hr, hsc⟩, hbonds, Option.bind_some]
    simp only
    cases ext with
    | false =>
      simp only [Bool.false_eq_true, if_false, Bool.false_or]
      have hf := found_half hs hr (hext rfl) hbonds
      have hempty : mapBonds it.aq.pts.length (fun _ => none) = [] := by
        simp [mapBonds]
      rw [hempty]
      simp only [List.filter_nil, List.append_nil, List.length_nil, Finset.card_empty]
      by_cases h1 : it.k ≤ (bonds.filter (fun nb => decide (it.rMin ≤ nb.dist))).length
      · rw [if_pos h1]
        exact ⟨_, r, rfl, le_rfl, hf, Or.inl h1⟩
      · rw [if_neg h1]
        by_cases h2 : maxPlane it.aq.box ≤ r * it.scale
        · rw [dif_pos h2]
          exact ⟨_, r, rfl, le_rfl, hf, Or.inr (Or.inr (by rw [← hb]; exact h2))⟩
        · rw [dif_neg h2]
          by_cases h3 : it.rMax ≤ ((r * it.scale : ℝ) : WithTop ℝ) ∨ it.k ≤ 0 - 0
          · rw [if_pos h3]
            refine ⟨_, r, rfl, le_rfl, hf, Or.inr (Or.inl ?_)⟩
            rcases h3 with h3 | h3
            · exact h3
            · omega
          · rw [if_neg h3]
            have hr' : 0 < r * it.scale := by nlinarith
            obtain ⟨cur, rl, e, hle, hF, hD⟩ := ih _ (by rw [← hN]; exact search_dec hr hsc h2)
              (r * it.scale) rfl (decide (minPlane it.aq.box / 2 < r * it.scale)) hr'
              (fun h => by
                have := of_decide_eq_false h
                rw [← hb]; exact not_lt.mp this) (fun _ => by omega)
            exact ⟨cur, rl, e, le_trans (by nlinarith) hle, hF, hD⟩
    | true =>
      simp only [if_true, Bool.true_or]
      have hf := found_ext hs hnear hr hbonds _ rfl
      rw [← hs.pts_eq] at hf
      have hlen := filter_length it.rMin bonds _ (minInv_foldl it.rMin bonds) it.aq.pts.length
      rw [hs.pts_eq] at hf
      generalize hS : bonds.foldl (minStep it.rMin) (fun _ => none, ∅) = S at hf hlen
      simp only [List.nil_append, List.length_nil]
      rw [hs.pts_eq] at hlen ⊢
      by_cases h1 : it.k ≤ 0
      · have := hk rfl
        omega
      · rw [if_neg h1]
        by_cases h2 : maxPlane it.aq.box ≤ r * it.scale
        · rw [dif_pos h2]
          exact ⟨_, r, rfl, le_rfl, hf, Or.inr (Or.inr (by rw [← hb]; exact h2))⟩
        · rw [dif_neg h2]
          by_cases h3 : it.rMax ≤ ((r * it.scale : ℝ) : WithTop ℝ) ∨
              it.k ≤ (mapBonds pts.length S.1).length - S.2.card
          · rw [if_pos h3]
            refine ⟨_, r, rfl, le_rfl, hf, ?_⟩
            rcases h3 with h3 | h3
            · exact Or.inr (Or.inl h3)
            · exact Or.inl (h3.trans hlen)
          · rw [if_neg h3]
            have hr' : 0 < r * it.scale := by nlinarith
            obtain ⟨cur, rl, e, hle, hF, hD⟩ := ih _ (by rw [← hN]; exact search_dec hr hsc h2)
              (r * it.scale) rfl true hr' (fun h => by simp at h) (fun _ => by omega)
            exact ⟨cur, rl, e, le_trans (by nlinarith) hle, hF, hD⟩

end Freud
