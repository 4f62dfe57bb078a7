import Verif.Props.Nearest

/-!
# Nearest-neighbor queries in any box: the nearest of the copies that are searched

The lemmas of `Verif.Lemmas.Nearest` without the assumption that a shortest image is among the copies searched.
-/

namespace Freud

open Spec NearIter

/-- A shortest one of the copies of `p` that are searched. -/
def Closest (b : Box ℝ) (q p w : Vec3 ℝ) : Prop :=
  (∃ n, Searched b n ∧ w = copyVec b q p n) ∧ ∀ n, Searched b n → Vec3.norm w ≤ Vec3.norm (copyVec b q p n)

theorem closest_norm {b : Box ℝ} {q p w w' : Vec3 ℝ} (h : Closest b q p w) (h' : Closest b q p w') :
    Vec3.norm w = Vec3.norm w' := by
  obtain ⟨⟨n, hn, rfl⟩, h1⟩ := h
  obtain ⟨⟨m, hm, rfl⟩, h2⟩ := h'
  exact le_antisymm (h1 _ hm) (h2 _ hn)

/-- A short image is the closest copy, and the only short one. -/
theorem closest_of_short {b : Box ℝ} (hb : Valid b) {r : ℝ} (hr : BelowHalf b r) {p q : Vec3 ℝ} (hp : InCell b p)
    (hq : InCell b q) {w : Vec3 ℝ} (hw : IsImage b (p - q) w) (hlt : Vec3.norm w < r) : Closest b q p w := by
  obtain ⟨n, hn, rfl⟩ := hw
  refine ⟨⟨n, ⟨hn, short_image_steps hb hr hp hq n hn hlt⟩, rfl⟩, fun m hm => ?_⟩
  have hpl := planar_sub (inCell_planar hb hp) (inCell_planar hb hq)
  by_cases e : p - q + lattice b m = p - q + lattice b n
  · unfold copyVec; rw [e]
  · exact ((wrap_of_short hb hr hpl ⟨n, hn, rfl⟩ hlt).2 m hm.1 e).le

/-- `cur` holds exactly the points whose closest copy is in `[rMin, R)`, each once with such a copy. -/
structure FoundC (b : Box ℝ) (pts : List (Vec3 ℝ)) (it : NearIter) (R : ℝ) (cur : List (Bond ℝ)) : Prop where
  nodup : (cur.map (·.p)).Nodup
  sound : ∀ bd ∈ cur, bd.q = it.qi ∧ bd.weight = 1 ∧ bd.dist = Vec3.norm bd.vec ∧
    (it.excludeII = true → bd.p ≠ it.qi) ∧ it.rMin ≤ bd.dist ∧ bd.dist < R ∧
    ∃ p, pts[bd.p]? = some p ∧ Closest b it.qp p bd.vec
  complete : ∀ j p w, pts[j]? = some p → (it.excludeII = true → j ≠ it.qi) →
    Closest b it.qp p w → it.rMin ≤ Vec3.norm w → Vec3.norm w < R → ∃ bd ∈ cur, bd.p = j

theorem foundC_half {b : Box ℝ} {pts : List (Vec3 ℝ)} {it : NearIter} (hs : Setting b pts it)
    {r : ℝ} (hr : 0 < r) (hhalf : r ≤ minPlane b / 2) {bonds : List (Bond ℝ)} (h : it.ballAt r = some bonds) :
    FoundC b pts it (minTop r it.rMax) (bonds.filter (fun nb => decide (it.rMin ≤ nb.dist))) := by
  have hle : minTop r it.rMax ≤ minPlane b / 2 := (minTop_le _ _).trans hhalf
  refine ⟨(List.filter_sublist.map _).nodup (ballAt_nodup hs hr hhalf h), ?_, ?_⟩
  · intro bd hbd
    obtain ⟨h1, h2⟩ := List.mem_filter.mp hbd
    obtain ⟨g1, g2, g3, g4, g5, p, n, gp, hn, gv⟩ := (mem_ballAt hs hr h bd).mp h1
    obtain ⟨r', hr', hw'⟩ := exists_half (g5.trans_le hle)
    exact ⟨g1, g2, g3, g4, by simpa using h2, by rw [g3]; exact g5, p, gp,
      closest_of_short hs.valid hr' (hs.pts_in p (List.mem_of_getElem? gp)) hs.q_in ⟨n, hn.1, gv⟩ hw'⟩
  · rintro j p w gp gx ⟨⟨n, hn, rfl⟩, -⟩ hmin hR
    exact ⟨⟨it.qi, j, Vec3.norm (copyVec b it.qp p n), 1, copyVec b it.qp p n⟩,
      List.mem_filter.mpr ⟨(mem_ballAt hs hr h _).mpr ⟨rfl, rfl, rfl, gx, hR, p, n, gp, hn, rfl⟩,
        by simpa using hmin⟩, rfl⟩

theorem foundC_ext {b : Box ℝ} {pts : List (Vec3 ℝ)} {it : NearIter} (hs : Setting b pts it)
    {r : ℝ} (hr : 0 < r) {bonds : List (Bond ℝ)} (h : it.ballAt r = some bonds) (s : MinState)
    (hst : s = bonds.foldl (minStep it.rMin) (fun _ => none, ∅)) :
    FoundC b pts it (minTop r it.rMax)
      ((mapBonds pts.length s.1).filter (fun nb => decide (it.rMin ≤ nb.dist))) := by
  have inv : MinInv it.rMin bonds s := by rw [hst]; exact minInv_foldl _ _
  refine ⟨(List.filter_sublist.map _).nodup
    (mapBonds_nodup _ _ (fun j bd e => (inv.some_spec j bd e).2.1)), ?_, ?_⟩
  · intro bd hbd
    obtain ⟨h1, h2⟩ := List.mem_filter.mp hbd
    obtain ⟨j, hj, hm⟩ := (mem_mapBonds _ _ _).mp h1
    obtain ⟨m1, rfl, m3⟩ := inv.some_spec j bd hm
    obtain ⟨g1, g2, g3, g4, g5, p, n, gp, hn, gv⟩ := (mem_ballAt hs hr h bd).mp m1
    refine ⟨g1, g2, g3, g4, by simpa using h2, by rw [g3]; exact g5, p, gp, ⟨n, hn, gv⟩, ?_⟩
    intro m hm
    by_cases hlt : Vec3.norm (copyVec b it.qp p m) < minTop r it.rMax
    · rw [← g3]
      exact m3 ⟨it.qi, bd.p, Vec3.norm (copyVec b it.qp p m), 1, copyVec b it.qp p m⟩
        ((mem_ballAt hs hr h _).mpr ⟨rfl, rfl, rfl, g4, hlt, p, m, gp, hm, rfl⟩) rfl
    · exact g5.le.trans (not_lt.mp hlt)
  · rintro j p w gp gx ⟨⟨m, hm, rfl⟩, hw'⟩ hmin hR
    have hmem := (mem_ballAt hs hr h ⟨it.qi, j, Vec3.norm (copyVec b it.qp p m), 1, copyVec b it.qp p m⟩).mpr
        ⟨rfl, rfl, rfl, gx, hR, p, m, gp, hm, rfl⟩
    cases hc : s.1 j with
    | none => exact absurd rfl ((inv.none_iff j).mp hc _ hmem)
    | some bd =>
      obtain ⟨m1, m2, m3⟩ := inv.some_spec j bd hc
      refine ⟨bd, List.mem_filter.mpr ⟨(mem_mapBonds _ _ _).mpr
        ⟨j, (List.getElem?_eq_some_iff.mp gp).1, hc⟩, ?_⟩, m2⟩
      obtain ⟨g1, g2, g3, g4, g5, p', n, gp', hn, gv⟩ := (mem_ballAt hs hr h bd).mp m1
      rw [m2, gp] at gp'
      obtain rfl := Option.some.inj gp'
      have := hw' n hn
      rw [g3, gv]
      simpa using hmin.trans this

/-- The search ends, and its result holds exactly the points in the last radius searched. -/
theorem search_copies {b : Box ℝ} {pts : List (Vec3 ℝ)} {it : NearIter} (hs : Setting b pts it)
    (hsc : 1 < it.scale) :
    ∀ (r : ℝ) (ext : Bool), 0 < r → (ext = false → r ≤ minPlane b / 2) →
    (ext = true → 0 < it.k) →
    ∃ cur rl, it.search r ext = some cur ∧ r ≤ rl ∧
      FoundC b pts it (minTop rl it.rMax) cur ∧
      (it.k ≤ cur.length ∨ it.rMax ≤ ((rl * it.scale : ℝ) : WithTop ℝ) ∨
        maxPlane b ≤ rl * it.scale) := by
  intro r
  induction hN : ⌊Real.logb it.scale (maxPlane it.aq.box / r)⌋₊ using Nat.strong_induction_on
    generalizing r with
  | _ N ih =>
    intro ext hr hext hk
    obtain ⟨ims, -, hbonds⟩ := ballAt_some it r (minTop_pos hr hs.rMax_pos)
    generalize hB : List.map _ _ = bonds at hbonds
    have hb := hs.box
    rw [search, dif_pos ⟨hr, hsc⟩, hbonds, Option.bind_some]
    simp only
    cases ext with
    | false =>
      simp only [Bool.false_eq_true, if_false, Bool.false_or]
      have hf := foundC_half hs hr (hext rfl) hbonds
      have hempty : mapBonds it.aq.pts.length (fun _ => none) = [] := by
        simp [mapBonds]
      rw [hempty]
      simp only [List.filter_nil, List.append_nil, List.length_nil, Finset.card_empty]
      by_cases h1 : it.k ≤ (bonds.filter (fun nb => decide (it.rMin ≤ nb.dist))).length
      · rw [if_pos h1]
        exact ⟨_, r, rfl, le_rfl, hf, Or.inl h1⟩
      · rw [if_neg h1]
        by_cases h2 : maxPlane it.aq.box ≤ r * it.scale
        · rw [dif_pos h2]
          exact ⟨_, r, rfl, le_rfl, hf, Or.inr (Or.inr (by rw [← hb]; exact h2))⟩
        · rw [dif_neg h2]
          by_cases h3 : it.rMax ≤ ((r * it.scale : ℝ) : WithTop ℝ) ∨ it.k ≤ 0 - 0
          · rw [if_pos h3]
            refine ⟨_, r, rfl, le_rfl, hf, Or.inr (Or.inl ?_)⟩
            rcases h3 with h3 | h3
            · exact h3
            · omega
          · rw [if_neg h3]
            have hr' : 0 < r * it.scale := by nlinarith
            obtain ⟨cur, rl, e, hle, hF, hD⟩ := ih _ (by rw [← hN]; exact search_dec hr hsc h2)
              (r * it.scale) rfl (decide (minPlane it.aq.box / 2 < r * it.scale)) hr'
              (fun h => by
                have := of_decide_eq_false h
                rw [← hb]; exact not_lt.mp this) (fun _ => by omega)
            exact ⟨cur, rl, e, le_trans (by nlinarith) hle, hF, hD⟩
    | true =>
      simp only [if_true, Bool.true_or]
      have hf := foundC_ext hs hr hbonds _ rfl
      rw [← hs.pts_eq] at hf
      have hlen := filter_length it.rMin bonds _ (minInv_foldl it.rMin bonds) it.aq.pts.length
      rw [hs.pts_eq] at hf
      generalize hS : bonds.foldl (minStep it.rMin) (fun _ => none, ∅) = S at hf hlen
      simp only [List.nil_append, List.length_nil]
      rw [hs.pts_eq] at hlen ⊢
      by_cases h1 : it.k ≤ 0
      · have := hk rfl
        omega
      · rw [if_neg h1]
        by_cases h2 : maxPlane it.aq.box ≤ r * it.scale
        · rw [dif_pos h2]
          exact ⟨_, r, rfl, le_rfl, hf, Or.inr (Or.inr (by rw [← hb]; exact h2))⟩
        · rw [dif_neg h2]
          by_cases h3 : it.rMax ≤ ((r * it.scale : ℝ) : WithTop ℝ) ∨
              it.k ≤ (mapBonds pts.length S.1).length - S.2.card
          · rw [if_pos h3]
            refine ⟨_, r, rfl, le_rfl, hf, ?_⟩
            rcases h3 with h3 | h3
            · exact Or.inr (Or.inl h3)
            · exact Or.inl (h3.trans hlen)
          · rw [if_neg h3]
            have hr' : 0 < r * it.scale := by nlinarith
            obtain ⟨cur, rl, e, hle, hF, hD⟩ := ih _ (by rw [← hN]; exact search_dec hr hsc h2)
              (r * it.scale) rfl true hr' (fun h => by simp at h) (fun _ => by omega)
            exact ⟨cur, rl, e, le_trans (by nlinarith) hle, hF, hD⟩


/-- Point `j` may be a neighbor; its closest copy is at the distance `d`. -/
def CandidateC (b : Box ℝ) (pts : List (Vec3 ℝ)) (q : Vec3 ℝ) (qi : ℕ) (rMin : ℝ) (excl : Bool) (j : ℕ) (d : ℝ) :
    Prop :=
  ∃ p w, pts[j]? = some p ∧ (excl = true → j ≠ qi) ∧ Closest b q p w ∧ d = Vec3.norm w ∧ rMin ≤ d

/-- `Spec.KNearest` with the closest copies. -/
structure KNearestC (b : Box ℝ) (pts : List (Vec3 ℝ)) (q : Vec3 ℝ) (qi k : ℕ)
    (rMax : WithTop ℝ) (rMin : ℝ) (excl : Bool) (out : List (Bond ℝ)) : Prop where
  length_le : out.length ≤ k
  sorted : (out.map (·.dist)).Pairwise (· ≤ ·)
  nodup : (out.map (·.p)).Nodup
  bonds : ∀ bd ∈ out, bd.q = qi ∧ bd.weight = 1 ∧ bd.dist = Vec3.norm bd.vec ∧
    (bd.dist : WithTop ℝ) ≤ rMax ∧ CandidateC b pts q qi rMin excl bd.p bd.dist ∧
    ∃ p, pts[bd.p]? = some p ∧ Closest b q p bd.vec
  nearest : ∀ j d, CandidateC b pts q qi rMin excl j d → j ∉ out.map (·.p) → ∀ bd ∈ out, bd.dist ≤ d

theorem kNearestC_of_found {b : Box ℝ} {pts : List (Vec3 ℝ)} {it : NearIter} {R : ℝ}
    {cur sorted : List (Bond ℝ)} (hf : FoundC b pts it R cur) (hR : (R : WithTop ℝ) ≤ it.rMax)
    (hs : Bond.SortedBy lessDist cur sorted) :
    KNearestC b pts it.qp it.qi it.k it.rMax it.rMin it.excludeII (it.emit sorted) ∧
    (it.emit sorted).length = min it.k cur.length ∧
    ((it.emit sorted).length < it.k → ∀ j d, CandidateC b pts it.qp it.qi it.rMin it.excludeII j d →
      d < R → j ∈ (it.emit sorted).map (·.p)) := by
  have hlt : ∀ bd ∈ sorted, bd.dist < R := fun bd hbd => (hf.sound bd (hs.1.subset hbd)).2.2.2.2.2.1
  have he : it.emit sorted = sorted.take it.k := by
    unfold emit
    apply takeWhile_self
    intro bd hbd
    have := hlt bd (List.mem_of_mem_take hbd)
    rw [decide_eq_true_eq]
    exact (WithTop.coe_le_coe.mpr this.le).trans hR
  rw [he]
  have hsub : ∀ bd ∈ sorted.take it.k, bd ∈ cur := fun bd h => hs.1.subset (List.mem_of_mem_take h)
  have hcand : ∀ j d, CandidateC b pts it.qp it.qi it.rMin it.excludeII j d → d < R →
      ∃ bd ∈ sorted, bd.p = j ∧ bd.dist = d := by
    rintro j d ⟨p, w, hp, hx, hn, rfl, hmin⟩ hd
    obtain ⟨bd, hbd, rfl⟩ := hf.complete j p w hp hx hn hmin hd
    refine ⟨bd, hs.1.symm.subset hbd, rfl, ?_⟩
    obtain ⟨-, -, e, -, -, -, p', hp', hn'⟩ := hf.sound bd hbd
    rw [hp] at hp'
    obtain rfl := Option.some.inj hp'
    rw [e]; exact closest_norm hn' hn
  refine ⟨⟨List.length_take_le _ _, ?_, ?_, ?_, ?_⟩, ?_, ?_⟩
  · exact (lessDist_sorted hs).sublist ((List.take_sublist _ _).map _)
  · exact ((List.take_sublist _ _).map _).nodup ((hs.1.map _).nodup_iff.mpr hf.nodup)
  · intro bd hbd
    obtain ⟨h1, h2, h3, h4, h5, h6, p, hp, hn⟩ := hf.sound bd (hsub bd hbd)
    exact ⟨h1, h2, h3, (WithTop.coe_le_coe.mpr h6.le).trans hR,
      ⟨p, bd.vec, hp, h4, hn, h3, h5⟩, p, hp, hn⟩
  · intro j d hc hj bd hbd
    by_cases hd : d < R
    · obtain ⟨bd', hbd', rfl, rfl⟩ := hcand j d hc hd
      rw [← List.take_append_drop it.k sorted] at hbd'
      rcases List.mem_append.mp hbd' with h | h
      · exact absurd (List.mem_map_of_mem h) hj
      · have := lessDist_sorted hs
        rw [← List.take_append_drop it.k sorted, List.map_append, List.pairwise_append] at this
        exact this.2.2 _ (List.mem_map_of_mem hbd) _ (List.mem_map_of_mem h)
    · exact (hlt bd (List.mem_of_mem_take hbd)).le.trans (not_lt.mp hd)
  · rw [List.length_take, hs.1.length_eq]
  · intro hlen j d hc hd
    rw [List.length_take] at hlen
    have : sorted.take it.k = sorted := List.take_of_length_le (by omega)
    rw [this]
    obtain ⟨bd, hbd, rfl, -⟩ := hcand j d hc hd
    exact List.mem_map_of_mem hbd

theorem nearest_copies (b : Box ℝ) (hb : Valid b) (pts : List (Vec3 ℝ)) (aq : AABBQuery)
    (haq : AABBQuery.new b pts = some aq) (hpts : ∀ p ∈ pts, InCell b p) (q : Vec3 ℝ)
    (hq : InCell b q) (qi k : ℕ) (rMax : WithTop ℝ)
    (rMin rGuess scale : ℝ) (hguess : rGuess ≤ minPlane b / 2) (excl : Bool)
    (out : List (Bond ℝ)) (h : aq.Nearest q qi k rMax rMin rGuess scale excl out) :
    KNearestC b pts q qi k rMax rMin excl out ∧
    (out.length < k → ∃ rl, rGuess ≤ rl ∧
      (rMax ≤ ((rl * scale : ℝ) : WithTop ℝ) ∨ maxPlane b ≤ rl * scale) ∧
      ∀ j d, CandidateC b pts q qi rMin excl j d → d < rl → (d : WithTop ℝ) < rMax →
        j ∈ out.map (·.p)) := by
  obtain ⟨h1, h2, h3, cur, sorted, hc, hsort, rfl⟩ := h
  obtain ⟨hr, hsc⟩ := search_pos hc
  obtain ⟨cur', rl, e, hle, hF, hD⟩ := search_copies (it := ⟨aq, q, qi, k, rMax, rMin, scale, excl⟩)
    ⟨hb, haq, hpts, hq, h1⟩ hsc rGuess false hr (fun _ => hguess) (by simp)
  rw [hc] at e
  obtain rfl := Option.some.inj e
  obtain ⟨k1, k2, k3⟩ := kNearestC_of_found hF (minTop_le_top _ _) hsort
  refine ⟨k1, fun hlt => ⟨rl, hle, ?_, ?_⟩⟩
  · rw [k2] at hlt
    rcases hD with hD | hD
    · simp only at hD hlt; omega
    · exact hD
  · intro j d hcd hd hdm
    refine k3 hlt j d hcd ?_
    simp only
    cases rMax with
    | top => exact hd
    | coe m => exact lt_min hd (WithTop.coe_lt_coe.mp hdm)

end Freud
