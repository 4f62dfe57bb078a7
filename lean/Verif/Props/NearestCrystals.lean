import Verif.Props.NearestShell
import Verif.Props.CrystalOrder
import Verif.Props.Local

/-!
# Property C124: nearest neighbors by number in crystals
-/

namespace Freud

/-- In every crystal of any size and scale that was made from the cell and is large enough for its box, a neighbor
list of the `z` nearest neighbors (without the particle itself), made by any engine under any schedule, is a list of
the nearest-neighbor shell: it satisfies `NearestNeighbors`, the assumption of all theorems of C106. -/
def Spec.ShellByNumber (cell : Option (UnitCell ℝ)) (z : ℕ) (d d₂ : ℝ) : Prop :=
  ∃ u, cell = some u ∧ ∀ (n : Vec3 ℤ) (scale : ℝ) (box : Box ℝ) (points : List (Vec3 ℝ)),
    u.generateSystem n scale none = some (box, points) → points.length ≤ 0xffffffff →
    (∃ r, scale * d < r ∧ r ≤ scale * d₂ ∧ Spec.BelowHalf box r) →
    ∀ (p : PyArgs) (nl : NList ℝ), Spec.AsksFor p z 0 true → Spec.IsNearSource box points points p (.list nl) →
      Spec.NearestNeighbors u d d₂ box points nl

open Spec NearestShell

namespace NearestShell

theorem ncard_of_source {b : Box ℝ} {pts qpts : List (Vec3 ℝ)} (hs : PeriodicSystem b pts qpts) {r rMin : ℝ}
    (hmin : 0 ≤ rMin) (hhalf : BelowHalf b r) {excl : Bool} {src : Source} (h : IsSource b pts qpts r rMin excl src)
    {i : ℕ} {q : Vec3 ℝ} (hq : qpts[i]? = some q) :
    (pointsWithin b pts q i r rMin excl).ncard = ((allBonds src).filter fun bd => bd.q = i).length := by
  classical
  obtain ⟨-, a, p, m, n⟩ := source_perm hs hmin hhalf h
  have e1 : ((allBonds src).filter fun bd => bd.q = i).length = (a.filter fun bd => bd.q = i).length :=
    (p.filter _).length_eq
  have hnd : ((a.filter fun bd => bd.q = i).map Bond.p).Nodup := by
    rw [List.Nodup, List.pairwise_map] at n ⊢
    rw [List.pairwise_filter]
    refine n.imp fun hne h1 h2 e => hne ?_
    simp only [decide_eq_true_eq] at h1 h2
    rw [h1, h2, e]
  have e2 : pointsWithin b pts q i r rMin excl = ↑((a.filter fun bd => bd.q = i).map Bond.p).toFinset := by
    ext j
    simp only [List.coe_toFinset, Set.mem_setOf_eq, List.mem_map, List.mem_filter, decide_eq_true_eq]
    constructor
    · rintro ⟨h1, x, w, h2, h3, h4, h5⟩
      exact ⟨⟨i, j, Vec3.norm w, 1, w⟩, ⟨(m _).mpr ⟨q, hq, rfl, rfl, rfl, h1, h4, h5, x, h2, h3⟩, rfl⟩, rfl⟩
    · rintro ⟨bd, ⟨hbd, rfl⟩, rfl⟩
      obtain ⟨q', hq', -, -, -, h3, h4, h5, x, h6, h7⟩ := (m bd).mp hbd
      rw [hq] at hq'
      cases hq'
      exact ⟨h3, x, _, h6, h7, h4, h5⟩
  rw [e1, e2, Set.ncard_coe_finset, List.toFinset_card_of_nodup hnd, List.length_map]

end NearestShell

theorem Shell.byNumber {u : UnitCell ℝ} {z : ℕ} {d d₂ : ℝ} (h : Shell u z d d₂) (hd : 0 ≤ d)
    {cell : Option (UnitCell ℝ)} (hu : cell = some u) : ShellByNumber cell z d d₂ := by
  refine ⟨u, hu, fun n scale box points hg hlen ⟨r, h1, h2, hr⟩ p nl hp hsrc => ?_⟩
  obtain ⟨t, g⟩ := generated h.cell h.distinct hg
  have hr0 : 0 < r := lt_of_le_of_lt (mul_nonneg g.scale.le hd) h1
  obtain ⟨u', hu', hcoord⟩ := h.coordination hu
  have e : u' = u := by
    rw [hu] at hu'
    exact (Option.some.inj hu').symm
  rw [e] at hcoord
  refine ⟨⟨n, scale, hg, r, h1, h2, hr, ?_⟩, hlen⟩
  refine C124_ball_list box points points g.system p z 0 le_rfl true hp r hr0 hr ?_ nl hsrc
  intro i q hq
  refine ⟨hr, ?_⟩
  obtain ⟨s, found, hm, -⟩ := hsrc
  obtain ⟨found', hf'⟩ := (C85_accepted_iff s box points points hm g.system
    (fun e => by rw [e] at hq; simp at hq) r 0 true).mpr ⟨hr0, hr0, Or.inr hr⟩
  have hs' : IsSource box points points r 0 true (.query found' points.length) := ⟨s, found', hm, hf', Or.inl rfl⟩
  rw [ncard_of_source g.system le_rfl hr hs' hq]
  exact (hcoord n scale box points hg r h1 h2 hr _ hs').1 i (List.getElem?_eq_some_iff.mp hq).1

/-- **C124**: `num_neighbors=6` in simple cubic crystals. -/
theorem C124_sc : ShellByNumber UnitCell.sc 6 1 (Real.sqrt 2) := sc_shell.byNumber (by norm_num) sc_cell

/-- **C124**: `num_neighbors=8` in body-centered cubic crystals. -/
theorem C124_bcc : ShellByNumber UnitCell.bcc 8 (Real.sqrt 3 / 2) 1 :=
  bcc_star.shell.byNumber (by positivity) bcc_cell

/-- **C124**: `num_neighbors=12` in face-centered cubic crystals. -/
theorem C124_fcc : ShellByNumber UnitCell.fcc 12 (Real.sqrt 2 / 2) 1 :=
  fcc_star.shell.byNumber (by positivity) fcc_cell

/-- **C124**: `num_neighbors=12` in hexagonal close-packed crystals. -/
theorem C124_hcp : ShellByNumber UnitCell.hcp 12 1 (Real.sqrt 2) :=
  hcp_star.shell.byNumber (by norm_num) hcp_cell

/-- **C124**: `num_neighbors=4` in square crystals. -/
theorem C124_square : ShellByNumber UnitCell.square 4 1 (Real.sqrt 2) :=
  square_shell.byNumber (by norm_num) square_cell

/-- **C124**: `num_neighbors=6` in hexagonal crystals. -/
theorem C124_hex : ShellByNumber UnitCell.hex 6 1 (Real.sqrt 3) := hex_shell.byNumber (by norm_num) hex_cell

/-- **C124**: `num_neighbors=3` in graphene. -/
theorem C124_graphene : ShellByNumber UnitCell.graphene 3 (1 / Real.sqrt 3) 1 :=
  graphene_shell.byNumber (by positivity) graphene_cell

/-- **C124**: for example, `Steinhardt(l=6)` with `neighbors={'num_neighbors': 12}` (as a list made by any engine)
gives √(169/512) ≈ 0.5745 to every particle of an fcc crystal. -/
theorem C124_fcc_q6 : ∃ u, UnitCell.fcc = some u ∧ ∀ (n : Vec3 ℤ) (scale : ℝ) (c : Steinhardt.Call),
    u.generateSystem n scale none = some (c.box, c.points) → c.points.length ≤ 0xffffffff →
    (∃ r, scale * (Real.sqrt 2 / 2) < r ∧ r ≤ scale ∧ BelowHalf c.box r) →
    ∀ p, AsksFor p 12 0 true → IsNearSource c.box c.points c.points p (.list c.nlist) →
    IsExecution c.points.length c.ev → IsExecution c.points.length c.evAve →
    c.reduceOrder.Perm (List.range (2 * 6 + 1)) → ∀ average weighted normalize, ∃ res,
      Steinhardt.resultAfter Steinhardt.fsph ⟨6, average, false, weighted, normalize⟩ [] c = some res ∧
      res.particleOrder ⟨6, average, false, weighted, normalize⟩ =
        List.replicate c.points.length (some (Real.sqrt (169 / 512))) := by
  obtain ⟨u, hu, h⟩ := C124_fcc
  obtain ⟨u', hu', h'⟩ := C106_fcc_q6
  have e : u' = u := by
    rw [hu] at hu'
    exact (Option.some.inj hu').symm
  subst e
  refine ⟨u', hu, fun n scale c hg hl ⟨r, hr⟩ p hp hs e1 e2 e3 average weighted normalize => ?_⟩
  obtain ⟨res, r1, r2, -⟩ := h' c (h n scale c.box c.points hg hl ⟨r, hr.1, by rw [mul_one]; exact hr.2.1, hr.2.2⟩ p
    c.nlist hp hs) e1 e2 e3 _ (C101_fsph 6) [] (by simp) average weighted normalize
  exact ⟨res, r1, r2⟩

-- an fcc crystal of 27 cells and its list of the 12 nearest neighbors
example : ∃ u, UnitCell.fcc = some u ∧ ∃ box points nl, u.generateSystem ⟨3, 3, 3⟩ 1 none = some (box, points) ∧
    points.length = 108 ∧ (1 * (Real.sqrt 2 / 2) < 3 / 4 ∧ (3 / 4 : ℝ) ≤ 1 * 1 ∧ BelowHalf box (3 / 4)) ∧
    IsNearSource box points points { numNeighbors := some 12, excludeII := some true } (.list nl) := by
  obtain ⟨box, points, src, h1, h2, h4, -⟩ := query_exists fcc_star.shell (by simp)
    (by simp [Box.mk', Box.setL]) (n := ⟨3, 3, 3⟩) (c := 1) (r := 3 / 4) (by norm_num) (by simp [Box.mk', Box.setL])
    (by norm_num) (by norm_num) (by norm_num [Box.mk', Box.setL]) (by norm_num [Box.mk', Box.setL])
    (fun _ => by norm_num [Box.mk', Box.setL])
  have hlen : points.length = 108 := by
    have : (points.length : ℤ) = 108 := by simpa using h2
    omega
  have hne : points ≠ [] := fun e => by rw [e] at hlen; simp at hlen
  obtain ⟨t, g⟩ := generated fcc_star.shell.cell fcc_star.shell.distinct h1
  obtain ⟨lc, hlc, -⟩ := LinkCell.C25_constructed box points hne
    (fun h2 p hp => by
      rw [inCell_planar g.system.inBox.valid (g.system.inBox.inside p hp) h2]; norm_num) (3 / 4) (by norm_num)
    (h4.1 g.system.periodic.1).le (h4.2.1 g.system.periodic.2.1).le (fun h => (h4.2.2 g.system.periodic.2.2 h).le)
  have hm : MadeFrom (.linkCell lc) box points := ⟨3 / 4, by norm_num, hlc⟩
  obtain ⟨found, hf⟩ := (C124_accepted_iff _ _ _ _ hm g.system hne { numNeighbors := some 12, excludeII := some true }
    12 0 true ⟨rfl, rfl, rfl, rfl, rfl, fun s h => nomatch h⟩ rfl (Or.inl rfl) (by norm_num) (by norm_num)
    (fun s h => nomatch h)).mpr (fun o h => nomatch h)
  obtain ⟨nl, hnl⟩ := C20_result_exists found points.length points.length false
    ((List.range points.length).map fun i => (0, i))
  have hex : IsExecution points.length ((List.range points.length).map fun i => (0, i)) := by
    simp [IsExecution, List.map_map, Function.comp_def]
  refine ⟨_, fcc_cell, box, points, nl, h1, hlen, ⟨?_, by norm_num, h4⟩, _, found, hm, hf,
    Or.inr ⟨false, _, nl, hex, hnl, rfl⟩⟩
  have : Real.sqrt 2 < 3 / 2 := by
    rw [Real.sqrt_lt' (by norm_num)]; norm_num
  linarith

end Freud
