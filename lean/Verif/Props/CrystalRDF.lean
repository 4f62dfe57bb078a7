import Verif.Props.Marginals
import Verif.Props.NamedCells
import Verif.Props.CrystalOrder
import Verif.Props.RepeatCell

/-!
# Property C117: the RDF of a crystal
-/

namespace Freud
open Spec
variable {D : Type*}

/-- Frames of one crystal made from the cell `u`: the same system each time, with the neighbors up to `r`, from any engine
and in any form, and any schedule. -/
structure Spec.CrystalFrames (u : UnitCell ℝ) (n : Vec3 ℤ) (scale r : ℝ) (box : Box ℝ) (pos : List (Vec3 ℝ))
    (fs : List (DataFrame D)) : Prop where
  made : u.generateSystem n scale none = some (box, pos)
  some : fs ≠ []
  same : ∀ f ∈ fs, f.box = box ∧ f.pts = pos ∧ f.qpts = pos
  neighbors : ∀ f ∈ fs, IsSource box pos pos r 0 true f.src
  schedule : ∀ f ∈ fs, IsExecution f.src.iterations f.ev

theorem length_by_owner {N z : ℕ} {l : List (Bond ℝ)} (hq : ∀ bd ∈ l, bd.q < N)
    (hz : ∀ i < N, (l.filter fun bd => bd.q = i).length = z) : l.length = N * z := by
  have key : ∀ M, (l.filter fun bd => decide (bd.q < M)).length =
      ∑ i ∈ Finset.range M, (l.filter fun bd => decide (bd.q = i)).length := by
    intro M
    induction M with
    | zero => simp
    | succ M ih =>
      rw [Finset.sum_range_succ, ← ih, ← List.countP_eq_length_filter, ← List.countP_eq_length_filter,
        ← List.countP_eq_length_filter]
      clear hq hz ih
      induction l with
      | nil => simp
      | cons x l ih =>
        rw [List.countP_cons, List.countP_cons, List.countP_cons, ih]
        simp only [decide_eq_true_eq]
        split_ifs <;> omega
  have := key N
  rw [List.filter_eq_self.mpr fun bd hbd => by simpa using hq bd hbd,
    Finset.sum_congr rfl fun i hi => hz i (Finset.mem_range.mp hi)] at this
  simpa using this

/-- **C117**: the RDF of a crystal with `z` nearest neighbors at the distance `d` (in units of the scale; the next are
not nearer than `d₂`), up to a radius between the two. The cumulative number of neighbors is 0 before the first shell and
`z` after it. The RDF is zero except in the bin with the first shell, where it is `z` over the expected number of
particles in the shell of the bin. -/
theorem C117_rdf (cell : Option (UnitCell ℝ)) (z : ℕ) (d d₂ : ℝ) (hc : Coordination cell z d d₂) (u : UnitCell ℝ)
    (hu : cell = some u) (hgood : GoodCell u.box) (hne : u.basis ≠ []) (n : Vec3 ℤ) (scale : ℝ) (box : Box ℝ)
    (pos : List (Vec3 ℝ)) (bins : ℕ) (rMax rMin : ℝ) (a : RegularAxis ℝ) (ha : RDF.mkAxis bins rMax rMin = some a)
    (hb : bins ≤ OVERFLOW_BIN) (hin : rMin ≤ scale * d) (hout : scale * d < rMax) (hnext : rMax ≤ scale * d₂)
    (hhalf : BelowHalf box rMax) (mode : NormalizationMode) (hpair : mode = .finiteSize → 2 ≤ pos.length)
    (box0 : Box ℝ) (fs : List (DataFrame D)) (hfs : CrystalFrames u n scale rMax box pos fs) (order : List ℕ)
    (hord : order.Perm (List.range bins)) :
    ∃ s s', (RDF.new a mode box0).run (RDF.fill Real.pi a) (RDF.zero a)
        (fs.map fun f => RDF.frameFrom f.info f.src f.ev) = some s ∧
      s.refresh (RDF.fill Real.pi a) order = some s' ∧ s'.out.1.length = bins ∧ s'.out.2.length = bins ∧ ∀ i < bins,
        s'.out.2[i]? = some (if scale * d < edge rMin rMax bins (i + 1) then (z : ℝ) else 0) ∧
        s'.out.1[i]? = some (if edge rMin rMax bins i ≤ scale * d ∧ scale * d < edge rMin rMax bins (i + 1) then
          z / (density mode ⟨box, pos.length, pos.length⟩ *
            shellVolume Real.pi box.is2D (edge rMin rMax bins i) (edge rMin rMax bins (i + 1))) else 0) := by
  obtain ⟨u', hu', hco⟩ := hc
  rw [hu, Option.some.injEq] at hu'
  subst hu'
  obtain ⟨f, hf⟩ : ∃ f, fs.getLast? = some f :=
    ⟨_, List.getLast?_eq_some_getLast hfs.some⟩
  have hfm := List.mem_of_getLast? hf
  obtain ⟨e1, e2, e3⟩ := hfs.same f hfm
  have hinfo : f.info = ⟨box, pos.length, pos.length⟩ := by rw [DataFrame.info, e1, e2, e3]
  have hpne := generated_ne hgood hne hfs.made
  have hN : 0 < pos.length := List.length_pos_of_ne_nil hpne
  obtain ⟨t, -, g⟩ := placed hgood hfs.made
  have hok : FrameOK mode f.info := by
    rw [hinfo]
    exact ⟨hN, hN, hpair, volume_pos g.good.pos⟩
  obtain ⟨s, s', r1, r2, r3, r4, r5⟩ := rdf_both Real.pi bins rMax rMin a ha hb mode box0 fs (·.ev) hfs.schedule f hf hok
    order hord
  have hframe : ∀ f ∈ fs, (bondsFrom f.src).length = pos.length * z ∧ ∀ bd ∈ bondsFrom f.src, bd.dist = scale * d := by
    intro f hf
    obtain ⟨h1, h2⟩ := hco n scale box pos hfs.made rMax hout hnext hhalf f.src (hfs.neighbors f hf)
    exact ⟨length_by_owner (fun bd hbd => (h2 bd hbd).1) h1, fun bd hbd => (h2 bd hbd).2⟩
  have hall : ((framedBonds fs).map fun x => [x.2.dist]) = List.replicate (fs.length * (pos.length * z)) [scale * d] := by
    rw [List.eq_replicate_iff]
    constructor
    · rw [List.length_map]
      unfold framedBonds
      rw [List.length_flatMap, List.map_congr_left (g := fun _ => pos.length * z) fun f hf => by
        rw [List.length_map]; exact (hframe f hf).1]
      simp
    · intro x hx
      obtain ⟨⟨f, bd⟩, hm, rfl⟩ := List.mem_map.mp hx
      obtain ⟨f', hf', hm⟩ := List.mem_flatMap.mp hm
      obtain ⟨bd', hbd', e⟩ := List.mem_map.mp hm
      cases e
      rw [(hframe f hf').2 bd hbd']
  have hcount : ∀ lo hi : ℝ, bondsIn lo hi ((framedBonds fs).map fun x => [x.2.dist]) =
      if lo ≤ scale * d ∧ scale * d < hi then fs.length * (pos.length * z) else 0 := by
    intro lo hi
    classical
    unfold bondsIn
    rw [hall, List.filter_replicate]
    by_cases h : lo ≤ scale * d ∧ scale * d < hi
    · rw [if_pos h, if_pos (by exact decide_eq_true ⟨_, rfl, h⟩), List.length_replicate]
    · rw [if_neg h, if_neg, List.length_nil]
      intro hcon
      obtain ⟨x, hx, hx'⟩ := of_decide_eq_true hcon
      simp only [List.cons.injEq, and_true] at hx
      subst hx
      exact h hx'
  have hN' : (pos.length : ℝ) ≠ 0 := by exact_mod_cast hN.ne'
  have hF : (fs.length : ℝ) ≠ 0 := by exact_mod_cast (List.length_pos_of_ne_nil hfs.some).ne'
  refine ⟨s, s', r1, r2, r3, r4, fun i hi => ?_⟩
  obtain ⟨v1, v2⟩ := r5 i hi
  rw [hcount] at v1 v2
  rw [v1, v2, hinfo]
  constructor
  · congr 1
    by_cases h : scale * d < edge rMin rMax bins (i + 1)
    · rw [if_pos ⟨hin, h⟩, if_pos h]
      push_cast
      field_simp
    · rw [if_neg fun h' => h h'.2, if_neg h]
      simp
  · congr 1
    by_cases h : edge rMin rMax bins i ≤ scale * d ∧ scale * d < edge rMin rMax bins (i + 1)
    · rw [if_pos h, if_pos h]
      push_cast
      generalize density mode ⟨box, pos.length, pos.length⟩ = ρ
      generalize shellVolume Real.pi box.is2D _ _ = V
      rw [show (fs.length : ℝ) * (pos.length * z) = (fs.length * pos.length) * z by ring,
        show (pos.length : ℝ) * ρ * V * fs.length = (fs.length * pos.length) * (ρ * V) by ring]
      exact mul_div_mul_left _ _ (mul_ne_zero hF hN')
    · rw [if_neg h, if_neg h]
      simp

/-- A simple cubic crystal of 64 cells, with neighbors up to 1.2. -/
theorem sc_frames : ∃ (u : UnitCell ℝ) (box : Box ℝ) (pos : List (Vec3 ℝ)) (fs : List (DataFrame Unit)),
    UnitCell.sc = some u ∧ GoodCell u.box ∧ u.basis ≠ [] ∧ BelowHalf box (12 / 10) ∧ pos.length = 64 ∧
    CrystalFrames u ⟨4, 4, 4⟩ 1 (12 / 10) box pos fs ∧ box.L = ⟨4, 4, 4⟩ ∧ box.is2D = false := by
  have hu : GoodCell (Box.mk' 1 1 1 0 0 0 false : Box ℝ) := good_mk (by norm_num) (by norm_num) (by norm_num)
  obtain ⟨⟨box, pos⟩, hg⟩ : ∃ r, (⟨Box.mk' 1 1 1 0 0 0 false, [⟨0, 0, 0⟩]⟩ : UnitCell ℝ).generateSystem ⟨4, 4, 4⟩ 1 none =
      some r := by
    rw [← Option.ne_none_iff_exists', Ne, C59_raises_iff _ _ _ _ hu]
    simp [Box.mk', Box.setL]
  obtain ⟨-, hd, ⟨e1, e2, e3⟩, eL, -⟩ := generate_blocks hu hg
  have hd : box.is2D = false := hd
  have t1 : box.xy = 0 := e1
  have t2 : box.xz = 0 := e2
  have t3 : box.yz = 0 := e3
  have hL : box.L = ⟨4, 4, 4⟩ := by rw [eL]; simp [Box.mk', Box.setL]
  have hhalf : BelowHalf box (12 / 10) := by
    refine ⟨fun _ => ?_, fun _ => ?_, fun _ _ => ?_⟩ <;> simp [Box.getNearestPlaneDistance, hL, t1, t2, t3] <;> norm_num
  have hne : pos ≠ [] := generated_ne hu (by simp) hg
  obtain ⟨t, -, g⟩ := placed hu hg
  obtain ⟨src, ev, h⟩ := exists_frame g.system hne hne le_rfl (show (0 : ℝ) < 12 / 10 by norm_num) hhalf true
    (fun _ => ()) (fun _ => ())
  have hlen := C59_count _ _ _ hu _ _ hg
  refine ⟨_, box, pos, [⟨box, pos, pos, fun _ => (), fun _ => (), true, 12 / 10, 0, src, ev⟩], sc_cell, hu, by simp, hhalf,
    ?_, ⟨hg, by simp, by simp, by simpa using h.source, by simpa using h.exec⟩, hL, hd⟩
  simp at hlen
  omega

-- `C117_rdf` for this crystal: with four bins from 0 to 1.2, the number of neighbors is 0, 0, 0 and 6, and the RDF of the
-- last bin is 6 over the number of particles expected between 0.9 and 1.2
example : ∃ (fs : List (DataFrame Unit)) (s s' : _) (box0 : Box ℝ), fs ≠ [] ∧
    (RDF.new ⟨4, 0, 12 / 10⟩ .exact box0).run (RDF.fill Real.pi ⟨4, 0, 12 / 10⟩) (RDF.zero ⟨4, 0, 12 / 10⟩)
      (fs.map fun f => RDF.frameFrom f.info f.src f.ev) = some s ∧
    s.refresh (RDF.fill Real.pi ⟨4, 0, 12 / 10⟩) (List.range 4) = some s' ∧
    s'.out.2[2]? = some 0 ∧ s'.out.2[3]? = some 6 ∧ s'.out.1[2]? = some 0 ∧
    s'.out.1[3]? = some (6 / (4 / 3 * Real.pi * ((12 / 10) ^ 3 - (9 / 10) ^ 3))) := by
  obtain ⟨u, box, pos, fs, hu, hgood, hne, hhalf, hlen, hfs, hL, hd⟩ := sc_frames
  have h2 : (12 / 10 : ℝ) ≤ 1 * Real.sqrt 2 := by
    rw [one_mul]; exact Real.le_sqrt_of_sq_le (by norm_num)
  obtain ⟨s, s', r1, r2, -, -, r3⟩ := C117_rdf UnitCell.sc 6 1 (Real.sqrt 2) C98_sc u hu hgood hne ⟨4, 4, 4⟩ 1 box pos 4
    (12 / 10) 0 ⟨4, 0, 12 / 10⟩ (by rw [C35_constructor]; norm_num) (by decide) (by norm_num) (by norm_num) h2 hhalf .exact
    (by simp) box fs hfs (List.range 4) (List.Perm.refl _)
  refine ⟨fs, s, s', box, hfs.some, r1, r2, ?_, ?_, ?_, ?_⟩
  · rw [(r3 2 (by decide)).1]; norm_num [edge]
  · rw [(r3 3 (by decide)).1]; norm_num [edge]
  · rw [(r3 2 (by decide)).2]; norm_num [edge]
  · rw [(r3 3 (by decide)).2]
    norm_num [edge, shellVolume, density, Box.getVolume, hL, hd, hlen]

end Freud
