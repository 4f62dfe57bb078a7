import Verif.Lemmas.Coordination
import Verif.Props.Voronoi

/-!
# Property C81: continuous coordination numbers
-/

namespace Freud
open Spec Coordination

namespace Coordination

theorem parts_spec (is2D : Bool) (v : ℝ) (hv : 0 < v) (bonds : List (Bond ℝ)) :
    parts is2D v bonds = some (fractions (dimension is2D) v bonds) := by
  unfold parts fractions
  by_cases hb : bonds = []
  · subst hb; simp
  · dsimp only
    rw [if_neg hb, if_neg hv.ne']
    congr 1
    refine List.map_congr_left fun nb _ => ?_
    unfold pyramid dimension
    cases is2D <;> simp <;> field_simp

theorem fractions_pos (d : ℕ) (hd : 0 < d) (v : ℝ) (hv : 0 < v) (bonds : List (Bond ℝ))
    (h : ∀ nb ∈ bonds, 0 < nb.weight ∧ 0 < nb.dist) : ∀ x ∈ fractions d v bonds, 0 < x := by
  intro x hx
  obtain ⟨nb, hnb, rfl⟩ := List.mem_map.mp hx
  obtain ⟨h1, h2⟩ := h nb hnb
  unfold pyramid
  have : (0 : ℝ) < d := by exact_mod_cast hd
  positivity

theorem powerNumber_spec (xs : List ℝ) (h0 : xs ≠ []) (hp : ∀ x ∈ xs, 0 < x) (m : ℝ) :
    powerNumber xs.length xs m = some (coordPower m xs) := by
  unfold powerNumber
  have h1 : xs.mapM (power · m) = some (xs.map (· ^ m)) := by
    have : ∀ l : List ℝ, (∀ x ∈ l, 0 < x) → l.mapM (power · m) = some (l.map (· ^ m)) := by
      intro l
      induction l with
      | nil => intro _; rfl
      | cons x l ih =>
        intro h
        have hx : 0 < x := h x (by simp)
        rw [List.mapM_cons, ih fun y hy => h y (by simp [hy])]
        unfold power
        rw [if_neg (by intro h'; rcases h' with h' | ⟨h', -⟩ <;> linarith)]
        rfl
    exact this xs hp
  have hl : (0 : ℝ) < xs.length := by
    have := List.length_pos_of_ne_nil h0
    positivity
  rw [h1, Option.bind_some]
  have h2 : power (xs.length : ℝ) (2 - m) = some ((xs.length : ℝ) ^ (2 - m)) := by
    unfold power
    rw [if_neg (by intro h'; rcases h' with h' | ⟨h', -⟩ <;> linarith)]
  rw [h2, Option.bind_some, if_neg (pow_pos_sum m xs h0 hp).ne']
  rfl

theorem logNumber_spec (xs : List ℝ) (h0 : xs ≠ []) (hp : ∀ x ∈ xs, 0 < x) :
    logNumber xs.length xs = if xs.length = 1 then none else some (coordLog xs) := by
  unfold logNumber
  rw [if_neg (by rintro ⟨v, hv, h⟩; have := hp v hv; linarith)]
  by_cases h1 : xs.length = 1
  · rw [if_pos h1, if_pos h1]
  · rw [if_neg h1, if_neg h1, if_neg (by have := List.length_pos_of_ne_nil h0; omega)]
    unfold coordLog
    congr 1
    ring

theorem expNumber_spec (xs : List ℝ) (h0 : xs ≠ []) : expNumber xs.length xs = some (coordExp xs) := by
  unfold expNumber
  rw [if_neg (by rintro ⟨h, -⟩; exact h0 (List.length_eq_zero_iff.mp h))]
  rfl

theorem fractions_length (d : ℕ) (v : ℝ) (bonds : List (Bond ℝ)) :
    (fractions d v bonds).length = bonds.length := by simp [fractions]

theorem writeRow_eq {row vals : List (Option ℝ)} (h : vals.length = row.length) :
    writeRow row vals = some vals := by
  unfold writeRow
  rw [if_pos h.le, h, List.drop_length, List.append_nil]

theorem dimension_pos (is2D : Bool) : 0 < dimension is2D := by cases is2D <;> decide

end Coordination

/-- **C81** (value): the rows of the result are, for every particle and whatever the threads do, the
coordination numbers of the documentation (with the power formula read as the inverse of the sum), in
the order powers, logarithm, exponential, computed from the fractions of its Voronoi cell that
belong to its neighbors. -/
theorem C81_value (p : Params) (is2D : Bool) (s : Voronoi.State) (h : ProperDiagram s)
    (order : List ℕ) (hord : order.Perm (List.range s.nlist.numQueryPoints)) :
    Coordination.compute p is2D s order = some ((List.range s.nlist.numQueryPoints).map fun i =>
      coordRow p (fractions (dimension is2D) (s.volumes.getD i 0) (bondsOfPoint s.nlist i))) := by
  obtain ⟨n', e, hb, -, hl, hk⟩ := C15_segments s.nlist h.good h.fresh
  have hn' : n' = { s.nlist with counts := n'.counts, segments := n'.segments, segUpdated := true } := by
    have e' := e
    unfold NList.updateSegmentCounts at e'
    rw [h.fresh] at e'
    simp only [Bool.false_eq_true, if_false, Option.map_eq_some_iff] at e'
    obtain ⟨a, -, rfl⟩ := e'
    rfl
  have hq : n'.numQueryPoints = s.nlist.numQueryPoints := by rw [hn']
  have hgood : GoodList n' := by
    rw [hn']
    exact ⟨h.good.sorted, h.good.qlt, h.good.plt, h.good.small⟩
  obtain ⟨a, ea, -, hd⟩ := C66_schedule_independent n' hgood s.nlist.numQueryPoints order hord
    (⟨[n'.numQueryPoints, p.number],
        List.replicate n'.numQueryPoints (List.replicate p.number (some 0))⟩ :
      MArray (List (Option ℝ))) (by simp [hq])
    (point p is2D s.volumes n'.counts)
    (fun i => coordRow p (fractions (dimension is2D) (s.volumes.getD i 0) (bondsOfPoint s.nlist i)))
    (by
      intro i x hx
      have hi : i < s.nlist.numQueryPoints := by
        have := (List.getElem?_eq_some_iff.mp hx).1
        simpa [hq] using this
      have hv : i < s.volumes.length := by rw [h.volumes]; exact hi
      have hvol : s.volumes[i]? = some (s.volumes.getD i 0) := by
        rw [List.getD_eq_getElem?_getD, List.getElem?_eq_getElem hv]; rfl
      have hpos : 0 < s.volumes.getD i 0 := h.pos _ (List.mem_of_getElem? hvol)
      have hcnt : n'.counts[i]? = some (bondsOfPoint s.nlist i).length := by
        have := (hk i hi).1
        rw [List.getD_eq_getElem?_getD, List.getElem?_eq_getElem (by omega)] at this
        rw [List.getElem?_eq_getElem (by omega)]
        exact congrArg some this
      have hfil : n'.bonds.filter (fun b => decide (b.q = i)) = bondsOfPoint s.nlist i := by
        rw [hb]; rfl
      unfold point
      rw [hvol, Option.bind_some, hcnt, Option.bind_some, hfil]
      dsimp only
      have hx' : x.length = p.number := by
        have := List.mem_of_getElem? hx
        rw [List.mem_replicate] at this
        rw [this.2, List.length_replicate]
      rw [writeRow_eq (by rw [hx', Params.number]; cases p.log <;> cases p.exp <;> simp)]
      rw [parts_spec is2D _ hpos]
      have h0 : fractions (dimension is2D) (s.volumes.getD i 0) (bondsOfPoint s.nlist i) ≠ [] := by
        intro he
        exact h.some_neighbor i hi (List.map_eq_nil_iff.mp he)
      have hp := fractions_pos (dimension is2D) (dimension_pos is2D) _ hpos (bondsOfPoint s.nlist i)
        (fun nb hnb => h.bonds nb (List.mem_of_mem_filter hnb))
      rw [← fractions_length (dimension is2D) (s.volumes.getD i 0)]
      simp only [Option.bind_some, logNumber_spec _ h0 hp, expNumber_spec _ h0,
        powerNumber_spec _ h0 hp]
      rfl)
  unfold Coordination.compute
  rw [e, Option.bind_some, ea, Option.map_some, hd]

namespace Coordination

theorem fills_sum {is2D : Bool} {s : Voronoi.State} (h : ProperDiagram s) {i : ℕ}
    (hf : Fills is2D s i) :
    (fractions (dimension is2D) (s.volumes.getD i 0) (bondsOfPoint s.nlist i)).sum = 1 := by
  obtain ⟨v, hv, hs⟩ := hf
  have hpos : 0 < v := h.pos v (List.mem_of_getElem? hv)
  have : ∀ l : List (Bond ℝ), (fractions (dimension is2D) v l).sum =
      (l.map fun nb => pyramid (dimension is2D) nb.weight (nb.dist / 2)).sum / v := by
    intro l
    induction l with
    | nil => simp [fractions]
    | cons a l ih =>
      have e : fractions (dimension is2D) v (a :: l) =
        pyramid (dimension is2D) a.weight (a.dist / 2) / v :: fractions (dimension is2D) v l := rfl
      rw [e, List.sum_cons, ih, List.map_cons, List.sum_cons, add_div]
  rw [List.getD_eq_getElem?_getD, hv, Option.getD_some, this, hs, div_self hpos.ne']

end Coordination

/-- **C81** (meaning): for a particle with `N` neighbors whose pyramids fill its cell, the power number
with exponent 1 is `N`, those with larger exponents are at most `N`, and the logarithmic (for at least
two neighbors) and exponential numbers are at least `N`; each is `N` exactly if all neighbors have
equal shares of the cell. -/
theorem C81_bounds (p : Params) (is2D : Bool) (s : Voronoi.State) (h : ProperDiagram s)
    (order : List ℕ) (hord : order.Perm (List.range s.nlist.numQueryPoints)) :
    ∃ rows, Coordination.compute p is2D s order = some rows ∧
      rows.length = s.nlist.numQueryPoints ∧
      ∀ i < s.nlist.numQueryPoints, Fills is2D s i →
        ∃ row, rows[i]? = some row ∧ row.length = p.powers.length + p.log.toNat + p.exp.toNat ∧
        (∀ (k : ℕ) (m : ℝ), p.powers[k]? = some m → ∃ c : ℝ, row[k]? = some (some c) ∧ 0 < c ∧
          (m = 1 → c = (bondsOfPoint s.nlist i).length) ∧
          (1 < m → c ≤ (bondsOfPoint s.nlist i).length ∧
            (c = (bondsOfPoint s.nlist i).length ↔
              AllEqual ((bondsOfPoint s.nlist i).map fun nb => nb.weight * nb.dist)))) ∧
        (p.log = true → 2 ≤ (bondsOfPoint s.nlist i).length →
          ∃ c : ℝ, row[p.powers.length]? = some (some c) ∧ ((bondsOfPoint s.nlist i).length : ℝ) ≤ c ∧
            (c = (bondsOfPoint s.nlist i).length ↔
              AllEqual ((bondsOfPoint s.nlist i).map fun nb => nb.weight * nb.dist))) ∧
        (p.exp = true →
          ∃ c : ℝ, row[p.powers.length + p.log.toNat]? = some (some c) ∧
            ((bondsOfPoint s.nlist i).length : ℝ) ≤ c ∧
            (c = (bondsOfPoint s.nlist i).length ↔
              AllEqual ((bondsOfPoint s.nlist i).map fun nb => nb.weight * nb.dist))) := by
  refine ⟨_, C81_value p is2D s h order hord, by simp, fun i hi hf => ?_⟩
  refine ⟨_, by rw [List.getElem?_map, List.getElem?_range hi, Option.map_some], ?_⟩
  have hsum := fills_sum h hf
  obtain ⟨v, hv, -⟩ := hf
  have hpos : 0 < v := h.pos v (List.mem_of_getElem? hv)
  rw [List.getD_eq_getElem?_getD, hv, Option.getD_some] at hsum ⊢
  have h0 : fractions (dimension is2D) v (bondsOfPoint s.nlist i) ≠ [] := by
    intro he
    exact h.some_neighbor i hi (List.map_eq_nil_iff.mp he)
  have hp := fractions_pos (dimension is2D) (dimension_pos is2D) _ hpos (bondsOfPoint s.nlist i)
    (fun nb hnb => h.bonds nb (List.mem_of_mem_filter hnb))
  have hlen := fractions_length (dimension is2D) v (bondsOfPoint s.nlist i)
  have hd : (0 : ℝ) < dimension is2D := by exact_mod_cast dimension_pos is2D
  have hall : AllEqual (fractions (dimension is2D) v (bondsOfPoint s.nlist i)) ↔
      AllEqual ((bondsOfPoint s.nlist i).map fun nb => nb.weight * nb.dist) := by
    unfold AllEqual fractions
    simp only [List.mem_map, forall_exists_index, and_imp, forall_apply_eq_imp_iff₂]
    refine forall₂_congr fun a _ => forall₂_congr fun b _ => ?_
    unfold pyramid
    rw [div_left_inj' hpos.ne', div_left_inj' hd.ne']
    constructor <;> intro e <;> linarith
  rw [← hall, ← hlen]
  generalize fractions (dimension is2D) v (bondsOfPoint s.nlist i) = xs at *
  refine ⟨?_, ?_, ?_, ?_⟩
  · unfold coordRow
    cases p.log <;> cases p.exp <;> simp
  · intro k m hk
    have hk' : k < p.powers.length := (List.getElem?_eq_some_iff.mp hk).1
    refine ⟨coordPower m xs, ?_, ?_, ?_, ?_⟩
    · unfold coordRow
      rw [List.append_assoc, List.getElem?_append_left (by simpa using hk'), List.getElem?_map, hk,
        Option.map_some]
    · have := pow_pos_sum m xs h0 hp
      have hl : (0 : ℝ) < xs.length := by
        have := List.length_pos_of_ne_nil h0
        positivity
      unfold coordPower
      exact div_pos (Real.rpow_pos_of_pos hl _) this
    · rintro rfl; exact power_one xs hsum
    · intro hm; exact power_bound m hm xs h0 hp hsum
  · intro hl h2
    refine ⟨coordLog xs, ?_, log_bound xs h2 hp hsum⟩
    unfold coordRow
    rw [hl, List.append_assoc, List.getElem?_append_right (by simp)]
    simp only [List.length_map, Nat.sub_self, if_true]
    rw [if_neg (by omega)]
    rfl
  · intro he
    refine ⟨coordExp xs, ?_, exp_bound xs h0 hsum⟩
    unfold coordRow
    rw [he]
    cases p.log <;> simp

/-- **C81** (use of `Voronoi`): the diagram that `Voronoi.compute` leaves behind, for cells with
positive volumes, positive ridges and at least one ridge between particles, is one to which the
theorems above apply, and a cell whose pyramids fill it gives such a particle. -/
theorem C81_voronoi (b : Box ℝ) (points : List (Vec3 ℝ)) (cells : List Cell)
    (h : DiagramOK b points cells) (sortV : List (Vec3 ℝ) → List (Vec3 ℝ))
    (sortB : List (Bond ℝ) → List (Bond ℝ)) (hs : SortsOK sortV sortB) (s : Voronoi.State)
    (hvol : ∀ c ∈ cells, 0 < c.volume)
    (harea : ∀ c ∈ cells, ∀ r ∈ c.ridges, 0 < r.area)
    (hridge : ∀ c ∈ cells, ∃ r ∈ c.ridges, ¬ Horizontal b.is2D r) :
    ∃ s', Voronoi.compute b.is2D points sortV sortB s (cells.map raw) = some s' ∧
      s'.nlist.numQueryPoints = points.length ∧ ProperDiagram s' ∧
      ∀ c ∈ cells, c.volume = ((ridgeBonds b.is2D c).map fun nb =>
          pyramid (dimension b.is2D) nb.weight (nb.dist / 2)).sum → Fills b.is2D s' c.pid := by
  classical
  obtain ⟨s1, e1, -, -, hq, -, hseg, hgood⟩ := C80_neighbor_list b points cells h sortV sortB hs s
  obtain ⟨s2, e2, hvec⟩ := C80_vectors b points cells h sortV sortB hs s
  obtain ⟨s3, e3, hsurf⟩ := C80_surface b points cells h sortV sortB hs s
  obtain ⟨s4, e4, hn4, -, hl4, hc4⟩ := Voronoi.compute_spec b points cells h sortV sortB s
  rw [e1] at e2 e3 e4
  obtain rfl := Option.some.inj e2
  obtain rfl := Option.some.inj e3
  obtain rfl := Option.some.inj e4
  have hcell : ∀ i < points.length, ∃ c ∈ cells, c.pid = i := by
    intro i hi
    have : i ∈ cells.map (·.pid) := h.all.mem_iff.mpr (List.mem_range.mpr hi)
    obtain ⟨c, hc, rfl⟩ := List.mem_map.mp this
    exact ⟨c, hc, rfl⟩
  refine ⟨s1, e1, hq, ⟨hgood, hseg, by rw [hl4, hq], ?_, ?_, ?_⟩, ?_⟩
  · intro v hv
    obtain ⟨i, hi, e⟩ := List.getElem_of_mem hv
    obtain ⟨c, hc, rfl⟩ := hcell i (by omega)
    have := (hc4 c hc).2
    rw [List.getElem?_eq_getElem hi, e] at this
    rw [Option.some.inj this]
    exact hvol c hc
  · intro i hi
    obtain ⟨c, hc, rfl⟩ := hcell i (by omega)
    intro he
    have hp := (hsurf c hc).1
    unfold bondsOfPoint at he
    rw [he] at hp
    obtain ⟨r, hr, hh⟩ := hridge c hc
    have : ridgeBonds b.is2D c = [] := hp.symm.eq_nil
    unfold ridgeBonds at this
    rw [List.map_eq_nil_iff, List.filter_eq_nil_iff] at this
    exact this r hr (decide_eq_true hh)
  · intro nb hnb
    refine ⟨?_, (hvec nb hnb).2.1⟩
    obtain ⟨c, hc, hce⟩ := hcell nb.q (by have := hgood.qlt nb hnb; omega)
    have hm : nb ∈ ridgeBonds b.is2D c :=
      (hsurf c hc).1.mem_iff.mp (List.mem_filter.mpr ⟨hnb, by simp [hce]⟩)
    obtain ⟨r, hr, rfl⟩ := List.mem_map.mp hm
    exact harea c hc r (List.mem_of_mem_filter hr)
  · intro c hc hfill
    refine ⟨c.volume, (hc4 c hc).2, ?_⟩
    rw [hfill]
    exact ((hsurf c hc).1.map _).sum_eq

/-- **C81** (arguments): without a system and a diagram `compute` raises `ValueError`; with a diagram
that has not been computed it raises `RuntimeError`, even if a system is given; with a computed
diagram the system is not used. -/
theorem C81_arguments {S : Type*} (fresh : S → Voronoi.State) (system : Option S) (sys : S)
    (v : Voronoi.State) :
    diagram fresh none none = .error .value ∧
    diagram fresh (some sys) none = .ok (fresh sys) ∧
    diagram fresh system (some none) = .error .runtime ∧
    diagram fresh system (some (some v)) = .ok v := by
  refine ⟨rfl, rfl, ?_, ?_⟩ <;> cases system <;> rfl

/-- **C81**: the documented power formula, `N^(2 - m)` times the sum of the inverses of the powers, is not
what is computed: with two neighbors that have half of the cell each it gives 8 for `m = 2`, while
the code gives 2. -/
theorem C81_documentation_counterexample :
    powerNumber 2 [1 / 2, 1 / 2] 2 = some 2 ∧
    (([1 / 2, 1 / 2] : List ℝ).length : ℝ) ^ ((2 : ℝ) - 2) *
      (([1 / 2, 1 / 2] : List ℝ).map fun x => (x ^ (2 : ℝ))⁻¹).sum = 8 := by
  constructor
  · have := powerNumber_spec [1 / 2, 1 / 2] (by simp) (by
      intro x hx
      simp only [List.mem_cons, List.not_mem_nil, or_false, or_self] at hx
      rw [hx]; norm_num) 2
    refine this.trans (congrArg some ?_)
    unfold coordPower; norm_num
  · norm_num

/-- A cell in the square lattice of the plane: four neighbors with ridges of length 1 at distance 1,
area 1; its pyramids fill it. -/
noncomputable def Coordination.square : Voronoi.State where
  nlist := ⟨1, 1, [⟨0, 0, 1, 1, ⟨1, 0, 0⟩⟩, ⟨0, 0, 1, 1, ⟨-1, 0, 0⟩⟩, ⟨0, 0, 1, 1, ⟨0, 1, 0⟩⟩,
    ⟨0, 0, 1, 1, ⟨0, -1, 0⟩⟩], false, [], []⟩
  polytopes := []
  volumes := [1]

/-- The hypotheses are met by the square lattice, whose coordination numbers are all 4. -/
example : ProperDiagram square ∧ Fills true square 0 ∧
    (fractions 2 1 (bondsOfPoint square.nlist 0)) = [1 / 4, 1 / 4, 1 / 4, 1 / 4] ∧
    coordPower 2 [1 / 4, 1 / 4, 1 / 4, 1 / 4] = 4 ∧ coordExp [1 / 4, 1 / 4, 1 / 4, 1 / 4] = 4 := by
  refine ⟨⟨⟨?_, ?_, ?_, ?_⟩, rfl, rfl, ?_, ?_, ?_⟩, ⟨1, rfl, ?_⟩, ?_, ?_, ?_⟩
  · simp [square]
  · simp [square]
  · simp [square]
  · simp [square]
  · simp [square]
  · intro i hi
    have : i = 0 := by simpa [square] using hi
    subst this
    simp [square, bondsOfPoint]
  · simp [square]
  · simp [square, bondsOfPoint, pyramid, dimension]; norm_num
  · simp [square, bondsOfPoint, pyramid, fractions]; norm_num
  · unfold coordPower; norm_num
  · unfold coordExp; norm_num

end Freud
