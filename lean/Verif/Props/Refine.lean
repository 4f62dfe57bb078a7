import Verif.Lemmas.Refine
import Verif.Props.Direct
import Verif.Props.BondOrder
import Verif.Props.PairFrames

/-!
# Property C113: coarse bins hold what the fine bins in them hold

The same frames in a grid whose bins are cut into equal parts: every value of the coarse grid is the mean
of the values of its parts, with the volumes of the parts as weights. The two objects may be used in
different ways (schedules, reads, earlier results that were reset) as long as the frames that count are
the same.
-/

set_option linter.unusedSectionVars false

namespace Freud
open Spec PMFT
variable {K : Type*} [Field K] [LinearOrder K] [IsStrictOrderedRing K] [FloorRing K]

/-- **C113**: every edge of the coarse grid is an edge of the fine grid, and a value is in a coarse bin
exactly if it is in one of its parts, and then in only one. -/
theorem C113_bins (lo hi : K) (hlt : lo < hi) (n m : ℕ) (hn : 0 < n) (hm : 0 < m) (i : ℕ) (v : K) :
    edge lo hi (m * n) (m * i) = edge lo hi n i ∧
    (InBin lo hi n i v ↔ ∃! k, k < m ∧ InBin lo hi (m * n) (part m i k) v) := by
  refine ⟨edge_part lo hi hm i, fun h => ?_, fun h => ?_⟩
  · obtain ⟨k, hk, hu⟩ := (inBin_parts hlt hn hm i v).1 h
    exact ⟨k, ⟨hk, (hu k hk).mpr rfl⟩, fun k' h' => (hu k' h'.1).mp h'.2⟩
  · by_contra hc
    obtain ⟨k, ⟨hk, hb⟩, -⟩ := h
    exact (inBin_parts hlt hn hm i v).2 hc k hk hb

/-! ## Potentials of mean force -/

/-- **C113**: `PMFTXY`. -/
theorem C113_pmft_xy (xMax yMax : K) (hx : 0 < xMax) (hy : 0 < yMax) (nx ny mx my : ℕ) (g g' : Grid K)
    (hg : mkXY xMax yMax nx ny = some g) (hg' : mkXY xMax yMax (mx * nx) (my * ny) = some g')
    (hn : nx * ny ≤ OVERFLOW_BIN) (hn' : mx * nx * (my * ny) ≤ OVERFLOW_BIN) (box0 box0' : Box K)
    (history history' : List (PMFT.Op K)) (hl : ∀ o ∈ history, PMFTLegal g.axes o)
    (hl' : ∀ o ∈ history', PMFTLegal g'.axes o) (hsame : frames2D history' [] = frames2D history [])
    (f : FrameInfo K × List (List K)) (hf : (frames2D history []).getLast? = some f) (hok : PairFrameOK f.1)
    (order order' : List ℕ) (hord : order.Perm (List.range (nx * ny)))
    (hord' : order'.Perm (List.range (mx * nx * (my * ny)))) :
    ∃ p p1 s s1, PMFT.run check2D () (fun _ => fill g.jf) (zero g) (PMFT.new g () box0) history = some p ∧
      p.refresh (fun _ => fill g.jf) order = some p1 ∧
      PMFT.run check2D () (fun _ => fill g'.jf) (zero g') (PMFT.new g' () box0') history' = some s ∧
      s.refresh (fun _ => fill g'.jf) order' = some s1 ∧
      ∃ fine : ℕ → ℕ → K, (∀ i < mx * nx, ∀ j < my * ny, s1.out[i * (my * ny) + j]? = some (fine i j)) ∧
        ∀ i < nx, ∀ j < ny, p1.out[i * ny + j]? =
          some (meanParts mx fun a => meanParts my fun b => fine (part mx i a) (part my j b)) := by
  obtain ⟨p, p1, e1, e2, -, v⟩ := C40_xy xMax yMax hx hy nx ny g hg hn box0 history hl order hord f hf hok
  obtain ⟨s, s1, e1', e2', -, v'⟩ := C40_xy xMax yMax hx hy _ _ g' hg' hn' box0' history' hl' order' hord' f
    (hsame ▸ hf) hok
  obtain ⟨h1, h2, -⟩ := (C40_constructor_xy xMax yMax nx ny).mp (by rw [hg]; rfl)
  obtain ⟨h1', h2', -⟩ := (C40_constructor_xy xMax yMax _ _).mp (by rw [hg']; rfl)
  have m1 : 0 < mx := Nat.pos_of_mul_pos_right h1'
  have m2 : 0 < my := Nat.pos_of_mul_pos_right h2'
  refine ⟨p, p1, s, s1, e1, e2, e1', e2', _, v', fun i hi j hj => ?_⟩
  have q1 : (0 : K) < mx := by exact_mod_cast m1
  have q2 : (0 : K) < my := by exact_mod_cast m2
  have q3 : (0 : K) < nx := by exact_mod_cast h1
  have q4 : (0 : K) < ny := by exact_mod_cast h2
  rw [v i hi j hj, hsame, countIn_parts_two (by linarith) (by linarith) h1 h2 m1 m2, Option.some.injEq]
  simp only [binLength_eq, meanParts_div, idealCount]
  push_cast
  have hV := hok.volume
  field_simp

/-- **C113**: `PMFTXYT`. -/
theorem C113_pmft_xyt (T : Trig K) (hT : 0 < T.twoPi) (xMax yMax : K) (hx : 0 < xMax) (hy : 0 < yMax)
    (nx ny nt mx my mt : ℕ) (g g' : Grid K)
    (hg : mkXYT T xMax yMax nx ny nt = some g) (hg' : mkXYT T xMax yMax (mx * nx) (my * ny) (mt * nt) = some g')
    (hn : nx * (ny * nt) ≤ OVERFLOW_BIN) (hn' : mx * nx * (my * ny * (mt * nt)) ≤ OVERFLOW_BIN) (box0 box0' : Box K)
    (history history' : List (PMFT.Op K)) (hl : ∀ o ∈ history, PMFTLegal g.axes o)
    (hl' : ∀ o ∈ history', PMFTLegal g'.axes o) (hsame : frames2D history' [] = frames2D history [])
    (f : FrameInfo K × List (List K)) (hf : (frames2D history []).getLast? = some f) (hok : PairFrameOK f.1)
    (order order' : List ℕ) (hord : order.Perm (List.range (nx * (ny * nt))))
    (hord' : order'.Perm (List.range (mx * nx * (my * ny * (mt * nt))))) :
    ∃ p p1 s s1, PMFT.run check2D () (fun _ => fill g.jf) (zero g) (PMFT.new g () box0) history = some p ∧
      p.refresh (fun _ => fill g.jf) order = some p1 ∧
      PMFT.run check2D () (fun _ => fill g'.jf) (zero g') (PMFT.new g' () box0') history' = some s ∧
      s.refresh (fun _ => fill g'.jf) order' = some s1 ∧
      ∃ fine : ℕ → ℕ → ℕ → K, (∀ i < mx * nx, ∀ j < my * ny, ∀ k < mt * nt,
          s1.out[i * (my * ny * (mt * nt)) + (j * (mt * nt) + k)]? = some (fine i j k)) ∧
        ∀ i < nx, ∀ j < ny, ∀ k < nt, p1.out[i * (ny * nt) + (j * nt + k)]? =
          some (meanParts mx fun a => meanParts my fun b => meanParts mt fun c =>
            fine (part mx i a) (part my j b) (part mt k c)) := by
  obtain ⟨p, p1, e1, e2, -, v⟩ := C40_xyt T hT xMax yMax hx hy nx ny nt g hg hn box0 history hl order hord f hf hok
  obtain ⟨s, s1, e1', e2', -, v'⟩ := C40_xyt T hT xMax yMax hx hy _ _ _ g' hg' hn' box0' history' hl' order' hord' f
    (hsame ▸ hf) hok
  obtain ⟨h1, h2, h3, -⟩ := (C40_constructor_xyt T xMax yMax nx ny nt).mp (by rw [hg]; rfl)
  obtain ⟨h1', h2', h3', -⟩ := (C40_constructor_xyt T xMax yMax _ _ _).mp (by rw [hg']; rfl)
  have m1 : 0 < mx := Nat.pos_of_mul_pos_right h1'
  have m2 : 0 < my := Nat.pos_of_mul_pos_right h2'
  have m3 : 0 < mt := Nat.pos_of_mul_pos_right h3'
  refine ⟨p, p1, s, s1, e1, e2, e1', e2', _, v', fun i hi j hj k hk => ?_⟩
  have q1 : (0 : K) < mx := by exact_mod_cast m1
  have q2 : (0 : K) < my := by exact_mod_cast m2
  have q3 : (0 : K) < nx := by exact_mod_cast h1
  have q4 : (0 : K) < ny := by exact_mod_cast h2
  have q5 : (0 : K) < mt := by exact_mod_cast m3
  have q6 : (0 : K) < nt := by exact_mod_cast h3
  rw [v i hi j hj k hk, hsame, countIn_parts_three (by linarith) (by linarith) hT h1 h2 h3 m1 m2 m3,
    Option.some.injEq]
  simp only [binLength_eq, meanParts_div, idealCount]
  push_cast
  have hV := hok.volume
  field_simp

/-- **C113**: `PMFTXYZ`. The calls must also give the same number of equivalent orientations. -/
theorem C113_pmft_xyz (xMax yMax zMax : K) (hx : 0 < xMax) (hy : 0 < yMax) (hz : 0 < zMax)
    (nx ny nz mx my mz : ℕ) (g g' : Grid K) (hg : mkXYZ xMax yMax zMax nx ny nz = some g)
    (hg' : mkXYZ xMax yMax zMax (mx * nx) (my * ny) (mz * nz) = some g')
    (hn : nx * (ny * nz) ≤ OVERFLOW_BIN) (hn' : mx * nx * (my * ny * (mz * nz)) ≤ OVERFLOW_BIN) (box0 box0' : Box K)
    (history history' : List (PMFT.Op K)) (hl : ∀ o ∈ history, PMFTLegal g.axes o)
    (hl' : ∀ o ∈ history', PMFTLegal g'.axes o) (hsame : framesXYZ history' none [] = framesXYZ history none [])
    (hnum : firstNumber history' none = firstNumber history none)
    (f : FrameInfo K × List (List K)) (hf : (framesXYZ history none []).getLast? = some f) (hok : PairFrameOK f.1)
    (hk : ∀ k, firstNumber history none = some k → 1 ≤ k)
    (order order' : List ℕ) (hord : order.Perm (List.range (nx * (ny * nz))))
    (hord' : order'.Perm (List.range (mx * nx * (my * ny * (mz * nz))))) :
    ∃ p p1 s s1, PMFT.run checkXYZ NO_NUMBER (fillXYZ g.jf) (zero g) (PMFT.new g NO_NUMBER box0) history = some p ∧
      p.refresh (fillXYZ g.jf) order = some p1 ∧
      PMFT.run checkXYZ NO_NUMBER (fillXYZ g'.jf) (zero g') (PMFT.new g' NO_NUMBER box0') history' = some s ∧
      s.refresh (fillXYZ g'.jf) order' = some s1 ∧
      ∃ fine : ℕ → ℕ → ℕ → K, (∀ i < mx * nx, ∀ j < my * ny, ∀ k < mz * nz,
          s1.out[i * (my * ny * (mz * nz)) + (j * (mz * nz) + k)]? = some (fine i j k)) ∧
        ∀ i < nx, ∀ j < ny, ∀ k < nz, p1.out[i * (ny * nz) + (j * nz + k)]? =
          some (meanParts mx fun a => meanParts my fun b => meanParts mz fun c =>
            fine (part mx i a) (part my j b) (part mz k c)) := by
  obtain ⟨p, p1, num, e1, e2, e3, -, v⟩ := C40_xyz xMax yMax zMax hx hy hz nx ny nz g hg hn box0 history hl order hord
    f hf hok hk
  obtain ⟨s, s1, num', e1', e2', e3', -, v'⟩ := C40_xyz xMax yMax zMax hx hy hz _ _ _ g' hg' hn' box0' history' hl'
    order' hord' f (hsame ▸ hf) hok (hnum ▸ hk)
  obtain rfl : num' = num := Option.some.inj (e3'.symm.trans (hnum.trans e3))
  obtain ⟨h1, h2, h3, -⟩ := (C40_constructor_xyz xMax yMax zMax nx ny nz).mp (by rw [hg]; rfl)
  obtain ⟨h1', h2', h3', -⟩ := (C40_constructor_xyz xMax yMax zMax _ _ _).mp (by rw [hg']; rfl)
  have m1 : 0 < mx := Nat.pos_of_mul_pos_right h1'
  have m2 : 0 < my := Nat.pos_of_mul_pos_right h2'
  have m3 : 0 < mz := Nat.pos_of_mul_pos_right h3'
  refine ⟨p, p1, s, s1, e1, e2, e1', e2', _, v', fun i hi j hj k hk => ?_⟩
  have q1 : (0 : K) < mx := by exact_mod_cast m1
  have q2 : (0 : K) < my := by exact_mod_cast m2
  have q3 : (0 : K) < nx := by exact_mod_cast h1
  have q4 : (0 : K) < ny := by exact_mod_cast h2
  have q5 : (0 : K) < mz := by exact_mod_cast m3
  have q6 : (0 : K) < nz := by exact_mod_cast h3
  rw [v i hi j hj k hk, hsame, countIn_parts_three (by linarith) (by linarith) (by linarith) h1 h2 h3 m1 m2 m3,
    Option.some.injEq]
  simp only [binLength_eq, meanParts_div, idealCount]
  push_cast
  have hV := hok.volume
  field_simp

/-- **C113**: `PMFTR12`. The parts of a ring have different areas, so the mean over the radial parts has
the areas of the rings as weights. -/
theorem C113_pmft_r12 (T : Trig K) (hT : 0 < T.twoPi) (rMax : K) (hr : 0 < rMax) (nr nt1 nt2 mr mt1 mt2 : ℕ)
    (g g' : Grid K) (hg : mkR12 T rMax nr nt1 nt2 = some g)
    (hg' : mkR12 T rMax (mr * nr) (mt1 * nt1) (mt2 * nt2) = some g')
    (hn : nr * (nt1 * nt2) ≤ OVERFLOW_BIN) (hn' : mr * nr * (mt1 * nt1 * (mt2 * nt2)) ≤ OVERFLOW_BIN)
    (box0 box0' : Box K) (history history' : List (PMFT.Op K)) (hl : ∀ o ∈ history, PMFTLegal g.axes o)
    (hl' : ∀ o ∈ history', PMFTLegal g'.axes o) (hsame : frames2D history' [] = frames2D history [])
    (f : FrameInfo K × List (List K)) (hf : (frames2D history []).getLast? = some f) (hok : PairFrameOK f.1)
    (order order' : List ℕ) (hord : order.Perm (List.range (nr * (nt1 * nt2))))
    (hord' : order'.Perm (List.range (mr * nr * (mt1 * nt1 * (mt2 * nt2))))) :
    ∃ p p1 s s1, PMFT.run check2D () (fun _ => fill g.jf) (zero g) (PMFT.new g () box0) history = some p ∧
      p.refresh (fun _ => fill g.jf) order = some p1 ∧
      PMFT.run check2D () (fun _ => fill g'.jf) (zero g') (PMFT.new g' () box0') history' = some s ∧
      s.refresh (fun _ => fill g'.jf) order' = some s1 ∧
      ∃ fine : ℕ → ℕ → ℕ → K, (∀ i < mr * nr, ∀ j < mt1 * nt1, ∀ k < mt2 * nt2,
          s1.out[i * (mt1 * nt1 * (mt2 * nt2)) + (j * (mt2 * nt2) + k)]? = some (fine i j k)) ∧
        ∀ i < nr, ∀ j < nt1, ∀ k < nt2, p1.out[i * (nt1 * nt2) + (j * nt2 + k)]? =
          some (weightedMeanParts mr (fun a => sectorArea (edge 0 rMax (mr * nr) (part mr i a))
              (edge 0 rMax (mr * nr) (part mr i a + 1)) T.twoPi)
            fun a => meanParts mt1 fun b => meanParts mt2 fun c => fine (part mr i a) (part mt1 j b) (part mt2 k c)) := by
  obtain ⟨p, p1, e1, e2, -, v⟩ := C40_r12 T hT rMax hr nr nt1 nt2 g hg hn box0 history hl order hord f hf hok
  obtain ⟨s, s1, e1', e2', -, v'⟩ := C40_r12 T hT rMax hr _ _ _ g' hg' hn' box0' history' hl' order' hord' f
    (hsame ▸ hf) hok
  obtain ⟨h1, h2, h3, -⟩ := (C40_constructor_r12 T rMax nr nt1 nt2).mp (by rw [hg]; rfl)
  obtain ⟨h1', h2', h3', -⟩ := (C40_constructor_r12 T rMax _ _ _).mp (by rw [hg']; rfl)
  have m1 : 0 < mr := Nat.pos_of_mul_pos_right h1'
  have m2 : 0 < mt1 := Nat.pos_of_mul_pos_right h2'
  have m3 : 0 < mt2 := Nat.pos_of_mul_pos_right h3'
  refine ⟨p, p1, s, s1, e1, e2, e1', e2', _, v', fun i hi j hj k hk => ?_⟩
  have q1 : (0 : K) < mr := by exact_mod_cast m1
  have q2 : (0 : K) < mt1 := by exact_mod_cast m2
  have q3 : (0 : K) < nr := by exact_mod_cast h1
  have q4 : (0 : K) < nt1 := by exact_mod_cast h2
  have q5 : (0 : K) < mt2 := by exact_mod_cast m3
  have q6 : (0 : K) < nt2 := by exact_mod_cast h3
  have hV := hok.volume
  have hq : (0 : K) < f.1.nQuery := by exact_mod_cast hok.query
  have hp : (0 : K) < f.1.nPoints := by exact_mod_cast hok.points
  have hl0 : (0 : K) < (frames2D history []).length := by
    have : frames2D history [] ≠ [] := by intro e; rw [e] at hf; simp at hf
    exact_mod_cast List.length_pos_of_ne_nil this
  have hed : ∀ (n : ℕ), 0 < n → ∀ i j, i < j → 0 < edge 0 rMax n j ^ 2 - edge 0 rMax n i ^ 2 := by
    intro n hn i j hij
    have hn' : (0 : K) < n := by exact_mod_cast hn
    have hw : 0 < (rMax - 0) / (n : K) := div_pos (by linarith) hn'
    have h0 : (0 : K) ≤ i := Nat.cast_nonneg i
    have h1 : (i : K) < j := by exact_mod_cast hij
    have h2 := mul_lt_mul_of_pos_right h1 hw
    have h3 := mul_nonneg h0 hw.le
    unfold edge
    nlinarith
  rw [v i hi j hj k hk, hsame, countIn_parts_three hr hT hT h1 h2 h3 m1 m2 m3, Option.some.injEq]
  unfold weightedMeanParts
  have hwsum : (∑ a ∈ Finset.range mr, sectorArea (edge 0 rMax (mr * nr) (part mr i a))
      (edge 0 rMax (mr * nr) (part mr i a + 1)) T.twoPi) =
      sectorArea (edge 0 rMax nr i) (edge 0 rMax nr (i + 1)) T.twoPi := by
    unfold sectorArea
    rw [← Finset.sum_div, ← Finset.mul_sum]
    have := sum_part_telescope (fun j => edge (0 : K) rMax (mr * nr) j ^ 2) mr (mr * i)
    rw [edge_part_succ _ _ m1, edge_part _ _ m1] at this
    rw [← this]
    rfl
  rw [hwsum]
  have hterm : ∀ a ∈ Finset.range mr, sectorArea (edge 0 rMax (mr * nr) (part mr i a))
        (edge 0 rMax (mr * nr) (part mr i a + 1)) T.twoPi *
      (meanParts mt1 fun b => meanParts mt2 fun c => ((countIn [⟨mr * nr, 0, rMax⟩, ⟨mt1 * nt1, 0, T.twoPi⟩,
          ⟨mt2 * nt2, 0, T.twoPi⟩] [part mr i a, part mt1 j b, part mt2 k c]
          ((frames2D history []).flatMap (·.2)) : ℕ) : K) /
        idealCount (frames2D history []).length f.1
          (sectorArea (edge 0 rMax (mr * nr) (part mr i a)) (edge 0 rMax (mr * nr) (part mr i a + 1))
            (binLength 0 T.twoPi (mt1 * nt1) (part mt1 j b)) /
            f.1.box.getVolume * (binLength 0 T.twoPi (mt2 * nt2) (part mt2 k c) / T.twoPi))) =
      (∑ b ∈ Finset.range mt1, ∑ c ∈ Finset.range mt2, ((countIn [⟨mr * nr, 0, rMax⟩, ⟨mt1 * nt1, 0, T.twoPi⟩,
          ⟨mt2 * nt2, 0, T.twoPi⟩] [part mr i a, part mt1 j b, part mt2 k c]
          ((frames2D history []).flatMap (·.2)) : ℕ) : K)) *
        (T.twoPi * f.1.box.getVolume * nt1 * nt2 /
          (((frames2D history []).length : K) * f.1.nPoints * f.1.nQuery * T.twoPi)) := by
    intro a _
    have ha := hed (mr * nr) (Nat.mul_pos m1 h1) (part mr i a) (part mr i a + 1) (by omega)
    simp only [binLength_eq, meanParts_div, idealCount, sectorArea]
    push_cast
    rw [sub_zero]
    generalize (∑ b ∈ Finset.range mt1, ∑ c ∈ Finset.range mt2, _ : K) = S
    field_simp
  rw [Finset.sum_congr rfl hterm, ← Finset.sum_mul]
  have hi0 := hed nr h1 i (i + 1) (by omega)
  simp only [binLength_eq, idealCount, sectorArea]
  push_cast
  rw [sub_zero]
  generalize (∑ a ∈ Finset.range mr, ∑ b ∈ Finset.range mt1, ∑ c ∈ Finset.range mt2, _ : K) = S
  field_simp

/-! ## Radial distribution functions -/

/-- **C113**: `RDF`: a bin of the coarse one is the mean of its parts with the volumes of the shells as
weights; the cumulative number of neighbors is that of the last part. -/
theorem C113_rdf (pi : K) (hpi : 0 < pi) (bins m : ℕ) (rMax rMin : K) (a a' : RegularAxis K)
    (ha : RDF.mkAxis bins rMax rMin = some a) (ha' : RDF.mkAxis (m * bins) rMax rMin = some a')
    (hb : bins ≤ OVERFLOW_BIN) (hb' : m * bins ≤ OVERFLOW_BIN) (mode0 mode0' : NormalizationMode) (box0 box0' : Box K)
    (history history' : List (HistCompute.Op K NormalizationMode (FrameInfo K)))
    (hl : ∀ o ∈ history, HCLegalOp [a] o) (hl' : ∀ o ∈ history', HCLegalOp [a'] o)
    (hsame : frames history' [] = frames history [])
    (hinfo : lastInfo history' ⟨box0', 0, 0⟩ = lastInfo history ⟨box0, 0, 0⟩)
    (hmode : cfgUsed history' mode0' none = cfgUsed history mode0 none)
    (hframes : 1 ≤ (frames history []).length)
    (hok : FrameOK (cfgUsed history mode0 none) (lastInfo history ⟨box0, 0, 0⟩))
    (order order' : List ℕ) (hord : order.Perm (List.range bins)) (hord' : order'.Perm (List.range (m * bins))) :
    ∃ p p1 s s1, (RDF.new a mode0 box0).run (RDF.fill pi a) (RDF.zero a) history = some p ∧
      p.refresh (RDF.fill pi a) order = some p1 ∧
      (RDF.new a' mode0' box0').run (RDF.fill pi a') (RDF.zero a') history' = some s ∧
      s.refresh (RDF.fill pi a') order' = some s1 ∧
      ∃ fine : ℕ → K, (∀ i < m * bins, s1.out.1[i]? = some (fine i)) ∧
        ∀ i < bins, p1.out.1[i]? = some (weightedMeanParts m (fun k => shellVolume pi (lastInfo history ⟨box0, 0, 0⟩).box.is2D
            (edge rMin rMax (m * bins) (part m i k)) (edge rMin rMax (m * bins) (part m i k + 1)))
            fun k => fine (part m i k)) ∧
          p1.out.2[i]? = s1.out.2[part m i (m - 1)]? := by
  obtain ⟨p, p1, e1, e2, -, -, v⟩ := C35_rdf pi bins rMax rMin a ha hb mode0 box0 history hl order hord hframes hok
  obtain ⟨s, s1, e1', e2', -, -, v'⟩ := C35_rdf pi _ rMax rMin a' ha' hb' mode0' box0' history' hl' order' hord'
    (hsame ▸ hframes) (by rw [hmode, hinfo]; exact hok)
  rw [hsame, hinfo, hmode] at v'
  obtain ⟨h1, h2, h3, -⟩ := (C35_constructor bins rMax rMin a).mp ha
  obtain ⟨h1', -⟩ := (C35_constructor _ rMax rMin a').mp ha'
  have m1 : 0 < m := Nat.pos_of_mul_pos_right h1'
  refine ⟨p, p1, s, s1, e1, e2, e1', e2', _, fun i hi => (v' i hi).1, fun i hi => ⟨?_, ?_⟩⟩
  · rw [(v i hi).1, bondsIn_parts h3 h1 m1, Option.some.injEq]
    set info := lastInfo history ⟨box0, 0, 0⟩ with hI
    set mode := cfgUsed history mode0 none
    have hed : ∀ (n : ℕ), 0 < n → ∀ i j, i < j → 0 ≤ edge rMin rMax n i ∧ edge rMin rMax n i < edge rMin rMax n j := by
      intro n hn i j hij
      have hn' : (0 : K) < n := by exact_mod_cast hn
      have hw : 0 < (rMax - rMin) / (n : K) := div_pos (by linarith) hn'
      have h0 : (0 : K) ≤ i := Nat.cast_nonneg i
      have h1 : (i : K) < j := by exact_mod_cast hij
      have h2 := mul_lt_mul_of_pos_right h1 hw
      have h3 := mul_nonneg h0 hw.le
      unfold edge
      constructor <;> linarith
    have hvol : ∀ (n : ℕ), 0 < n → ∀ i j, i < j →
        0 < shellVolume pi info.box.is2D (edge rMin rMax n i) (edge rMin rMax n j) := by
      intro n hn i j hij
      obtain ⟨q1, q2⟩ := hed n hn i j hij
      have q3 := pow_lt_pow_left₀ q2 q1 (n := 2) (by norm_num)
      have q4 := pow_lt_pow_left₀ q2 q1 (n := 3) (by norm_num)
      unfold shellVolume
      split_ifs
      · exact mul_pos hpi (by linarith)
      · exact mul_pos (by positivity) (by linarith)
    have hws : (∑ k ∈ Finset.range m, shellVolume pi info.box.is2D (edge rMin rMax (m * bins) (part m i k))
        (edge rMin rMax (m * bins) (part m i k + 1))) =
        shellVolume pi info.box.is2D (edge rMin rMax bins i) (edge rMin rMax bins (i + 1)) := by
      have t2 := sum_part_telescope (fun j => edge rMin rMax (m * bins) j ^ 2) m (m * i)
      have t3 := sum_part_telescope (fun j => edge rMin rMax (m * bins) j ^ 3) m (m * i)
      rw [edge_part_succ _ _ m1, edge_part _ _ m1] at t2 t3
      unfold shellVolume part
      split_ifs
      · rw [← Finset.mul_sum, t2]
      · rw [← Finset.mul_sum, t3]
    unfold weightedMeanParts
    rw [hws]
    have hterm : ∀ k ∈ Finset.range m, shellVolume pi info.box.is2D (edge rMin rMax (m * bins) (part m i k))
          (edge rMin rMax (m * bins) (part m i k + 1)) *
        ((bondsIn (edge rMin rMax (m * bins) (part m i k)) (edge rMin rMax (m * bins) (part m i k + 1))
            ((frames history []).flatMap (·.2)) : K) /
          (info.nPoints * density mode info * shellVolume pi info.box.is2D (edge rMin rMax (m * bins) (part m i k))
            (edge rMin rMax (m * bins) (part m i k + 1)) * ((frames history []).length : K))) =
        (bondsIn (edge rMin rMax (m * bins) (part m i k)) (edge rMin rMax (m * bins) (part m i k + 1))
            ((frames history []).flatMap (·.2)) : K) *
          (info.nPoints * density mode info * ((frames history []).length : K))⁻¹ := by
      intro k _
      have := (hvol (m * bins) h1' (part m i k) (part m i k + 1) (by omega)).ne'
      generalize (info.nPoints : K) * density mode info = A
      generalize ((frames history []).length : K) = B
      generalize shellVolume pi info.box.is2D (edge rMin rMax (m * bins) (part m i k))
        (edge rMin rMax (m * bins) (part m i k + 1)) = V at this ⊢
      rw [show A * V * B = V * (A * B) by ring, ← div_eq_mul_inv, ← mul_div_assoc, mul_div_mul_left _ _ this]
    rw [Finset.sum_congr rfl hterm, ← Finset.sum_mul]
    push_cast
    rw [show ∀ A D V B : K, A * D * V * B = A * D * B * V by intros; ring, ← div_div, div_eq_mul_inv _ (_ * _ * _)]
  · have : edge rMin rMax (m * bins) (part m i (m - 1) + 1) = edge rMin rMax bins (i + 1) := by
      rw [← edge_part_succ rMin rMax m1 i, show part m i (m - 1) + 1 = m * i + m by unfold part; omega]
    rw [(v i hi).2, (v' _ (part_lt hi (by omega))).2, this]

/-! ## Means of values -/

section Means
variable {V : Type*} [Field V] [CharZero V]

theorem number_mul_meanIn (lo hi : K) (l : List (K × V)) :
    (numberIn lo hi (l.map (·.1)) : V) * meanIn lo hi l =
      ((l.filter fun b => decide (lo ≤ b.1 ∧ b.1 < hi)).map (·.2)).sum := by
  classical
  have e : numberIn lo hi (l.map (·.1)) = (l.filter fun b => decide (lo ≤ b.1 ∧ b.1 < hi)).length := by
    unfold numberIn
    rw [List.filter_map, List.length_map]
    congr 1
    refine List.filter_congr fun b _ => ?_
    simp
  rw [e]
  unfold meanIn
  simp only
  by_cases h : (l.filter fun b => decide (lo ≤ b.1 ∧ b.1 < hi)) = []
  · rw [if_pos (by convert h), h]; simp
  · rw [if_neg (by convert h)]
    have : ((l.filter fun b => decide (lo ≤ b.1 ∧ b.1 < hi)).length : V) ≠ 0 := by
      exact_mod_cast (List.length_pos_of_ne_nil h).ne'
    convert mul_div_cancel₀ _ this

theorem sums_parts {lo hi : K} (h : lo < hi) {n m : ℕ} (hn : 0 < n) (hm : 0 < m) (i : ℕ) (l : List (K × V)) :
    ((l.filter fun b => decide (edge lo hi n i ≤ b.1 ∧ b.1 < edge lo hi n (i + 1))).map (·.2)).sum =
      ∑ k ∈ Finset.range m, ((l.filter fun b => decide (edge lo hi (m * n) (part m i k) ≤ b.1 ∧
        b.1 < edge lo hi (m * n) (part m i k + 1))).map (·.2)).sum := by
  refine (sum_parts _ (fun k (b : K × V) => decide (edge lo hi (m * n) (part m i k) ≤ b.1 ∧
    b.1 < edge lo hi (m * n) (part m i k + 1))) (fun b hb => ?_) (fun b hb => ?_) _ l).symm
  · simp only [decide_eq_true_eq] at hb ⊢
    exact (inBin_parts h hn hm i b.1).1 hb
  · simp only [decide_eq_true_eq] at hb ⊢
    exact (inBin_parts h hn hm i b.1).2 hb

theorem numbers_parts {lo hi : K} (h : lo < hi) {n m : ℕ} (hn : 0 < n) (hm : 0 < m) (i : ℕ) (ds : List K) :
    numberIn (edge lo hi n i) (edge lo hi n (i + 1)) ds = ∑ k ∈ Finset.range m,
      numberIn (edge lo hi (m * n) (part m i k)) (edge lo hi (m * n) (part m i k + 1)) ds := by
  unfold numberIn
  refine Eq.trans ?_ ((length_parts (m := m) (fun d : K => decide (edge lo hi n i ≤ d ∧ d < edge lo hi n (i + 1)))
    (fun k (d : K) => decide (edge lo hi (m * n) (part m i k) ≤ d ∧
    d < edge lo hi (m * n) (part m i k + 1))) (fun b hb => ?_) (fun b hb => ?_) ds).symm.trans ?_)
  · congr 1
    refine List.filter_congr fun d _ => ?_
    rw [decide_eq_decide]
  · simp only [decide_eq_true_eq] at hb ⊢
    exact (inBin_parts h hn hm i b).1 hb
  · simp only [decide_eq_true_eq] at hb ⊢
    exact (inBin_parts h hn hm i b).2 hb
  · refine Finset.sum_congr rfl fun k _ => congrArg List.length (List.filter_congr fun d _ => ?_)
    rw [decide_eq_decide]

end Means

/-- **C113**: `CorrelationFunction`: a value of the coarse one is the mean of its parts with the numbers of
bonds as weights (all are zero if there is no bond). -/
theorem C113_correlation {V : Type*} [Field V] [StarRing V] [CharZero V] [DecidableEq V] (bins m : ℕ) (rMax : K)
    (a a' : RegularAxis K) (ha : CorrelationFunction.mkAxis bins rMax = some a)
    (ha' : CorrelationFunction.mkAxis (m * bins) rMax = some a') (hb : bins ≤ OVERFLOW_BIN)
    (hb' : m * bins ≤ OVERFLOW_BIN) (history history' : List (CorrelationFunction.Op K V))
    (hl : ∀ o ∈ history, CFLegal bins o) (hl' : ∀ o ∈ history', CFLegal (m * bins) o)
    (hsame : cfProducts history' [] = cfProducts history [])
    (order order' : List ℕ) (hord : order.Perm (List.range bins)) (hord' : order'.Perm (List.range (m * bins))) :
    ∃ p p1 s s1, (CorrelationFunction.new a : CorrelationFunction K V).run history = some p ∧
      p.getCorrelation order = some p1 ∧
      (CorrelationFunction.new a' : CorrelationFunction K V).run history' = some s ∧
      s.getCorrelation order' = some s1 ∧
      ∃ (number : ℕ → ℕ) (coarse fine : ℕ → V), (∀ j, number j = numberIn (edge 0 rMax (m * bins) j)
          (edge 0 rMax (m * bins) (j + 1)) ((cfProducts history []).map (·.1))) ∧
        (∀ j < m * bins, s1.output[j]? = some (fine j)) ∧
        ∀ i < bins, p1.output[i]? = some (coarse i) ∧
          ((∑ k ∈ Finset.range m, number (part m i k) : ℕ) : V) * coarse i =
            ∑ k ∈ Finset.range m, (number (part m i k) : V) * fine (part m i k) ∧
          ((∑ k ∈ Finset.range m, number (part m i k) : ℕ) = 0 → coarse i = 0) := by
  obtain ⟨p, p1, e1, e2, v⟩ := C36_correlation bins rMax a ha hb history hl order hord
  obtain ⟨s, s1, e1', e2', v'⟩ := C36_correlation _ rMax a' ha' hb' history' hl' order' hord'
  obtain ⟨h1, h2, -⟩ := (C36_constructor bins rMax a).mp ha
  obtain ⟨h1', -⟩ := (C36_constructor _ rMax a').mp ha'
  have m1 : 0 < m := Nat.pos_of_mul_pos_right h1'
  refine ⟨p, p1, s, s1, e1, e2, e1', e2', _,
    fun i => meanIn (edge 0 rMax bins i) (edge 0 rMax bins (i + 1)) (cfProducts history []),
    fun i => meanIn (edge 0 rMax (m * bins) i) (edge 0 rMax (m * bins) (i + 1)) (cfProducts history []), fun _ => rfl,
    fun j hj => ?_, fun i hi => ⟨?_, ?_, fun h0 => ?_⟩⟩
  · rw [v', hsame, List.getElem?_map, List.getElem?_range hj]; rfl
  · rw [v, List.getElem?_map, List.getElem?_range hi]; rfl
  · simp only [number_mul_meanIn]
    rw [← numbers_parts h2 h1 m1, number_mul_meanIn, sums_parts h2 h1 m1]
  · rw [← numbers_parts h2 h1 m1] at h0
    classical
    have e : (cfProducts history []).filter (fun b => decide (edge 0 rMax bins i ≤ b.1 ∧
        b.1 < edge 0 rMax bins (i + 1))) = [] := by
      rw [← List.length_eq_zero_iff, ← h0]
      unfold numberIn
      rw [List.filter_map, List.length_map]
      congr 1
      refine List.filter_congr fun b _ => ?_
      simp
    show meanIn _ _ _ = _
    unfold meanIn
    simp only
    rw [if_pos (by convert e)]

/-- **C113**: `StaticStructureFactorDirect`: a value of the coarse one is the mean of its parts with the
numbers of wave vectors as weights (zero if there is none). -/
theorem C113_direct (bins m : ℕ) (kMax kMin : ℝ) (a a' : RegularAxis ℝ) (ha : Direct.mkAxis bins kMax kMin = .ok a)
    (ha' : Direct.mkAxis (m * bins) kMax kMin = .ok a') (hb : bins ≤ OVERFLOW_BIN) (hb' : m * bins ≤ OVERFLOW_BIN)
    (history history' : List Direct.Op) (hl : DirectLegal bins history none)
    (hl' : DirectLegal (m * bins) history' none) (hcal : directCalled history = true)
    (hcal' : directCalled history' = true)
    (hsame : directSamples (directFrames history' none []) = directSamples (directFrames history none []))
    (order order' : List ℕ) (hord : order.Perm (List.range bins)) (hord' : order'.Perm (List.range (m * bins))) :
    ∃ p p1 s s1 vals vals', (Direct.new a).run history = some p ∧ p.read order = some (p1, .value vals) ∧
      (Direct.new a').run history' = some s ∧ s.read order' = some (s1, .value vals') ∧
      ∃ (number : ℕ → ℕ) (coarse fine : ℕ → ℝ), (∀ j, number j = numberIn (edge kMin kMax (m * bins) j)
          (edge kMin kMax (m * bins) (j + 1)) ((directSamples (directFrames history none [])).map (·.1))) ∧
        (∀ j < m * bins, vals'[j]? = some (fine j)) ∧
        ∀ i < bins, vals[i]? = some (coarse i) ∧
          ((∑ k ∈ Finset.range m, number (part m i k) : ℕ) : ℝ) * coarse i =
            ∑ k ∈ Finset.range m, (number (part m i k) : ℝ) * fine (part m i k) := by
  obtain ⟨p, p1, e1, e2, -⟩ := Direct.C55_mean bins kMax kMin a ha hb history hl order hord hcal
  obtain ⟨s, s1, e1', e2', -⟩ := Direct.C55_mean _ kMax kMin a' ha' hb' history' hl' order' hord' hcal'
  have hg : ∀ n a, Direct.mkAxis n kMax kMin = .ok a → ¬ (n = 0 ∨ kMax ≤ 0 ∨ kMin < 0 ∨ kMax ≤ kMin) := by
    intro n a ha hg
    rw [(Direct.C55_guards n kMax kMin).1.mpr hg] at ha
    cases ha
  have g1 := hg _ _ ha
  have g2 := hg _ _ ha'
  push Not at g1 g2
  have h1 : 0 < bins := Nat.pos_of_ne_zero g1.1
  have m1 : 0 < m := Nat.pos_of_mul_pos_right (Nat.pos_of_ne_zero g2.1)
  refine ⟨p, p1, s, s1, _, _, e1, e2, e1', e2', _,
    fun i => meanIn (edge kMin kMax bins i) (edge kMin kMax bins (i + 1)) (directSamples (directFrames history none [])),
    fun i => meanIn (edge kMin kMax (m * bins) i) (edge kMin kMax (m * bins) (i + 1))
      (directSamples (directFrames history none [])), fun _ => rfl,
    fun j hj => ?_, fun i hi => ⟨?_, ?_⟩⟩
  · rw [hsame, List.getElem?_map, List.getElem?_range hj]; rfl
  · rw [List.getElem?_map, List.getElem?_range hi]; rfl
  · simp only [number_mul_meanIn]
    rw [← numbers_parts g1.2.2.2 h1 m1, number_mul_meanIn, sums_parts g1.2.2.2 h1 m1]

/-! ## Bond order diagrams -/

/-- **C113**: `BondOrder`: a sector of the coarse diagram is the mean of its parts with the solid angles as
weights. -/
theorem C113_bond_order (nT nP mT mP : ℕ) (g g' : BondOrder.Grid) (hg : BondOrder.mk nT nP = some g)
    (hg' : BondOrder.mk (mT * nT) (mP * nP) = some g') (hn : nT * nP ≤ OVERFLOW_BIN)
    (hn' : mT * nT * (mP * nP) ≤ OVERFLOW_BIN) (mode : BondOrder.Mode) (box0 box0' : Box ℝ)
    (history history' : List BondOrder.Op) (hl : ∀ o ∈ history, BOLegal nT nP mode o)
    (hl' : ∀ o ∈ history', BOLegal (mT * nT) (mP * nP) mode o)
    (hsame : (callsSince history' []).map (callDirections mode) = (callsSince history []).map (callDirections mode))
    (hc : callsSince history [] ≠ []) (order order' : List ℕ) (hord : order.Perm (List.range (nT * nP)))
    (hord' : order'.Perm (List.range (mT * nT * (mP * nP)))) :
    ∃ p p1 s s1 coarse fine, BondOrder.run g mode (BondOrder.new g box0) history = some p ∧
      BondOrder.bondOrder g p order = some (p1, coarse) ∧
      BondOrder.run g' mode (BondOrder.new g' box0') history' = some s ∧
      BondOrder.bondOrder g' s order' = some (s1, fine) ∧ coarse.length = nT * nP ∧
      fine.length = mT * nT * (mP * nP) ∧
      ∀ i < nT, ∀ j < nP, coarse.getD (i * nP + j) 0 =
        weightedMeanParts mP (fun b => solidAngle (mT * nT) (mP * nP) (part mP j b)) fun b =>
          meanParts mT fun a => fine.getD (part mT i a * (mP * nP) + part mP j b) 0 := by
  obtain ⟨p, p1, bo, e1, e2, l1, v⟩ := C79_value nT nP g hg hn mode box0 history hl order hord hc
  have hlen : (callsSince history' []).length = (callsSince history []).length := by
    simpa using congrArg List.length hsame
  have hc' : callsSince history' [] ≠ [] := by
    intro e; rw [e] at hlen; exact hc (List.length_eq_zero_iff.mp (by simpa using hlen.symm))
  obtain ⟨s, s1, bo', e1', e2', l1', v'⟩ := C79_value _ _ g' hg' hn' mode box0' history' hl' order' hord' hc'
  have hdir : (callsSince history' []).flatMap (callDirections mode) =
      (callsSince history []).flatMap (callDirections mode) := by
    rw [List.flatMap_def, List.flatMap_def, hsame]
  obtain ⟨h1, h2, -, -⟩ := BondOrder.mk_eq hg
  obtain ⟨h1', h2', -, -⟩ := BondOrder.mk_eq hg'
  have m1 : 0 < mT := Nat.pos_of_ne_zero (by rintro rfl; simp at h1')
  have m2 : 0 < mP := Nat.pos_of_ne_zero (by rintro rfl; simp at h2')
  have hpi := Real.pi_pos
  have hvs : ∀ v ∈ (callsSince history []).flatMap (callDirections mode), v ≠ ⟨0, 0, 0⟩ := by
    intro v hv
    obtain ⟨c, hc, hv⟩ := List.mem_flatMap.mp hv
    exact (BondOrder.frames_eq nT nP mode history [] hl (by simp)).2 c hc v hv
  refine ⟨p, p1, s, s1, bo, bo', e1, e2, e1', e2', l1, l1', fun i hi j hj => ?_⟩
  set vs := (callsSince history []).flatMap (callDirections mode) with hvd
  have hfine : ∀ b < mP, (meanParts mT fun a => bo'.getD (part mT i a * (mP * nP) + part mP j b) 0) =
      (∑ a ∈ Finset.range mT, (howMany (InSector (mT * nT) (mP * nP) (part mT i a) (part mP j b)) vs : ℝ)) /
        (solidAngle (mT * nT) (mP * nP) (part mP j b) * ((callsSince history []).length : ℝ) * mT) := by
    intro b hb
    rw [← meanParts_div]
    unfold meanParts
    congr 1
    refine Finset.sum_congr rfl fun a ha => ?_
    show bo'.getD _ _ = _
    rw [List.getD_eq_getElem?_getD, v' _ (part_lt hi (Finset.mem_range.mp ha)) _ (part_lt hj hb), Option.getD_some, hdir,
      hlen, div_div]
  unfold weightedMeanParts
  have hsa := (C79_solid_angles (mT * nT) (mP * nP) h1' h2').1
  have hsa0 := (C79_solid_angles nT nP h1 h2).1 j hj
  have q1 : (0 : ℝ) < mT := by exact_mod_cast m1
  have q2 : (0 : ℝ) < mP := by exact_mod_cast m2
  have q3 : (0 : ℝ) < nT := by exact_mod_cast (by omega : 0 < nT)
  have q4 : (0 : ℝ) < nP := by exact_mod_cast (by omega : 0 < nP)
  have q5 : (0 : ℝ) < (callsSince history []).length := by exact_mod_cast List.length_pos_of_ne_nil hc
  have hw : (∑ b ∈ Finset.range mP, solidAngle (mT * nT) (mP * nP) (part mP j b)) = solidAngle nT nP j / mT := by
    unfold solidAngle
    rw [← Finset.mul_sum]
    have t := sum_part_telescope (fun x : ℕ => - Real.cos (Real.pi * x / ((mP * nP : ℕ) : ℝ))) mP (mP * j)
    have t' : (∑ b ∈ Finset.range mP, (Real.cos (Real.pi * ((part mP j b : ℕ) : ℝ) / ((mP * nP : ℕ) : ℝ)) -
        Real.cos (Real.pi * (((part mP j b : ℕ) : ℝ) + 1) / ((mP * nP : ℕ) : ℝ)))) =
        Real.cos (Real.pi * j / nP) - Real.cos (Real.pi * (j + 1) / nP) := by
      rw [show Real.pi * (j : ℝ) / nP = Real.pi * ((mP * j : ℕ) : ℝ) / ((mP * nP : ℕ) : ℝ) by push_cast; field_simp,
        show Real.pi * ((j : ℝ) + 1) / nP = Real.pi * ((mP * j + mP : ℕ) : ℝ) / ((mP * nP : ℕ) : ℝ) by
          push_cast; field_simp]
      rw [show ∀ x y : ℝ, x - y = -y - -x by intros; ring, ← t]
      refine Finset.sum_congr rfl fun b _ => ?_
      unfold part
      push_cast
      ring
    rw [t']
    push_cast
    field_simp
  rw [hw]
  have hterm : ∀ b ∈ Finset.range mP, solidAngle (mT * nT) (mP * nP) (part mP j b) *
      (meanParts mT fun a => bo'.getD (part mT i a * (mP * nP) + part mP j b) 0) =
      (∑ a ∈ Finset.range mT, (howMany (InSector (mT * nT) (mP * nP) (part mT i a) (part mP j b)) vs : ℝ)) /
        (((callsSince history []).length : ℝ) * mT) := by
    intro b hb
    have hb := Finset.mem_range.mp hb
    rw [hfine b hb]
    have := (hsa (part mP j b) (part_lt hj hb)).ne'
    field_simp
  rw [Finset.sum_congr rfl hterm, ← Finset.sum_div, Finset.sum_comm]
  have hcount : (howMany (InSector nT nP i j) vs : ℝ) = ∑ a ∈ Finset.range mT, ∑ b ∈ Finset.range mP,
      (howMany (InSector (mT * nT) (mP * nP) (part mT i a) (part mP j b)) vs : ℝ) := by
    rw [← BondOrder.countIn_angles nT nP i j (by omega) (by omega) hi hj vs hvs,
      countIn_parts_two (by positivity) hpi (by omega) (by omega) m1 m2]
    push_cast
    refine Finset.sum_congr rfl fun a ha => Finset.sum_congr rfl fun b hb => ?_
    rw [BondOrder.countIn_angles _ _ _ _ (by omega) (by omega) (part_lt hi (Finset.mem_range.mp ha))
      (part_lt hj (Finset.mem_range.mp hb)) vs hvs]
  rw [List.getD_eq_getElem?_getD, v i hi j hj, Option.getD_some, hcount]
  field_simp

/-! ## Concrete cases -/

example : InBin (0 : ℚ) 3 3 1 (3 / 2) ∧ part 2 1 1 = 3 ∧ InBin (0 : ℚ) 3 (2 * 3) 3 (3 / 2) := by
  refine ⟨?_, rfl, ?_⟩ <;> (unfold InBin edge; norm_num)

/-- The calls of `pmftHistory` that count, made to another object. -/
def pmftHistoryFine : List (PMFT.Op ℚ) :=
  [.accumulate (pmftCall true 1 [1, 1]), .accumulate (pmftCall true 1 [-1, 1]), .read (List.range 24)]

/-- The hypotheses of `C113_pmft_xy` hold for a grid of 2 x 2 bins cut into 2 x 3 parts each. -/
example : ∃ g g' : Grid ℚ, mkXY (2 : ℚ) 2 2 2 = some g ∧ mkXY (2 : ℚ) 2 (2 * 2) (3 * 2) = some g' ∧
    (∀ o ∈ pmftHistory, PMFTLegal g.axes o) ∧ (∀ o ∈ pmftHistoryFine, PMFTLegal g'.axes o) ∧
    frames2D pmftHistoryFine [] = frames2D pmftHistory [] ∧
    ∃ f, (frames2D pmftHistory []).getLast? = some f ∧ PairFrameOK f.1 := by
  refine ⟨_, _, rfl, rfl, ?_, ?_, rfl, _, rfl, ⟨by decide, by decide, by decide +kernel⟩⟩
  · intro o ho
    simp only [pmftHistory, List.mem_cons, List.not_mem_nil, or_false] at ho
    rcases ho with rfl | rfl | rfl | rfl | rfl
    · exact ⟨by unfold IsExecution; decide, by simp [pmftCall], by decide⟩
    · trivial
    · exact ⟨by unfold IsExecution; decide, by simp [pmftCall], by decide⟩
    · simp only [PMFTLegal]; decide
    · exact ⟨by unfold IsExecution; decide, by simp [pmftCall], by decide⟩
  · intro o ho
    simp only [pmftHistoryFine, List.mem_cons, List.not_mem_nil, or_false] at ho
    rcases ho with rfl | rfl | rfl
    · exact ⟨by unfold IsExecution; decide, by simp [pmftCall], by decide⟩
    · exact ⟨by unfold IsExecution; decide, by simp [pmftCall], by decide⟩
    · exact List.Perm.refl _

/-- The hypotheses of `C113_pmft_xyz`: 2 x 2 x 2 bins cut into 2 x 2 x 2 parts each. -/
example : ∃ g g' : Grid ℚ, mkXYZ (2 : ℚ) 2 2 2 2 2 = some g ∧ mkXYZ (2 : ℚ) 2 2 (2 * 2) (2 * 2) (2 * 2) = some g' ∧
    (∀ o ∈ pmftHistoryXYZ, PMFTLegal g.axes o) ∧ (∀ o ∈ pmftHistoryXYZ, PMFTLegal g'.axes o) ∧
    (∃ f, (framesXYZ pmftHistoryXYZ none []).getLast? = some f ∧ PairFrameOK f.1) ∧
    ∀ k, firstNumber pmftHistoryXYZ none = some k → 1 ≤ k := by
  refine ⟨_, _, rfl, rfl, ?_, ?_, ⟨_, rfl, ⟨by decide, by decide, by decide +kernel⟩⟩, ?_⟩
  · intro o ho
    simp only [pmftHistoryXYZ, List.mem_cons, List.not_mem_nil, or_false] at ho
    rcases ho with rfl | rfl | rfl | rfl
    · trivial
    all_goals exact ⟨by unfold IsExecution; decide, by simp [pmftCall], by decide⟩
  · intro o ho
    simp only [pmftHistoryXYZ, List.mem_cons, List.not_mem_nil, or_false] at ho
    rcases ho with rfl | rfl | rfl | rfl
    · trivial
    all_goals exact ⟨by unfold IsExecution; decide, by simp [pmftCall], by decide⟩
  · rintro k e
    obtain rfl : k = 2 := (Option.some.inj e).symm
    decide

/-- The hypotheses of `C113_pmft_r12`: 2 x 2 x 2 bins cut into 3 x 2 x 1 parts each. -/
example (g g' : Grid ℝ) (b : Box ℝ) (h2 : b.is2D = true) (hV : 0 < b.getVolume)
    (hg : mkR12 realTrig 2 2 2 2 = some g) (hg' : mkR12 realTrig 2 (3 * 2) (2 * 2) (1 * 2) = some g') :
    ∃ history history' : List (PMFT.Op ℝ), (∀ o ∈ history, PMFTLegal g.axes o) ∧
      (∀ o ∈ history', PMFTLegal g'.axes o) ∧ history' ≠ history ∧
      frames2D history' [] = frames2D history [] ∧ ∃ f, (frames2D history []).getLast? = some f ∧ PairFrameOK f.1 := by
  obtain ⟨e1, -⟩ := r12_axes realTrig_pos (by norm_num) hg (by decide)
  obtain ⟨e2, -⟩ := r12_axes realTrig_pos (by norm_num) hg' (by decide)
  have x1 : IsExecution 2 [(0, 1), (1, 0)] := by unfold IsExecution; decide
  have x2 : IsExecution 2 [(0, 0), (0, 1)] := by unfold IsExecution; decide
  have x3 : 1 ≤ 2 := by decide
  refine ⟨[.accumulate ⟨⟨b, 2, 2⟩, 1, 2, fun _ => [[1, 1, 1]], [(0, 1), (1, 0)]⟩],
    [.reset, .accumulate ⟨⟨b, 2, 2⟩, 1, 2, fun _ => [[1, 1, 1]], [(0, 0), (0, 1)]⟩], ?_, ?_, by simp, ?_, ?_⟩
  · intro o ho
    obtain rfl := List.mem_singleton.mp ho
    exact ⟨x1, by simp [e1], by show (1 : ℕ) ≠ _; decide⟩
  · intro o ho
    simp only [List.mem_cons, List.not_mem_nil, or_false] at ho
    rcases ho with rfl | rfl
    · trivial
    · exact ⟨x2, by simp [e2], by show (1 : ℕ) ≠ _; decide⟩
  · simp [frames2D, h2, frameOf]
  · exact ⟨_, by simp [frames2D, h2]; rfl, ⟨x3, x3, hV⟩⟩

/-- The frames of `rdfHistory`, given to an RDF with other bins. -/
def rdfHistoryFine : List (HistCompute.Op ℚ NormalizationMode (FrameInfo ℚ)) :=
  [RDF.frame ⟨rdfBox 10, 2, 2⟩ 2 rdfDists [(0, 0), (0, 1)],
    RDF.frame ⟨rdfBox 20, 2, 2⟩ 2 rdfDists [(2, 0), (0, 1)], .read [1, 0, 3, 2, 5, 4]]

/-- The hypotheses of `C113_rdf` hold for two bins cut into three parts each. -/
example : RDF.mkAxis 2 (2 : ℚ) 1 = some ⟨2, 1, 2⟩ ∧ RDF.mkAxis (3 * 2) (2 : ℚ) 1 = some ⟨3 * 2, 1, 2⟩ ∧
    (∀ o ∈ rdfHistoryFine, HCLegalOp [⟨3 * 2, 1, 2⟩] o) ∧ frames rdfHistoryFine [] = frames rdfHistory [] ∧
    lastInfo rdfHistoryFine ⟨rdfBox 3, 0, 0⟩ = lastInfo rdfHistory ⟨rdfBox 1, 0, 0⟩ ∧
    cfgUsed rdfHistoryFine .exact none = cfgUsed rdfHistory .exact none := by
  refine ⟨(C35_constructor _ _ _ _).mpr ⟨by decide, by decide +kernel, by decide +kernel, rfl⟩,
    (C35_constructor _ _ _ _).mpr ⟨by decide, by decide +kernel, by decide +kernel, rfl⟩, ?_, rfl, rfl, rfl⟩
  intro o ho
  simp only [rdfHistoryFine, List.mem_cons, List.not_mem_nil, or_false] at ho
  rcases ho with rfl | rfl | rfl
  · exact ⟨by unfold IsExecution; decide, by simp [rdfDists]⟩
  · exact ⟨by unfold IsExecution; decide, by simp [rdfDists]⟩
  · simp only [HCLegalOp]; decide

-- the hypotheses of `C113_correlation`: 2 bins cut into 3 parts each
example : ∃ history history' : List (CorrelationFunction.Op ℚ ℚ), (∀ o ∈ history, CFLegal 2 o) ∧
    (∀ o ∈ history', CFLegal (3 * 2) o) ∧ history' ≠ history ∧
    cfProducts history' [] = cfProducts history [] ∧ cfProducts history [] = [(1, 3), (3, 8)] := by
  refine ⟨[.frame [1, 2] [3, 4] 2 (fun i => [⟨i, i, 2 * i + 1⟩]) [(0, 1), (1, 0)], .read [1, 0]],
    [.reset, .frame [1, 2] [3, 4] 2 (fun i => [⟨i, i, 2 * i + 1⟩]) [(0, 0), (0, 1)]], ?_, ?_, by simp, rfl, ?_⟩
  · intro o ho
    simp only [List.mem_cons, List.not_mem_nil, or_false] at ho
    rcases ho with rfl | rfl
    · exact ⟨by unfold IsExecution; decide, fun i hi b hb => by
        obtain rfl := List.mem_singleton.mp hb; exact ⟨hi, hi⟩⟩
    · simp only [CFLegal]; decide
  · intro o ho
    simp only [List.mem_cons, List.not_mem_nil, or_false] at ho
    rcases ho with rfl | rfl
    · trivial
    · exact ⟨by unfold IsExecution; decide, fun i hi b hb => by
        obtain rfl := List.mem_singleton.mp hb; exact ⟨hi, hi⟩⟩
  · simp [cfProducts, List.range_succ]; norm_num

-- the hypotheses of `C113_direct`: 3 bins cut into 2 parts each
example (b : Box ℝ) (p q k0 k1 : Vec3 ℝ) :
    let f : SFArgs := ⟨b, [p, q], none, none⟩
    let hist : List Direct.Op := [.compute true f [k0, k1] [(0, 1), (1, 0)]]
    let hist' : List Direct.Op := [.compute true f [k0, k1] [(0, 0), (0, 1)]]
    DirectLegal 3 hist none ∧ DirectLegal (2 * 3) hist' none ∧ directCalled hist = true ∧ directCalled hist' = true ∧
      directSamples (directFrames hist' none []) = directSamples (directFrames hist none []) := by
  have h1 : [1, 0].Perm (List.range 2) := by decide
  have h2 : [0, 1].Perm (List.range 2) := by decide
  refine ⟨?_, ?_, ?_, ?_, ?_⟩
  · simp [DirectLegal, waveVectors, IsExecution, h1]
  · simp [DirectLegal, waveVectors, IsExecution, h2]
  · simp [directCalled]
  · simp [directCalled]
  · simp [directFrames, waveVectors]

-- the hypotheses of `C113_bond_order`: 4 x 4 sectors cut into 2 x 3 parts each
example : (∀ o ∈ [BondOrder.Op.accumulate BondOrder.stacked], BOLegal 4 4 .bod o) ∧
    (∀ o ∈ [BondOrder.Op.reset, .accumulate BondOrder.stacked, .read (List.range 96)], BOLegal (2 * 4) (3 * 4) .bod o) ∧
    callsSince [.reset, .accumulate BondOrder.stacked, .read (List.range 96)] [] =
      callsSince [.accumulate BondOrder.stacked] [] ∧
    (BondOrder.mk 4 4).isSome ∧ (BondOrder.mk (2 * 4) (3 * 4)).isSome := by
  refine ⟨?_, ?_, rfl, (C79_constructor _ _).mpr (by decide), (C79_constructor _ _).mpr (by decide)⟩
  · intro o ho
    obtain rfl := List.mem_singleton.mp ho
    exact BondOrder.stacked_legal 4 4
  · intro o ho
    simp only [List.mem_cons, List.not_mem_nil, or_false] at ho
    rcases ho with rfl | rfl | rfl
    · trivial
    · exact BondOrder.stacked_legal _ _
    · exact List.Perm.refl _

end Freud
