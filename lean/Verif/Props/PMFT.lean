import Verif.Lemmas.PMFT
import Verif.Lemmas.Quat
import Mathlib.Analysis.SpecialFunctions.Complex.Arg
import Mathlib.Data.Rat.Floor

/-!
# Property C40: positional correlation functions of the PMFT classes
-/

set_option linter.unusedSectionVars false

namespace Freud
open Spec PMFT
variable {K : Type*} [Field K] [LinearOrder K] [IsStrictOrderedRing K] [FloorRing K]

/-! ### Construction -/

/-- **C40**: `PMFTXY` can be constructed exactly for at least one bin per axis and non-negative
maxima. -/
theorem C40_constructor_xy (xMax yMax : K) (nx ny : ℕ) :
    (mkXY xMax yMax nx ny).isSome ↔ 1 ≤ nx ∧ 1 ≤ ny ∧ 0 ≤ xMax ∧ 0 ≤ yMax := by
  unfold mkXY
  split_ifs <;> simp_all <;> omega

/-- **C40**: the same for `PMFTXYT`. -/
theorem C40_constructor_xyt (T : Trig K) (xMax yMax : K) (nx ny nt : ℕ) :
    (mkXYT T xMax yMax nx ny nt).isSome ↔
      1 ≤ nx ∧ 1 ≤ ny ∧ 1 ≤ nt ∧ 0 ≤ xMax ∧ 0 ≤ yMax := by
  unfold mkXYT
  split_ifs <;> simp_all <;> omega

/-- **C40**: the same for `PMFTR12`. -/
theorem C40_constructor_r12 (T : Trig K) (rMax : K) (nr nt1 nt2 : ℕ) :
    (mkR12 T rMax nr nt1 nt2).isSome ↔ 1 ≤ nr ∧ 1 ≤ nt1 ∧ 1 ≤ nt2 ∧ 0 ≤ rMax := by
  unfold mkR12
  split_ifs <;> simp_all <;> omega

/-- **C40**: the same for `PMFTXYZ`. -/
theorem C40_constructor_xyz (xMax yMax zMax : K) (nx ny nz : ℕ) :
    (mkXYZ xMax yMax zMax nx ny nz).isSome ↔
      1 ≤ nx ∧ 1 ≤ ny ∧ 1 ≤ nz ∧ 0 ≤ xMax ∧ 0 ≤ yMax ∧ 0 ≤ zMax := by
  unfold mkXYZ
  split_ifs <;> simp_all <;> omega

/-! ### The values after any history -/

/-- The value of a bin of a two-dimensional class after any history. -/
theorem pmft2D_read (g : Grid K) (hax : ∀ a ∈ g.axes, AxisOK a)
    (hs : (g.axes.map (·.nbins)).prod ≤ OVERFLOW_BIN) (box0 : Box K) (history : List (PMFT.Op K))
    (hl : ∀ o ∈ history, PMFTLegal g.axes o) (order : List ℕ)
    (hord : order.Perm (List.range (g.axes.map (·.nbins)).prod))
    (f : FrameInfo K × List (List K)) (hf : (frames2D history []).getLast? = some f) :
    ∃ s s', PMFT.run check2D () (fun _ => fill g.jf) (zero g) (PMFT.new g () box0) history = some s ∧
      s.refresh (fun _ => fill g.jf) order = some s' ∧
      s'.out.length = (g.axes.map (·.nbins)).prod ∧
      ∀ idx, ValidIndex idx (g.axes.map (·.nbins)) →
        s'.out[rowMajor idx (g.axes.map (·.nbins))]? =
          some ((countIn g.axes idx ((frames2D history []).flatMap (·.2)) : K) *
            (f.1.box.getVolume / (f.1.nQuery : K) *
              (1 / (((frames2D history []).length : K) * (f.1.nPoints : K))) *
              g.jf (rowMajor idx (g.axes.map (·.nbins))))) := by
  have hrun := pmft_run_eq check2D () (fun _ => fill g.jf) (zero g) history (PMFT.new g () box0)
  obtain ⟨s, s', e1, e2, hout, hh, haxes, hc⟩ := hc_read (fun _ => fill g.jf) (zero g) g.axes hax hs
    () ⟨box0, 0, 0⟩ (pmftTrans check2D () () history) (pmftTrans_legal _ _ _ _ _ hl) order hord
  have hlast := lastInfo_frames (pmftTrans check2D () () history) [] (⟨box0, 0, 0⟩ : FrameInfo K)
    (by simp) f (by rw [frames_trans2D]; exact hf)
  rw [frames_trans2D] at hout
  refine ⟨s, s', hrun.trans e1, e2, ?_, fun idx hi => ?_⟩
  · rw [hout]
    simp only [fill, List.length_map, List.length_range]
    exact fill_length g.axes hh haxes
  · have hci := hc idx hi
    rw [frames_trans2D] at hci
    rw [hout]
    simp only [fill, mul_assoc]
    rw [fill_at g.axes hh haxes idx hi _ hci]
    rw [hlast]

/-- The value of a bin of `PMFTXYZ` after any history. -/
theorem pmftXYZ_read (g : Grid K) (hax : ∀ a ∈ g.axes, AxisOK a)
    (hs : (g.axes.map (·.nbins)).prod ≤ OVERFLOW_BIN) (box0 : Box K) (history : List (PMFT.Op K))
    (hl : ∀ o ∈ history, PMFTLegal g.axes o) (order : List ℕ)
    (hord : order.Perm (List.range (g.axes.map (·.nbins)).prod))
    (f : FrameInfo K × List (List K)) (hf : (framesXYZ history none []).getLast? = some f) :
    ∃ s s' k, PMFT.run checkXYZ NO_NUMBER (fillXYZ g.jf) (zero g) (PMFT.new g NO_NUMBER box0) history =
        some s ∧
      s.refresh (fillXYZ g.jf) order = some s' ∧ firstNumber history none = some k ∧
      s'.out.length = (g.axes.map (·.nbins)).prod ∧
      ∀ idx, ValidIndex idx (g.axes.map (·.nbins)) →
        s'.out[rowMajor idx (g.axes.map (·.nbins))]? =
          some ((countIn g.axes idx ((framesXYZ history none []).flatMap (·.2)) : K) *
            (f.1.box.getVolume / (f.1.nQuery : K) *
              (1 / (((framesXYZ history none []).length : K) * (f.1.nPoints : K) * (k : K))) *
              g.jf (rowMajor idx (g.axes.map (·.nbins))))) := by
  have hrun := pmft_run_eq checkXYZ NO_NUMBER (fillXYZ g.jf) (zero g) history
    (PMFT.new g NO_NUMBER box0)
  have hfr := frames_transXYZ g.axes history none [] hl (by simp)
  simp only [Option.getD_none] at hfr
  obtain ⟨s, s', e1, e2, hout, hh, haxes, hc⟩ := hc_read (fillXYZ g.jf) (zero g) g.axes hax hs
    NO_NUMBER ⟨box0, 0, 0⟩ (pmftTrans checkXYZ NO_NUMBER NO_NUMBER history)
    (pmftTrans_legal _ _ _ _ _ hl) order hord
  have hlast := lastInfo_frames (pmftTrans checkXYZ NO_NUMBER NO_NUMBER history) []
    (⟨box0, 0, 0⟩ : FrameInfo K) (by simp) f (by rw [hfr]; exact hf)
  obtain ⟨k, hk, hcfg⟩ := cfgUsed_transXYZ g.axes history none [] NO_NUMBER none hl (by simp) rfl
    (by simp) (by intro h; rw [h] at hf; simp at hf)
  simp only [Option.getD_none] at hcfg
  rw [hfr, hcfg] at hout
  refine ⟨s, s', k, hrun.trans e1, e2, hk, ?_, fun idx hi => ?_⟩
  · rw [hout]
    simp only [fillXYZ, List.length_map, List.length_range]
    exact fill_length g.axes hh haxes
  · have hci := hc idx hi
    rw [hfr] at hci
    rw [hout]
    simp only [fillXYZ]
    have := fill_at g.axes hh haxes idx hi _ hci (fun i => f.1.box.getVolume / (f.1.nQuery : K) *
              (1 / (((framesXYZ history none []).length : K) * (f.1.nPoints : K) * (k : K))) * g.jf i)
    rw [← this, hlast]
    congr 2
    funext i
    rw [mul_assoc]

/-- **C40**: after every history of resets, calls (each executed under any thread schedule, some
raising for a wrong dimension) and reads, with at least one successful call since the last reset,
bin `(i, j)` of the correlation function of a `PMFTXY` is the number of bonds of those calls whose
coordinates lie in the bin, divided by the number expected for uncorrelated particles: pairs times
frames times area of the bin over area of the box. Box and numbers of points are those of the last
call. -/
theorem C40_xy (xMax yMax : K) (hx : 0 < xMax) (hy : 0 < yMax) (nx ny : ℕ) (g : Grid K)
    (hg : mkXY xMax yMax nx ny = some g) (hn : nx * ny ≤ OVERFLOW_BIN) (box0 : Box K)
    (history : List (PMFT.Op K)) (hl : ∀ o ∈ history, PMFTLegal g.axes o) (order : List ℕ)
    (hord : order.Perm (List.range (nx * ny)))
    (f : FrameInfo K × List (List K)) (hf : (frames2D history []).getLast? = some f)
    (hok : PairFrameOK f.1) :
    ∃ s s', PMFT.run check2D () (fun _ => fill g.jf) (zero g) (PMFT.new g () box0) history = some s ∧
      s.refresh (fun _ => fill g.jf) order = some s' ∧ s'.out.length = nx * ny ∧
      ∀ i < nx, ∀ j < ny, s'.out[i * ny + j]? = some (
        (countIn [⟨nx, -xMax, xMax⟩, ⟨ny, -yMax, yMax⟩] [i, j]
          ((frames2D history []).flatMap (·.2)) : K) /
        idealCount (frames2D history []).length f.1
          (binLength (-xMax) xMax nx i * binLength (-yMax) yMax ny j / f.1.box.getVolume)) := by
  have hc := (C40_constructor_xy xMax yMax nx ny).mp (by rw [hg]; rfl)
  obtain ⟨h1, h2, -, -⟩ := hc
  unfold mkXY at hg
  rw [if_neg (by omega), if_neg (by omega), if_neg (by linarith), if_neg (by linarith),
    Option.some.injEq] at hg
  subst hg
  have hnx : nx ≤ OVERFLOW_BIN := le_trans (Nat.le_mul_of_pos_right nx h2) hn
  have hny : ny ≤ OVERFLOW_BIN := le_trans (Nat.le_mul_of_pos_left ny h1) hn
  obtain ⟨s, s', e1, e2, hlen, hv⟩ := pmft2D_read _ (by
    intro a ha
    simp only [List.mem_cons, List.not_mem_nil, or_false] at ha
    rcases ha with rfl | rfl
    · exact ⟨h1, hnx, by simp; linarith⟩
    · exact ⟨h2, hny, by simp; linarith⟩) (by simpa using hn) box0 history hl order
    (by simpa using hord) f hf
  refine ⟨s, s', e1, e2, by simpa using hlen, fun i hi j hj => ?_⟩
  have := hv [i, j] (by simp [ValidIndex, hi, hj])
  simp only [List.map_cons, List.map_nil, rowMajor, List.prod_cons, List.prod_nil] at this
  simp only [mul_one, add_zero] at this
  rw [this, Option.some.injEq, binLength_eq, binLength_eq]
  unfold idealCount
  have hV := hok.volume
  have hq : (0 : K) < f.1.nQuery := by exact_mod_cast hok.query
  have hp : (0 : K) < f.1.nPoints := by exact_mod_cast hok.points
  have hfr : (0 : K) < (frames2D history []).length := by
    have : frames2D history [] ≠ [] := by intro h; rw [h] at hf; simp at hf
    exact_mod_cast List.length_pos_iff.mpr this
  have hnx0 : (0 : K) < nx := by exact_mod_cast h1
  have hny0 : (0 : K) < ny := by exact_mod_cast h2
  field_simp
  ring

/-- **C40**: the same for `PMFTXYT`: the probability of bin `(i, j, k)` is its area over the area of
the box, times the fraction of the circle its angles take. -/
theorem C40_xyt (T : Trig K) (hT : 0 < T.twoPi) (xMax yMax : K) (hx : 0 < xMax) (hy : 0 < yMax)
    (nx ny nt : ℕ) (g : Grid K) (hg : mkXYT T xMax yMax nx ny nt = some g)
    (hn : nx * (ny * nt) ≤ OVERFLOW_BIN) (box0 : Box K)
    (history : List (PMFT.Op K)) (hl : ∀ o ∈ history, PMFTLegal g.axes o) (order : List ℕ)
    (hord : order.Perm (List.range (nx * (ny * nt))))
    (f : FrameInfo K × List (List K)) (hf : (frames2D history []).getLast? = some f)
    (hok : PairFrameOK f.1) :
    ∃ s s', PMFT.run check2D () (fun _ => fill g.jf) (zero g) (PMFT.new g () box0) history = some s ∧
      s.refresh (fun _ => fill g.jf) order = some s' ∧ s'.out.length = nx * (ny * nt) ∧
      ∀ i < nx, ∀ j < ny, ∀ k < nt, s'.out[i * (ny * nt) + (j * nt + k)]? = some (
        (countIn [⟨nx, -xMax, xMax⟩, ⟨ny, -yMax, yMax⟩, ⟨nt, 0, T.twoPi⟩] [i, j, k]
          ((frames2D history []).flatMap (·.2)) : K) /
        idealCount (frames2D history []).length f.1
          (binLength (-xMax) xMax nx i * binLength (-yMax) yMax ny j / f.1.box.getVolume *
            (binLength 0 T.twoPi nt k / T.twoPi))) := by
  have hc := (C40_constructor_xyt T xMax yMax nx ny nt).mp (by rw [hg]; rfl)
  obtain ⟨h1, h2, h3, -, -⟩ := hc
  unfold mkXYT at hg
  rw [if_neg (by omega), if_neg (by omega), if_neg (by omega), if_neg (by linarith),
    if_neg (by linarith), Option.some.injEq] at hg
  subst hg
  have hnyt : ny * nt ≤ OVERFLOW_BIN := le_trans (Nat.le_mul_of_pos_left _ h1) hn
  have hnx : nx ≤ OVERFLOW_BIN := le_trans (Nat.le_mul_of_pos_right nx (Nat.mul_pos h2 h3)) hn
  have hny : ny ≤ OVERFLOW_BIN := le_trans (Nat.le_mul_of_pos_right ny h3) hnyt
  have hnt : nt ≤ OVERFLOW_BIN := le_trans (Nat.le_mul_of_pos_left nt h2) hnyt
  obtain ⟨s, s', e1, e2, hlen, hv⟩ := pmft2D_read _ (by
    intro a ha
    simp only [List.mem_cons, List.not_mem_nil, or_false] at ha
    rcases ha with rfl | rfl | rfl
    · exact ⟨h1, hnx, by simp; linarith⟩
    · exact ⟨h2, hny, by simp; linarith⟩
    · exact ⟨h3, hnt, hT⟩) (by simpa using hn) box0 history hl order (by simpa using hord) f hf
  refine ⟨s, s', e1, e2, by simpa using hlen, fun i hi j hj k hk => ?_⟩
  have := hv [i, j, k] (by simp [ValidIndex, hi, hj, hk])
  simp only [List.map_cons, List.map_nil, rowMajor, List.prod_cons, List.prod_nil] at this
  simp only [mul_one, add_zero] at this
  rw [this, Option.some.injEq, binLength_eq, binLength_eq, binLength_eq]
  unfold idealCount
  have hV := hok.volume
  have hq : (0 : K) < f.1.nQuery := by exact_mod_cast hok.query
  have hp : (0 : K) < f.1.nPoints := by exact_mod_cast hok.points
  have hfr : (0 : K) < (frames2D history []).length := by
    have : frames2D history [] ≠ [] := by intro h; rw [h] at hf; simp at hf
    exact_mod_cast List.length_pos_iff.mpr this
  have hnx0 : (0 : K) < nx := by exact_mod_cast h1
  have hny0 : (0 : K) < ny := by exact_mod_cast h2
  have hnt0 : (0 : K) < nt := by exact_mod_cast h3
  field_simp
  ring

theorem binCenters_getD (a : RegularAxis K) (i : ℕ) (hi : i < a.nbins) :
    a.binCenters.getD i 0 =
      (edge a.min a.max a.nbins i + edge a.min a.max a.nbins (i + 1)) / 2 := by
  have e : ∀ j ≤ a.nbins, a.binEdges.getD j 0 = edge a.min a.max a.nbins j := by
    intro j hj
    unfold RegularAxis.binEdges
    rw [List.getD_eq_getElem?_getD, List.getElem?_map, List.getElem?_range (by omega)]
    rfl
  unfold RegularAxis.binCenters
  rw [List.getD_eq_getElem?_getD, List.getElem?_map, List.getElem?_range hi]
  simp only [Option.map_some, Option.getD_some]
  rw [e i (by omega), e (i + 1) (by omega)]

/-- **C40**: the same for `PMFTR12`: the probability of bin `(i, j, k)` is the area of the part of
the ring between radii `i` and `i + 1` with the angles of bin `j`, over the area of the box, times
the fraction of the circle the angles of bin `k` take. -/
theorem C40_r12 (T : Trig K) (hT : 0 < T.twoPi) (rMax : K) (hr : 0 < rMax)
    (nr nt1 nt2 : ℕ) (g : Grid K) (hg : mkR12 T rMax nr nt1 nt2 = some g)
    (hn : nr * (nt1 * nt2) ≤ OVERFLOW_BIN) (box0 : Box K)
    (history : List (PMFT.Op K)) (hl : ∀ o ∈ history, PMFTLegal g.axes o) (order : List ℕ)
    (hord : order.Perm (List.range (nr * (nt1 * nt2))))
    (f : FrameInfo K × List (List K)) (hf : (frames2D history []).getLast? = some f)
    (hok : PairFrameOK f.1) :
    ∃ s s', PMFT.run check2D () (fun _ => fill g.jf) (zero g) (PMFT.new g () box0) history = some s ∧
      s.refresh (fun _ => fill g.jf) order = some s' ∧ s'.out.length = nr * (nt1 * nt2) ∧
      ∀ i < nr, ∀ j < nt1, ∀ k < nt2, s'.out[i * (nt1 * nt2) + (j * nt2 + k)]? = some (
        (countIn [⟨nr, 0, rMax⟩, ⟨nt1, 0, T.twoPi⟩, ⟨nt2, 0, T.twoPi⟩] [i, j, k]
          ((frames2D history []).flatMap (·.2)) : K) /
        idealCount (frames2D history []).length f.1
          (sectorArea (edge 0 rMax nr i) (edge 0 rMax nr (i + 1)) (binLength 0 T.twoPi nt1 j) /
            f.1.box.getVolume * (binLength 0 T.twoPi nt2 k / T.twoPi))) := by
  have hc := (C40_constructor_r12 T rMax nr nt1 nt2).mp (by rw [hg]; rfl)
  obtain ⟨h1, h2, h3, -⟩ := hc
  unfold mkR12 at hg
  rw [if_neg (by omega), if_neg (by omega), if_neg (by omega), if_neg (by linarith),
    Option.some.injEq] at hg
  subst hg
  have hnyt : nt1 * nt2 ≤ OVERFLOW_BIN := le_trans (Nat.le_mul_of_pos_left _ h1) hn
  have hnx : nr ≤ OVERFLOW_BIN := le_trans (Nat.le_mul_of_pos_right nr (Nat.mul_pos h2 h3)) hn
  have hny : nt1 ≤ OVERFLOW_BIN := le_trans (Nat.le_mul_of_pos_right nt1 h3) hnyt
  have hnt : nt2 ≤ OVERFLOW_BIN := le_trans (Nat.le_mul_of_pos_left nt2 h2) hnyt
  obtain ⟨s, s', e1, e2, hlen, hv⟩ := pmft2D_read _ (by
    intro a ha
    simp only [List.mem_cons, List.not_mem_nil, or_false] at ha
    rcases ha with rfl | rfl | rfl
    · exact ⟨h1, hnx, hr⟩
    · exact ⟨h2, hny, hT⟩
    · exact ⟨h3, hnt, hT⟩) (by simpa using hn) box0 history hl order (by simpa using hord) f hf
  refine ⟨s, s', e1, e2, by simpa using hlen, fun i hi j hj k hk => ?_⟩
  have := hv [i, j, k] (by simp [ValidIndex, hi, hj, hk])
  simp only [List.map_cons, List.map_nil, rowMajor, List.prod_cons, List.prod_nil] at this
  simp only [mul_one, add_zero] at this
  have hdiv : (i * (nt1 * nt2) + (j * nt2 + k)) / (nt1 * nt2) = i := by
    have hlt : j * nt2 + k < nt1 * nt2 := by
      calc j * nt2 + k < j * nt2 + nt2 := by omega
        _ = (j + 1) * nt2 := by ring
        _ ≤ nt1 * nt2 := Nat.mul_le_mul_right _ hj
    rw [mul_comm, Nat.mul_add_div (by omega), Nat.div_eq_of_lt hlt, add_zero]
  rw [hdiv, binCenters_getD _ _ hi] at this
  rw [this, Option.some.injEq, binLength_eq, binLength_eq]
  unfold idealCount sectorArea edge
  have hV := hok.volume
  have hq : (0 : K) < f.1.nQuery := by exact_mod_cast hok.query
  have hp : (0 : K) < f.1.nPoints := by exact_mod_cast hok.points
  have hfr : (0 : K) < (frames2D history []).length := by
    have : frames2D history [] ≠ [] := by intro h; rw [h] at hf; simp at hf
    exact_mod_cast List.length_pos_iff.mpr this
  have hnx0 : (0 : K) < nr := by exact_mod_cast h1
  have hny0 : (0 : K) < nt1 := by exact_mod_cast h2
  have hnt0 : (0 : K) < nt2 := by exact_mod_cast h3
  have hi0 : (0 : K) ≤ i := Nat.cast_nonneg i
  simp only [sub_zero, zero_add, Nat.cast_add, Nat.cast_one]
  have e : (((i : K) + 1) * (rMax / (nr : K))) ^ 2 - ((i : K) * (rMax / (nr : K))) ^ 2 =
      (2 * i + 1) * (rMax / nr) ^ 2 := by ring
  have e' : ((i : K) * (rMax / (nr : K)) + ((i : K) + 1) * (rMax / (nr : K))) / 2 =
      (2 * i + 1) * (rMax / nr) / 2 := by ring
  have hpos : (0 : K) < 2 * i + 1 := by linarith
  rw [e, e']
  field_simp

/-- **C40**: the same for `PMFTXYZ`. The calls that count are those since the last reset with a
three-dimensional box and with the number `k` of equivalent orientations of the first call since
that reset; every bond contributes one sample per equivalent orientation, and the expected count is
`k` times that for one orientation. -/
theorem C40_xyz (xMax yMax zMax : K) (hx : 0 < xMax) (hy : 0 < yMax) (hz : 0 < zMax)
    (nx ny nz : ℕ) (g : Grid K) (hg : mkXYZ xMax yMax zMax nx ny nz = some g)
    (hn : nx * (ny * nz) ≤ OVERFLOW_BIN) (box0 : Box K)
    (history : List (PMFT.Op K)) (hl : ∀ o ∈ history, PMFTLegal g.axes o) (order : List ℕ)
    (hord : order.Perm (List.range (nx * (ny * nz))))
    (f : FrameInfo K × List (List K)) (hf : (framesXYZ history none []).getLast? = some f)
    (hok : PairFrameOK f.1) (hk : ∀ k, firstNumber history none = some k → 1 ≤ k) :
    ∃ s s' k, PMFT.run checkXYZ NO_NUMBER (fillXYZ g.jf) (zero g) (PMFT.new g NO_NUMBER box0) history =
        some s ∧
      s.refresh (fillXYZ g.jf) order = some s' ∧ firstNumber history none = some k ∧
      s'.out.length = nx * (ny * nz) ∧
      ∀ i < nx, ∀ j < ny, ∀ l < nz, s'.out[i * (ny * nz) + (j * nz + l)]? = some (
        (countIn [⟨nx, -xMax, xMax⟩, ⟨ny, -yMax, yMax⟩, ⟨nz, -zMax, zMax⟩] [i, j, l]
          ((framesXYZ history none []).flatMap (·.2)) : K) /
        ((k : K) * idealCount (framesXYZ history none []).length f.1
          (binLength (-xMax) xMax nx i * binLength (-yMax) yMax ny j * binLength (-zMax) zMax nz l /
            f.1.box.getVolume))) := by
  have hc := (C40_constructor_xyz xMax yMax zMax nx ny nz).mp (by rw [hg]; rfl)
  obtain ⟨h1, h2, h3, -, -, -⟩ := hc
  unfold mkXYZ at hg
  rw [if_neg (by omega), if_neg (by omega), if_neg (by omega), if_neg (by linarith),
    if_neg (by linarith), if_neg (by linarith), Option.some.injEq] at hg
  subst hg
  have hnyt : ny * nz ≤ OVERFLOW_BIN := le_trans (Nat.le_mul_of_pos_left _ h1) hn
  have hnx : nx ≤ OVERFLOW_BIN := le_trans (Nat.le_mul_of_pos_right nx (Nat.mul_pos h2 h3)) hn
  have hny : ny ≤ OVERFLOW_BIN := le_trans (Nat.le_mul_of_pos_right ny h3) hnyt
  have hnt : nz ≤ OVERFLOW_BIN := le_trans (Nat.le_mul_of_pos_left nz h2) hnyt
  obtain ⟨s, s', k, e1, e2, hkk, hlen, hv⟩ := pmftXYZ_read _ (by
    intro a ha
    simp only [List.mem_cons, List.not_mem_nil, or_false] at ha
    rcases ha with rfl | rfl | rfl
    · exact ⟨h1, hnx, by simp; linarith⟩
    · exact ⟨h2, hny, by simp; linarith⟩
    · exact ⟨h3, hnt, by simp; linarith⟩) (by simpa using hn) box0 history hl order
      (by simpa using hord) f hf
  refine ⟨s, s', k, e1, e2, hkk, by simpa using hlen, fun i hi j hj l hl => ?_⟩
  have := hv [i, j, l] (by simp [ValidIndex, hi, hj, hl])
  simp only [List.map_cons, List.map_nil, rowMajor, List.prod_cons, List.prod_nil] at this
  simp only [mul_one, add_zero] at this
  rw [this, Option.some.injEq, binLength_eq, binLength_eq, binLength_eq]
  unfold idealCount
  have hV := hok.volume
  have hq : (0 : K) < f.1.nQuery := by exact_mod_cast hok.query
  have hp : (0 : K) < f.1.nPoints := by exact_mod_cast hok.points
  have hfr : (0 : K) < (framesXYZ history none []).length := by
    have : framesXYZ history none [] ≠ [] := by intro h; rw [h] at hf; simp at hf
    exact_mod_cast List.length_pos_iff.mpr this
  have hk0 : (0 : K) < k := by exact_mod_cast hk k hkk
  have hnx0 : (0 : K) < nx := by exact_mod_cast h1
  have hny0 : (0 : K) < ny := by exact_mod_cast h2
  have hnt0 : (0 : K) < nz := by exact_mod_cast h3
  field_simp
  ring

/-! ### Guards -/

/-- **C40**: a call to a two-dimensional class with a three-dimensional box raises and leaves the
object exactly as it was. -/
theorem C40_wrong_dimension_2D (fl : Unit → FrameInfo K → ℕ → List ℕ → List K) (z : List K)
    (s : HistCompute K Unit (FrameInfo K) (List K)) (a : Attempt K) (h : a.info.box.is2D = false) :
    PMFT.step check2D () fl z s (.accumulate a) = some (s, true) := by
  simp [PMFT.step, check2D, h]

/-- **C40**: once a number of equivalent orientations is set, a call with another number raises and
leaves the object exactly as it was, so all earlier results are still read as before. -/
theorem C40_changed_number_raises (fl : ℕ → FrameInfo K → ℕ → List ℕ → List K) (z : List K)
    (s : HistCompute K ℕ (FrameInfo K) (List K)) (a : Attempt K) (h : s.cfg ≠ NO_NUMBER)
    (h2 : s.cfg ≠ a.numEquiv) :
    PMFT.step checkXYZ NO_NUMBER fl z s (.accumulate a) = some (s, true) := by
  simp [PMFT.step, checkXYZ, h, h2]

/-- **C40**: a call to `PMFTXYZ` with a two-dimensional box raises and changes neither counts nor
results nor what is remembered of the last frame. -/
theorem C40_wrong_dimension_3D (fl : ℕ → FrameInfo K → ℕ → List ℕ → List K) (z : List K)
    (s : HistCompute K ℕ (FrameInfo K) (List K)) (a : Attempt K) (h : a.info.box.is2D = true) :
    ∃ s', PMFT.step checkXYZ NO_NUMBER fl z s (.accumulate a) = some (s', true) ∧
      s'.bhc = s.bhc ∧ s'.out = s.out ∧ s'.info = s.info := by
  simp only [PMFT.step]
  have hc : (checkXYZ s.cfg a).2 = false := by
    unfold checkXYZ; split_ifs <;> simp [h]
  rw [if_neg (by rw [hc]; decide)]
  exact ⟨_, rfl, rfl, rfl, rfl⟩

/-- **C40**: a call with a three-dimensional box succeeds when no number is set, or when the number
is the same. -/
theorem C40_same_number_accepted (s : HistCompute K ℕ (FrameInfo K) (List K)) (a : Attempt K)
    (h : a.info.box.is2D = false) (h2 : s.cfg = NO_NUMBER ∨ s.cfg = a.numEquiv) :
    checkXYZ s.cfg a = (a.numEquiv, true) := by
  unfold checkXYZ
  rcases h2 with h2 | h2
  · simp [h2, h]
  · split_ifs <;> simp_all

/-! ### Coordinates -/

/-- The functions of the C++ library, as real functions. -/
noncomputable def realTrig : Trig ℝ :=
  ⟨Real.cos, Real.sin, fun y x => Complex.arg ⟨x, y⟩, 2 * Real.pi⟩

theorem modulusPositive_eq (a b : K) (hb : 0 < b) :
    modulusPositive a b = b * Int.fract (a / b) := by
  have e : ∀ x : K, fmod x b = b * fmod (x / b) 1 := by
    intro x
    unfold fmod
    rw [div_one]
    field_simp
  rw [← modulusPositive_one]
  unfold modulusPositive
  rw [e, e a]
  congr 2
  field_simp

/-- A point at distance `r` in direction `t`. -/
noncomputable def Spec.polar (r t : ℝ) : ℝ × ℝ := (r * Real.cos t, r * Real.sin t)

theorem angle_spec (ori x y : ℝ) (hne : ¬ (x = 0 ∧ y = 0)) :
    let t := modulusPositive (ori - realTrig.atan2 y x) realTrig.twoPi
    0 ≤ t ∧ t < 2 * Real.pi ∧ polar (Real.sqrt (x ^ 2 + y ^ 2)) (ori - t) = (x, y) := by
  intro t
  have h2 : (0 : ℝ) < realTrig.twoPi := by simp [realTrig, Real.pi_pos]
  have ht : t = realTrig.twoPi * Int.fract ((ori - realTrig.atan2 y x) / realTrig.twoPi) :=
    modulusPositive_eq _ _ h2
  have h0 := Int.fract_nonneg ((ori - realTrig.atan2 y x) / realTrig.twoPi)
  have h1 := Int.fract_lt_one ((ori - realTrig.atan2 y x) / realTrig.twoPi)
  refine ⟨by rw [ht]; positivity, ?_, ?_⟩
  · have : t < realTrig.twoPi := by rw [ht]; nlinarith
    exact this
  · have hsub : ori - t = Complex.arg ⟨x, y⟩ +
        (⌊(ori - realTrig.atan2 y x) / realTrig.twoPi⌋ : ℤ) * (2 * Real.pi) := by
      rw [ht, ← Int.self_sub_floor]
      have : realTrig.twoPi ≠ 0 := h2.ne'
      have e : realTrig.twoPi * ((ori - realTrig.atan2 y x) / realTrig.twoPi) =
        ori - realTrig.atan2 y x := by field_simp
      rw [mul_sub, e]
      have e3 : realTrig.atan2 y x = Complex.arg ⟨x, y⟩ := rfl
      have e4 : realTrig.twoPi = 2 * Real.pi := rfl
      rw [e3, e4]; ring
    have hz : (⟨x, y⟩ : ℂ) ≠ 0 := by
      intro h
      exact hne ⟨congrArg Complex.re h, congrArg Complex.im h⟩
    have hn : Real.sqrt (x ^ 2 + y ^ 2) = ‖(⟨x, y⟩ : ℂ)‖ := by
      rw [Complex.norm_def, Complex.normSq_mk]; congr 1; ring
    unfold polar
    rw [hsub, Real.cos_add_int_mul_two_pi, Real.sin_add_int_mul_two_pi, hn,
      Complex.norm_mul_cos_arg, Complex.norm_mul_sin_arg]

/-- **C40**: the two coordinates of a bond in a `PMFTXY` are those of the neighbor in the frame of
the query point: turned by the orientation of the query point they give the bond vector. -/
theorem C40_xy_coordinates (queryOri : ℕ → ℝ) (b : Bond ℝ) :
    ∃ x y, sampleXY realTrig queryOri b = [x, y] ∧
      Real.cos (queryOri b.q) * x - Real.sin (queryOri b.q) * y = b.vec.x ∧
      Real.sin (queryOri b.q) * x + Real.cos (queryOri b.q) * y = b.vec.y := by
  refine ⟨_, _, rfl, ?_, ?_⟩
  · simp only [Mat2.fromAngle, Mat2.mulVec, realTrig, Real.cos_neg, Real.sin_neg]
    linear_combination b.vec.x * Real.sin_sq_add_cos_sq (queryOri b.q)
  · simp only [Mat2.fromAngle, Mat2.mulVec, realTrig, Real.cos_neg, Real.sin_neg]
    linear_combination b.vec.y * Real.sin_sq_add_cos_sq (queryOri b.q)

/-- **C40**: in a `PMFTXYT` the third coordinate is the angle, between 0 and 2 pi, by which the
neighbor is turned from the direction towards the query point. -/
theorem C40_xyt_coordinates (ori queryOri : ℕ → ℝ) (b : Bond ℝ)
    (hne : ¬ (b.vec.x = 0 ∧ b.vec.y = 0)) :
    ∃ x y t, sampleXYT realTrig ori queryOri b = [x, y, t] ∧
      Real.cos (queryOri b.q) * x - Real.sin (queryOri b.q) * y = b.vec.x ∧
      Real.sin (queryOri b.q) * x + Real.cos (queryOri b.q) * y = b.vec.y ∧
      0 ≤ t ∧ t < 2 * Real.pi ∧
      polar (Real.sqrt (b.vec.x ^ 2 + b.vec.y ^ 2)) (ori b.p - t) = (-b.vec.x, -b.vec.y) := by
  have h := angle_spec (ori b.p) (-b.vec.x) (-b.vec.y) (by simpa using hne)
  rw [neg_sq, neg_sq] at h
  refine ⟨_, _, _, rfl, ?_, ?_, h⟩
  · simp only [Mat2.fromAngle, Mat2.mulVec, realTrig, Real.cos_neg, Real.sin_neg]
    linear_combination b.vec.x * Real.sin_sq_add_cos_sq (queryOri b.q)
  · simp only [Mat2.fromAngle, Mat2.mulVec, realTrig, Real.cos_neg, Real.sin_neg]
    linear_combination b.vec.y * Real.sin_sq_add_cos_sq (queryOri b.q)

/-- **C40**: in a `PMFTR12` the coordinates are the distance and the angles, between 0 and 2 pi, by
which each of the two particles is turned from the direction away from the other. -/
theorem C40_r12_coordinates (ori queryOri : ℕ → ℝ) (b : Bond ℝ)
    (hne : ¬ (b.vec.x = 0 ∧ b.vec.y = 0)) :
    ∃ t1 t2, sampleR12 realTrig ori queryOri b = [b.dist, t1, t2] ∧
      (0 ≤ t1 ∧ t1 < 2 * Real.pi) ∧ (0 ≤ t2 ∧ t2 < 2 * Real.pi) ∧
      polar (Real.sqrt (b.vec.x ^ 2 + b.vec.y ^ 2)) (ori b.p - t1) = (b.vec.x, b.vec.y) ∧
      polar (Real.sqrt (b.vec.x ^ 2 + b.vec.y ^ 2)) (queryOri b.q - t2) = (-b.vec.x, -b.vec.y) := by
  have h1 := angle_spec (ori b.p) b.vec.x b.vec.y hne
  have h2 := angle_spec (queryOri b.q) (-b.vec.x) (-b.vec.y) (by simpa using hne)
  rw [neg_sq, neg_sq] at h2
  exact ⟨_, _, rfl, ⟨h1.1, h1.2.1⟩, ⟨h2.1, h2.2.1⟩, h1.2.2, h2.2.2⟩

/-- **C40**: exchanging the roles of the two particles of a bond exchanges the two angles of
`PMFTR12`. -/
theorem C40_r12_exchange (T : Trig K) (ori : ℕ → K) (b : Bond K) :
    ∃ t1 t2, sampleR12 T ori ori b = [b.dist, t1, t2] ∧
      sampleR12 T ori ori ⟨b.p, b.q, b.dist, b.weight, -b.vec⟩ = [b.dist, t2, t1] := by
  refine ⟨_, _, rfl, ?_⟩
  simp [sampleR12]

/-- **C40**: in a `PMFTXYZ` a bond contributes one sample for each equivalent orientation, in order;
turned back by that orientation, and then by the orientation of the query point, the sample is the
bond vector; so samples have the length of the bond vector. -/
theorem C40_xyz_coordinates (queryOri : ℕ → Quat K) (equiv : List (Quat K)) (b : Bond K)
    (hq : Quat.norm2 (queryOri b.q) = 1) (he : ∀ e ∈ equiv, Quat.norm2 e = 1) :
    (samplesXYZ queryOri equiv b).length = equiv.length ∧
    ∀ (k : ℕ) (e : Quat K), equiv[k]? = some e → ∃ v : Vec3 K,
      (samplesXYZ queryOri equiv b)[k]? = some [v.x, v.y, v.z] ∧
      Quat.rotate (queryOri b.q) (Quat.rotate (Quat.conj e) v) = b.vec ∧
      Vec3.dot v v = Vec3.dot b.vec b.vec := by
  refine ⟨by simp [samplesXYZ], fun k e hk => ?_⟩
  have hn := he e (List.mem_of_getElem? hk)
  refine ⟨Quat.rotate e (Quat.rotate (Quat.conj (queryOri b.q)) b.vec), ?_, ?_, ?_⟩
  · simp [samplesXYZ, hk]
  · rw [Quat.rotate_conj_rotate e hn, Quat.rotate_rotate_conj _ hq]
  · rw [Quat.dot_rotate, hn, Quat.dot_rotate, Quat.norm2_conj, hq]; ring

/-! ### Concrete cases -/

/-- A box with edges 10. -/
def pmftBox (is2D : Bool) : Box ℚ :=
  ⟨⟨-5, -5, if is2D then 0 else -5⟩, ⟨10, 10, if is2D then 0 else 10⟩,
    ⟨1 / 10, 1 / 10, if is2D then 0 else 1 / 10⟩, 0, 0, 0, true, true, true, is2D⟩

/-- A call with two bonds, each giving one sample. -/
def pmftCall (is2D : Bool) (k : ℕ) (sample : List ℚ) : Attempt ℚ :=
  ⟨⟨pmftBox is2D, 2, 2⟩, k, 2, fun _ => [sample], [(0, 1), (1, 0)]⟩

/-- A history: a call that raises (three-dimensional box), two that count, and a read. -/
def pmftHistory : List (PMFT.Op ℚ) :=
  [.accumulate (pmftCall false 1 [1, 1]), .reset, .accumulate (pmftCall true 1 [1, 1]),
    .read [3, 1, 0, 2], .accumulate (pmftCall true 1 [-1, 1])]

/-- The hypotheses of `C40_xy` hold for it. -/
example : ∃ g : Grid ℚ, mkXY (2 : ℚ) 2 2 2 = some g ∧ (∀ o ∈ pmftHistory, PMFTLegal g.axes o) ∧
    ∃ f, (frames2D pmftHistory []).getLast? = some f ∧ PairFrameOK f.1 := by
  refine ⟨_, rfl, ?_, _, rfl, ⟨by decide, by decide, by decide +kernel⟩⟩
  intro o ho
  simp only [pmftHistory, List.mem_cons, List.not_mem_nil, or_false] at ho
  rcases ho with rfl | rfl | rfl | rfl | rfl
  · exact ⟨by unfold IsExecution; decide, by simp [pmftCall], by decide⟩
  · trivial
  · exact ⟨by unfold IsExecution; decide, by simp [pmftCall], by decide⟩
  · simp only [PMFTLegal]; decide
  · exact ⟨by unfold IsExecution; decide, by simp [pmftCall], by decide⟩

/-- A `PMFTXYZ` history: a call with a changed number raises and does not count. -/
def pmftHistoryXYZ : List (PMFT.Op ℚ) :=
  [.reset, .accumulate (pmftCall false 2 [1, 1, 1]), .accumulate (pmftCall false 1 [1, 1, 1]),
    .accumulate (pmftCall false 2 [-1, 1, 1])]

/-- The hypotheses of `C40_xyz` hold for it. -/
example : ∃ g : Grid ℚ, mkXYZ (2 : ℚ) 2 2 2 2 2 = some g ∧
    (∀ o ∈ pmftHistoryXYZ, PMFTLegal g.axes o) ∧
    (framesXYZ pmftHistoryXYZ none []).length = 2 ∧ firstNumber pmftHistoryXYZ none = some 2 ∧
    ∃ f, (framesXYZ pmftHistoryXYZ none []).getLast? = some f ∧ PairFrameOK f.1 := by
  refine ⟨_, rfl, ?_, rfl, rfl, _, rfl, ⟨by decide, by decide, by decide +kernel⟩⟩
  intro o ho
  simp only [pmftHistoryXYZ, List.mem_cons, List.not_mem_nil, or_false] at ho
  rcases ho with rfl | rfl | rfl | rfl
  · trivial
  all_goals exact ⟨by unfold IsExecution; decide, by simp [pmftCall], by decide⟩

/-- Whether the last call of a history raises (`PMFTXYZ` with 2 bins per axis). -/
def xyzRaises (history : List (PMFT.Op ℚ)) (o : PMFT.Op ℚ) : Option Bool :=
  (mkXYZ (2 : ℚ) 2 2 2 2 2).bind (fun g =>
    (PMFT.run checkXYZ NO_NUMBER (fillXYZ g.jf) (zero g) (PMFT.new g NO_NUMBER (pmftBox false))
      history).bind (fun s =>
        (PMFT.step checkXYZ NO_NUMBER (fillXYZ g.jf) (zero g) s o).map (·.2)))

/-- **C40** (exception): a call that failed because its box is two-dimensional nevertheless fixes
the number of equivalent orientations: a following valid call, the first to succeed, raises if its
number differs, although nothing has been accumulated. -/
theorem C40_failed_call_fixes_number_counterexample :
    xyzRaises [.reset, .accumulate (pmftCall true 2 [1, 1, 1])]
      (.accumulate (pmftCall false 1 [1, 1, 1])) = some true ∧
    xyzRaises [.reset] (.accumulate (pmftCall false 1 [1, 1, 1])) = some false := by
  decide +kernel

/-- **C40** (exception): the constructors accept a maximum of zero, for which all bins are empty
intervals and the volume of a bin is zero. -/
theorem C40_zero_range_counterexample :
    ∃ g : Grid ℚ, mkXY (0 : ℚ) 0 2 2 = some g ∧ ∀ a ∈ g.axes, ∀ v, a.bin v = OVERFLOW_BIN := by
  refine ⟨_, rfl, ?_⟩
  intro a ha v
  simp only [List.mem_cons, List.not_mem_nil, or_false] at ha
  have : a.min = 0 ∧ a.max = 0 := by rcases ha with rfl | rfl <;> simp
  unfold RegularAxis.bin
  rw [if_pos]
  rw [this.1, this.2]
  exact lt_or_ge v 0

end Freud
