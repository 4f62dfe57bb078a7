import Verif.Spec.BufferCover
import Verif.Props.PeriodicBuffer
import Verif.Props.Local

/-!
# Property C115: a periodic buffer holds the neighbors across the faces
-/

namespace Freud
open Spec PeriodicBuffer

/-- A point near a point of the box is in the enlarged box. -/
theorem near_in_buffer {b : Box ℝ} (hb : Valid b) (hp : PositiveLengths b) {buff : Vec3 ℝ} (hn : NonNeg buff) {r : ℝ}
    (hw : WideEnough b buff r) {q w : Vec3 ℝ} (hq : InCell b q) (hpl : Planar b w) (hd : Vec3.norm (w - q) < r) :
    InHalfOpen (bufferBox b buff false) w := by
  obtain ⟨f, ⟨hf, hf2⟩, fx, fy, fz⟩ := hq
  obtain ⟨g, hwc⟩ : ∃ g : Vec3 ℝ, w = comb b (g.x - 1 / 2) (g.y - 1 / 2) (g.z - 1 / 2) :=
    ⟨_, comb_makeFractional hb w hpl⟩
  have hdiff : w - q = comb b (g.x - f.x) (g.y - f.y) (g.z - f.z) := by
    rw [hf, hwc]
    ext <;> simp [comb] <;> ring
  obtain ⟨c1, c2, c3⟩ := comb_plane hp (g.x - f.x) (g.y - f.y) (g.z - f.z)
  rw [← hdiff] at c1 c2 c3
  obtain ⟨p1, p2, p3⟩ := planes_pos hp
  obtain ⟨l1, l2, l3⟩ := hp
  -- one axis
  have axis : ∀ (s t B L d : ℝ), 0 < L → 0 < d → 0 ≤ B → r ≤ B * d / L → 0 ≤ t → t ≤ 1 →
      |s - t| * d ≤ Vec3.norm (w - q) → 0 ≤ (s - 1 / 2) * L / (L + 2 * B) + 1 / 2 ∧
        (s - 1 / 2) * L / (L + 2 * B) + 1 / 2 < 1 := by
    intro s t B L d hL hd0 hB hr h0 h1 hc
    have hlt : |s - t| * d < B * d / L := lt_of_le_of_lt hc (hd.trans_le hr)
    have hlt' : |s - t| * L < B := by
      rw [lt_div_iff₀ hL] at hlt
      have : |s - t| * L * d < B * d := by linarith [mul_right_comm |s - t| d L]
      exact lt_of_mul_lt_mul_right this hd0.le
    have hM : 0 < L + 2 * B := by linarith
    have a1 : -(|s - t| * L) ≤ (s - t) * L := by
      rw [← neg_mul]; exact mul_le_mul_of_nonneg_right (neg_abs_le _) hL.le
    have a2 : (s - t) * L ≤ |s - t| * L := mul_le_mul_of_nonneg_right (le_abs_self _) hL.le
    have a3 : 0 ≤ t * L := mul_nonneg h0 hL.le
    have a4 : t * L ≤ L := by nlinarith
    have e : (s - t) * L = (s - 1 / 2) * L - t * L + 1 / 2 * L := by ring
    constructor
    · have : -(1 / 2) ≤ (s - 1 / 2) * L / (L + 2 * B) := by
        rw [le_div_iff₀ hM]; linarith
      linarith
    · have : (s - 1 / 2) * L / (L + 2 * B) < 1 / 2 := by
        rw [div_lt_iff₀ hM]; linarith
      linarith
  have hL := bufferBox_L b buff
  obtain ⟨t1, t2, t3⟩ := bufferBox_tilts b buff false
  have ax := axis g.x f.x buff.x b.L.x _ l1 p1 hn.1 hw.1 fx.1 fx.2 c1
  have ay := axis g.y f.y buff.y b.L.y _ l2 p2 hn.2.1 hw.2.1 fy.1 fy.2 c2
  have m1 : b.L.x + 2 * buff.x ≠ 0 := by linarith [hn.1]
  have m2 : b.L.y + 2 * buff.y ≠ 0 := by linarith [hn.2.1]
  cases h2 : b.is2D with
  | true =>
    refine ⟨⟨(g.x - 1 / 2) * b.L.x / (b.L.x + 2 * buff.x) + 1 / 2, (g.y - 1 / 2) * b.L.y / (b.L.y + 2 * buff.y) + 1 / 2, 0⟩,
      ⟨?_, fun _ => rfl⟩, ax, ay, by simp, by simp⟩
    rw [hwc]
    have hz := hb.Lz_2D h2
    ext <;> simp only [comb, a1, a2, a3, hL, t1, t2, t3, h2, if_true, hz] <;> field_simp <;> ring
  | false =>
    have l3' := l3 h2
    have m3 : b.L.z + 2 * buff.z ≠ 0 := by linarith [hn.2.2]
    have az := axis g.z f.z buff.z b.L.z _ l3' (p3 h2) hn.2.2 (hw.2.2 h2) fz.1 fz.2 c3
    refine ⟨⟨(g.x - 1 / 2) * b.L.x / (b.L.x + 2 * buff.x) + 1 / 2, (g.y - 1 / 2) * b.L.y / (b.L.y + 2 * buff.y) + 1 / 2,
      (g.z - 1 / 2) * b.L.z / (b.L.z + 2 * buff.z) + 1 / 2⟩, ⟨?_, fun h => ?_⟩, ax, ay, az⟩
    · rw [hwc]
      ext <;> simp only [comb, a1, a2, a3, hL, t1, t2, t3, h2, Bool.false_eq_true, if_false] <;> field_simp <;> ring
    · rw [bufferBox_2D, h2] at h; cases h

/-- **C115** (partial: the property says that a buffer of width `r` is enough, which is false of tilted boxes,
`C115_tilted_counterexample`): if the faces of the box move outwards by at least `r`, then every copy of a point that is
less than `r` from some place in the box is in the buffer. -/
theorem C115_covers_partial (b : Box ℝ) (hb : Valid b) (hp : PositiveLengths b) (pts : List (Vec3 ℝ))
    (hpts : ∀ p ∈ pts, InHalfOpen b p) (buff : Vec3 ℝ) (B : Buffer ℝ) (r : ℝ) (hw : WideEnough b buff r)
    (h : compute b pts buff false true = some B) (q : Vec3 ℝ) (hq : InCell b q) (i : ℕ) (p w : Vec3 ℝ) (n : Vec3 ℤ)
    (hi : pts[i]? = some p) (hc : IsCopy b p w n) (hd : Vec3.norm (w - q) < r) : (w, i) ∈ B.points := by
  have hnn : NonNeg buff := by
    have := mt (C29_raises_iff b pts buff false true).mpr (by rw [h]; simp)
    push Not at this
    exact this
  refine (C29_distance_exact b pts buff true B hb hp hpts h w i).mpr ⟨p, n, hi, hc, ?_, Or.inl rfl⟩
  obtain ⟨-, hB, -⟩ := compute_some h
  rw [hB]
  have hpl : Planar b w := by
    rw [hc.2]
    exact planar_add ((inHalfOpen_iff hb p).mp (hpts p (List.mem_of_getElem? hi))).1 (lattice_planar hb n)
  exact near_in_buffer hb hp hnn hw hq hpl hd

/-- **C115**: so the neighbors of a query point in a periodic system are the points of the buffer (input points included)
in the range, as seen without periodicity. -/
theorem C115_neighbors_partial (b : Box ℝ) (pts qpts : List (Vec3 ℝ)) (hs : PeriodicSystem b pts qpts)
    (hpts : ∀ p ∈ pts, InHalfOpen b p) (buff : Vec3 ℝ) (B : Buffer ℝ) (rMax rMin : ℝ) (hmin : 0 ≤ rMin)
    (hhalf : BelowHalf b rMax) (hw : WideEnough b buff rMax) (h : compute b pts buff false true = some B) (excl : Bool)
    (src : Source) (hsrc : IsSource b pts qpts rMax rMin excl src) (bd : Bond ℝ) :
    bd ∈ bondsFrom src ↔ ∃ q, qpts[bd.q]? = some q ∧ (q + bd.vec, bd.p) ∈ B.points ∧ bd.weight = 1 ∧
      bd.dist = Vec3.norm bd.vec ∧ rMin ≤ bd.dist ∧ bd.dist < rMax ∧ (excl = true → bd.p ≠ bd.q) := by
  rw [(bondsFrom_nodup hs hmin hhalf hsrc).1 bd]
  have hper := hs.periodic
  have e : ∀ q : Vec3 ℝ, q + bd.vec - q = bd.vec := fun q => by ext <;> simp
  constructor
  · rintro ⟨q, hq, -, h2, h3, h4, h5, h6, p, hp, n, hn, hv⟩
    refine ⟨q, hq, ?_, h2, h3, h3 ▸ h5, h3 ▸ h6, h4⟩
    refine C115_covers_partial b hs.inBox.valid hs.inBox.pos pts hpts buff B rMax hw h q
      (hs.query q (List.mem_of_getElem? hq)) bd.p p _ n hp ⟨fun h => hn.2.2 (Or.inr h), ?_⟩ (by rw [e]; exact h6)
    rw [hv]; ext <;> simp <;> ring
  · rintro ⟨q, hq, hm, h2, h3, h5, h6, h4⟩
    obtain ⟨p, n, hp, ⟨hn, hv⟩, -⟩ :=
      (C29_distance_exact b pts buff true B hs.inBox.valid hs.inBox.pos hpts h _ _).mp hm
    refine ⟨q, hq, rfl, h2, h3, h4, h3 ▸ h5, h3 ▸ h6, p, hp, n, ⟨fun h => ?_, fun h => ?_, fun h => ?_⟩, ?_⟩
    · rw [hper.1] at h; cases h
    · rw [hper.2.1] at h; cases h
    · rcases h with h | h
      · rw [hper.2.2] at h; cases h
      · exact hn h
    · rw [← e q, hv]; ext <;> simp <;> ring

/-- **C115**: in a box without tilt, a buffer as wide as `r` is enough. -/
theorem C115_orthorhombic (b : Box ℝ) (hp : PositiveLengths b) (hxy : b.xy = 0) (hxz : b.xz = 0) (hyz : b.yz = 0) (r : ℝ) :
    WideEnough b ⟨r, r, r⟩ r := by
  obtain ⟨h1, h2, h3⟩ := hp
  unfold WideEnough Box.getNearestPlaneDistance
  simp only [hxy, hxz, hyz, mul_zero, add_zero, sub_zero, Real.sqrt_one, div_one]
  refine ⟨?_, ?_, fun h => ?_⟩
  · rw [mul_div_cancel_right₀ _ h1.ne']
  · rw [mul_div_cancel_right₀ _ h2.ne']
  · rw [mul_div_cancel_right₀ _ (h3 h).ne']

/-- **C115** (arguments): a number stands for the same width in all three directions; other sequences than those of three
numbers raise. -/
theorem C115_argument (b : Box ℝ) (pts : List (Vec3 ℝ)) (u incl : Bool) :
    (∀ r, pyCompute b pts (.scalar r) u incl = compute b pts ⟨r, r, r⟩ u incl) ∧
    (∀ x y z, pyCompute b pts (.sequence [x, y, z]) u incl = compute b pts ⟨x, y, z⟩ u incl) ∧
    ∀ l : List ℝ, l.length ≠ 3 → pyCompute b pts (.sequence l) u incl = none := by
  refine ⟨fun r => rfl, fun x y z => rfl, fun l hl => ?_⟩
  rcases l with _ | ⟨x, _ | ⟨y, _ | ⟨z, _ | ⟨t, l⟩⟩⟩⟩
  · rfl
  · rfl
  · rfl
  · exact absurd rfl hl
  · rfl

/-- **C115** is false of tilted boxes: in a box with tilt 1 the copy (5.6, -0.7, 0) of the only point is less than 1 from
(4.9, 0, 0), which is in the box, and the buffer of width 1 does not hold it. -/
theorem C115_tilted_counterexample : ∃ (b : Box ℚ) (p q w : Vec3 ℚ) (n : Vec3 ℤ) (B : Buffer ℚ), Valid b ∧ Positive b ∧
    InHalfOpen b p ∧ InHalfOpen b q ∧ IsCopy b p w n ∧ Vec3.dot (w - q) (w - q) < 1 ∧
    pyCompute b [p] (.scalar 1) false true = some B ∧ (w, 0) ∉ B.points := by
  have hv : Valid (Box.mk' 10 10 0 1 0 0 true : Box ℚ) := by constructor <;> simp [Box.mk', Box.setL]
  refine ⟨Box.mk' 10 10 0 1 0 0 true, ⟨-44 / 10, -7 / 10, 0⟩, ⟨49 / 10, 0, 0⟩, ⟨56 / 10, -7 / 10, 0⟩, ⟨1, 0, 0⟩, _, hv, ?_, ?_,
    ?_, ?_, by decide +kernel, rfl, by decide +kernel⟩
  · unfold Positive; decide +kernel
  · rw [inHalfOpen_iff hv]; unfold Planar; decide +kernel
  · rw [inHalfOpen_iff hv]; unfold Planar; decide +kernel
  · unfold IsCopy; decide +kernel

-- the hypotheses of `C115_neighbors_partial`, for a pair of particles next to opposite faces
example (d : Bool) : ∃ (B : Buffer ℝ) (nl : NList ℝ), PeriodicSystem (tilted 0 d) facePair facePair ∧
    (∀ p ∈ facePair, InHalfOpen (tilted 0 d) p) ∧ BelowHalf (tilted 0 d) 2 ∧ WideEnough (tilted 0 d) ⟨2, 2, 2⟩ 2 ∧
    compute (tilted 0 d) facePair ⟨2, 2, 2⟩ false true = some B ∧
    IsSource (tilted 0 d) facePair facePair 2 0 true (.list nl) := by
  obtain ⟨nl, h⟩ := exists_list (facePair_tilted d) (by simp [facePair]) (show (0 : ℝ) < 2 by norm_num)
    (tilted_half d (by norm_num))
  have hs := facePair_tilted d
  obtain ⟨B, hB⟩ : ∃ B, compute (tilted 0 d) facePair ⟨2, 2, 2⟩ false true = some B := by
    rw [← Option.isSome_iff_exists, Option.isSome_iff_ne_none]
    intro h
    rw [C29_raises_iff] at h
    norm_num at h
  refine ⟨B, nl, hs, ?_, tilted_half d (by norm_num), C115_orthorhombic _ hs.inBox.pos rfl rfl rfl 2, hB, h⟩
  intro p hp
  rw [inHalfOpen_iff hs.inBox.valid]
  simp only [facePair, List.mem_cons, List.not_mem_nil, or_false] at hp
  rcases hp with rfl | rfl <;> cases d <;>
    norm_num [Planar, Box.makeFractional, tilted, Box.mk', Box.setL]

end Freud
