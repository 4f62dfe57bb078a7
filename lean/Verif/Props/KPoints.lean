import Verif.Lemmas.KPoints
import Verif.Props.Direct
import Verif.Props.Box
import Mathlib.Algebra.Order.Ring.Abs

/-!
# Properties C73 and C74: sampled wave vectors and invariances of the structure factor
-/

namespace Freud
open Spec

/-- `k` is the wave vector with the integer coordinates `n`: waves with this vector are commensurate
with the box, `k · a_i = 2π n_i` for every box vector `a_i`. -/
def Spec.IsWaveVector (b : Box ℝ) (k : Vec3 ℝ) (n : Vec3 ℤ) : Prop :=
  Vec3.dot k (a1 b) = 2 * Real.pi * n.x ∧ Vec3.dot k (a2 b) = 2 * Real.pi * n.y ∧
    if b.is2D then k.z = 0 ∧ n.z = 0 else Vec3.dot k (a3 b) = 2 * Real.pi * n.z

/-- A conversion to an unsigned integer: it is exact for integers that are not negative. -/
def Spec.CastOK (cast : Option ℤ → ℕ) : Prop := ∀ n : ℤ, 0 ≤ n → cast (some n) = n.toNat

/-- The numbers `reciprocal_isotropic` can return, the random decisions and the order of the threads
being arbitrary. -/
def Spec.SampledAs (cast : Option ℤ → ℕ) (b : Box ℝ) (kMax kMin : ℝ) (num : ℕ)
    (ks : List (Vec3 ℝ)) : Prop :=
  ∃ coin, ks.Perm (KPoints.sample cast b kMax kMin num coin)

namespace KPoints

theorem kvec_index {b : Box ℝ} (hb : Valid b) (n1 n2 n3 : ℕ) :
    IsWaveVector b (kvec b n1 n2 n3) ⟨n1, n2, if b.is2D then 0 else n3⟩ := by
  unfold IsWaveVector kvec
  cases h2 : b.is2D with
  | true =>
    have hx := hb.Lx_ne
    have hy := hb.Ly_ne
    simp only [if_true, recip2_eq hb.Lx_ne hb.Ly_ne, Vec3.dot, a1, a2, Vec3.smul_x, Vec3.smul_y,
      Vec3.smul_z, Vec3.add_x, Vec3.add_y, Vec3.add_z]
    refine ⟨?_, ?_, ?_, trivial⟩
    · push_cast; field_simp; ring
    · push_cast; field_simp; ring
    · ring
  | false =>
    have hx := hb.Lx_ne
    have hy := hb.Ly_ne
    have hz := hb.Lz_ne h2
    simp only [Bool.false_eq_true, if_false, recip3_eq hb.Lx_ne hb.Ly_ne hz, Vec3.dot, a1, a2, a3,
      Vec3.smul_x, Vec3.smul_y, Vec3.smul_z, Vec3.add_x, Vec3.add_y, Vec3.add_z]
    refine ⟨?_, ?_, ?_⟩
    · push_cast; field_simp; ring
    · push_cast; field_simp; ring
    · push_cast; field_simp; ring

theorem index_unique {b : Box ℝ} {k : Vec3 ℝ} {n m : Vec3 ℤ} (hn : IsWaveVector b k n)
    (hm : IsWaveVector b k m) : n = m := by
  have hp := two_pi_pos
  have key : ∀ {x : ℝ} {i j : ℤ}, x = 2 * Real.pi * i → x = 2 * Real.pi * j → i = j := by
    intro x i j h1 h2
    have := mul_left_cancel₀ hp.ne' (h1.symm.trans h2)
    exact_mod_cast this
  obtain ⟨a, b1, c⟩ := hn
  obtain ⟨a', b', c'⟩ := hm
  cases h2 : b.is2D with
  | true =>
    rw [h2, if_pos rfl] at c c'
    ext
    · exact key a a'
    · exact key b1 b'
    · rw [c.2, c'.2]
  | false =>
    rw [h2, if_neg (by decide)] at c c'
    ext
    · exact key a a'
    · exact key b1 b'
    · exact key c c'

theorem vec_unique {b : Box ℝ} (hb : Valid b) {k k' : Vec3 ℝ} {n : Vec3 ℤ} (hn : IsWaveVector b k n)
    (hm : IsWaveVector b k' n) : k = k' := by
  obtain ⟨a, b1, c⟩ := hn
  obtain ⟨a', b', c'⟩ := hm
  have hx := hb.Lx_ne
  have hy := hb.Ly_ne
  simp only [Vec3.dot, Spec.a1, Spec.a2] at a a' b1 b'
  have ex : k.x = k'.x := by
    apply mul_right_cancel₀ hx
    linarith
  have ey : k.y = k'.y := by
    apply mul_right_cancel₀ hy
    rw [ex] at b1
    linarith
  cases h2 : b.is2D with
  | true =>
    rw [h2, if_pos rfl] at c c'
    ext
    · exact ex
    · exact ey
    · rw [c.1, c'.1]
  | false =>
    rw [h2, if_neg (by decide)] at c c'
    have hz := hb.Lz_ne h2
    simp only [Vec3.dot, Spec.a3] at c c'
    ext
    · exact ex
    · exact ey
    · apply mul_right_cancel₀ hz
      rw [ex, ey] at c
      linarith

theorem kvec_inj {b : Box ℝ} (hb : Valid b) {n1 n2 n3 m1 m2 m3 : ℕ}
    (h : kvec b n1 n2 n3 = kvec b m1 m2 m3) :
    n1 = m1 ∧ n2 = m2 ∧ (b.is2D = false → n3 = m3) := by
  have h1 := kvec_index hb n1 n2 n3
  have h2 := kvec_index hb m1 m2 m3
  rw [h] at h1
  have := index_unique h1 h2
  simp only [Vec3.mk.injEq, Nat.cast_inj] at this
  refine ⟨this.1, this.2.1, fun h' => ?_⟩
  have := this.2.2
  rw [h'] at this
  simpa using this

theorem mem_sample {cast : Option ℤ → ℕ} {b : Box ℝ} {kMax kMin : ℝ} {num : ℕ}
    {coin : ℕ → ℕ → ℕ → Bool} {k : Vec3 ℝ} (h : k ∈ sample cast b kMax kMin num coin) :
    ∃ n1 n2 n3 : ℕ, k = kvec b n1 n2 n3 ∧ ∃ c, keep k kMax kMin (addAll b kMax num) c = true := by
  unfold sample at h
  split at h
  · rename_i h2
    unfold kPoints2 at h
    simp only [List.mem_flatMap] at h
    obtain ⟨n1, _, h⟩ := h
    obtain ⟨n2, _, _, _, h4, h5⟩ := mem_line.mp h
    refine ⟨n1, n2, 0, ?_, _, by rw [h5]; exact h4⟩
    unfold kvec
    rw [if_pos h2]
    exact h5
  · rename_i h2
    unfold kPoints3 at h
    simp only [List.mem_flatMap] at h
    obtain ⟨n1, _, n2, _, h⟩ := h
    obtain ⟨n3, _, _, _, h4, h5⟩ := mem_line.mp h
    refine ⟨n1, n2, n3, ?_, _, by rw [h5]; exact h4⟩
    unfold kvec
    rw [if_neg h2]
    exact h5

/-- **C73**: every sampled wave vector is commensurate with the box, has coordinates that are not
negative, and a magnitude between the limits -- for every box, tilted or not, every number of points
asked for, all random choices, and whatever the conversions the language leaves undefined yield. -/
theorem C73_sound (cast : Option ℤ → ℕ) (b : Box ℝ) (hb : Valid b) (kMax kMin : ℝ) (h0 : 0 ≤ kMin)
    (h1 : 0 ≤ kMax) (num : ℕ) (ks : List (Vec3 ℝ)) (hs : SampledAs cast b kMax kMin num ks)
    (k : Vec3 ℝ) (hk : k ∈ ks) :
    (∃ n : Vec3 ℤ, IsWaveVector b k n ∧ 0 ≤ n.x ∧ 0 ≤ n.y ∧ 0 ≤ n.z) ∧
      kMin ≤ Vec3.norm k ∧ Vec3.norm k ≤ kMax := by
  obtain ⟨coin, hperm⟩ := hs
  obtain ⟨n1, n2, n3, hk1, c, hc⟩ := mem_sample (hperm.mem_iff.mp hk)
  rw [keep_iff h0 h1] at hc
  refine ⟨⟨_, by rw [hk1]; exact kvec_index hb n1 n2 n3, ?_, ?_, ?_⟩, hc.1, hc.2.1⟩
  · exact Int.natCast_nonneg _
  · exact Int.natCast_nonneg _
  · dsimp only
    split
    · exact le_rfl
    · exact Int.natCast_nonneg _

/-- Membership in a line gives the third index. -/
theorem line_nodup {cast : Option ℤ → ℕ} {k0 bl : Vec3 ℝ} {kMax kMin : ℝ} {N : ℕ} {all : Bool}
    {coin : ℕ → Bool}
    (hinj : ∀ n m : ℕ, k0 + Vec3.smul (n : ℝ) bl = k0 + Vec3.smul (m : ℝ) bl → n = m) :
    (line cast k0 bl kMax kMin N all coin).Nodup := by
  unfold line
  apply List.Nodup.filterMap
  · intro n m k hn hm
    rw [Option.mem_def] at hn hm
    apply hinj
    dsimp only at hn hm
    split at hn
    · split at hm
      · rw [← Option.some.injEq, hn, hm]
      · cases hm
    · cases hn
  · exact List.nodup_range'

/-- **C73**: no wave vector is sampled twice. -/
theorem C73_nodup (cast : Option ℤ → ℕ) (b : Box ℝ) (hb : Valid b) (kMax kMin : ℝ) (num : ℕ)
    (ks : List (Vec3 ℝ)) (hs : SampledAs cast b kMax kMin num ks) : ks.Nodup := by
  obtain ⟨coin, hperm⟩ := hs
  rw [hperm.nodup_iff]
  unfold sample
  split
  · rename_i h2
    have kv : ∀ n1 n2 : ℕ, Vec3.smul (n1 : ℝ) (Vec3.smul (2 * Real.pi) (recip2 b).1) +
        Vec3.smul (n2 : ℝ) (Vec3.smul (2 * Real.pi) (recip2 b).2) = kvec b n1 n2 0 := by
      intro n1 n2
      unfold kvec
      rw [if_pos h2]
    unfold kPoints2
    dsimp only
    rw [List.nodup_flatMap]
    refine ⟨fun n1 _ => line_nodup fun n m h => ?_, ?_⟩
    · rw [kv, kv] at h
      exact (kvec_inj hb h).2.1
    · refine List.Pairwise.imp ?_ List.nodup_range
      intro n m hnm k hk hk'
      obtain ⟨i, _, _, _, _, e⟩ := mem_line.mp hk
      obtain ⟨j, _, _, _, _, e'⟩ := mem_line.mp hk'
      rw [kv] at e e'
      exact hnm (kvec_inj hb (e.symm.trans e')).1
  · rename_i h2
    have kv : ∀ n1 n2 n3 : ℕ, (Vec3.smul (n1 : ℝ) (Vec3.smul (2 * Real.pi) (recip3 b).1) +
        Vec3.smul (n2 : ℝ) (Vec3.smul (2 * Real.pi) (recip3 b).2.1)) +
        Vec3.smul (n3 : ℝ) (Vec3.smul (2 * Real.pi) (recip3 b).2.2) = kvec b n1 n2 n3 := by
      intro n1 n2 n3
      unfold kvec
      rw [if_neg h2]
    have h2' : b.is2D = false := by simpa using h2
    unfold kPoints3
    dsimp only
    rw [List.nodup_flatMap]
    refine ⟨fun n1 _ => ?_, ?_⟩
    · rw [List.nodup_flatMap]
      refine ⟨fun n2 _ => line_nodup fun n m h => ?_, ?_⟩
      · rw [kv, kv] at h
        exact (kvec_inj hb h).2.2 h2'
      · refine List.Pairwise.imp ?_ List.nodup_range
        intro n m hnm k hk hk'
        obtain ⟨i, _, _, _, _, e⟩ := mem_line.mp hk
        obtain ⟨j, _, _, _, _, e'⟩ := mem_line.mp hk'
        rw [kv] at e e'
        exact hnm (kvec_inj hb (e.symm.trans e')).2.1
    · refine List.Pairwise.imp ?_ List.nodup_range
      intro n m hnm k hk hk'
      obtain ⟨p, _, hk⟩ := List.mem_flatMap.mp hk
      obtain ⟨q, _, hk'⟩ := List.mem_flatMap.mp hk'
      obtain ⟨i, _, _, _, _, e⟩ := mem_line.mp hk
      obtain ⟨j, _, _, _, _, e'⟩ := mem_line.mp hk'
      rw [kv] at e e'
      exact hnm (kvec_inj hb (e.symm.trans e')).1

theorem addAll_zero (b : Box ℝ) (kMax : ℝ) : addAll b kMax 0 = true := by
  unfold addAll
  split <;> simp

theorem norm_sq (k : Vec3 ℝ) : Vec3.norm k * Vec3.norm k = Vec3.dot k k := by
  unfold Vec3.norm
  rw [Real.mul_self_sqrt]
  unfold Vec3.dot
  nlinarith [mul_self_nonneg k.x, mul_self_nonneg k.y, mul_self_nonneg k.z]

theorem norm_axis_x (c : ℝ) : Vec3.norm ⟨c, 0, 0⟩ = |c| := by
  unfold Vec3.norm Vec3.dot
  simp [Real.sqrt_mul_self_eq_abs]

theorem norm_axis_y (c : ℝ) : Vec3.norm ⟨0, c, 0⟩ = |c| := by
  unfold Vec3.norm Vec3.dot
  simp [Real.sqrt_mul_self_eq_abs]

theorem norm_axis_z (c : ℝ) : Vec3.norm ⟨0, 0, c⟩ = |c| := by
  unfold Vec3.norm Vec3.dot
  simp [Real.sqrt_mul_self_eq_abs]

/-- The number of steps along an axis is enough. -/
theorem lt_count_axis {kMax L : ℝ} (hL : L ≠ 0) {bi k : Vec3 ℝ} {n : ℕ} (hbi : Vec3.norm bi = |1 / L|)
    (h : Vec3.norm k < kMax) (hc : (2 * Real.pi * n / L) * (2 * Real.pi * n / L) ≤ Vec3.dot k k) :
    n < count kMax bi := by
  have hp := two_pi_pos
  have hpos : 0 < |1 / L| := abs_pos.mpr (one_div_ne_zero hL)
  apply lt_count (by rw [hbi]; exact hpos)
  rw [hbi, lt_div_iff₀ hp]
  refine lt_of_le_of_lt ?_ h
  rw [← norm_sq] at hc
  have h1 : |2 * Real.pi * n / L| ≤ Vec3.norm k :=
    abs_le_of_sq_le_sq (by rw [pow_two, pow_two]; exact hc) (Real.sqrt_nonneg _)
  calc (n : ℝ) * |1 / L| * (2 * Real.pi) = |2 * Real.pi * n / L| := by
        rw [abs_div, abs_div, abs_mul, abs_one, abs_of_pos hp,
          abs_of_nonneg (Nat.cast_nonneg n : (0 : ℝ) ≤ (n : ℝ))]
        ring
    _ ≤ _ := h1

/-- **C73**, partial: with `num_sampled_k_points = 0` in a box without tilt, every commensurate wave
vector with coordinates that are not negative and magnitude in `[kMin, kMax)` is sampled, provided
that converting a number that is not a number gives zero (which the language leaves undefined).
Missing for the documented "all k vectors are used": the other octants and tilted boxes, where it
fails, see `C73_octant_counterexample` and `C73_tilted_counterexample`. -/
theorem C73_complete_partial (cast : Option ℤ → ℕ) (hcast : CastOK cast) (hnan : cast none = 0)
    (b : Box ℝ) (hb : Valid b) (hxy : b.xy = 0) (hxz : b.xz = 0) (hyz : b.yz = 0) (kMax kMin : ℝ)
    (h0 : 0 ≤ kMin) (ks : List (Vec3 ℝ)) (hs : SampledAs cast b kMax kMin 0 ks) (k : Vec3 ℝ)
    (n1 n2 n3 : ℕ) (hn : IsWaveVector b k ⟨n1, n2, n3⟩) (hlo : kMin ≤ Vec3.norm k)
    (hhi : Vec3.norm k < kMax) : k ∈ ks := by
  obtain ⟨coin, hperm⟩ := hs
  rw [hperm.mem_iff]
  have hnk : 0 ≤ Vec3.norm k := Real.sqrt_nonneg _
  have hmax : 0 ≤ kMax := hnk.trans hhi.le
  have hx := hb.Lx_ne
  have hy := hb.Ly_ne
  have hp := two_pi_pos
  have hkeep : ∀ c, keep k kMax kMin (addAll b kMax 0) c = true := by
    intro c
    rw [keep_iff h0 hmax, addAll_zero]
    exact ⟨hlo, hhi.le, rfl⟩
  have hlo2 : kMin * kMin ≤ Vec3.dot k k := by
    rw [← norm_sq]
    exact mul_self_le_mul_self h0 hlo
  have hhi2 : Vec3.dot k k < kMax * kMax := by
    rw [← norm_sq]
    exact mul_self_lt_mul_self hnk hhi
  have kx : k.x = 2 * Real.pi * n1 / b.L.x := by
    have := hn.1
    simp only [Vec3.dot, Spec.a1, mul_zero, add_zero, Int.cast_natCast] at this
    rw [← this]
    field_simp
  have ky : k.y = 2 * Real.pi * n2 / b.L.y := by
    have := hn.2.1
    simp only [Vec3.dot, Spec.a2, hxy, mul_zero, zero_mul, add_zero, zero_add, Int.cast_natCast] at this
    rw [← this]
    field_simp
  unfold sample
  cases h2 : b.is2D with
  | true =>
    have hk3 := hn.2.2
    rw [h2, if_pos rfl] at hk3
    rw [if_pos rfl]
    unfold kPoints2
    have e2 := recip2_eq (b := b) hx hy
    simp only [hxy, neg_zero, zero_div] at e2
    simp only [e2, List.mem_flatMap, List.mem_range]
    have hk : k = Vec3.smul (n1 : ℝ) (Vec3.smul (2 * Real.pi) ⟨1 / b.L.x, 0, 0⟩) +
        Vec3.smul (n2 : ℝ) (Vec3.smul (2 * Real.pi) ⟨0, 1 / b.L.y, 0⟩) := by
      ext
      · simp only [Vec3.add_x, Vec3.smul_x, kx]; ring
      · simp only [Vec3.add_y, Vec3.smul_y, ky]; ring
      · simp only [Vec3.add_z, Vec3.smul_z, hk3.1]; ring
    refine ⟨n1, ?_, ?_⟩
    · refine lt_count_axis hx (norm_axis_x _) hhi ?_
      rw [← kx]
      unfold Vec3.dot
      nlinarith [mul_self_nonneg k.y, mul_self_nonneg k.z]
    · have hN2 : n2 < count kMax (⟨0, 1 / b.L.y, 0⟩ : Vec3 ℝ) := by
        refine lt_count_axis hy (norm_axis_y _) hhi ?_
        rw [← ky]
        unfold Vec3.dot
        nlinarith [mul_self_nonneg k.x, mul_self_nonneg k.z]
      rw [mem_line]
      have hdot : Vec3.dot (Vec3.smul (n1 : ℝ) (Vec3.smul (2 * Real.pi) ⟨1 / b.L.x, 0, 0⟩))
          (Vec3.smul (2 * Real.pi) ⟨0, 1 / b.L.y, 0⟩) = (0 : ℝ) := by
        simp [Vec3.dot]
      have hpos : 0 < Vec3.dot (Vec3.smul (2 * Real.pi) ⟨0, 1 / b.L.y, 0⟩)
          (Vec3.smul (2 * Real.pi) ⟨0, 1 / b.L.y, 0⟩ : Vec3 ℝ) := by
        simp only [Vec3.dot, Vec3.smul_x, Vec3.smul_y, Vec3.smul_z, mul_zero, zero_add, add_zero]
        exact mul_self_pos.mpr (mul_ne_zero hp.ne' (one_div_ne_zero hy))
      have hsum : Vec3.dot (Vec3.smul (n1 : ℝ) (Vec3.smul (2 * Real.pi) ⟨1 / b.L.x, 0, 0⟩))
          (Vec3.smul (n1 : ℝ) (Vec3.smul (2 * Real.pi) ⟨1 / b.L.x, 0, 0⟩)) +
          (n2 : ℝ) * n2 * Vec3.dot (Vec3.smul (2 * Real.pi) ⟨0, 1 / b.L.y, 0⟩)
          (Vec3.smul (2 * Real.pi) ⟨0, 1 / b.L.y, 0⟩) = Vec3.dot k k := by
        rw [hk]
        simp only [Vec3.dot, Vec3.smul_x, Vec3.smul_y, Vec3.smul_z, Vec3.add_x, Vec3.add_y, Vec3.add_z]
        ring
      have hq := quadRange_orth hnan hcast (N := count kMax (⟨0, 1 / b.L.y, 0⟩ : Vec3 ℝ)) hpos
        (by rw [hsum]; exact hlo2) (by rw [hsum]; exact hhi2) hN2
      rw [hdot]
      exact ⟨n2, hq.1, hq.2, hN2, by rw [← hk]; exact hkeep _, hk⟩
  | false =>
    have hz := hb.Lz_ne h2
    have hk3 := hn.2.2
    rw [h2, if_neg (by decide)] at hk3
    have kz : k.z = 2 * Real.pi * n3 / b.L.z := by
      simp only [Vec3.dot, Spec.a3, hxz, hyz, mul_zero, zero_mul, add_zero, zero_add,
        Int.cast_natCast] at hk3
      rw [← hk3]
      field_simp
    rw [if_neg (by decide)]
    unfold kPoints3
    have e3 := recip3_eq (b := b) hx hy hz
    simp only [hxy, hxz, hyz, neg_zero, zero_div, mul_zero, sub_zero] at e3
    simp only [e3, List.mem_flatMap, List.mem_range]
    have hk : k = (Vec3.smul (n1 : ℝ) (Vec3.smul (2 * Real.pi) ⟨1 / b.L.x, 0, 0⟩) +
        Vec3.smul (n2 : ℝ) (Vec3.smul (2 * Real.pi) ⟨0, 1 / b.L.y, 0⟩)) +
        Vec3.smul (n3 : ℝ) (Vec3.smul (2 * Real.pi) ⟨0, 0, 1 / b.L.z⟩) := by
      ext
      · simp only [Vec3.add_x, Vec3.smul_x, kx]; ring
      · simp only [Vec3.add_y, Vec3.smul_y, ky]; ring
      · simp only [Vec3.add_z, Vec3.smul_z, kz]; ring
    refine ⟨n1, ?_, n2, ?_, ?_⟩
    · refine lt_count_axis hx (norm_axis_x _) hhi ?_
      rw [← kx]
      unfold Vec3.dot
      nlinarith [mul_self_nonneg k.y, mul_self_nonneg k.z]
    · refine lt_count_axis hy (norm_axis_y _) hhi ?_
      rw [← ky]
      unfold Vec3.dot
      nlinarith [mul_self_nonneg k.x, mul_self_nonneg k.z]
    · have hN3 : n3 < count kMax (⟨0, 0, 1 / b.L.z⟩ : Vec3 ℝ) := by
        refine lt_count_axis hz (norm_axis_z _) hhi ?_
        rw [← kz]
        unfold Vec3.dot
        nlinarith [mul_self_nonneg k.x, mul_self_nonneg k.y]
      rw [mem_line]
      have hdot : Vec3.dot (Vec3.smul (n1 : ℝ) (Vec3.smul (2 * Real.pi) ⟨1 / b.L.x, 0, 0⟩) +
          Vec3.smul (n2 : ℝ) (Vec3.smul (2 * Real.pi) ⟨0, 1 / b.L.y, 0⟩))
          (Vec3.smul (2 * Real.pi) ⟨0, 0, 1 / b.L.z⟩) = (0 : ℝ) := by
        simp [Vec3.dot]
      have hpos : 0 < Vec3.dot (Vec3.smul (2 * Real.pi) ⟨0, 0, 1 / b.L.z⟩)
          (Vec3.smul (2 * Real.pi) ⟨0, 0, 1 / b.L.z⟩ : Vec3 ℝ) := by
        simp only [Vec3.dot, Vec3.smul_x, Vec3.smul_y, Vec3.smul_z, mul_zero, zero_add]
        exact mul_self_pos.mpr (mul_ne_zero hp.ne' (one_div_ne_zero hz))
      have hsum : Vec3.dot (Vec3.smul (n1 : ℝ) (Vec3.smul (2 * Real.pi) ⟨1 / b.L.x, 0, 0⟩) +
          Vec3.smul (n2 : ℝ) (Vec3.smul (2 * Real.pi) ⟨0, 1 / b.L.y, 0⟩))
          (Vec3.smul (n1 : ℝ) (Vec3.smul (2 * Real.pi) ⟨1 / b.L.x, 0, 0⟩) +
          Vec3.smul (n2 : ℝ) (Vec3.smul (2 * Real.pi) ⟨0, 1 / b.L.y, 0⟩)) +
          (n3 : ℝ) * n3 * Vec3.dot (Vec3.smul (2 * Real.pi) ⟨0, 0, 1 / b.L.z⟩)
          (Vec3.smul (2 * Real.pi) ⟨0, 0, 1 / b.L.z⟩) = Vec3.dot k k := by
        rw [hk]
        simp only [Vec3.dot, Vec3.smul_x, Vec3.smul_y, Vec3.smul_z, Vec3.add_x, Vec3.add_y, Vec3.add_z]
        ring
      have hq := quadRange_orth hnan hcast (N := count kMax (⟨0, 0, 1 / b.L.z⟩ : Vec3 ℝ)) hpos
        (by rw [hsum]; exact hlo2) (by rw [hsum]; exact hhi2) hN3
      rw [hdot]
      exact ⟨n3, hq.1, hq.2, hN3, by rw [← hk]; exact hkeep _, hk⟩

theorem quadRoot_eq {a b c h e : ℝ} (h1 : b / (2 * a) = h) (h2 : c / a = e) :
    quadRoot a b c = if h * h - e < 0 then none else some (-h + Real.sqrt (h * h - e)) := by
  subst h1 h2
  rfl

/-- The unit cube. -/
noncomputable def unitCube : Box ℝ :=
  { lo := ⟨-(1 / 2), -(1 / 2), -(1 / 2)⟩, L := ⟨1, 1, 1⟩, Linv := ⟨1, 1, 1⟩, xy := 0, xz := 0, yz := 0,
    px := true, py := true, pz := true, is2D := false }

theorem unitCube_valid : Valid unitCube :=
  ⟨rfl, one_ne_zero, one_ne_zero, fun _ => one_ne_zero, fun h => by cases h⟩

/-- A box with tilt `xz = 1`. -/
noncomputable def tilted : Box ℝ := { unitCube with xz := 1 }

theorem tilted_valid : Valid tilted :=
  ⟨rfl, one_ne_zero, one_ne_zero, fun _ => one_ne_zero, fun h => by cases h⟩

/-- The hypotheses of `C73_sound` and `C73_complete_partial` are met. -/
example : ∃ cast, CastOK cast ∧ cast none = 0 ∧ ∃ ks, SampledAs cast unitCube 9 0 0 ks ∧
    (⟨0, 0, 2 * Real.pi⟩ : Vec3 ℝ) ∈ ks := by
  refine ⟨fun x => (x.getD 0).toNat, fun n _ => rfl, rfl, _, ⟨fun _ _ _ => true, List.Perm.refl _⟩, ?_⟩
  have hn : Vec3.norm ⟨0, 0, 2 * Real.pi⟩ = 2 * Real.pi := by
    rw [norm_axis_z, abs_of_pos two_pi_pos]
  refine C73_complete_partial _ (fun n _ => rfl) rfl unitCube unitCube_valid rfl rfl rfl 9 0 le_rfl _
    ⟨_, List.Perm.refl _⟩ _ 0 0 1 ⟨?_, ?_, ?_⟩ ?_ ?_
  · simp [Vec3.dot, Spec.a1]
  · simp [Vec3.dot, Spec.a2]
  · simp [Vec3.dot, Spec.a3, unitCube]
  · rw [hn]; exact two_pi_pos.le
  · rw [hn]; have := Real.pi_le_four; linarith

/-- **C73** is false beyond the first octant: with `num_sampled_k_points = 0`, documented as using all
wave vectors, the wave vector `2π(1, -1, 0)` of the unit cube is within the limits and is never used,
nor is its opposite. -/
theorem C73_octant_counterexample :
    ∃ (b : Box ℝ) (k : Vec3 ℝ) (n : Vec3 ℤ) (kMax : ℝ), Valid b ∧ IsWaveVector b k n ∧
      Vec3.norm k < kMax ∧ ∀ cast ks, SampledAs cast b kMax 0 0 ks → k ∉ ks ∧ -k ∉ ks := by
  have hp := two_pi_pos
  have hi : IsWaveVector unitCube ⟨2 * Real.pi, -(2 * Real.pi), 0⟩ ⟨1, -1, 0⟩ := by
    refine ⟨?_, ?_, ?_⟩ <;> simp [Vec3.dot, Spec.a1, Spec.a2, Spec.a3, unitCube]
  have hi' : IsWaveVector unitCube (-⟨2 * Real.pi, -(2 * Real.pi), 0⟩) ⟨-1, 1, 0⟩ := by
    refine ⟨?_, ?_, ?_⟩ <;> simp [Vec3.dot, Spec.a1, Spec.a2, Spec.a3, unitCube]
  refine ⟨unitCube, ⟨2 * Real.pi, -(2 * Real.pi), 0⟩, ⟨1, -1, 0⟩,
    Vec3.norm ⟨2 * Real.pi, -(2 * Real.pi), 0⟩ + 1, unitCube_valid, hi, by linarith, ?_⟩
  intro cast ks hs
  have hmax : 0 ≤ Vec3.norm ⟨2 * Real.pi, -(2 * Real.pi), 0⟩ + 1 :=
    add_nonneg (Real.sqrt_nonneg _) zero_le_one
  constructor
  · intro hk
    obtain ⟨⟨n, hn, _, hy, _⟩, _⟩ := C73_sound cast _ unitCube_valid _ 0 le_rfl hmax 0 ks hs _ hk
    rw [index_unique hn hi] at hy
    exact absurd hy (by decide)
  · intro hk
    obtain ⟨⟨n, hn, hx, _, _⟩, _⟩ := C73_sound cast _ unitCube_valid _ 0 le_rfl hmax 0 ks hs _ hk
    rw [index_unique hn hi'] at hx
    exact absurd hx (by decide)

/-- **C73** is false for tilted boxes: the bounds of the innermost loop are those of the vector with
the sign of the scalar product reversed. In the box with tilt `xz = 1` the wave vector with
coordinates `(1, 0, 1)` has magnitude `2π`, is within the limits `0` and `4π`, and is not sampled by
`num_sampled_k_points = 0`. -/
theorem C73_tilted_counterexample :
    ∃ (b : Box ℝ) (k : Vec3 ℝ), Valid b ∧ IsWaveVector b k ⟨1, 0, 1⟩ ∧
      Vec3.norm k = 2 * Real.pi ∧
      ∀ cast, CastOK cast → ∀ ks, SampledAs cast b (4 * Real.pi) 0 0 ks → k ∉ ks := by
  have hp := two_pi_pos
  have hi : IsWaveVector tilted ⟨2 * Real.pi, 0, 0⟩ ⟨1, 0, 1⟩ := by
    refine ⟨?_, ?_, ?_⟩ <;> simp [Vec3.dot, Spec.a1, Spec.a2, Spec.a3, tilted, unitCube]
  refine ⟨tilted, ⟨2 * Real.pi, 0, 0⟩, tilted_valid, hi, by rw [norm_axis_x, abs_of_pos hp], ?_⟩
  intro cast hcast ks hs hk
  obtain ⟨coin, hperm⟩ := hs
  have h := hperm.mem_iff.mp hk
  unfold sample at h
  rw [if_neg (by decide)] at h
  unfold kPoints3 at h
  simp only [List.mem_flatMap] at h
  obtain ⟨n1, _, n2, _, h⟩ := h
  obtain ⟨n3, _, h3, _, _, h5⟩ := mem_line.mp h
  have hkv := kvec_index tilted_valid n1 n2 n3
  have hh : kvec tilted n1 n2 n3 = ⟨2 * Real.pi, 0, 0⟩ := by
    unfold kvec
    rw [if_neg (by decide)]
    exact h5.symm
  rw [hh] at hkv
  have hidx := index_unique hkv hi
  rw [show tilted.is2D = false from rfl] at hidx
  simp only [Vec3.mk.injEq, Bool.false_eq_true, if_false] at hidx
  have e1 : n1 = 1 := by exact_mod_cast hidx.1
  have e2 : n2 = 0 := by exact_mod_cast hidx.2.1
  have e3 : n3 = 1 := by exact_mod_cast hidx.2.2
  subst e1 e2 e3
  have hr := recip3_eq (b := tilted) one_ne_zero one_ne_zero one_ne_zero
  rw [hr] at h3
  unfold quadRange at h3
  dsimp only at h3
  have hp0 : Real.pi ≠ 0 := Real.pi_ne_zero
  rw [quadRoot_eq (h := 1) (e := -2) (by
      simp only [tilted, unitCube, Vec3.dot, Vec3.smul_x, Vec3.smul_y, Vec3.smul_z, Vec3.add_x,
        Vec3.add_y, Vec3.add_z]
      push_cast
      field_simp
      ring) (by
      simp only [tilted, unitCube, Vec3.dot, Vec3.smul_x, Vec3.smul_y, Vec3.smul_z, Vec3.add_x,
        Vec3.add_y, Vec3.add_z]
      push_cast
      field_simp
      ring)] at h3
  have hs3 : (1 : ℝ) < Real.sqrt (1 * 1 - -2) := Real.lt_sqrt_of_sq_lt (by norm_num)
  have hs3' : Real.sqrt (1 * 1 - -2) ≤ 2 := by
    exact Real.sqrt_le_iff.mpr ⟨by norm_num, by norm_num⟩
  rw [if_neg (by norm_num), Option.map_some] at h3
  have hceil : ⌈-1 + Real.sqrt (1 * 1 - -2)⌉ = 1 := by
    rw [Int.ceil_eq_iff]
    constructor
    · push_cast; linarith
    · push_cast; linarith
  rw [hceil, hcast 1 (by decide)] at h3
  have := (lt_min_iff.mp h3).1
  exact absurd this (by decide)

/-! ### Invariances -/

theorem dot_wave_lattice {b : Box ℝ} {k : Vec3 ℝ} {n : Vec3 ℤ} (hn : IsWaveVector b k n) (m : Vec3 ℤ)
    (hm : b.is2D = true → m.z = 0) :
    Vec3.dot k (lattice b m) = ((n.x * m.x + n.y * m.y + n.z * m.z : ℤ) : ℝ) * (2 * Real.pi) := by
  obtain ⟨h1, h2, h3⟩ := hn
  have e : Vec3.dot k (lattice b m) =
      m.x * Vec3.dot k (a1 b) + m.y * Vec3.dot k (a2 b) + m.z * Vec3.dot k (a3 b) := by
    unfold lattice comb Vec3.dot
    ring
  rw [e, h1, h2]
  cases h : b.is2D with
  | true =>
    rw [hm h]
    push_cast
    ring
  | false =>
    rw [h, if_neg (by decide)] at h3
    rw [h3]
    push_cast
    ring

theorem sum_congr_forall₂ {α : Type*} {R : α → α → Prop} {g h : α → ℝ} {l l' : List α}
    (hR : List.Forall₂ R l l') (hgh : ∀ x y, R x y → g x = h y) : (l.map g).sum = (l'.map h).sum := by
  induction hR with
  | nil => rfl
  | cons hxy _ ih => rw [List.map_cons, List.map_cons, List.sum_cons, List.sum_cons, hgh _ _ hxy, ih]

end KPoints

/-- `p'` is a periodic image of `p`. -/
def Spec.ImageOf (b : Box ℝ) (p p' : Vec3 ℝ) : Prop :=
  ∃ m : Vec3 ℤ, (b.is2D = true → m.z = 0) ∧ p' = p + lattice b m

/-- The same system with some particles replaced by periodic images. -/
def Spec.SameUpToImages (f f' : SFArgs) : Prop :=
  f'.box = f.box ∧ List.Forall₂ (ImageOf f.box) f.points f'.points ∧
    (match f.queryPoints, f'.queryPoints with
      | none, none => True
      | some q, some q' => List.Forall₂ (ImageOf f.box) q q'
      | _, _ => False) ∧ f'.nTotal = f.nTotal

/-- The same system with all particles moved by `t`. -/
def Spec.moved (f : SFArgs) (t : Vec3 ℝ) : SFArgs :=
  { f with points := f.points.map (· + t), queryPoints := f.queryPoints.map (·.map (· + t)) }

namespace KPoints

/-- **C74**: moving all particles by the same vector does not change the structure factor at any wave
vector, commensurate with the box or not. -/
theorem C74_translation (f : SFArgs) (t k : Vec3 ℝ) : directS (moved f t) k = directS f k := by
  have ht : sfTotal (moved f t) = sfTotal f := by
    unfold sfTotal moved
    simp
  have hq : sfQuery (moved f t) = (sfQuery f).map (· + t) := by
    unfold sfQuery moved
    cases f.queryPoints <;> rfl
  unfold directS
  rw [ht, hq]
  congr 2
  show ((f.points.map (· + t)).map _) = _
  rw [List.map_map]
  refine List.map_congr_left fun p _ => ?_
  dsimp only [Function.comp]
  rw [List.map_map]
  congr 1
  refine List.map_congr_left fun q _ => ?_
  dsimp only [Function.comp]
  congr 1
  simp only [Vec3.dot, Vec3.sub_x, Vec3.sub_y, Vec3.sub_z, Vec3.add_x, Vec3.add_y, Vec3.add_z]
  ring

/-- **C74**: opposite wave vectors give the same value, so the part of the wave vectors with the
opposite sign does not have to be sampled. -/
theorem C74_opposite (f : SFArgs) (k : Vec3 ℝ) : directS f (-k) = directS f k := by
  unfold directS
  congr 2
  refine List.map_congr_left fun p _ => ?_
  congr 1
  refine List.map_congr_left fun q _ => ?_
  have : Vec3.dot (-k) (q - p) = -Vec3.dot k (q - p) := by
    simp only [Vec3.dot, Vec3.neg_x, Vec3.neg_y, Vec3.neg_z]
    ring
  rw [this, Real.cos_neg]

/-- **C74**: the order of the particles does not matter. -/
theorem C74_order (f f' : SFArgs) (hp : f'.points.Perm f.points)
    (hq : (sfQuery f').Perm (sfQuery f)) (ht : f'.nTotal = f.nTotal) (k : Vec3 ℝ) :
    directS f' k = directS f k := by
  have ht' : sfTotal f' = sfTotal f := by
    unfold sfTotal
    rw [ht, hp.length_eq]
  unfold directS
  rw [ht']
  congr 1
  rw [(hp.map _).sum_eq]
  congr 1
  refine List.map_congr_left fun p _ => ?_
  rw [(hq.map _).sum_eq]

/-- **C74**: at a wave vector commensurate with the box, replacing particles by periodic images --
each by another one -- does not change the structure factor. -/
theorem C74_images (f f' : SFArgs) (hf : SameUpToImages f f') (k : Vec3 ℝ) (n : Vec3 ℤ)
    (hn : IsWaveVector f.box k n) : directS f' k = directS f k := by
  obtain ⟨hbox, hp, hq, ht⟩ := hf
  have ht' : sfTotal f' = sfTotal f := by
    unfold sfTotal
    rw [ht, hp.length_eq]
  have hqq : List.Forall₂ (ImageOf f.box) (sfQuery f) (sfQuery f') := by
    unfold sfQuery
    cases h1 : f.queryPoints <;> cases h2 : f'.queryPoints <;> rw [h1, h2] at hq
    · exact hp
    · exact hq.elim
    · exact hq.elim
    · exact hq
  unfold directS
  rw [ht']
  congr 1
  symm
  refine sum_congr_forall₂ hp fun p p' hpp => ?_
  refine sum_congr_forall₂ hqq fun q q' hqq' => ?_
  obtain ⟨m, hm, rfl⟩ := hpp
  obtain ⟨l, hl, rfl⟩ := hqq'
  have e : Vec3.dot k (q + lattice f.box l - (p + lattice f.box m)) = Vec3.dot k (q - p) +
      (Vec3.dot k (lattice f.box l) - Vec3.dot k (lattice f.box m)) := by
    simp only [Vec3.dot, Vec3.sub_x, Vec3.sub_y, Vec3.sub_z, Vec3.add_x, Vec3.add_y, Vec3.add_z]
    ring
  rw [e, dot_wave_lattice hn l hl, dot_wave_lattice hn m hm, ← sub_mul, ← Int.cast_sub,
    Real.cos_add_int_mul_two_pi]

theorem image_wrap {b : Box ℝ} (hb : Valid b) (v : Vec3 ℝ) (hv : Planar b v) :
    ImageOf b v (b.wrap v) :=
  ⟨wrapShift b v, fun h => (wrapShift_allowed b v).2.2 (Or.inr h), wrap_eq_add_lattice hb v hv⟩

/-- **C74**: wrapping the particles into the box does not change the structure factor at a wave vector
commensurate with the box. -/
theorem C74_wrap (f : SFArgs) (hb : Valid f.box) (hp : ∀ p ∈ f.points, Planar f.box p)
    (hq : ∀ q ∈ sfQuery f, Planar f.box q) (k : Vec3 ℝ) (n : Vec3 ℤ)
    (hn : IsWaveVector f.box k n) :
    directS { f with points := f.points.map f.box.wrap
                     queryPoints := f.queryPoints.map (·.map f.box.wrap) } k = directS f k := by
  have key : ∀ l : List (Vec3 ℝ), (∀ p ∈ l, Planar f.box p) →
      List.Forall₂ (ImageOf f.box) l (l.map f.box.wrap) := by
    intro l hl
    rw [List.forall₂_map_right_iff, List.forall₂_same]
    exact fun p hpl => image_wrap hb p (hl p hpl)
  refine C74_images f { f with points := f.points.map f.box.wrap
                               queryPoints := f.queryPoints.map (·.map f.box.wrap) }
    ⟨rfl, key _ hp, ?_, rfl⟩ k n hn
  unfold sfQuery at hq
  cases h : f.queryPoints with
  | none => trivial
  | some q =>
    rw [h] at hq
    exact key q hq

/-- **C74**, end to end: computing the structure factor of a system, and of the same system with
particles replaced by periodic images, with the same sampled wave vectors but any schedules, reads the
same values. -/
theorem C74_read (bins : ℕ) (kMax kMin : ℝ) (a : RegularAxis ℝ)
    (ha : Direct.mkAxis bins kMax kMin = .ok a) (hs : bins ≤ OVERFLOW_BIN) (f f' : SFArgs)
    (hbox : Valid f.box) (hff : SameUpToImages f f') (hpts : f.points ≠ [])
    (hargs : f.queryPoints.isSome = f.nTotal.isSome) (hN : f.nTotal ≠ some 0)
    (cast : Option ℤ → ℕ) (num : ℕ) (ks : List (Vec3 ℝ)) (hks : SampledAs cast f.box kMax kMin num ks)
    (r : Bool) (ev ev' : List (ℕ × ℕ)) (hev : IsExecution ks.length ev)
    (hev' : IsExecution ks.length ev') (order : List ℕ) (hord : order.Perm (List.range bins)) :
    ∃ s s' t t' l, (Direct.new a).run [.compute r f ks ev] = some s ∧
      (Direct.new a).run [.compute r f' ks ev'] = some t ∧
      s.read order = some (s', .value l) ∧ t.read order = some (t', .value l) := by
  have hg : ¬ (bins = 0 ∨ kMax ≤ 0 ∨ kMin < 0 ∨ kMax ≤ kMin) := by
    intro hg
    rw [(Direct.C55_guards bins kMax kMin).1.mpr hg] at ha
    cases ha
  push Not at hg
  have hargs' : f'.queryPoints.isSome = f'.nTotal.isSome := by
    rw [hff.2.2.2, ← hargs]
    have := hff.2.2.1
    revert this
    cases f.queryPoints <;> cases f'.queryPoints <;> simp
  have hw : ∀ b, waveVectors (if r then none else none) b ks = ks := by
    intro b; cases r <;> rfl
  have hpts' : f'.points ≠ [] := by
    intro h
    have := hff.2.1.length_eq
    rw [h, List.length_nil] at this
    exact hpts (List.length_eq_zero_iff.mp this)
  have legal : ∀ (g : SFArgs) (e : List (ℕ × ℕ)), g.points ≠ [] →
      g.queryPoints.isSome = g.nTotal.isSome → g.nTotal ≠ some 0 → IsExecution ks.length e →
      DirectLegal bins [.compute r g ks e] none := by
    intro g e h1 h2 h3 h4
    unfold DirectLegal
    rw [if_pos h2, hw]
    exact ⟨h1, h3, h4, trivial⟩
  have frames : ∀ (g : SFArgs) (e : List (ℕ × ℕ)), g.queryPoints.isSome = g.nTotal.isSome →
      directFrames [.compute r g ks e] none [] = [(g, ks)] := by
    intro g e h2
    unfold directFrames
    rw [if_pos h2, hw]
    unfold directFrames
    cases r <;> rfl
  have called : ∀ (g : SFArgs) (e : List (ℕ × ℕ)), g.queryPoints.isSome = g.nTotal.isSome →
      directCalled [.compute r g ks e] = true := by
    intro g e h2
    simp [directCalled, h2]
  obtain ⟨s, s', hs1, hs2, -⟩ := Direct.C55_mean bins kMax kMin a ha hs _
    (legal f ev hpts hargs hN hev) order hord (called f ev hargs)
  obtain ⟨t, t', ht1, ht2, -⟩ := Direct.C55_mean bins kMax kMin a ha hs _
    (legal f' ev' hpts' hargs' (by rw [hff.2.2.2]; exact hN) hev') order hord (called f' ev' hargs')
  have hsame : directSamples [(f', ks)] = directSamples [(f, ks)] := by
    unfold directSamples
    simp only [List.flatMap_cons, List.flatMap_nil, List.append_nil]
    refine List.map_congr_left fun k hk => ?_
    obtain ⟨⟨n, hn, -⟩, -⟩ := C73_sound cast f.box hbox kMax kMin hg.2.2.1 hg.2.1.le num ks hks k hk
    rw [C74_images f f' hff k n hn]
  rw [frames f ev hargs] at hs2
  rw [frames f' ev' hargs', hsame] at ht2
  exact ⟨s, s', t, t', _, hs1, ht1, hs2, ht2⟩

/-- Two particles in the unit cube, one of them replaced by an image: the hypotheses of `C74_images`
and `C74_read` are met. -/
example : SameUpToImages ⟨unitCube, [⟨0, 0, 0⟩, ⟨1 / 4, 0, 0⟩], none, none⟩
    ⟨unitCube, [⟨0, 0, 0⟩, ⟨5 / 4, 0, 0⟩], none, none⟩ := by
  refine ⟨rfl, List.Forall₂.cons ⟨⟨0, 0, 0⟩, fun _ => rfl, ?_⟩
    (List.Forall₂.cons ⟨⟨1, 0, 0⟩, fun _ => rfl, ?_⟩ .nil), trivial, rfl⟩
  · ext <;> simp [lattice, comb]
  · ext <;> simp [lattice, comb, Spec.a1, unitCube] <;> norm_num

/-- At a wave vector that is not commensurate with the box the images matter. -/
theorem C74_incommensurate_counterexample : ∃ f f' k, SameUpToImages f f' ∧
    directS f' k ≠ directS f k := by
  refine ⟨⟨unitCube, [⟨0, 0, 0⟩, ⟨0, 0, 0⟩], none, none⟩,
    ⟨unitCube, [⟨0, 0, 0⟩, ⟨1, 0, 0⟩], none, none⟩, ⟨Real.pi, 0, 0⟩, ?_, ?_⟩
  · refine ⟨rfl, List.Forall₂.cons ⟨⟨0, 0, 0⟩, fun _ => rfl, ?_⟩
      (List.Forall₂.cons ⟨⟨1, 0, 0⟩, fun _ => rfl, ?_⟩ .nil), trivial, rfl⟩
    · ext <;> simp [lattice, comb]
    · ext <;> simp [lattice, comb, Spec.a1, unitCube]
  · simp [directS, sfQuery, sfTotal, Vec3.dot]
    norm_num

end KPoints
end Freud
