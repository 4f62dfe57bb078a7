import Verif.Lemmas.RoundingBox
import Verif.Props.Box

/-!
# Property C91: wrapping and images in floating-point arithmetic
-/

namespace Freud
open Spec Fl

namespace Fl

theorem _root_.Freud.Spec.FloatBox.valid {p : ℕ} {b : Box ℚ} (h : FloatBox p b) : Valid b :=
  ⟨h.lo, h.Lx.2.ne', h.Ly.2.ne', fun e => (h.Lz e).2.ne', h.Lz_2D⟩

theorem _root_.Freud.Spec.FloatBox.Lz_nonneg {p : ℕ} {b : Box ℚ} (h : FloatBox p b) : 0 ≤ b.L.z := by
  cases e : b.is2D with
  | true => rw [h.Lz_2D e]
  | false => exact (h.Lz e).2.le

theorem modulusPositive_zero {p : ℕ} (hp : 1 ≤ p) : modulusPositive p 0 = 0 := by
  unfold modulusPositive add
  have : fmodOne 0 = 0 := by simp [fmodOne, trunc]
  rw [this, zero_add, rnd_of_isFloat hp (isFloat_one hp)]
  simp [fmodOne, trunc]

/-- The last steps of `makeAbsolute`. -/
theorem near_tilted {p : ℕ} (hp : 10 ≤ p) {A T xy xz yz wx wy wz x y z : ℚ} (hT : 1 ≤ T) (hA : 0 ≤ A)
    (hxy : |xy| ≤ T) (hxz : |xz| ≤ T) (hyz : |yz| ≤ T)
    (hx : Near p A 37 wx x) (hy : Near p A 37 wy y) (hz : Near p A 37 wz z)
    (bx : |x| ≤ 51 / 10 * A) (bY : |y| ≤ 51 / 10 * A) (bz : |z| ≤ 51 / 10 * A) :
    (Near p (T * A) 150 (add p wx (add p (mul p xy wy) (mul p xz wz))) (x + (xy * y + xz * z)) ∧
      |x + (xy * y + xz * z)| ≤ 153 / 10 * (T * A)) ∧
    (Near p (T * A) 150 (add p wy (mul p yz wz)) (y + yz * z) ∧ |y + yz * z| ≤ 153 / 10 * (T * A)) ∧
    (Near p (T * A) 150 wz z ∧ |z| ≤ 153 / 10 * (T * A)) := by
  have hT0 : 0 ≤ T := by linarith
  have hTA : A ≤ T * A := by nlinarith
  have h0 : 0 ≤ T * A := by positivity
  have prod : ∀ {k w w' : ℚ}, |k| ≤ T → Near p A 37 w w' → |w'| ≤ 51 / 10 * A →
      Near p (T * A) 43 (mul p k w) (k * w') ∧ |k * w'| ≤ 51 / 10 * (T * A) := by
    intro k w w' hk h hb
    have h1 : |k * w'| ≤ 51 / 10 * (T * A) := by
      have := abs_mul_le hk hb
      linarith
    refine ⟨Near.rnd (c := 37) hp h0 (by norm_num) ?_ h1 (by norm_num), h1⟩
    rw [mul_comm k w, mul_comm k w']
    exact h.mul hk
  obtain ⟨p1, p1'⟩ := prod hxy hy bY
  obtain ⟨p2, p2'⟩ := prod hxz hz bz
  obtain ⟨p3, p3'⟩ := prod hyz hz bz
  have s1 : |xy * y + xz * z| ≤ 51 / 5 * (T * A) := by
    have := abs_add_le' p1' p2'
    linarith
  have s2 := Near.rnd hp h0 (by norm_num) (p1.add p2) s1 (d := 97) (by norm_num)
  have t1 : |x + (xy * y + xz * z)| ≤ 153 / 10 * (T * A) := by
    have := abs_add_le' bx s1
    linarith
  have t2 : |y + yz * z| ≤ 153 / 10 * (T * A) := by
    have := abs_add_le' bY p3'
    linarith
  refine ⟨⟨Near.rnd hp h0 (by norm_num) ((hx.scale (by norm_num) hTA).add s2) t1 (by norm_num), t1⟩,
    ⟨Near.rnd hp h0 (by norm_num) ((hy.scale (by norm_num) hTA).add p3) t2 (by norm_num), t2⟩,
    (hz.scale (by norm_num) hTA).mono h0 (by norm_num), ?_⟩
  linarith

/-- The fractional coordinates. -/
theorem near_fractional {p : ℕ} (hp : 10 ≤ p) {b : Box ℚ} (hb : FloatBox p b) {v : Vec3 ℚ} {M T : ℚ}
    (hs : Sized b v M T) :
    (Near p (T * (T * M) / b.L.x) 24 (makeFractional p b v).x (b.makeFractional v).x ∧
      |(b.makeFractional v).x * b.L.x| ≤ 9 / 2 * (T * (T * M))) ∧
    (Near p (T * (T * M) / b.L.y) 24 (makeFractional p b v).y (b.makeFractional v).y ∧
      |(b.makeFractional v).y * b.L.y| ≤ 9 / 2 * (T * (T * M))) ∧
    (b.is2D = true → (makeFractional p b v).z = 0) ∧
    (b.is2D = false → Near p (T * (T * M) / b.L.z) 24 (makeFractional p b v).z (b.makeFractional v).z ∧
      |(b.makeFractional v).z * b.L.z| ≤ 9 / 2 * (T * (T * M))) := by
  have hM : 0 ≤ M := le_trans (abs_nonneg _) hs.v.1
  have hT : 0 ≤ T := by linarith [hs.one_le]
  have hA : 0 ≤ T * (T * M) := by positivity
  obtain ⟨⟨x1, x2⟩, ⟨y1, y2⟩, z1, z2⟩ := near_numerators hp hs hb.Lx.2.le hb.Ly.2.le hb.Lz_nonneg
  have hX := hb.Lx.2
  have hY := hb.Ly.2
  have ex : (b.makeFractional v).x =
      (v.x - -(b.L.x / 2) - ((b.xz - b.yz * b.xy) * v.z + b.xy * v.y)) / b.L.x := by
    unfold Box.makeFractional; rw [hb.lo]; split_ifs <;> simp
  have ey : (b.makeFractional v).y = (v.y - -(b.L.y / 2) - b.yz * v.z) / b.L.y := by
    unfold Box.makeFractional; rw [hb.lo]; split_ifs <;> simp
  have fx : (makeFractional p b v).x = div p (sub p (sub p v.x (-(b.L.x / 2)))
        (add p (mul p (sub p b.xz (mul p b.yz b.xy)) v.z) (mul p b.xy v.y))) b.L.x := by
    unfold makeFractional; rw [hb.lo]; split_ifs <;> rfl
  have fy : (makeFractional p b v).y = div p (sub p (sub p v.y (-(b.L.y / 2))) (mul p b.yz v.z)) b.L.y := by
    unfold makeFractional; rw [hb.lo]; split_ifs <;> rfl
  refine ⟨⟨?_, ?_⟩, ⟨?_, ?_⟩, ?_, ?_⟩
  · rw [ex, fx]; exact near_quotient hp hA hX x1 x2
  · rw [ex, div_mul_cancel₀ _ hX.ne']; exact x2
  · rw [ey, fy]; exact near_quotient hp hA hY y1 y2
  · rw [ey, div_mul_cancel₀ _ hY.ne']; exact y2
  · intro h; unfold makeFractional; rw [if_pos h]
  · intro h
    have hZ := (hb.Lz h).2
    have ez : (b.makeFractional v).z = (v.z - -(b.L.z / 2)) / b.L.z := by
      unfold Box.makeFractional; rw [hb.lo, if_neg (by simp [h])]; simp
    have fz : (makeFractional p b v).z = div p (sub p v.z (-(b.L.z / 2))) b.L.z := by
      unfold makeFractional; rw [hb.lo, if_neg (by simp [h])]; rfl
    rw [ez, fz, div_mul_cancel₀ _ hZ.ne']
    exact ⟨near_quotient hp hA hZ z1 z2, z2⟩

/-- The wrapped vector, with the integers that the remainders have taken off. -/
theorem near_wrap {p : ℕ} (hp : 10 ≤ p) {b : Box ℚ} (hb : FloatBox p b) {v : Vec3 ℚ} (hv : Planar b v)
    {M T : ℚ} (hs : Sized b v M T) (hper : ¬ (!b.px && !b.py && !b.pz) = true) :
    ∃ k : Vec3 ℤ, (b.px = false → k.x = 0) ∧ (b.py = false → k.y = 0) ∧
      ((b.pz = false ∨ b.is2D = true) → k.z = 0) ∧
      Near p (T * (T * M) / b.L.x) 26
        (if b.px then modulusPositive p (makeFractional p b v).x else (makeFractional p b v).x)
        ((b.makeFractional v).x - k.x) ∧
      Near p (T * (T * M) / b.L.y) 26
        (if b.py then modulusPositive p (makeFractional p b v).y else (makeFractional p b v).y)
        ((b.makeFractional v).y - k.y) ∧
      (b.is2D = false → Near p (T * (T * M) / b.L.z) 26
        (if b.pz then modulusPositive p (makeFractional p b v).z else (makeFractional p b v).z)
        ((b.makeFractional v).z - k.z)) ∧
      (Near p (T * (T * (T * M))) 150 (wrap p b v).x (v.x - (lattice b k).x) ∧
        |v.x - (lattice b k).x| ≤ 153 / 10 * (T * (T * (T * M)))) ∧
      (Near p (T * (T * (T * M))) 150 (wrap p b v).y (v.y - (lattice b k).y) ∧
        |v.y - (lattice b k).y| ≤ 153 / 10 * (T * (T * (T * M)))) ∧
      (Near p (T * (T * (T * M))) 150 (wrap p b v).z (v.z - (lattice b k).z) ∧
        |v.z - (lattice b k).z| ≤ 153 / 10 * (T * (T * (T * M)))) := by
  have hM : 0 ≤ M := le_trans (abs_nonneg _) hs.v.1
  have hT := hs.one_le
  have hT0 : 0 ≤ T := by linarith
  have hTM : M ≤ T * M := by nlinarith
  have hMA : M ≤ T * (T * M) := hTM.trans (by nlinarith)
  have hA : 0 ≤ T * (T * M) := by positivity
  have hTA : 0 ≤ T * (T * (T * M)) := by positivity
  obtain ⟨⟨x1, x2⟩, ⟨y1, y2⟩, hz2, hz3⟩ := near_fractional hp hb hs
  have hX := hb.Lx.2
  have hY := hb.Ly.2
  obtain ⟨kx, kx0, gx⟩ := near_reduced hX hs.L.1 hMA x1 b.px
  obtain ⟨ky, ky0, gy⟩ := near_reduced hY hs.L.2.1 hMA y1 b.py
  have bx := reduced_bound hp hX hs.L.1 hMA kx0 x2 gx
  have bY := reduced_bound hp hY hs.L.2.1 hMA ky0 y2 gy
  obtain ⟨wx, wx'⟩ := near_corner hp hX hs.L.1 hMA gx bx
  obtain ⟨wy, wy'⟩ := near_corner hp hY hs.L.2.1 hMA gy bY
  have hval := hb.valid
  have hcomb := comb_makeFractional hval v hv
  set f := makeFractional p b v with hf
  set f' := b.makeFractional v with hf'
  have hwrap : wrap p b v = makeAbsolute p b ⟨if b.px then modulusPositive p f.x else f.x,
      if b.py then modulusPositive p f.y else f.y, if b.pz then modulusPositive p f.z else f.z⟩ := by
    unfold wrap
    rw [if_neg hper]
    simp only [← hf]
    cases b.px <;> cases b.py <;> cases b.pz <;> rfl
  have eqx := congrArg Vec3.x hcomb
  have eqy := congrArg Vec3.y hcomb
  have eqz := congrArg Vec3.z hcomb
  simp only [comb, a1, a2, a3] at eqx eqy eqz
  cases h2 : b.is2D with
  | true =>
    have hLz := hb.Lz_2D h2
    obtain ⟨⟨t1, t1'⟩, ⟨t2, t2'⟩, t3, t3'⟩ := near_tilted hp hT hA hs.tilts.1 hs.tilts.2.1 hs.tilts.2.2
      wx wy ((Near.refl p (T * (T * M)) 0).mono hA (by norm_num)) wx' wy'
      (by rw [abs_zero]; positivity)
    have hfz : (if b.pz then modulusPositive p f.z else f.z) = 0 := by
      rw [hz2 h2, modulusPositive_zero (by omega)]; simp
    have hw : wrap p b v = ⟨add p (add p (-(b.L.x / 2)) (mul p (if b.px then modulusPositive p f.x else f.x) b.L.x))
        (add p (mul p b.xy (add p (-(b.L.y / 2)) (mul p (if b.py then modulusPositive p f.y else f.y) b.L.y)))
          (mul p b.xz 0)),
        add p (add p (-(b.L.y / 2)) (mul p (if b.py then modulusPositive p f.y else f.y) b.L.y)) (mul p b.yz 0), 0⟩ := by
      rw [hwrap, hfz]
      unfold makeAbsolute
      rw [hb.lo]
      simp [addV, mulV, h2, hLz, add, mul, rnd_zero]
    rw [hLz] at eqx eqy eqz
    refine ⟨⟨kx, ky, 0⟩, kx0, ky0, fun _ => rfl, gx, gy, by simp, ?_, ?_, ?_⟩
    · have e : v.x - (lattice b ⟨kx, ky, 0⟩).x = -(b.L.x / 2) + (f'.x - kx) * b.L.x +
          (b.xy * (-(b.L.y / 2) + (f'.y - ky) * b.L.y) + b.xz * 0) := by
        rw [eqx]; simp only [lattice, comb, a1, a2, a3, hLz]; push_cast; ring
      rw [e, hw]
      exact ⟨t1, t1'⟩
    · have e : v.y - (lattice b ⟨kx, ky, 0⟩).y = -(b.L.y / 2) + (f'.y - ky) * b.L.y + b.yz * 0 := by
        rw [eqy]; simp only [lattice, comb, a1, a2, a3, hLz]; push_cast; ring
      rw [e, hw]
      exact ⟨t2, t2'⟩
    · have e : v.z - (lattice b ⟨kx, ky, 0⟩).z = 0 := by
        rw [eqz]; simp only [lattice, comb, a1, a2, a3, hLz]; push_cast; ring
      rw [e, hw]
      exact ⟨t3, t3'⟩
  | false =>
    obtain ⟨z1, z2⟩ := hz3 h2
    have hZ := (hb.Lz h2).2
    obtain ⟨kz, kz0, gz⟩ := near_reduced hZ hs.L.2.2 hMA z1 b.pz
    have bz := reduced_bound hp hZ hs.L.2.2 hMA kz0 z2 gz
    obtain ⟨wz, wz'⟩ := near_corner hp hZ hs.L.2.2 hMA gz bz
    obtain ⟨⟨t1, t1'⟩, ⟨t2, t2'⟩, t3, t3'⟩ := near_tilted hp hT hA hs.tilts.1 hs.tilts.2.1 hs.tilts.2.2
      wx wy wz wx' wy' wz'
    have hw : wrap p b v = ⟨add p (add p (-(b.L.x / 2)) (mul p (if b.px then modulusPositive p f.x else f.x) b.L.x))
        (add p (mul p b.xy (add p (-(b.L.y / 2)) (mul p (if b.py then modulusPositive p f.y else f.y) b.L.y)))
          (mul p b.xz (add p (-(b.L.z / 2)) (mul p (if b.pz then modulusPositive p f.z else f.z) b.L.z)))),
        add p (add p (-(b.L.y / 2)) (mul p (if b.py then modulusPositive p f.y else f.y) b.L.y))
          (mul p b.yz (add p (-(b.L.z / 2)) (mul p (if b.pz then modulusPositive p f.z else f.z) b.L.z))),
        add p (-(b.L.z / 2)) (mul p (if b.pz then modulusPositive p f.z else f.z) b.L.z)⟩ := by
      rw [hwrap]
      unfold makeAbsolute
      rw [hb.lo]
      simp [addV, mulV, h2]
    refine ⟨⟨kx, ky, kz⟩, kx0, ky0, fun h => ?_, gx, gy, fun _ => gz, ?_, ?_, ?_⟩
    · rcases h with h | h
      · exact kz0 h
      · cases h
    · have e : v.x - (lattice b ⟨kx, ky, kz⟩).x = -(b.L.x / 2) + (f'.x - kx) * b.L.x +
          (b.xy * (-(b.L.y / 2) + (f'.y - ky) * b.L.y) + b.xz * (-(b.L.z / 2) + (f'.z - kz) * b.L.z)) := by
        rw [eqx]; simp only [lattice, comb, a1, a2, a3]; ring
      rw [e, hw]
      exact ⟨t1, t1'⟩
    · have e : v.y - (lattice b ⟨kx, ky, kz⟩).y = -(b.L.y / 2) + (f'.y - ky) * b.L.y +
          b.yz * (-(b.L.z / 2) + (f'.z - kz) * b.L.z) := by
        rw [eqy]; simp only [lattice, comb, a1, a2, a3]; ring
      rw [e, hw]
      exact ⟨t2, t2'⟩
    · have e : v.z - (lattice b ⟨kx, ky, kz⟩).z = -(b.L.z / 2) + (f'.z - kz) * b.L.z := by
        rw [eqz]; simp only [lattice, comb, a1, a2, a3]; ring
      rw [e, hw]
      exact ⟨t3, t3'⟩

end Fl

/-- **C91**: in a box without tilt, every wrapped point lies inside the box, upper faces excluded, in
every direction in which the box is periodic. -/
theorem C91_wrap_in_box_partial (p : ℕ) (hp : 1 ≤ p) (b : Box ℚ) (hb : FloatBox p b) (ht : Untilted b)
    (v : Vec3 ℚ) :
    (b.px = true → -(b.L.x / 2) ≤ (Fl.wrap p b v).x ∧ (Fl.wrap p b v).x < b.L.x / 2) ∧
    (b.py = true → -(b.L.y / 2) ≤ (Fl.wrap p b v).y ∧ (Fl.wrap p b v).y < b.L.y / 2) ∧
    (b.pz = true → b.is2D = false →
      -(b.L.z / 2) ≤ (Fl.wrap p b v).z ∧ (Fl.wrap p b v).z < b.L.z / 2) := by
  obtain ⟨hxy, hxz, hyz⟩ := ht
  have hid : ∀ x y, rnd p (rnd p x + rnd p (0 * y)) = rnd p x := by
    intro x y
    rw [zero_mul, rnd_zero, add_zero, rnd_of_isFloat hp (rnd_isFloat hp _)]
  have hid2 : ∀ x y z, rnd p (rnd p x + rnd p (rnd p (0 * y) + rnd p (0 * z))) = rnd p x := by
    intro x y z
    rw [zero_mul, zero_mul, rnd_zero, add_zero, rnd_zero, add_zero, rnd_of_isFloat hp (rnd_isFloat hp _)]
  refine ⟨fun h => ?_, fun h => ?_, fun h h2 => ?_⟩
  · have := component_range hp (Fl.makeFractional p b v).x hb.Lx.1 hb.Lx.2
    have e : (Fl.wrap p b v).x = Fl.add p (-(b.L.x / 2))
        (Fl.mul p (Fl.modulusPositive p (Fl.makeFractional p b v).x) b.L.x) := by
      unfold Fl.wrap Fl.makeAbsolute
      rw [if_neg (by simp [h]), hb.lo]
      split_ifs <;> simp only [Fl.addV, Fl.mulV, Fl.add, Fl.mul, hxy, hxz, hyz, hid2]
    rw [e]; exact this
  · have := component_range hp (Fl.makeFractional p b v).y hb.Ly.1 hb.Ly.2
    have e : (Fl.wrap p b v).y = Fl.add p (-(b.L.y / 2))
        (Fl.mul p (Fl.modulusPositive p (Fl.makeFractional p b v).y) b.L.y) := by
      unfold Fl.wrap Fl.makeAbsolute
      rw [if_neg (by simp [h]), hb.lo]
      split_ifs <;> simp only [Fl.addV, Fl.mulV, Fl.add, Fl.mul, hxy, hxz, hyz, hid]
    rw [e]; exact this
  · have := component_range hp (Fl.makeFractional p b v).z (hb.Lz h2).1 (hb.Lz h2).2
    have e : (Fl.wrap p b v).z = Fl.add p (-(b.L.z / 2))
        (Fl.mul p (Fl.modulusPositive p (Fl.makeFractional p b v).z) b.L.z) := by
      unfold Fl.wrap Fl.makeAbsolute
      rw [if_neg (by simp [h]), hb.lo]
      split_ifs <;> simp only [Fl.addV, Fl.mulV, Fl.add, Fl.mul] <;> simp_all
    rw [e]; exact this

/-- **C91**: in every box, tilted or not, the wrapped point differs from an image of the point by at most
150 rounding units of the size of the system. -/
theorem C91_wrap_error (p : ℕ) (hp : 10 ≤ p) (b : Box ℚ) (hb : FloatBox p b) (v : Vec3 ℚ)
    (hv : Planar b v) (M T : ℚ) (hs : Sized b v M T) :
    ∃ n, AllowedShift b n ∧
      ErrorAtMost (150 * (2 ^ (-(p : ℤ)) * (T ^ 3 * M))) (Fl.wrap p b v) (v + lattice b n) := by
  by_cases hper : (!b.px && !b.py && !b.pz) = true
  · have hM : 0 ≤ M := le_trans (abs_nonneg _) hs.v.1
    have hT0 : 0 ≤ T := by linarith [hs.one_le]
    refine ⟨⟨0, 0, 0⟩, ⟨fun _ => rfl, fun _ => rfl, fun _ => rfl⟩, ?_⟩
    have e : Fl.wrap p b v = v + lattice b ⟨0, 0, 0⟩ := by
      unfold Fl.wrap
      rw [if_pos hper]
      ext <;> simp [lattice, comb]
    rw [e]
    unfold ErrorAtMost
    simp only [sub_self, abs_zero]
    have : 0 ≤ 150 * ((2 : ℚ) ^ (-(p : ℤ)) * (T ^ 3 * M)) := by positivity
    exact ⟨this, this, this⟩
  · obtain ⟨k, h1, h2, h3, -, -, -, ⟨ex, -⟩, ⟨ey, -⟩, ez, -⟩ := near_wrap hp hb hv hs hper
    refine ⟨⟨-k.x, -k.y, -k.z⟩, ⟨fun h => by simp [h1 h], fun h => by simp [h2 h], fun h => by simp [h3 h]⟩, ?_⟩
    have hl : lattice b ⟨-k.x, -k.y, -k.z⟩ = -lattice b k := by
      ext <;> simp [lattice, comb] <;> ring
    unfold Near at ex ey ez
    rw [show T * (T * (T * M)) = T ^ 3 * M by ring] at ex ey ez
    rw [hl]
    unfold ErrorAtMost
    simp only [Vec3.add_x, Vec3.add_y, Vec3.add_z, Vec3.neg_x, Vec3.neg_y, Vec3.neg_z, ← sub_eq_add_neg]
    exact ⟨ex, ey, ez⟩

namespace Fl

/-- The integer taken off by the remainder, away from the integers. -/
theorem shift_eq_floor {p : ℕ} (hp : 10 ≤ p) {f f' E : ℚ} {k : ℤ} (h : Near p E 26 (modulusPositive p f) (f' - k))
    (hoff : ∀ m : ℤ, 40 * (2 ^ (-(p : ℤ)) * E) < |f' - m|) : k = ⌊f'⌋ := by
  obtain ⟨r1, r2⟩ := modulusPositive_range (p := p) (by omega) f
  unfold Near at h
  have h' := abs_le.mp h
  have h0 := hoff k
  have h1 := hoff (k + 1)
  have hE : 0 ≤ 2 ^ (-(p : ℤ)) * E := by
    have := le_trans (abs_nonneg _) h
    linarith
  push_cast at h1
  symm
  rw [Int.floor_eq_iff]
  constructor
  · by_contra hc
    push Not at hc
    rw [abs_of_neg (by linarith)] at h0
    linarith
  · by_contra hc
    push Not at hc
    rw [abs_of_nonneg (by linarith)] at h1
    linarith

/-- The image number, away from the integers. -/
theorem imageOf_eq_floor {p : ℕ} (hp : 10 ≤ p) {f f' E : ℚ} (hE : 1 ≤ E) (h : Near p E 24 f f')
    (hB : |f'| ≤ 9 / 2 * E) (hoff : ∀ m : ℤ, 40 * (2 ^ (-(p : ℤ)) * E) < |f' - m|) :
    imageOf p (sub p f (1 / 2)) = ⌊f'⌋ := by
  have hE0 : 0 ≤ E := by linarith
  have hu := u_pos p
  have huE : 0 ≤ 2 ^ (-(p : ℤ)) * E := by positivity
  have h1 : |f' - 1 / 2| ≤ 5 * E := by
    have := abs_sub_le' hB (b := (1 / 2 : ℚ)) (B := 1 / 2) (by norm_num)
    linarith
  have h2 : Near p E 30 (sub p f (1 / 2)) (f' - 1 / 2) :=
    Near.rnd hp hE0 (by norm_num) (h.sub (Near.refl p E _)) h1 (by norm_num)
  have hfl := Int.floor_le f'
  have hfl' := Int.lt_floor_add_one f'
  have o1 := hoff ⌊f'⌋
  have o2 := hoff (⌊f'⌋ + 1)
  push_cast at o2
  rw [abs_of_nonneg (by linarith)] at o1
  rw [abs_of_neg (by linarith)] at o2
  unfold imageOf
  split_ifs with hs
  · have h3 : Near p E 36 (add p (sub p f (1 / 2)) (1 / 2)) f' := by
      have := h2.add (Near.refl p E (1 / 2))
      rw [sub_add_cancel] at this
      exact Near.rnd hp hE0 (by norm_num) this hB (by norm_num)
    have h0 : 0 ≤ add p (sub p f (1 / 2)) (1 / 2) := rnd_nonneg (by omega) (by linarith)
    unfold trunc
    rw [if_pos h0, Int.floor_eq_iff]
    have := abs_le.mp h3
    constructor <;> linarith
  · push Not at hs
    have h3 : Near p E 37 (sub p (sub p f (1 / 2)) (1 / 2)) (f' - 1) := by
      have := h2.sub (Near.refl p E (1 / 2))
      rw [show f' - 1 / 2 - 1 / 2 = f' - 1 by ring] at this
      refine Near.rnd hp hE0 (by norm_num) this (B := 11 / 2) ?_ (by norm_num)
      have := abs_sub_le' hB (b := (1 : ℚ)) (B := 1) (by norm_num)
      linarith
    have h0 : sub p (sub p f (1 / 2)) (1 / 2) < 0 := by
      have : sub p (sub p f (1 / 2)) (1 / 2) ≤ -(1 / 2) := by
        refine rnd_le (by omega) (isFloat_neg ?_) (by linarith)
        have := isFloat_zpow (p := p) (by omega) (-1)
        rwa [zpow_neg, zpow_one, ← one_div] at this
      linarith
    unfold trunc
    rw [if_neg (not_le.mpr h0), Int.ceil_eq_iff]
    have := abs_le.mp h3
    constructor <;> linarith

theorem hasCoords_unique {b : Box ℚ} (hb : Valid b) {v f : Vec3 ℚ} (h : HasCoords b v f) :
    f = b.makeFractional v := by
  rw [h.1, makeFractional_comb hb]
  cases h2 : b.is2D with
  | true => ext <;> simp [h.2 h2]
  | false => ext <;> simp

end Fl

/-- **C91**: away from the faces, `get_images` gives the image that the definition gives, and unwrapping
the wrapped point with it restores the point, up to rounding errors. -/
theorem C91_images_partial (p : ℕ) (hp : 10 ≤ p) (b : Box ℚ) (hb : FloatBox p b)
    (hper : b.px = true ∧ b.py = true ∧ b.pz = true) (v : Vec3 ℚ) (hv : Planar b v) (M T : ℚ)
    (hs : Sized b v M T) (hbig : 6 * (T ^ 2 * M) ≤ 2 ^ p * b.L.x ∧ 6 * (T ^ 2 * M) ≤ 2 ^ p * b.L.y ∧
      (b.is2D = false → 6 * (T ^ 2 * M) ≤ 2 ^ p * b.L.z))
    (hoff : OffFaces b v (40 * (2 ^ (-(p : ℤ)) * (T ^ 2 * M)))) :
    (∃ f, HasCoords b v f ∧ (Fl.getImage p b v).x = ⌊f.x⌋ ∧ (Fl.getImage p b v).y = ⌊f.y⌋ ∧
      (Fl.getImage p b v).z = ⌊f.z⌋) ∧
    ErrorAtMost (400 * (2 ^ (-(p : ℤ)) * (T ^ 3 * M)))
      (Fl.unwrap p b (Fl.wrap p b v) (Fl.getImage p b v)) v := by
  obtain ⟨f, hf, hoff⟩ := hoff
  obtain rfl := hasCoords_unique hb.valid hf
  have hM : 0 ≤ M := le_trans (abs_nonneg _) hs.v.1
  have hT := hs.one_le
  have hT0 : 0 ≤ T := by linarith
  have hTM : M ≤ T * M := by nlinarith
  have hMA : M ≤ T * (T * M) := hTM.trans (by nlinarith)
  have hA : 0 ≤ T * (T * M) := by positivity
  rw [show T ^ 2 * M = T * (T * M) by ring] at *
  obtain ⟨⟨x1, x2⟩, ⟨y1, y2⟩, hz2, hz3⟩ := near_fractional hp hb hs
  obtain ⟨k, -, -, hk3, gx, gy, gz, wx, wy, wz⟩ := near_wrap hp hb hv hs (by simp [hper.1])
  rw [hper.1, if_pos rfl] at gx
  rw [hper.2.1, if_pos rfl] at gy
  rw [hper.2.2, if_pos rfl] at gz
  have conv : ∀ {L g : ℚ}, 0 < L → (∀ m : ℤ, 40 * (2 ^ (-(p : ℤ)) * (T * (T * M))) < |g - m| * L) →
      ∀ m : ℤ, 40 * (2 ^ (-(p : ℤ)) * (T * (T * M) / L)) < |g - m| := by
    intro L g hL h m
    have := h m
    rw [← div_lt_iff₀ hL] at this
    calc _ = _ := by ring
      _ < _ := this
  have bound : ∀ {L g : ℚ}, 0 < L → |g * L| ≤ 9 / 2 * (T * (T * M)) → |g| ≤ 9 / 2 * (T * (T * M) / L) := by
    intro L g hL h
    rw [abs_mul, abs_of_pos hL, ← le_div_iff₀ hL] at h
    rwa [mul_div_assoc'] at *
  have oneLe : ∀ {L : ℚ}, 0 < L → L ≤ M → 1 ≤ T * (T * M) / L := by
    intro L hL h
    rw [le_div_iff₀ hL]; linarith
  have hX := hb.Lx.2
  have hY := hb.Ly.2
  have ox := conv hX fun m => (hoff m).1
  have oy := conv hY fun m => (hoff m).2.1
  have kx := shift_eq_floor hp gx ox
  have ky := shift_eq_floor hp gy oy
  have ix := imageOf_eq_floor hp (oneLe hX hs.L.1) x1 (bound hX x2) ox
  have iy := imageOf_eq_floor hp (oneLe hY hs.L.2.1) y1 (bound hY y2) oy
  have gi : Fl.getImage p b v = k := by
    unfold Fl.getImage
    ext
    · rw [kx, ← ix]; split_ifs <;> rfl
    · rw [ky, ← iy]; split_ifs <;> rfl
    · cases h2 : b.is2D with
      | true =>
        rw [hk3 (Or.inr h2)]
        simp only [if_true, Fl.imageOf, le_refl, Fl.add, zero_add]
        have hhalf : IsFloat p (1 / 2) := by
          have := isFloat_zpow (p := p) (by omega) (-1)
          rwa [zpow_neg, zpow_one, ← one_div] at this
        rw [rnd_of_isFloat (by omega) hhalf]
        norm_num [trunc]
      | false =>
        have hZ := (hb.Lz h2).2
        have oz := conv hZ fun m => (hoff m).2.2 h2
        rw [shift_eq_floor hp (gz h2) oz,
          ← imageOf_eq_floor hp (oneLe hZ hs.L.2.2) (hz3 h2).1 (bound hZ (hz3 h2).2) oz]
        rfl
  have kz : k.z = ⌊(b.makeFractional v).z⌋ := by
    cases h2 : b.is2D with
    | true => rw [hk3 (Or.inr h2), makeFractional_planar v h2]; simp
    | false =>
      exact shift_eq_floor hp (gz h2) (conv (hb.Lz h2).2 fun m => (hoff m).2.2 h2)
  refine ⟨⟨_, hf, by rw [gi, kx], by rw [gi, ky], by rw [gi, kz]⟩, ?_⟩
  rw [gi]
  -- sizes of the shifts
  have shift : ∀ {L g : ℚ} {j : ℤ}, 0 < L → L ≤ M → |g * L| ≤ 9 / 2 * (T * (T * M)) → j = ⌊g⌋ →
      6 * (T * (T * M)) ≤ 2 ^ p * L →
      |(j : ℚ) * L| ≤ 11 / 2 * (T * (T * M)) ∧ rnd p (j : ℚ) = j := by
    intro L g j hL hLM hg hj hbig
    have h1 : |(j : ℚ) * L| ≤ 11 / 2 * (T * (T * M)) := by
      have e : (j : ℚ) * L = g * L - (g - j) * L := by ring
      have hfr : |(g - j) * L| ≤ M := by
        rw [abs_mul, abs_of_pos hL, hj]
        have a := Int.floor_le g
        have b := Int.lt_floor_add_one g
        rw [abs_of_nonneg (by linarith)]
        nlinarith
      rw [e]
      have := abs_sub_le' hg hfr
      linarith
    refine ⟨h1, rnd_of_isFloat (by omega) (isFloat_int (by omega) ?_)⟩
    rw [abs_mul, abs_of_pos hL] at h1
    have : |(j : ℚ)| * L ≤ 2 ^ p * L := by linarith
    have := le_of_mul_le_mul_right this hL
    exact_mod_cast this
  obtain ⟨sx, rx⟩ := shift hX hs.L.1 x2 kx hbig.1
  obtain ⟨sy, ry⟩ := shift hY hs.L.2.1 y2 ky hbig.2.1
  have hTA : 0 ≤ T * (T * (T * M)) := by positivity
  have hAT : T * (T * M) ≤ T * (T * (T * M)) := by nlinarith
  have sx' : |(k.x : ℚ) * b.L.x| ≤ 11 / 2 * (T * (T * (T * M))) := by linarith
  have sy' : |(k.y : ℚ) * b.L.y| ≤ 11 / 2 * (T * (T * (T * M))) := by linarith
  -- a number times a component of a box vector that is not rounded
  have plain : ∀ {j : ℤ} {L : ℚ}, rnd p (j : ℚ) = j → |(j : ℚ) * L| ≤ 11 / 2 * (T * (T * (T * M))) →
      Near p (T * (T * (T * M))) 13 (Fl.mul p (rnd p j) L) ((j : ℚ) * L) := by
    intro j L h1 h2
    unfold Fl.mul
    rw [h1]
    exact Near.rnd hp hTA le_rfl (Near.refl p _ _) h2 (by norm_num)
  -- and one that is
  have tilted : ∀ {j : ℤ} {L t : ℚ}, rnd p (j : ℚ) = j → |t| ≤ T → |(j : ℚ) * L| ≤ 11 / 2 * (T * (T * M)) →
      Near p (T * (T * (T * M))) 13 (Fl.mul p (rnd p j) (Fl.mul p L t)) (j * (t * L)) ∧
        |(j : ℚ) * (t * L)| ≤ 11 / 2 * (T * (T * (T * M))) := by
    intro j L t h1 ht h2
    have h3 : |(j : ℚ) * (t * L)| ≤ 11 / 2 * (T * (T * (T * M))) := by
      rw [show (j : ℚ) * (t * L) = t * (j * L) by ring]
      have := abs_mul_le ht h2
      linarith
    refine ⟨?_, h3⟩
    unfold Fl.mul
    rw [h1]
    refine Near.rnd (c := 11 / 2) hp hTA (by norm_num) ?_ h3 (by norm_num)
    unfold Near
    have := relErr p (L * t)
    rw [show (j : ℚ) * rnd p (L * t) - j * (t * L) = -((j : ℚ) * (L * t - rnd p (L * t))) by ring, abs_neg, abs_mul]
    calc |(j : ℚ)| * |L * t - rnd p (L * t)| ≤ |(j : ℚ)| * (2 ^ (-(p : ℤ)) * |L * t|) :=
          mul_le_mul_of_nonneg_left this (abs_nonneg _)
      _ = 2 ^ (-(p : ℤ)) * |(j : ℚ) * (t * L)| := by
          rw [abs_mul (j : ℚ), mul_comm t L]; ring
      _ ≤ 2 ^ (-(p : ℤ)) * (11 / 2 * (T * (T * (T * M)))) := mul_le_mul_of_nonneg_left h3 (u_pos p).le
      _ = _ := by ring
  have mx := plain rx sx'
  have my := plain ry sy'
  obtain ⟨myx, myx'⟩ := tilted ry hs.tilts.1 sy
  -- zero components
  have zero : ∀ j : ℤ, Fl.mul p (rnd p j) 0 = 0 := fun j => by simp [Fl.mul, rnd_zero]
  have keep : ∀ x, IsFloat p x → rnd p (x + 0) = x := fun x hx => by
    rw [add_zero, rnd_of_isFloat (by omega) hx]
  -- the three sums
  have X1 : |v.x - (lattice b k).x + k.x * b.L.x| ≤ 208 / 10 * (T * (T * (T * M))) := by
    have := abs_add_le' wx.2 sx'
    linarith
  have X2 := Near.rnd hp hTA (by norm_num) (wx.1.add mx) X1 (d := 184) (by norm_num)
  have X3 : |v.x - (lattice b k).x + k.x * b.L.x + k.y * (b.xy * b.L.y)| ≤ 263 / 10 * (T * (T * (T * M))) := by
    have := abs_add_le' X1 myx'
    linarith
  have X4 := Near.rnd hp hTA (by norm_num) (X2.add myx) X3 (d := 224) (by norm_num)
  have Y1 : |v.y - (lattice b k).y + k.y * b.L.y| ≤ 208 / 10 * (T * (T * (T * M))) := by
    have := abs_add_le' wy.2 sy'
    linarith
  have Y0 := Near.rnd (c := 150) (x := (Fl.wrap p b v).y + 0) hp hTA (by norm_num)
    (by rw [add_zero]; exact wy.1) wy.2 (d := 166) (by norm_num)
  have Y2 := Near.rnd hp hTA (by norm_num) (Y0.add my) Y1 (d := 201) (by norm_num)
  have Z0 := Near.rnd (c := 150) (x := (Fl.wrap p b v).z + 0) hp hTA (by norm_num)
    (by rw [add_zero]; exact wz.1) wz.2 (d := 166) (by norm_num)
  have Z1 := Near.rnd (c := 166) (x := rnd p ((Fl.wrap p b v).z + 0) + 0) hp hTA (by norm_num)
    (by rw [add_zero]; exact Z0) wz.2 (d := 183) (by norm_num)
  have e1 : T ^ 3 * M = T * (T * (T * M)) := by ring
  rw [e1]
  cases h2 : b.is2D with
  | true =>
    have hLz := hb.Lz_2D h2
    have hr : Fl.unwrap p b (Fl.wrap p b v) k =
        ⟨rnd p (rnd p ((Fl.wrap p b v).x + Fl.mul p (rnd p k.x) b.L.x) + Fl.mul p (rnd p k.y) (Fl.mul p b.L.y b.xy)),
         rnd p (rnd p ((Fl.wrap p b v).y + 0) + Fl.mul p (rnd p k.y) b.L.y),
         rnd p (rnd p ((Fl.wrap p b v).z + 0) + 0)⟩ := by
      unfold Fl.unwrap
      simp [h2, Fl.addV, Fl.add, zero]
    rw [hr]
    have lx : v.x = v.x - (lattice b k).x + k.x * b.L.x + k.y * (b.xy * b.L.y) := by
      simp only [lattice, comb, a1, a2, a3, hLz]; ring
    have ly : v.y = v.y - (lattice b k).y + k.y * b.L.y := by
      simp only [lattice, comb, a1, a2, a3, hLz]; ring
    have lz : v.z = v.z - (lattice b k).z := by
      simp only [lattice, comb, a1, a2, a3, hLz]; ring
    refine ⟨?_, ?_, ?_⟩
    · show |_ - v.x| ≤ _
      rw [lx]; exact X4.mono hTA (by norm_num)
    · show |_ - v.y| ≤ _
      rw [ly]; exact Y2.mono hTA (by norm_num)
    · show |_ - v.z| ≤ _
      rw [lz]; exact Z1.mono hTA (by norm_num)
  | false =>
    have hZ := (hb.Lz h2).2
    obtain ⟨sz, rz⟩ := shift hZ hs.L.2.2 (hz3 h2).2 kz (hbig.2.2 h2)
    have sz' : |(k.z : ℚ) * b.L.z| ≤ 11 / 2 * (T * (T * (T * M))) := by linarith
    have mz := plain rz sz'
    obtain ⟨mzx, mzx'⟩ := tilted rz hs.tilts.2.1 sz
    obtain ⟨mzy, mzy'⟩ := tilted rz hs.tilts.2.2 sz
    have hr : Fl.unwrap p b (Fl.wrap p b v) k =
        ⟨rnd p (rnd p (rnd p ((Fl.wrap p b v).x + Fl.mul p (rnd p k.x) b.L.x) +
            Fl.mul p (rnd p k.y) (Fl.mul p b.L.y b.xy)) + Fl.mul p (rnd p k.z) (Fl.mul p b.L.z b.xz)),
         rnd p (rnd p (rnd p ((Fl.wrap p b v).y + 0) + Fl.mul p (rnd p k.y) b.L.y) +
            Fl.mul p (rnd p k.z) (Fl.mul p b.L.z b.yz)),
         rnd p (rnd p (rnd p ((Fl.wrap p b v).z + 0) + 0) + Fl.mul p (rnd p k.z) b.L.z)⟩ := by
      unfold Fl.unwrap
      simp [h2, Fl.addV, Fl.add, zero]
    rw [hr]
    have lx : v.x = v.x - (lattice b k).x + k.x * b.L.x + k.y * (b.xy * b.L.y) + k.z * (b.xz * b.L.z) := by
      simp only [lattice, comb, a1, a2, a3]; ring
    have ly : v.y = v.y - (lattice b k).y + k.y * b.L.y + k.z * (b.yz * b.L.z) := by
      simp only [lattice, comb, a1, a2, a3]; ring
    have lz : v.z = v.z - (lattice b k).z + k.z * b.L.z := by
      simp only [lattice, comb, a1, a2, a3]; ring
    have X5 : |v.x - (lattice b k).x + k.x * b.L.x + k.y * (b.xy * b.L.y) + k.z * (b.xz * b.L.z)| ≤
        318 / 10 * (T * (T * (T * M))) := by
      have := abs_add_le' X3 mzx'
      linarith
    have Y3 : |v.y - (lattice b k).y + k.y * b.L.y + k.z * (b.yz * b.L.z)| ≤
        263 / 10 * (T * (T * (T * M))) := by
      have := abs_add_le' Y1 mzy'
      linarith
    have Z2 : |v.z - (lattice b k).z + k.z * b.L.z| ≤ 208 / 10 * (T * (T * (T * M))) := by
      have := abs_add_le' wz.2 sz'
      linarith
    refine ⟨?_, ?_, ?_⟩
    · show |_ - v.x| ≤ _
      rw [lx]
      exact Near.rnd hp hTA (by norm_num) (X4.add mzx) X5 (d := 400) (by norm_num)
    · show |_ - v.y| ≤ _
      rw [ly]
      exact Near.rnd hp hTA (by norm_num) (Y2.add mzy) Y3 (d := 400) (by norm_num)
    · show |_ - v.z| ≤ _
      rw [lz]
      exact Near.rnd hp hTA (by norm_num) (Z1.add mz) Z2 (d := 400) (by norm_num)

/-- **C91** (limit): in a cube of side 8, in `float`, the point with `x = 4 - 2 ^ -21` lies inside the box. Its
image number is zero, but it is wrapped to the opposite face, so unwrapping does not restore it: it is
moved by the length of the box. -/
theorem C91_images_counterexample :
    let b : Box ℚ := Box.mk' 8 8 8 0 0 0 false
    let v : Vec3 ℚ := ⟨4 - 2 ^ (-21 : ℤ), 0, 0⟩
    FloatBox 24 b ∧ FloatVec 24 v ∧ Fl.wrap 24 b v = ⟨-4, 0, 0⟩ ∧ Fl.getImage 24 b v = ⟨0, 0, 0⟩ ∧
      Fl.unwrap 24 b (Fl.wrap 24 b v) (Fl.getImage 24 b v) = ⟨-4, 0, 0⟩ := by
  refine ⟨⟨?_, ?_, ?_, by decide, by decide +kernel, ?_⟩, ⟨⟨2 ^ 23 - 1, -21, by norm_num, by norm_num⟩,
    isFloat_zero _, isFloat_zero _⟩, by decide +kernel, by decide +kernel, by decide +kernel⟩
  · exact ⟨⟨1, 3, by norm_num, by norm_num [Box.mk', Box.setL]⟩, by norm_num [Box.mk', Box.setL]⟩
  · exact ⟨⟨1, 3, by norm_num, by norm_num [Box.mk', Box.setL]⟩, by norm_num [Box.mk', Box.setL]⟩
  · exact fun _ => ⟨⟨1, 3, by norm_num, by norm_num [Box.mk', Box.setL]⟩, by norm_num [Box.mk', Box.setL]⟩
  · exact ⟨isFloat_zero _, isFloat_zero _, isFloat_zero _⟩

/-- **C91** (limit): in a cube of side 10, in `float`, wrapping a wrapped point can move it again. -/
theorem C91_idempotent_counterexample :
    ∃ v : Vec3 ℚ, FloatVec 24 v ∧
      Fl.wrap 24 (Box.mk' 10 10 10 0 0 0 false) (Fl.wrap 24 (Box.mk' 10 10 10 0 0 0 false) v) ≠
        Fl.wrap 24 (Box.mk' 10 10 10 0 0 0 false) v := by
  refine ⟨⟨-(0x10fae74 * 2 ^ (-21 : ℤ)), 0, 0⟩, ⟨⟨-(0x10fae74 / 2), -20, by norm_num, by norm_num⟩,
    isFloat_zero _, isFloat_zero _⟩, by decide +kernel⟩

/-- **C91** (limit): in a tilted box, in `float`, a wrapped point can lie outside of the box: its first
fractional coordinate is negative. -/
theorem C91_tilted_counterexample :
    ∃ (b : Box ℚ) (v : Vec3 ℚ), FloatBox 24 b ∧ FloatVec 24 v ∧ (b.px = true ∧ b.py = true ∧ b.pz = true) ∧
      (b.makeFractional (Fl.wrap 24 b v)).x < 0 ∧
      (Fl.makeFractional 24 b (Fl.wrap 24 b v)).x < 0 := by
  refine ⟨Box.mk' 10 10 10 (10066330 * 2 ^ (-25 : ℤ)) (13421773 * 2 ^ (-27 : ℤ)) (11744051 * 2 ^ (-24 : ℤ)) false,
    ⟨-(0x163a438 * 2 ^ (-24 : ℤ)), 0x1f10dbc * 2 ^ (-21 : ℤ), 0x1313192 * 2 ^ (-21 : ℤ)⟩, ?_, ?_,
    ⟨rfl, rfl, rfl⟩, by decide +kernel, by decide +kernel⟩
  · refine ⟨?_, ?_, ?_, by simp [Box.mk', Box.setL], by simp [Box.mk', Box.setL], ?_⟩
    · exact ⟨⟨5, 1, by norm_num, by norm_num [Box.mk', Box.setL]⟩, by norm_num [Box.mk', Box.setL]⟩
    · exact ⟨⟨5, 1, by norm_num, by norm_num [Box.mk', Box.setL]⟩, by norm_num [Box.mk', Box.setL]⟩
    · exact fun _ => ⟨⟨5, 1, by norm_num, by norm_num [Box.mk', Box.setL]⟩, by norm_num [Box.mk', Box.setL]⟩
    · exact ⟨⟨10066330, -25, by norm_num, by simp [Box.mk', Box.setL]⟩,
        ⟨13421773, -27, by norm_num, by simp [Box.mk', Box.setL]⟩,
        ⟨11744051, -24, by norm_num, by simp [Box.mk', Box.setL]⟩⟩
  · exact ⟨⟨-(0x163a438 / 2), -23, by norm_num, by norm_num⟩, ⟨0x1f10dbc / 2, -20, by norm_num, by norm_num⟩,
      ⟨0x1313192 / 2, -20, by norm_num, by norm_num⟩⟩

-- a tilted box and a point that is neither inside nor near a face
example : FloatBox 24 (Box.mk' 8 8 8 (1 / 2) 0 0 false) ∧
    Sized (Box.mk' 8 8 8 (1 / 2) 0 0 false) ⟨9, 1, 2⟩ 9 1 ∧
    OffFaces (Box.mk' 8 8 8 (1 / 2) 0 0 false) ⟨9, 1, 2⟩ (40 * (2 ^ (-((24 : ℕ) : ℤ)) * (1 ^ 2 * 9))) := by
  refine ⟨⟨?_, ?_, ?_, by simp [Box.mk', Box.setL], by simp [Box.mk', Box.setL], ?_⟩, ⟨le_rfl, ?_, ?_, ?_⟩, ?_⟩
  · exact ⟨⟨1, 3, by norm_num, by norm_num [Box.mk', Box.setL]⟩, by norm_num [Box.mk', Box.setL]⟩
  · exact ⟨⟨1, 3, by norm_num, by norm_num [Box.mk', Box.setL]⟩, by norm_num [Box.mk', Box.setL]⟩
  · exact fun _ => ⟨⟨1, 3, by norm_num, by norm_num [Box.mk', Box.setL]⟩, by norm_num [Box.mk', Box.setL]⟩
  · exact ⟨⟨1, -1, by norm_num, by norm_num [Box.mk', Box.setL]⟩, isFloat_zero _, isFloat_zero _⟩
  · norm_num [Box.mk', Box.setL]
  · norm_num [Box.mk', Box.setL, abs_of_pos]
  · norm_num [abs_of_pos]
  · have key : ∀ (m n d : ℤ), ¬ (16 : ℤ) ∣ n → 40 * ((2 : ℚ) ^ (-((24 : ℕ) : ℤ)) * (1 ^ 2 * 9)) < |(n / 16 : ℚ) - m| * 8 := by
      intro m n _ hn
      have h1 : (1 : ℤ) ≤ |n - 16 * m| := Int.one_le_abs (fun h => hn ⟨m, by omega⟩)
      have h2 : (1 : ℚ) ≤ |(n : ℚ) - 16 * m| := by exact_mod_cast h1
      have h3 : |(n / 16 : ℚ) - m| = |(n : ℚ) - 16 * m| / 16 := by
        rw [show (n / 16 : ℚ) - m = ((n : ℚ) - 16 * m) / 16 by ring, abs_div, abs_of_pos (by norm_num : (0 : ℚ) < 16)]
      rw [h3]
      norm_num
      linarith
    refine ⟨⟨25 / 16, 10 / 16, 12 / 16⟩, ⟨?_, by simp [Box.mk', Box.setL]⟩, fun m => ⟨?_, ?_, fun _ => ?_⟩⟩
    · ext <;> norm_num [Box.mk', Box.setL, comb, a1, a2, a3]
    · have := key m 25 0 (by norm_num)
      simpa [Box.mk', Box.setL] using this
    · have := key m 10 0 (by norm_num)
      simpa [Box.mk', Box.setL] using this
    · have := key m 12 0 (by norm_num)
      simpa [Box.mk', Box.setL] using this

end Freud
