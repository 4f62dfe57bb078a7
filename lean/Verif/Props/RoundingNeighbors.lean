import Verif.Model.RoundingQuery
import Verif.Spec.RoundingNeighbors
import Verif.Props.RoundingBox
import Verif.Props.BallQuery

/-!
# Property C93: neighbors and cells in floating-point arithmetic
-/

namespace Freud
open Spec Fl

namespace Fl

/-! ### The tree loses nothing -/

theorem sub_clamp {p : ℕ} (hp : 1 ≤ p) {c lo hi x : ℚ} (h1 : lo ≤ x) (h2 : x ≤ hi) :
    sub p (min (max c lo) hi) c * sub p (min (max c lo) hi) c ≤ sub p x c * sub p x c := by
  unfold sub
  rcases le_total c lo with h | h
  · rw [max_eq_right h, min_eq_left (h1.trans h2)]
    have a := rnd_nonneg hp (sub_nonneg.mpr h)
    have b := rnd_mono hp (sub_le_sub_right h1 c)
    exact mul_self_le_mul_self a b
  · rw [max_eq_left h]
    rcases le_total c hi with h' | h'
    · rw [min_eq_left h', sub_self, rnd_zero]
      simpa using mul_self_nonneg (rnd p (x - c))
    · rw [min_eq_right h']
      have a : rnd p (hi - c) ≤ 0 := by
        have := rnd_mono hp (sub_nonpos.mpr h')
        rwa [rnd_zero] at this
      have b := rnd_mono hp (sub_le_sub_right h2 c)
      nlinarith

theorem dot_mono {p : ℕ} (hp : 1 ≤ p) {v w : Vec3 ℚ} (hx : v.x * v.x ≤ w.x * w.x)
    (hy : v.y * v.y ≤ w.y * w.y) (hz : v.z * v.z ≤ w.z * w.z) : dot p v v ≤ dot p w w :=
  rnd_mono hp (add_le_add (rnd_mono hp (add_le_add (rnd_mono hp hx) (rnd_mono hp hy))) (rnd_mono hp hz))

theorem overlap_of_inBall {p : ℕ} (hp : 1 ≤ p) {rMax rMin : ℚ} {q im r : Vec3 ℚ}
    (h : inBall p rMax rMin q im r = true) (j : ℕ) (a : AABB ℚ)
    (ha : AABBTree.Encloses a (AABB.point r j)) :
    overlapSphere p (addV p q im) rMax a = true := by
  simp only [inBall, decide_eq_true_eq] at h
  simp only [overlapSphere, decide_eq_true_eq]
  refine lt_of_le_of_lt ?_ h.1
  obtain ⟨x1, x2, x3, x4, x5, x6⟩ := ha
  exact dot_mono hp (sub_clamp hp x1 x4) (sub_clamp hp x2 x5) (sub_clamp hp x3 x6)

theorem mem_imageSteps {b : Box ℚ} (n : Vec3 ℤ) : n ∈ imageSteps b ↔ NearStep b n := by
  have ht : (Freud.imageSteps.filter (useImage b)).take (numImages b - 1) =
      Freud.imageSteps.filter (useImage b) :=
    List.take_of_length_le (count_images b.px b.py b.pz b.is2D).le
  unfold imageSteps
  rw [ht, List.mem_cons, List.mem_filter, Freud.mem_imageSteps]
  unfold NearStep AllowedShift
  simp only [useImage, Bool.and_eq_true, Bool.not_eq_true', Bool.or_eq_false_iff, Bool.or_eq_true,
    Bool.and_eq_false_iff, bne_iff_ne, ne_eq, bne_eq_false_iff_eq, Bool.not_eq_false']
  obtain ⟨x, y, z⟩ := n
  have e0 : ((⟨x, y, z⟩ : Vec3 ℤ) = 0) ↔ x = 0 ∧ y = 0 ∧ z = 0 := by
    rw [show (0 : Vec3 ℤ) = ⟨0, 0, 0⟩ from rfl, Vec3.mk.injEq]
  rw [e0]
  constructor
  · rintro (⟨rfl, rfl, rfl⟩ | ⟨h, -, ⟨hx, hy⟩, hz⟩)
    · simp
    · refine ⟨⟨fun e => ?_, fun e => ?_, fun e => ?_⟩, h⟩
      · rcases hx with h | h
        · exact h
        · rw [e] at h; simp at h
      · rcases hy with h | h
        · exact h
        · rw [e] at h; simp at h
      · rcases hz with h | h
        · exact h
        · rcases e with e | e <;> rw [e] at h <;> simp at h
  · rintro ⟨⟨hx, hy, hz⟩, h⟩
    by_cases h0 : x = 0 ∧ y = 0 ∧ z = 0
    · exact Or.inl h0
    · refine Or.inr ⟨h, ?_, ⟨?_, ?_⟩, ?_⟩
      · by_contra hc
        push Not at hc
        exact h0 ⟨hc.1.1, hc.1.2, hc.2⟩
      · cases e : b.px with
        | true => exact Or.inr rfl
        | false => exact Or.inl (hx e)
      · cases e : b.py with
        | true => exact Or.inr rfl
        | false => exact Or.inl (hy e)
      · cases e : b.pz with
        | false => exact Or.inl (hz (Or.inl e))
        | true =>
          cases e' : b.is2D with
          | true => exact Or.inl (hz (Or.inr e'))
          | false => exact Or.inr ⟨rfl, rfl⟩

theorem imageSteps_nodup (b : Box ℚ) : (imageSteps b).Nodup := by
  have ht : (Freud.imageSteps.filter (useImage b)).take (numImages b - 1) =
      Freud.imageSteps.filter (useImage b) :=
    List.take_of_length_le (count_images b.px b.py b.pz b.is2D).le
  unfold imageSteps
  rw [ht, List.nodup_cons]
  refine ⟨fun h => ?_, List.Nodup.filter _ (by decide)⟩
  have := (List.mem_filter.mp h).2
  simp [useImage] at this

end Fl

/-- **C93**: for points and boxes of floating-point numbers, with the operations rounded as the machine
rounds them, the ball query returns exactly the pairs of an image and a point whose computed squared
distance passes the test, each once: the tree, its construction and its traversal never lose or repeat
a neighbor. -/
theorem C93_tree (p : ℕ) (hp : 1 ≤ p) (b : Box ℚ) (pts : List (Vec3 ℚ)) (q : Vec3 ℚ) (qi : ℕ)
    (rMax rMin : ℚ) (excl : Bool) :
    ∃ l, Fl.ballQuery p b pts q qi rMax rMin excl = some l ∧ l.Nodup ∧
      ∀ n j, (n, j) ∈ l ↔ NearStep b n ∧ (excl = true → j ≠ qi) ∧ ∃ r, pts[j]? = some r ∧
        Fl.inBall p rMax rMin (flatten b q) (Fl.imageOfStep p b n) (flatten b r) = true := by
  obtain ⟨t, e, -, -⟩ := AABBTree.buildTreeBy_spec (Fl.onLeft p) (pts.map (flatten b))
  refine ⟨_, by unfold Fl.ballQuery; rw [e, Option.map_some], ?_, ?_⟩
  · refine List.nodup_flatMap.mpr ⟨fun n _ => ?_, ?_⟩
    · refine List.Nodup.map (fun x y h => (Prod.mk.inj h).2) (List.Nodup.filter _ ?_)
      exact (AABBTree.traverseBy_build _ _ _ _ e).1
    · refine (Fl.imageSteps_nodup b).imp fun {n m} hnm => ?_
      intro x hx hy
      obtain ⟨_, -, rfl⟩ := List.mem_map.mp hx
      obtain ⟨_, -, h⟩ := List.mem_map.mp hy
      exact hnm (Prod.mk.inj h).1.symm
  · intro n j
    rw [List.mem_flatMap]
    simp only [List.mem_map, List.mem_filter, Prod.mk.injEq, Bool.and_eq_true, Bool.not_eq_true']
    constructor
    · rintro ⟨n, hn, j, ⟨h1, h2, h3⟩, rfl, rfl⟩
      have hj := (AABBTree.traverseBy_build _ _ _ _ e).2.1 j h1
      rw [List.length_map] at hj
      refine ⟨(Fl.mem_imageSteps n).mp hn, fun h => ?_, pts[j], List.getElem?_eq_getElem hj, ?_⟩
      · rw [h] at h2
        simpa [eq_comm] using h2
      · simpa [List.getD_eq_getElem?_getD, List.getElem?_eq_getElem hj] using h3
    · rintro ⟨hn, hex, r, hr, hin⟩
      obtain ⟨hj, rfl⟩ := List.getElem?_eq_some_iff.mp hr
      refine ⟨n, (Fl.mem_imageSteps n).mpr hn, j, ⟨?_, ?_, ?_⟩, rfl, rfl⟩
      · refine (AABBTree.traverseBy_build _ _ _ _ e).2.2 j (flatten b pts[j]) (by simp [hr]) ?_
        exact fun a ha => Fl.overlap_of_inBall hp hin j a ha
      · cases excl with
        | false => rfl
        | true => simpa [eq_comm] using hex rfl
      · simpa [List.getD_eq_getElem?_getD, List.getElem?_eq_getElem hj] using hin

namespace Fl

/-! ### How far the computed difference is from the exact one -/

theorem near_difference {p : ℕ} (hp : 10 ≤ p) {A r q a b b' c c' : ℚ} {i j k : ℤ} (hA : 0 ≤ A)
    (hr : |r| ≤ A) (hq : |q| ≤ A) (ha : |a| ≤ A) (hb : |b| ≤ A) (hc : |c| ≤ A)
    (nb : Near p A 1 b' b) (nc : Near p A 1 c' c) (hi : |(i : ℚ)| ≤ 1) (hj : |(j : ℚ)| ≤ 1)
    (hk : |(k : ℚ)| ≤ 1) :
    Near p A 25 (sub p r (add p q (add p (add p (mul p i a) (mul p j b')) (mul p k c'))))
      (r - (q + (i * a + j * b + k * c))) := by
  have one : ∀ {m : ℤ} {x : ℚ}, |(m : ℚ)| ≤ 1 → |x| ≤ A → |(m : ℚ) * x| ≤ 1 * A := fun h h' => abs_mul_le h h'
  have prod : ∀ {m : ℤ} {x x' : ℚ}, |(m : ℚ)| ≤ 1 → |x| ≤ A → Near p A 1 x' x →
      Near p A 3 (mul p m x') (m * x) := by
    intro m x x' hm hx hn
    refine Near.rnd (c := 1) (B := 1) hp hA (by norm_num) ?_ (one hm hx) (by norm_num)
    have := hn.mul hm
    rw [one_mul] at this
    rwa [mul_comm (m : ℚ) x', mul_comm (m : ℚ) x]
  have pa : Near p A 3 (mul p i a) (i * a) := prod hi ha ((Near.refl p A a).mono hA (by norm_num))
  have pb := prod hj hb nb
  have pc := prod hk hc nc
  have s1 : |(i : ℚ) * a + j * b| ≤ 2 * A := by
    have := abs_add_le' (one hi ha) (one hj hb); linarith
  have n1 := Near.rnd hp hA (by norm_num) (pa.add pb) s1 (d := 17 / 2) (by norm_num)
  have s2 : |(i : ℚ) * a + j * b + k * c| ≤ 3 * A := by
    have := abs_add_le' s1 (one hk hc); linarith
  have n2 := Near.rnd hp hA (by norm_num) (n1.add pc) s2 (d := 15) (by norm_num)
  have s3 : |q + ((i : ℚ) * a + j * b + k * c)| ≤ 4 * A := by
    have := abs_add_le' hq s2; linarith
  have n3 := Near.rnd hp hA (by norm_num) ((Near.refl p A q).add n2) s3 (d := 39 / 2) (by norm_num)
  have s4 : |r - (q + ((i : ℚ) * a + j * b + k * c))| ≤ 5 * A := by
    have := abs_sub_le' hr s3; linarith
  exact Near.rnd hp hA (by norm_num) ((Near.refl p A r).sub n3) s4 (d := 25) (by norm_num)

theorem imageOfStep_eq (p : ℕ) (b : Box ℚ) (n : Vec3 ℤ) : imageOfStep p b n = imageVector p b n := by
  unfold imageOfStep
  split_ifs with h
  · subst h
    have e : ((0 : Vec3 ℤ)).x = 0 ∧ ((0 : Vec3 ℤ)).y = 0 ∧ ((0 : Vec3 ℤ)).z = 0 := ⟨rfl, rfl, rfl⟩
    ext <;> simp [imageVector, addV, mul, add, rnd_zero, e]
  · rfl

/-- The computed difference of a point and an image of another, component by component. -/
theorem near_rij {p : ℕ} (hp : 10 ≤ p) {b : Box ℚ} (hb : FloatBox p b) {q r : Vec3 ℚ} {M T : ℚ}
    (hq : Sized b q M T) (hr : Sized b r M T) {n : Vec3 ℤ} (hn : NearStep b n) :
    let rij := subV p r (addV p q (imageOfStep p b n))
    Near p (T * M) 25 rij.x (r.x - (q.x + (lattice b n).x)) ∧
    Near p (T * M) 25 rij.y (r.y - (q.y + (lattice b n).y)) ∧
    Near p (T * M) 25 rij.z (r.z - (q.z + (lattice b n).z)) := by
  intro rij
  have hT := hq.one_le
  have hM : 0 ≤ M := le_trans (abs_nonneg _) hq.v.1
  have hTM : M ≤ T * M := by nlinarith
  have h0 : 0 ≤ T * M := hM.trans hTM
  obtain ⟨hal, hx, hy, hz⟩ := hn
  have c1 : ∀ {m : ℤ}, -1 ≤ m ∧ m ≤ 1 → |(m : ℚ)| ≤ 1 := by
    intro m h
    rw [abs_le]
    exact ⟨by exact_mod_cast h.1, by exact_mod_cast h.2⟩
  have hi := c1 hx
  have hj := c1 hy
  have hk := c1 hz
  have lx : |b.L.x| ≤ M := by rw [abs_of_pos hb.Lx.2]; exact hq.L.1
  have ly : |b.L.y| ≤ M := by rw [abs_of_pos hb.Ly.2]; exact hq.L.2.1
  have lz : |b.L.z| ≤ M := by rw [abs_of_nonneg hb.Lz_nonneg]; exact hq.L.2.2
  have tl : ∀ {l t : ℚ}, |l| ≤ M → |t| ≤ T → |l * t| ≤ 1 * (T * M) := by
    intro l t h h'
    have := abs_mul_le h h'
    linarith
  have nt : ∀ {l t : ℚ}, |l| ≤ M → |t| ≤ T → Near p (T * M) 1 (mul p l t) (l * t) := fun h h' =>
    Near.rnd hp h0 le_rfl (Near.refl p _ _) (tl h h') (by norm_num)
  have ex : ∀ x : ℚ, Near p (T * M) 1 x x := fun x => (Near.refl p _ x).mono h0 (by norm_num)
  have z0 : |(0 : ℚ)| ≤ T * M := by rwa [abs_zero]
  have lat : lattice b n = ⟨n.x * b.L.x + n.y * (b.L.y * b.xy) + n.z * (b.L.z * b.xz),
      n.x * 0 + n.y * b.L.y + n.z * (b.L.z * b.yz), n.x * 0 + n.y * 0 + n.z * b.L.z⟩ := by
    ext <;> simp only [lattice, comb, a1, a2, a3] <;> ring
  have hrij : rij = subV p r (addV p q (imageVector p b n)) := by
    show subV p r (addV p q (imageOfStep p b n)) = _
    rw [imageOfStep_eq]
  rw [lat]
  cases h2 : b.is2D with
  | false =>
    have him : imageVector p b n =
        ⟨add p (add p (mul p n.x b.L.x) (mul p n.y (mul p b.L.y b.xy))) (mul p n.z (mul p b.L.z b.xz)),
         add p (add p (mul p n.x 0) (mul p n.y b.L.y)) (mul p n.z (mul p b.L.z b.yz)),
         add p (add p (mul p n.x 0) (mul p n.y 0)) (mul p n.z b.L.z)⟩ := by
      unfold imageVector
      rw [h2]
      rfl
    rw [hrij, him]
    refine ⟨?_, ?_, ?_⟩
    · exact near_difference hp h0 (hr.v.1.trans hTM) (hq.v.1.trans hTM) (lx.trans hTM)
        ((tl ly hq.tilts.1).trans (by linarith)) ((tl lz hq.tilts.2.1).trans (by linarith))
        (nt ly hq.tilts.1) (nt lz hq.tilts.2.1) hi hj hk
    · exact near_difference hp h0 (hr.v.2.1.trans hTM) (hq.v.2.1.trans hTM) z0
        (ly.trans hTM) ((tl lz hq.tilts.2.2).trans (by linarith))
        (ex _) (nt lz hq.tilts.2.2) hi hj hk
    · exact near_difference hp h0 (hr.v.2.2.trans hTM) (hq.v.2.2.trans hTM) z0 z0
        (lz.trans hTM) (ex _) (ex _) hi hj hk
  | true =>
    have hz0 : n.z = 0 := hal.2.2 (Or.inr h2)
    have him : imageVector p b n =
        ⟨add p (add p (mul p n.x b.L.x) (mul p n.y (mul p b.L.y b.xy))) (mul p n.z 0),
         add p (add p (mul p n.x 0) (mul p n.y b.L.y)) (mul p n.z 0),
         add p (add p (mul p n.x 0) (mul p n.y 0)) (mul p n.z 0)⟩ := by
      unfold imageVector
      rw [h2]
      rfl
    rw [hrij, him]
    have hk0 : ∀ x : ℚ, (n.z : ℚ) * x = n.z * 0 := by intro x; rw [hz0]; simp
    refine ⟨?_, ?_, ?_⟩
    · show Near _ _ _ _ (r.x - (q.x + (n.x * b.L.x + n.y * (b.L.y * b.xy) + n.z * (b.L.z * b.xz))))
      rw [hk0]
      exact near_difference hp h0 (hr.v.1.trans hTM) (hq.v.1.trans hTM) (lx.trans hTM)
        ((tl ly hq.tilts.1).trans (by linarith)) z0
        (nt ly hq.tilts.1) (ex _) hi hj hk
    · show Near _ _ _ _ (r.y - (q.y + (n.x * 0 + n.y * b.L.y + n.z * (b.L.z * b.yz))))
      rw [hk0]
      exact near_difference hp h0 (hr.v.2.1.trans hTM) (hq.v.2.1.trans hTM) z0
        (ly.trans hTM) z0 (ex _) (ex _) hi hj hk
    · show Near _ _ _ _ (r.z - (q.z + (n.x * 0 + n.y * 0 + n.z * b.L.z)))
      rw [hk0]
      exact near_difference hp h0 (hr.v.2.2.trans hTM) (hq.v.2.2.trans hTM) z0 z0
        z0 (ex _) (ex _) hi hj hk

/-- Squared lengths of two vectors that differ by at most `e` in each component. -/
theorem normSq_le {x y z x' y' z' t e : ℚ} (ht : 0 ≤ t) (he : 0 ≤ e) (hx : |x' - x| ≤ e)
    (hy : |y' - y| ≤ e) (hz : |z' - z| ≤ e) (h : x ^ 2 + y ^ 2 + z ^ 2 ≤ t ^ 2) :
    x' ^ 2 + y' ^ 2 + z' ^ 2 ≤ x ^ 2 + y ^ 2 + z ^ 2 + 2 * t * (44 / 25 * e) + (44 / 25 * e) ^ 2 := by
  have sx := sq_le_sq' (abs_le.mp hx).1 (abs_le.mp hx).2
  have sy := sq_le_sq' (abs_le.mp hy).1 (abs_le.mp hy).2
  have sz := sq_le_sq' (abs_le.mp hz).1 (abs_le.mp hz).2
  set dx := x' - x with hdx
  set dy := y' - y with hdy
  set dz := z' - z with hdz
  have ex : x' = x + dx := by rw [hdx]; ring
  have ey : y' = y + dy := by rw [hdy]; ring
  have ez : z' = z + dz := by rw [hdz]; ring
  have cs : (x * dx + y * dy + z * dz) ^ 2 ≤ (t * (44 / 25 * e)) ^ 2 := by
    have h1 : (x * dx + y * dy + z * dz) ^ 2 ≤ (x ^ 2 + y ^ 2 + z ^ 2) * (dx ^ 2 + dy ^ 2 + dz ^ 2) := by
      nlinarith [sq_nonneg (x * dy - y * dx), sq_nonneg (x * dz - z * dx), sq_nonneg (y * dz - z * dy)]
    have h2 : (x ^ 2 + y ^ 2 + z ^ 2) * (dx ^ 2 + dy ^ 2 + dz ^ 2) ≤ t ^ 2 * (3 * e ^ 2) :=
      mul_le_mul h (by linarith) (by positivity) (by positivity)
    have h3 : t ^ 2 * (3 * e ^ 2) ≤ (t * (44 / 25 * e)) ^ 2 := by
      have : 0 ≤ t ^ 2 * e ^ 2 := by positivity
      nlinarith
    linarith
  have hle := abs_le_of_sq_le_sq cs (by positivity)
  have := le_of_abs_le hle
  rw [ex, ey, ez]
  nlinarith [sq_nonneg e]

theorem rnd_bounds {p : ℕ} {x : ℚ} (hx : 0 ≤ x) :
    (1 - 2 ^ (-(p : ℤ))) * x ≤ rnd p x ∧ rnd p x ≤ (1 + 2 ^ (-(p : ℤ))) * x := by
  have h := relErr p x
  rw [abs_of_nonneg hx, abs_le] at h
  constructor <;> linarith

theorem u_small {p : ℕ} (hp : 10 ≤ p) : (2 : ℚ) ^ (-(p : ℤ)) ≤ 1 / 1024 := by
  have := zpow_mono (a := -(p : ℤ)) (b := -10) (by omega)
  exact this.trans (le_of_eq (by norm_num))

theorem rnd_neg {p : ℕ} (hp : 10 ≤ p) {x : ℚ} (hx : x < 0) : rnd p x < 0 := by
  have h := relErr p x
  rw [abs_of_neg hx, abs_le] at h
  have := mul_neg_of_pos_of_neg (by linarith [u_small hp] : (0 : ℚ) < 1 - 2 ^ (-(p : ℤ))) hx
  linarith

theorem dot_bounds {p : ℕ} (hp : 10 ≤ p) (v : Vec3 ℚ) :
    (1 - 2 ^ (-(p : ℤ))) ^ 3 * (v.x ^ 2 + v.y ^ 2 + v.z ^ 2) ≤ dot p v v ∧
    dot p v v ≤ (1 + 2 ^ (-(p : ℤ))) ^ 3 * (v.x ^ 2 + v.y ^ 2 + v.z ^ 2) := by
  have hu := u_pos p
  have hu' := u_small hp
  have bx := rnd_bounds (p := p) (mul_self_nonneg v.x)
  have bY := rnd_bounds (p := p) (mul_self_nonneg v.y)
  have bz := rnd_bounds (p := p) (mul_self_nonneg v.z)
  have px := rnd_nonneg (by omega : 1 ≤ p) (mul_self_nonneg v.x)
  have py := rnd_nonneg (by omega : 1 ≤ p) (mul_self_nonneg v.y)
  have pz := rnd_nonneg (by omega : 1 ≤ p) (mul_self_nonneg v.z)
  have bs := rnd_bounds (p := p) (add_nonneg px py)
  have ps := rnd_nonneg (by omega : 1 ≤ p) (add_nonneg px py)
  have bt := rnd_bounds (p := p) (add_nonneg ps pz)
  show _ ≤ rnd p (rnd p (rnd p (v.x * v.x) + rnd p (v.y * v.y)) + rnd p (v.z * v.z)) ∧
    rnd p (rnd p (rnd p (v.x * v.x) + rnd p (v.y * v.y)) + rnd p (v.z * v.z)) ≤ _
  set u : ℚ := 2 ^ (-(p : ℤ))
  set X := rnd p (v.x * v.x)
  set Y := rnd p (v.y * v.y)
  set Z := rnd p (v.z * v.z)
  set S := rnd p (X + Y)
  set D := rnd p (S + Z)
  have sx := mul_self_nonneg v.x
  have sy := mul_self_nonneg v.y
  have sz := mul_self_nonneg v.z
  constructor
  · have h1 : (1 - u) ^ 2 * (v.x * v.x + v.y * v.y) ≤ S := by nlinarith [bs.1, bx.1, bY.1]
    have h2 : (1 - u) ^ 2 * (v.z * v.z) ≤ Z := by nlinarith [bz.1]
    nlinarith [bt.1]
  · have h1 : S ≤ (1 + u) ^ 2 * (v.x * v.x + v.y * v.y) := by nlinarith [bs.2, bx.2, bY.2]
    have h2 : Z ≤ (1 + u) ^ 2 * (v.z * v.z) := by nlinarith [bz.2]
    nlinarith [bt.2]

theorem lt_of_clearlyLess {p : ℕ} (hp : 10 ≤ p) {v w : Vec3 ℚ} {e R : ℚ} (he : 0 ≤ e)
    (hx : |v.x - w.x| ≤ e) (hy : |v.y - w.y| ≤ e) (hz : |v.z - w.z| ≤ e) (hR : 0 < R)
    (h : ClearlyLess p (44 / 25 * e) (w.x ^ 2 + w.y ^ 2 + w.z ^ 2) R) : dot p v v < mul p R R := by
  obtain ⟨s, hs, h1, h2⟩ := h
  have hn := normSq_le hs he hx hy hz h1
  have hd := (dot_bounds hp v).2
  have hr := (rnd_bounds (p := p) (mul_self_nonneg R)).1
  have hu := u_pos p
  have hu' := u_small hp
  show dot p v v < rnd p (R * R)
  set u : ℚ := 2 ^ (-(p : ℤ))
  have b1 : v.x ^ 2 + v.y ^ 2 + v.z ^ 2 ≤ ((1 - 4 * u) * R) ^ 2 := by
    have : (s + 44 / 25 * e) ^ 2 ≤ ((1 - 4 * u) * R) ^ 2 := pow_le_pow_left₀ (by positivity) h2 2
    nlinarith
  have hRR : 0 < R * R := by positivity
  have b2 : (1 + u) ^ 3 * (1 - 4 * u) ^ 2 < 1 - u := by
    have e1 : (1 + u) ^ 3 * (1 - 4 * u) ^ 2 - (1 - u) =
        u * (-4 + u * (-5 + u * (25 + u * (40 + u * 16)))) := by ring
    have : u * (-4 + u * (-5 + u * (25 + u * (40 + u * 16)))) < 0 := by
      apply mul_neg_of_pos_of_neg hu
      nlinarith [mul_pos hu hu, mul_pos hu (mul_pos hu hu), mul_pos (mul_pos hu hu) (mul_pos hu hu)]
    linarith
  have b3 : (1 + u) ^ 3 * (v.x ^ 2 + v.y ^ 2 + v.z ^ 2) ≤ (1 + u) ^ 3 * ((1 - 4 * u) * R) ^ 2 :=
    mul_le_mul_of_nonneg_left b1 (by positivity)
  nlinarith

theorem ge_of_clearlyMore {p : ℕ} (hp : 10 ≤ p) {v w : Vec3 ℚ} {e R : ℚ} (he : 0 ≤ e)
    (hx : |v.x - w.x| ≤ e) (hy : |v.y - w.y| ≤ e) (hz : |v.z - w.z| ≤ e) (hR : 0 ≤ R)
    (h : ClearlyMore p (44 / 25 * e) (w.x ^ 2 + w.y ^ 2 + w.z ^ 2) R) : mul p R R ≤ dot p v v := by
  obtain ⟨s, hs, h1, h2⟩ := h
  have hd := (dot_bounds hp v).1
  have hr := (rnd_bounds (p := p) (mul_self_nonneg R)).2
  have hu := u_pos p
  have hu' := u_small hp
  show rnd p (R * R) ≤ dot p v v
  set u : ℚ := 2 ^ (-(p : ℤ))
  have ht : 0 ≤ s - 44 / 25 * e := le_trans (by positivity) h2
  have b1 : (s - 44 / 25 * e) ^ 2 ≤ v.x ^ 2 + v.y ^ 2 + v.z ^ 2 := by
    by_contra hc
    push Not at hc
    rw [abs_sub_comm] at hx hy hz
    have := normSq_le ht he hx hy hz hc.le
    nlinarith
  have b0 : ((1 + 4 * u) * R) ^ 2 ≤ (s - 44 / 25 * e) ^ 2 := pow_le_pow_left₀ (by positivity) h2 2
  have hRR : 0 ≤ R * R := mul_self_nonneg R
  have b2 : 1 + u ≤ (1 - u) ^ 3 * (1 + 4 * u) ^ 2 := by
    have e1 : (1 - u) ^ 3 * (1 + 4 * u) ^ 2 - (1 + u) =
        u * (4 + u * (-5 + u * (-25 + u * (40 + u * -16)))) := by ring
    have : 0 ≤ u * (4 + u * (-5 + u * (-25 + u * (40 + u * -16)))) := by
      apply mul_nonneg hu.le
      nlinarith [mul_pos hu hu, mul_pos hu (mul_pos hu hu), mul_pos (mul_pos hu hu) (mul_pos hu hu)]
    linarith
  have b3 : (1 - u) ^ 3 * ((1 + 4 * u) * R) ^ 2 ≤ (1 - u) ^ 3 * (v.x ^ 2 + v.y ^ 2 + v.z ^ 2) :=
    mul_le_mul_of_nonneg_left (b0.trans b1) (by have : 0 ≤ 1 - u := by linarith
                                                positivity)
  nlinarith

end Fl

/-- **C93**: the neighbors are those of the exact definition, except for pairs whose exact distance is
within rounding errors of a cutoff. `M` bounds the box lengths and coordinates, `T ≥ 1` the tilt factors.
Every pair of an image and a point whose exact distance is clearly less than `r_max` and clearly at least
`r_min` is found, each once; no pair is found that is clearly at `r_max` or beyond, or clearly below
`r_min`. -/
theorem C93_neighbors (p : ℕ) (hp : 10 ≤ p) (b : Box ℚ) (hb : FloatBox p b) (pts : List (Vec3 ℚ))
    (q : Vec3 ℚ) (qi : ℕ) (rMax rMin : ℚ) (hmax : 0 < rMax) (hmin : 0 ≤ rMin) (excl : Bool) (M T : ℚ)
    (hpl : Planar b q ∧ ∀ r ∈ pts, Planar b r) (hq : Sized b q M T) (hr : ∀ r ∈ pts, Sized b r M T)
    (l : List (Vec3 ℤ × ℕ)) (hl : Fl.ballQuery p b pts q qi rMax rMin excl = some l) :
    let e := 44 * (2 ^ (-(p : ℤ)) * (T * M))
    l.Nodup ∧
    (∀ n j r, NearStep b n → pts[j]? = some r → (excl = true → j ≠ qi) →
      ClearlyLess p e (distSq b q r n) rMax →
      (rMin = 0 ∨ ClearlyMore p e (distSq b q r n) rMin) → (n, j) ∈ l) ∧
    (∀ n j, (n, j) ∈ l → NearStep b n ∧ (excl = true → j ≠ qi) ∧ ∃ r, pts[j]? = some r ∧
      ¬ ClearlyMore p e (distSq b q r n) rMax ∧ ¬ ClearlyLess p e (distSq b q r n) rMin) := by
  intro e
  obtain ⟨l', hl', hnd, hmem⟩ := C93_tree p (by omega) b pts q qi rMax rMin excl
  rw [hl] at hl'
  obtain rfl := Option.some.inj hl'
  have hM : 0 ≤ M := le_trans (abs_nonneg _) hq.v.1
  have hT : 0 ≤ T := by linarith [hq.one_le]
  have he0 : 0 ≤ 25 * ((2 : ℚ) ^ (-(p : ℤ)) * (T * M)) := by positivity
  have he : e = 44 / 25 * (25 * (2 ^ (-(p : ℤ)) * (T * M))) := by
    show 44 * (2 ^ (-(p : ℤ)) * (T * M)) = _
    ring
  have flat : ∀ {v : Vec3 ℚ}, Planar b v → flatten b v = v := by
    intro v hv
    unfold flatten
    split_ifs with h
    · have : v.z = 0 := hv h
      ext <;> simp [this]
    · rfl
  refine ⟨hnd, ?_, ?_⟩
  · intro n j r hn hj hex hless hmore
    have hrm := List.mem_of_getElem? hj
    refine (hmem n j).mpr ⟨hn, hex, r, hj, ?_⟩
    obtain ⟨nx, ny, nz⟩ := near_rij hp hb hq (hr r hrm) hn
    rw [flat hpl.1, flat (hpl.2 r hrm)]
    simp only [Fl.inBall, decide_eq_true_eq]
    rw [he] at hless hmore
    refine ⟨lt_of_clearlyLess hp (w := ⟨_, _, _⟩) he0 nx ny nz hmax hless, ?_⟩
    rcases hmore with h0 | hmore
    · rw [h0, show Fl.mul p 0 0 = 0 by simp [Fl.mul, Fl.rnd_zero]]
      refine le_trans ?_ (dot_bounds hp _).1
      have : (0 : ℚ) ≤ 1 - 2 ^ (-(p : ℤ)) := by linarith [u_small hp]
      positivity
    · exact ge_of_clearlyMore hp (w := ⟨_, _, _⟩) he0 nx ny nz hmin hmore
  · intro n j hm
    obtain ⟨hn, hex, r, hj, hin⟩ := (hmem n j).mp hm
    have hrm := List.mem_of_getElem? hj
    refine ⟨hn, hex, r, hj, ?_⟩
    obtain ⟨nx, ny, nz⟩ := near_rij hp hb hq (hr r hrm) hn
    rw [flat hpl.1, flat (hpl.2 r hrm)] at hin
    simp only [Fl.inBall, decide_eq_true_eq] at hin
    rw [he]
    constructor
    · intro h
      exact absurd hin.1 (not_lt.mpr (ge_of_clearlyMore hp (w := ⟨_, _, _⟩) he0 nx ny nz hmax.le h))
    · intro h
      rcases hmin.eq_or_lt with h0 | h0
      · obtain ⟨s, hs, -, h2⟩ := h
        rw [← h0, mul_zero] at h2
        have : 0 < 25 * ((2 : ℚ) ^ (-(p : ℤ)) * (T * M)) := by
          have := u_pos p
          have : 0 < M := lt_of_lt_of_le hb.Lx.2 hq.L.1
          have : 0 < T := by linarith [hq.one_le]
          positivity
        linarith
      · exact absurd hin.2 (not_le.mpr (lt_of_clearlyLess hp (w := ⟨_, _, _⟩) he0 nx ny nz h0 h))

/-- **C93** (part): in a box without tilt, a wrapped point has a cell along every periodic axis, whatever
the rounding: the conversion of its coordinate to an unsigned number is never that of a negative number.
Missing: boxes with tilt, where this is false (`C93_cells_counterexample`). -/
theorem C93_cells_partial (p : ℕ) (hp : 1 ≤ p) (b : Box ℚ) (hb : FloatBox p b) (ht : Untilted b)
    (v : Vec3 ℚ) (dim : ℕ) (hd : 0 < dim) :
    let f := Fl.makeFractional p b (Fl.wrap p b v)
    (b.px = true → ∃ c, Fl.cellCoord p f.x dim = some c ∧ c < dim) ∧
    (b.py = true → ∃ c, Fl.cellCoord p f.y dim = some c ∧ c < dim) ∧
    ((b.pz = true ∨ b.is2D = true) → ∃ c, Fl.cellCoord p f.z dim = some c ∧ c < dim) := by
  intro f
  obtain ⟨wx, wy, wz⟩ := C91_wrap_in_box_partial p hp b hb ht v
  obtain ⟨hxy, hxz, hyz⟩ := ht
  have cell : ∀ {x : ℚ}, 0 ≤ x → ∃ c, Fl.cellCoord p x dim = some c ∧ c < dim := by
    intro x hx
    refine ⟨_, if_neg (not_lt.mpr (Int.floor_nonneg.mpr ?_)), Nat.mod_lt _ hd⟩
    exact rnd_nonneg hp (mul_nonneg hx (rnd_nonneg hp (by positivity)))
  have frac : ∀ {x L : ℚ}, 0 < L → -(L / 2) ≤ x →
      0 ≤ Fl.div p (Fl.sub p (Fl.sub p x (-(L / 2))) 0) L := by
    intro x L hL hx
    refine rnd_nonneg hp (div_nonneg (rnd_nonneg hp ?_) hL.le)
    rw [sub_zero]
    exact rnd_nonneg hp (by linarith)
  set w := Fl.wrap p b v with hw
  refine ⟨fun h => cell ?_, fun h => cell ?_, fun h => cell ?_⟩
  · have e : f.x = Fl.div p (Fl.sub p (Fl.sub p w.x (-(b.L.x / 2))) 0) b.L.x := by
      show (Fl.makeFractional p b w).x = _
      unfold Fl.makeFractional
      rw [hb.lo]
      split_ifs <;> simp [Fl.subV, Fl.divV, Fl.add, Fl.mul, Fl.sub, hxy, hxz, hyz, rnd_zero]
    rw [e]
    exact frac hb.Lx.2 (wx h).1
  · have e : f.y = Fl.div p (Fl.sub p (Fl.sub p w.y (-(b.L.y / 2))) 0) b.L.y := by
      show (Fl.makeFractional p b w).y = _
      unfold Fl.makeFractional
      rw [hb.lo]
      split_ifs <;> simp [Fl.subV, Fl.divV, Fl.mul, Fl.sub, hyz, rnd_zero]
    rw [e]
    exact frac hb.Ly.2 (wy h).1
  · cases h2 : b.is2D with
    | true =>
      have e : f.z = 0 := by
        show (Fl.makeFractional p b w).z = _
        unfold Fl.makeFractional
        rw [if_pos h2]
      rw [e]
    | false =>
      have hpz : b.pz = true := by
        rcases h with h | h
        · exact h
        · rw [h2] at h; exact absurd h (by decide)
      have e : f.z = Fl.div p (Fl.sub p w.z (-(b.L.z / 2))) b.L.z := by
        show (Fl.makeFractional p b w).z = _
        unfold Fl.makeFractional
        rw [hb.lo, if_neg (by simp [h2])]
        rfl
      rw [e]
      refine rnd_nonneg hp (div_nonneg (rnd_nonneg hp ?_) (hb.Lz h2).2.le)
      have := (wz hpz h2).1
      linarith

/-- **C93** (limit): in a tilted box, in `float`, a point that `Box.wrap` returned can have no cell: its
first coordinate is computed as a negative number, whose conversion to an unsigned number is undefined. -/
theorem C93_cells_counterexample :
    ∃ (b : Box ℚ) (v : Vec3 ℚ), FloatBox 24 b ∧ FloatVec 24 v ∧ (b.px = true ∧ b.py = true ∧ b.pz = true) ∧
      ∀ dim : ℕ, 0 < dim → dim ≤ 1000 →
        Fl.cellCoord 24 (Fl.makeFractional 24 b (Fl.wrap 24 b v)).x dim = none := by
  obtain ⟨b, v, h1, h2, h3, -, h4⟩ := C91_tilted_counterexample
  refine ⟨b, v, h1, h2, h3, fun dim hd hd' => if_pos ?_⟩
  have hd1 : (1 : ℚ) ≤ dim := by exact_mod_cast hd
  have hdf : Fl.rnd 24 (dim : ℚ) = dim := by
    have := isFloat_int (p := 24) (by norm_num) (n := dim) (by
      rw [abs_of_nonneg (by positivity)]
      have : (dim : ℤ) ≤ 1000 := by exact_mod_cast hd'
      norm_num
      linarith)
    exact rnd_of_isFloat (by norm_num) (by exact_mod_cast this)
  rw [hdf]
  rw [Int.floor_lt]
  set x := (Fl.makeFractional 24 b (Fl.wrap 24 b v)).x
  have hneg : x * dim < 0 := mul_neg_of_neg_of_pos h4 (by linarith)
  show Fl.rnd 24 (x * dim) < ((0 : ℤ) : ℚ)
  push_cast
  exact rnd_neg (p := 24) (by norm_num) hneg

/-- **C93** (limit): near the cutoff the neighbors need not be mutual. In a cube of side 10, in `float`,
the second point finds the first across the boundary, but the first does not find the second. -/
theorem C93_mutual_counterexample :
    let b : Box ℚ := Box.mk' 10 10 10 0 0 0 false
    let pts : List (Vec3 ℚ) := [⟨1453185 * 2 ^ (-19 : ℤ), 0, 0⟩, ⟨-15571187 * 2 ^ (-22 : ℤ), 0, 0⟩]
    let rMax : ℚ := 14746373 * 2 ^ (-22 : ℤ)
    (∀ r ∈ pts, FloatVec 24 r) ∧ IsFloat 24 rMax ∧
    ∃ l l', Fl.ballQuery 24 b pts (pts.getD 0 0) 0 rMax 0 true = some l ∧
      Fl.ballQuery 24 b pts (pts.getD 1 0) 1 rMax 0 true = some l' ∧
      (∃ n, (n, 0) ∈ l') ∧ ∀ n, (n, 1) ∉ l := by
  intro b pts rMax
  obtain ⟨l, hl, -, hm⟩ := C93_tree 24 (by norm_num) b pts (pts.getD 0 0) 0 rMax 0 true
  obtain ⟨l', hl', -, hm'⟩ := C93_tree 24 (by norm_num) b pts (pts.getD 1 0) 1 rMax 0 true
  refine ⟨?_, ⟨14746373, -22, by norm_num, rfl⟩, l, l', hl, hl', ⟨⟨1, 0, 0⟩, ?_⟩, ?_⟩
  · intro r hr
    rcases List.mem_cons.mp hr with rfl | hr
    · exact ⟨⟨1453185, -19, by norm_num, by norm_num⟩, isFloat_zero _, isFloat_zero _⟩
    · rw [List.mem_singleton.mp hr]
      exact ⟨⟨-15571187, -22, by norm_num, by norm_num⟩, isFloat_zero _, isFloat_zero _⟩
  · refine (hm' _ _).mpr ⟨(Fl.mem_imageSteps _).mp (by decide +kernel), by decide, _, rfl, by decide +kernel⟩
  · intro n hn
    obtain ⟨h1, -, r, hr, hin⟩ := (hm n 1).mp hn
    have hr' : r = ⟨-15571187 * 2 ^ (-22 : ℤ), 0, 0⟩ := (Option.some.inj hr).symm
    have key : ∀ n ∈ Fl.imageSteps b, Fl.inBall 24 rMax 0 (flatten b (pts.getD 0 0)) (Fl.imageOfStep 24 b n)
        (flatten b ⟨-15571187 * 2 ^ (-22 : ℤ), 0, 0⟩) = false := by decide +kernel
    have := key n ((Fl.mem_imageSteps n).mpr h1)
    rw [hr', this] at hin
    exact absurd hin (by decide)

-- a tilted box, a query point and a neighbor across the boundary that is clearly within reach
example : ClearlyLess 24 (44 * (2 ^ (-((24 : ℕ) : ℤ)) * (1 * 8)))
    (distSq (Box.mk' 8 8 8 (1 / 2) 0 0 false) ⟨3, 3, 0⟩ ⟨0, -3, 0⟩ ⟨0, -1, 0⟩) 3 ∧
    NearStep (Box.mk' 8 8 8 (1 / 2) 0 0 false) ⟨0, -1, 0⟩ ∧
    Sized (Box.mk' 8 8 8 (1 / 2) 0 0 false) ⟨3, 3, 0⟩ 8 1 ∧
    Sized (Box.mk' 8 8 8 (1 / 2) 0 0 false) ⟨0, -3, 0⟩ 8 1 := by
  refine ⟨⟨5 / 2, by norm_num, ?_, by norm_num⟩, ?_, ⟨?_, ?_, ?_, ?_⟩, ⟨?_, ?_, ?_, ?_⟩⟩ <;>
    simp [distSq, lattice, comb, a1, a2, a3, Box.mk', Box.setL, NearStep, AllowedShift] <;> norm_num

end Freud
