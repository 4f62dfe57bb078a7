import Verif.Props.SolidLiquidRun
import Verif.Spec.SolidPerfect

/-!
# C127: when a bond of `SolidLiquid` has the largest or the smallest value
-/

namespace Freud

open Spec

namespace SolidLiquid

theorem dirOverlap_scale (l : ℕ) (t : ℝ) (M N : List (ℝ × Vec3 ℝ)) :
    dirOverlap l (M.map fun d => (t * d.1, d.2)) N = t * dirOverlap l M N := by
  unfold dirOverlap
  rw [List.map_map, ← List.sum_map_mul_left]
  congr 1
  refine List.map_congr_left fun d _ => ?_
  rw [Function.comp_apply, ← List.sum_map_mul_left]
  congr 1
  exact List.map_congr_left fun e _ => by ring

theorem dirOverlap_append (l : ℕ) (M N P : List (ℝ × Vec3 ℝ)) :
    dirOverlap l (M ++ N) P = dirOverlap l M P + dirOverlap l N P := by
  simp [dirOverlap]

theorem dirOverlap_pattern (l : ℕ) (L M : List (ℝ × Vec3 ℝ)) :
    dirOverlap l L M = (L.map fun d => d.1 * anglePattern l M d.2).sum := by
  unfold dirOverlap anglePattern
  congr 1
  refine List.map_congr_left fun d _ => ?_
  rw [← List.sum_map_mul_left]
  congr 1
  exact List.map_congr_left fun e _ => by rw [dot_comm]; ring

theorem dirOverlap_single (l : ℕ) (L : List (ℝ × Vec3 ℝ)) (x : ℝ) (w : Vec3 ℝ) :
    dirOverlap l [(x, w)] L = x * anglePattern l L w := by
  rw [dirOverlap_pattern]; simp

/-- A distribution that overlaps with itself by nothing has no pattern. -/
theorem pattern_zero (l : ℕ) (L : List (ℝ × Vec3 ℝ)) (hL : Steinhardt.Units L) (h : dirOverlap l L L = 0)
    (w : Vec3 ℝ) (hw : Vec3.dot w w = 1) : anglePattern l L w = 0 := by
  have key : ∀ x : ℝ, 0 ≤ 2 * x * anglePattern l L w + x * x := by
    intro x
    have h1 : 0 ≤ dirOverlap l (L ++ [(x, w)]) (L ++ [(x, w)]) := Steinhardt.double_nonneg (C101_harmonics l) _ (by
      intro d hd
      rcases List.mem_append.mp hd with hd | hd
      · exact hL d hd
      · rw [List.mem_singleton.mp hd]; exact hw)
    rw [dirOverlap_append, dirOverlap_comm l L, dirOverlap_comm l [(x, w)], dirOverlap_append, dirOverlap_append, h,
      dirOverlap_single, dirOverlap_comm l L, dirOverlap_single, dirOverlap_single] at h1
    have : anglePattern l [(x, w)] w = x := by simp [anglePattern, hw, Steinhardt.legendre_one]
    rw [this] at h1
    linarith
  have := key (-anglePattern l L w)
  nlinarith [sq_nonneg (anglePattern l L w)]

theorem bondValue_extreme (l : ℕ) (s : ℝ) (hs : s * s = 1) (o o' : Option (List (ℝ × Vec3 ℝ)))
    (hu : ∀ L, o = some L → Steinhardt.Units L) (hu' : ∀ L, o' = some L → Steinhardt.Units L) :
    bondValue true l o o' = some s ↔ SamePattern l s o o' := by
  match o, o' with
  | none, _ => exact ⟨fun h => (nomatch h), fun ⟨L, L', e, _⟩ => nomatch e⟩
  | some L, none => exact ⟨fun h => (nomatch h), fun ⟨L, L', _, e, _⟩ => nomatch e⟩
  | some L, some L' =>
    have hL := hu L rfl
    have hL' := hu' L' rfl
    have hA0 : 0 ≤ dirOverlap l L L := Steinhardt.double_nonneg (C101_harmonics l) L hL
    have hB0 : 0 ≤ dirOverlap l L' L' := Steinhardt.double_nonneg (C101_harmonics l) L' hL'
    unfold bondValue
    dsimp only
    rw [if_pos rfl]
    constructor
    · intro h
      split_ifs at h with h0
      rw [Option.some_inj] at h
      push Not at h0
      have hA := Real.sqrt_pos.mpr (lt_of_le_of_ne hA0 (Ne.symm h0.1))
      have hB := Real.sqrt_pos.mpr (lt_of_le_of_ne hB0 (Ne.symm h0.2))
      have hAA := Real.mul_self_sqrt hA0
      have hBB := Real.mul_self_sqrt hB0
      set A := Real.sqrt (dirOverlap l L L)
      set B := Real.sqrt (dirOverlap l L' L')
      rw [div_eq_iff (mul_pos hA hB).ne'] at h
      refine ⟨L, L', rfl, rfl, ?_, A / B, div_pos hA hB, fun w hw => ?_⟩
      · by_contra hn
        push Not at hn
        apply h0.1
        rw [dirOverlap_pattern]
        refine List.sum_eq_zero fun x hx => ?_
        obtain ⟨d, hd, rfl⟩ := List.mem_map.mp hx
        rw [hn d.2 (hL d hd), mul_zero]
      · have key : ∀ x : ℝ, 0 ≤ 2 * x * (B * anglePattern l L w - s * A * anglePattern l L' w) + x * x := by
          intro x
          have h1 : 0 ≤ dirOverlap l
              (L.map (fun d => (B * d.1, d.2)) ++ L'.map (fun d => (-(s * A) * d.1, d.2)) ++ [(x, w)])
              (L.map (fun d => (B * d.1, d.2)) ++ L'.map (fun d => (-(s * A) * d.1, d.2)) ++ [(x, w)]) :=
            Steinhardt.double_nonneg (C101_harmonics l) _ (by
              intro d hd
              rcases List.mem_append.mp hd with hd | hd
              · rcases List.mem_append.mp hd with hd | hd
                · obtain ⟨e, he, rfl⟩ := List.mem_map.mp hd
                  exact hL e he
                · obtain ⟨e, he, rfl⟩ := List.mem_map.mp hd
                  exact hL' e he
              · rw [List.mem_singleton.mp hd]; exact hw)
          have hR : ∀ M : List (ℝ × Vec3 ℝ), dirOverlap l M
              (L.map (fun d => (B * d.1, d.2)) ++ L'.map (fun d => (-(s * A) * d.1, d.2)) ++ [(x, w)]) =
              B * dirOverlap l M L + -(s * A) * dirOverlap l M L' + x * anglePattern l M w := by
            intro M
            rw [dirOverlap_comm, dirOverlap_append, dirOverlap_append, dirOverlap_scale, dirOverlap_scale,
              dirOverlap_single, dirOverlap_comm l L M, dirOverlap_comm l L' M]
          rw [dirOverlap_append, dirOverlap_append, dirOverlap_scale, dirOverlap_scale, hR, hR, hR, dirOverlap_single,
            dirOverlap_single, dirOverlap_comm l L' L, h, ← hAA, ← hBB] at h1
          have : anglePattern l [(x, w)] w = x := by simp [anglePattern, hw, Steinhardt.legendre_one]
          rw [this] at h1
          have e : B * (B * (A * A) + -(s * A) * (s * (A * B)) + x * anglePattern l L w) +
              -(s * A) * (B * (s * (A * B)) + -(s * A) * (B * B) + x * anglePattern l L' w) +
              (B * (x * anglePattern l L w) + -(s * A) * (x * anglePattern l L' w) + x * x) =
              (1 - s * s) * (A * A) * (B * B) + (2 * x * (B * anglePattern l L w - s * A * anglePattern l L' w) + x * x) := by
            ring
          rw [e, hs] at h1
          linarith
        have h2 := key (-(B * anglePattern l L w - s * A * anglePattern l L' w))
        have h3 : B * anglePattern l L w - s * A * anglePattern l L' w = 0 := by
          nlinarith [sq_nonneg (B * anglePattern l L w - s * A * anglePattern l L' w)]
        field_simp
        linarith
    · rintro ⟨M, M', e, e', ⟨w, hw, hne⟩, t, ht, hp⟩
      cases e
      cases e'
      have h1 : dirOverlap l L' L = s * t * dirOverlap l L' L' := by
        rw [dirOverlap_pattern, dirOverlap_pattern, ← List.sum_map_mul_left]
        congr 1
        exact List.map_congr_left fun d hd => by rw [hp d.2 (hL' d hd)]; ring
      have h2 : dirOverlap l L L = s * t * dirOverlap l L L' := by
        rw [dirOverlap_pattern, dirOverlap_pattern, ← List.sum_map_mul_left]
        congr 1
        exact List.map_congr_left fun d hd => by rw [hp d.2 (hL d hd)]; ring
      rw [dirOverlap_comm l L L', h1] at h2
      have h3 : dirOverlap l L L = t ^ 2 * dirOverlap l L' L' := by
        rw [h2]
        calc s * t * (s * t * dirOverlap l L' L') = (s * s) * (t ^ 2 * dirOverlap l L' L') := by ring
          _ = _ := by rw [hs, one_mul]
      have hA : dirOverlap l L L ≠ 0 := fun h => hne (pattern_zero l L hL h w hw)
      have hB : dirOverlap l L' L' ≠ 0 := fun h => hA (by rw [h3, h, mul_zero])
      rw [if_neg (by push Not; exact ⟨hA, hB⟩), Option.some_inj, dirOverlap_comm l L L', h1, h3,
        Real.sqrt_mul (sq_nonneg t), Real.sqrt_sq ht.le, mul_assoc t, Real.mul_self_sqrt hB0]
      field_simp

end SolidLiquid

/-- **C127**: with `normalize_q`, the value of a bond is 1 exactly if the patterns of degree `l` of the bonds of its two
particles agree up to a positive factor (and do not vanish), and -1 exactly if they are opposite up to a positive factor;
whatever was computed before and however the threads run. -/
theorem C127_extreme (sph : Steinhardt.Sph) (a : SolidLiquid.Args) (hthr : 0 ≤ a.qThreshold) (hn : a.normalizeQ = true)
    (hf : FsphOK sph a.l (sphericalHarmonic a.l)) (history : List Steinhardt.Call)
    (hh : ∀ c ∈ history, LegalSteinhardt a.l c) (c : Steinhardt.Call) (order : List ℕ) (hc : LegalSolid a.l c order) :
    ∃ r, SolidLiquid.run sph a history c order = some r ∧ r.nlist = c.nlist ∧
      ∀ (k : ℕ) (nb : Bond ℝ), c.nlist.bonds[k]? = some nb → ∀ s : ℝ, s = 1 ∨ s = -1 →
        (r.qlij[k]? = some (some s) ↔ SamePattern a.l s
          (normalized (directions c.box c.points false c.nlist.bonds nb.q))
          (normalized (directions c.box c.points false c.nlist.bonds nb.p))) := by
  obtain ⟨r, e, h1, -, -, h4⟩ := C104_value sph a hthr hf history hh c order hc
  refine ⟨r, e, h4, fun k nb hk s hs => ?_⟩
  rw [h1, List.getElem?_map, hk, Option.map_some, Option.some_inj, hn]
  unfold bondParameter
  exact SolidLiquid.bondValue_extreme a.l s (by rcases hs with rfl | rfl <;> norm_num) _ _
    (fun L h => SolidLiquid.units_normalized _ _ _ _ _ h) (fun L h => SolidLiquid.units_normalized _ _ _ _ _ h)

/-- A pair of particles: the bonds are opposite, so for odd degrees the patterns are too, and the values are -1. -/
example : ∃ r, SolidLiquid.run Steinhardt.fsph ⟨1, 1 / 2, 1, true⟩ [] Steinhardt.pair [1, 0] = some r ∧
    r.qlij[0]? = some (some (-1 : ℝ)) := by
  obtain ⟨r, e, -, h⟩ := C127_extreme Steinhardt.fsph ⟨1, 1 / 2, 1, true⟩ (by norm_num) rfl (C101_fsph 1) []
    (by simp) Steinhardt.pair [1, 0] ⟨Steinhardt.pair_ok, rfl, rfl, List.Perm.swap _ _ _⟩
  refine ⟨r, e, (h 0 _ rfl (-1) (Or.inr rfl)).mpr ⟨_, _, Steinhardt.pair_plain.1, Steinhardt.pair_plain.2,
    ⟨⟨1, 0, 0⟩, ?_, ?_⟩, 1, one_pos, fun w _ => ?_⟩⟩
  · simp [Vec3.dot]
  · simp [anglePattern, legendre, Vec3.dot]
  · simp [anglePattern, legendre, Vec3.dot]

end Freud
