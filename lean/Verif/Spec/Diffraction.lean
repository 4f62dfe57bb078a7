import Verif.Model.Box
import Mathlib.Data.Complex.Basic
import Mathlib.Analysis.SpecialFunctions.Trigonometric.Basic

/-!
# Specification of diffraction patterns
-/

namespace Freud.Spec
open Freud

/-- A cube with edges of length `L`. -/
structure CubeBox (b : Box ℝ) (L : ℝ) : Prop where
  pos : 0 < L
  dim : b.is2D = false
  lengths : b.L = ⟨L, L, L⟩
  tilts : b.xy = 0 ∧ b.xz = 0 ∧ b.yz = 0

/-- The static structure factor of points for one wave vector. -/
noncomputable def staticS (points : List (Vec3 ℝ)) (k : Vec3 ℝ) : ℝ :=
  Complex.normSq (points.map fun p => Complex.exp (-(Vec3.dot k p : ℝ) * Complex.I)).sum /
    (points.length : ℝ)

/-- The pixel, of `g`, that a coordinate falls into in a cube of edge `L` around the origin, after
periodic wrapping. -/
noncomputable def gridSite (g : ℕ) (L x : ℝ) : ℕ := ⌊(g : ℝ) * Int.fract (x / L + 1 / 2)⌋₊

/-- The squared amplitude of weighted sites of a `g` by `g` grid for the integer frequencies
`(hx, hy)`, blurred by a Gaussian of width `sigma` pixels. -/
noncomputable def siteIntensity (g : ℕ) (sigma : ℝ) (sites : List ((ℕ × ℕ) × ℝ)) (hx hy : ℤ) : ℝ :=
  Complex.normSq (sites.map fun s =>
      (s.2 : ℂ) * Complex.exp (-(2 * Real.pi * ((hx : ℝ) * s.1.1 + hy * s.1.2) / g : ℝ) * Complex.I)).sum *
    Real.exp (-4 * Real.pi ^ 2 * sigma ^ 2 * ((hx : ℝ) ^ 2 + (hy : ℝ) ^ 2) / (g : ℝ) ^ 2)

/-- Linear interpolation in two variables between the values at integers. -/
noncomputable def interpolate (f : ℤ → ℤ → ℝ) (x y : ℝ) : ℝ :=
  (1 - Int.fract x) * (1 - Int.fract y) * f ⌊x⌋ ⌊y⌋ + (1 - Int.fract x) * Int.fract y * f ⌊x⌋ (⌊y⌋ + 1) +
    Int.fract x * (1 - Int.fract y) * f (⌊x⌋ + 1) ⌊y⌋ + Int.fract x * Int.fract y * f (⌊x⌋ + 1) (⌊y⌋ + 1)

/-- The weights used for `n` points: one each, or the given weights scaled to the sum `n`. -/
def ScaledWeights (n : ℕ) : Option (List ℝ) → List ℝ → Prop
  | none, ws => ws = List.replicate n 1
  | some w, ws => w.length = n ∧ w.sum ≠ 0 ∧ ws = w.map fun x => x * (n : ℝ) / w.sum

end Freud.Spec
