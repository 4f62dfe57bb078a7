import Verif.Spec.Wigner
import Verif.Model.NeighborList
import Verif.Model.Box
import Mathlib.Analysis.SpecialFunctions.Trigonometric.Basic
import Mathlib.Analysis.Complex.Basic
import Mathlib.Data.Int.Interval

/-!
# Specification: Steinhardt order parameters

Written without the arrays and loops of the code. A bond-orientational distribution is a list of unit
vectors with real coefficients.
-/

namespace Freud.Spec

/-- The Legendre polynomials, by the recurrence of Bonnet. -/
noncomputable def legendre : ℕ → ℝ → ℝ
  | 0, _ => 1
  | 1, x => x
  | n + 2, x => ((2 * n + 3 : ℕ) * x * legendre (n + 1) x - (n + 1 : ℕ) * legendre n x) / (n + 2 : ℕ)

/-- The unit vector with the polar angle `theta` and the azimuth `phi`. -/
noncomputable def sphericalPoint (theta phi : ℝ) : Vec3 ℝ :=
  ⟨Real.sin theta * Real.cos phi, Real.sin theta * Real.sin phi, Real.cos theta⟩

/-- What is used of the spherical harmonics of degree `l`: the addition theorem and the symmetry under
the change of the sign of `m`. -/
structure Harmonics (l : ℕ) (Y : ℤ → Vec3 ℝ → ℂ) : Prop where
  addition : ∀ u v, Vec3.dot u u = 1 → Vec3.dot v v = 1 →
    ∑ m ∈ Finset.Icc (-l : ℤ) l, Y m u * (starRingEnd ℂ) (Y m v) =
      (((2 * l + 1 : ℕ) / (4 * Real.pi) * legendre l (Vec3.dot u v) : ℝ) : ℂ)
  conj : ∀ m u, Y (-m) u = (-1) ^ m * (starRingEnd ℂ) (Y m u)

/-- What the library fsph returns: the harmonics in the order `0, 1, ..., l, -1, ..., -l`, without
the phase `(-1) ^ m` for `m ≥ 0`. -/
structure FsphOK (sph : ℕ → ℝ → ℝ → ℕ → ℂ) (l : ℕ) (Y : ℤ → Vec3 ℝ → ℂ) : Prop where
  nonneg : ∀ theta phi (m : ℕ), m ≤ l → sph l theta phi m = (-1) ^ m * Y m (sphericalPoint theta phi)
  neg : ∀ theta phi (m : ℕ), 1 ≤ m → m ≤ l → sph l theta phi (l + m) = Y (-m) (sphericalPoint theta phi)

/-- The place of `m` in the order `0, 1, ..., l, -1, ..., -l`. -/
def slot (l : ℕ) (m : ℤ) : ℕ := if 0 ≤ m then m.toNat else l + (-m).toNat

/-- The direction of a separation; a bond of length zero counts as one along the third axis. -/
noncomputable def unit (v : Vec3 ℝ) : Vec3 ℝ :=
  if v = ⟨0, 0, 0⟩ then ⟨0, 0, 1⟩ else Vec3.smul (1 / Real.sqrt (Vec3.dot v v)) v

/-- The separation of the points of a bond by the nearest image convention of the box, from the query
point to the point. -/
noncomputable def bondVector (b : Box ℝ) (points : List (Vec3 ℝ)) (nb : Bond ℝ) : Vec3 ℝ :=
  b.wrap (points.getD nb.p ⟨0, 0, 0⟩ - points.getD nb.q ⟨0, 0, 0⟩)

/-- The bonds have the lengths of their separations. -/
def TrueLengths (b : Box ℝ) (points : List (Vec3 ℝ)) (bonds : List (Bond ℝ)) : Prop :=
  ∀ nb ∈ bonds, nb.q < points.length →
    nb.dist = Real.sqrt (Vec3.dot (bondVector b points nb) (bondVector b points nb))

/-- Weight (1 in the unweighted mode) and direction of the bonds of point `i`. -/
noncomputable def directions (b : Box ℝ) (points : List (Vec3 ℝ)) (weighted : Bool)
    (bonds : List (Bond ℝ)) (i : ℕ) : List (ℝ × Vec3 ℝ) :=
  (bonds.filter (fun nb => nb.q = i)).map fun nb =>
    (if weighted then nb.weight else 1, unit (bondVector b points nb))

/-- The distribution around a point: the weights divided by their sum. Undefined if the sum is zero,
in particular without neighbors. -/
noncomputable def normalized (ds : List (ℝ × Vec3 ℝ)) : Option (List (ℝ × Vec3 ℝ)) :=
  if (ds.map (·.1)).sum = 0 then none
  else some (ds.map fun d => (d.1 / (ds.map (·.1)).sum, d.2))

/-- The mean of several distributions, undefined if one of them is. -/
noncomputable def mix (Ls : List (Option (List (ℝ × Vec3 ℝ)))) : Option (List (ℝ × Vec3 ℝ)) :=
  if none ∈ Ls then none
  else some (Ls.flatMap fun L => (L.getD []).map fun d => (d.1 / (Ls.length : ℝ), d.2))

/-- The distribution that belongs to point `i`: that of its bonds or, with `average`, the mean over
its neighbors and itself. -/
noncomputable def distribution (b : Box ℝ) (points : List (Vec3 ℝ)) (weighted average : Bool)
    (bonds : List (Bond ℝ)) (i : ℕ) : Option (List (ℝ × Vec3 ℝ)) :=
  if average then
    mix (((bonds.filter (fun nb => nb.q = i)).map (·.p) ++ [i]).map fun j =>
      normalized (directions b points weighted bonds j))
  else normalized (directions b points weighted bonds i)

/-- The coefficient `m` of a distribution. -/
noncomputable def coefficient (Y : ℤ → Vec3 ℝ → ℂ) (L : List (ℝ × Vec3 ℝ)) (m : ℤ) : ℂ :=
  (L.map fun d => (d.1 : ℂ) * Y m d.2).sum

/-- `q_l` of a distribution, by the angles between its directions. -/
noncomputable def qValue (l : ℕ) (L : List (ℝ × Vec3 ℝ)) : ℝ :=
  Real.sqrt ((L.map fun d => (L.map fun e => d.1 * e.1 * legendre l (Vec3.dot d.2 e.2)).sum).sum)

/-- All `m1`, `m2` between `-l` and `l` such that `m3 = -m1 - m2` is too, in the lexicographic order. -/
def tableOrder (l : ℕ) : List (ℤ × ℤ) :=
  let ms := (List.range (2 * l + 1)).map fun k : ℕ => (k : ℤ) - l
  (ms.flatMap fun m1 => ms.map fun m2 => (m1, m2)).filter fun m => |m.1 + m.2| ≤ l

/-- The sum over all `m1`, `m2`, `m3` with `m1 + m2 + m3 = 0` of a term. -/
noncomputable def overTriples {A : Type*} [AddCommMonoid A] (l : ℕ) (f : ℤ → ℤ → ℤ → A) : A :=
  ∑ m1 ∈ Finset.Icc (-l : ℤ) l, ∑ m2 ∈ Finset.Icc (-l : ℤ) l,
    if |m1 + m2| ≤ l then f m1 m2 (-m1 - m2) else 0

/-- `w_l` of a distribution. -/
noncomputable def wExact (l : ℕ) (Y : ℤ → Vec3 ℝ → ℂ) (L : List (ℝ × Vec3 ℝ)) : ℂ :=
  overTriples l fun m1 m2 m3 =>
    (wigner3j l m1 m2 m3 : ℂ) * coefficient Y L m1 * coefficient Y L m2 * coefficient Y L m3

/-- The same sum of absolute values: the scale of the rounding errors. -/
noncomputable def wScale (l : ℕ) (Y : ℤ → Vec3 ℝ → ℂ) (L : List (ℝ × Vec3 ℝ)) : ℝ :=
  overTriples l fun m1 m2 m3 =>
    |wigner3j l m1 m2 m3| * ‖coefficient Y L m1‖ * ‖coefficient Y L m2‖ * ‖coefficient Y L m3‖

end Freud.Spec
