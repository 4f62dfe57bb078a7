import Verif.Spec.Lattice
import Mathlib.Data.Sym.Sym2

/-! # What a plot should show -/

set_option linter.unusedSectionVars false

namespace Freud.Spec

open Freud

variable {K : Type*} [Field K] [LinearOrder K] [IsStrictOrderedRing K]

/-- The corner of the periodic image `n` of the box with box coordinates `x`, `y`, `z` (each 0 or 1). -/
def boxCorner (b : Box K) (n : Vec3 ℤ) (x y z : ℕ) : Vec3 K :=
  lattice b n + comb b (x - 1 / 2) (y - 1 / 2) (z - 1 / 2)

/-- The twelve edges of the box: four parallel to each box vector. An edge is an unordered pair. -/
def boxEdges3 (b : Box K) (n : Vec3 ℤ) : List (Sym2 (Vec3 K)) :=
  [(0, 0), (0, 1), (1, 0), (1, 1)].flatMap fun st =>
    [s(boxCorner b n 0 st.1 st.2, boxCorner b n 1 st.1 st.2),
     s(boxCorner b n st.1 0 st.2, boxCorner b n st.1 1 st.2),
     s(boxCorner b n st.1 st.2 0, boxCorner b n st.1 st.2 1)]

/-- The four edges of a 2D box. -/
def boxEdges2 (b : Box K) (n : Vec3 ℤ) : List (Sym2 (Vec3 K)) :=
  [0, 1].flatMap fun s =>
    [s(boxCorner b n 0 s 0, boxCorner b n 1 s 0), s(boxCorner b n s 0 0, boxCorner b n s 1 0)]

/-- The straight pieces of a path through the given points. -/
def segments (path : List (Vec3 K)) : List (Sym2 (Vec3 K)) :=
  (path.zip path.tail).map fun ab => s(ab.1, ab.2)

/-- `v` is within the limits of the three axes. -/
def Visible (l : Vec3 (K × K)) (v : Vec3 K) : Prop :=
  (l.x.1 ≤ v.x ∧ v.x ≤ l.x.2) ∧ (l.y.1 ≤ v.y ∧ v.y ≤ l.y.2) ∧ (l.z.1 ≤ v.z ∧ v.z ≤ l.z.2)

/-- The three axes show ranges of the same length. -/
def SameScale (l : Vec3 (K × K)) : Prop :=
  l.x.2 - l.x.1 = l.y.2 - l.y.1 ∧ l.y.2 - l.y.1 = l.z.2 - l.z.1

/-- `x` is inside of bin `i` when `[lo, hi]` is cut into `n` bins of equal width. -/
def InsideBin (lo hi : K) (n i : ℕ) (x : K) : Prop :=
  i < n ∧ lo + i * ((hi - lo) / n) < x ∧ x < lo + (i + 1) * ((hi - lo) / n)

end Freud.Spec
