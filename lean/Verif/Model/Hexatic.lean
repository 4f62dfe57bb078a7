import Verif.Model.NeighborLoop
import Verif.Model.Box
import Mathlib.Analysis.SpecialFunctions.Complex.Arg

/-!
# The k-atic order parameter of two-dimensional systems

Model of `freud/order/HexaticTranslational.cc`, `HexaticTranslational.h` and `freud/order.py:281-314`.
Real and complex numbers are exact (the code uses `float`). An element of the result is an `Option`:
`none` is a division by zero, which gives a value that is not a finite number. An outer `none` is an
exception or a read outside an array.
-/

namespace Freud.Hexatic

/-- Members `m_k` and `m_weighted`, `freud/order/HexaticTranslational.h:61-63`. -/
structure Params where
  k : ℕ
  weighted : Bool

/-- `std::atan2(y, x)`. -/
noncomputable def atan2 (y x : ℝ) : ℝ := Complex.arg ⟨x, y⟩

/-- The function given to `computeGeneral`, `freud/order/HexaticTranslational.cc:68-71`. -/
noncomputable def phase (k : ℕ) (delta : Vec3 ℝ) : ℂ :=
  Complex.exp ⟨0, (k : ℝ) * atan2 delta.y delta.x⟩

/-- The loop over the neighbors of one point, `freud/order/HexaticTranslational.cc:40-49`: the sum in
the array and `total_weight`. -/
noncomputable def sumBonds (p : Params) (b : Box ℝ) (points : List (Vec3 ℝ)) (ref : Vec3 ℝ) :
    List (Bond ℝ) → ℂ × ℝ → Option (ℂ × ℝ)
  | [], acc => some acc
  | nb :: bonds, acc =>
    points[nb.p]?.bind fun pt =>
      let delta := b.wrap (pt - ref)
      let weight := if p.weighted then nb.weight else 1
      sumBonds p b points ref bonds (acc.1 + (weight : ℂ) * phase p.k delta, acc.2 + weight)

/-- The compute function for one point, `freud/order/HexaticTranslational.cc:36-57`, with
`normalize_by_k = false` (line 73). -/
noncomputable def point (p : Params) (b : Box ℝ) (points : List (Vec3 ℝ)) (i : ℕ)
    (bonds : List (Bond ℝ)) (x : Option ℂ) : Option (Option ℂ) :=
  points[i]?.bind fun ref =>
  x.bind fun start =>
  (sumBonds p b points ref bonds (start, 0)).map fun r =>
    if r.2 = 0 then none else some (r.1 / (r.2 : ℂ))

/-- `Hexatic::compute`, `freud/order/HexaticTranslational.cc:20-60, 63-74`, on a given neighbor list;
`enforce2D` is `freud/box/Box.h:571-577`. The list is not compared with the numbers of points. -/
noncomputable def compute (p : Params) (b : Box ℝ) (points : List (Vec3 ℝ)) (nlist : NList ℝ)
    (order : List ℕ) : Option (List (Option ℂ)) :=
  if b.is2D then
    (loopOverNeighborsIterator nlist (point p b points) order
      ⟨[points.length], List.replicate points.length (some 0)⟩).map (·.data)
  else none

end Freud.Hexatic
