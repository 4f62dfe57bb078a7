import Verif.Model.Histogram
import Verif.Model.AABB
import Mathlib.Algebra.Order.Field.Rat
import Mathlib.Data.Rat.Floor

/-!
# The code in floating-point arithmetic

The other modules compute with exact numbers. Here the functions that decide about bins, cells, images
and neighbors are modelled again, with the result of every operation rounded to the nearest number of
`p` binary digits (ties to even), which is what `float` (`p = 24`) and `double` (`p = 53`) do by IEEE 754.
Simplification: the range of exponents is not bounded, so there are no overflows, infinities, NaN and
subnormal numbers; `a * b + c` is two roundings (no fused operations).
-/

namespace Freud
namespace Fl

/-- The exponent of a number: `2 ^ exponent x ≤ |x| < 2 ^ (exponent x + 1)` for `x ≠ 0`. -/
def exponent (x : ℚ) : ℤ :=
  let e : ℤ := (Nat.log2 x.num.natAbs : ℤ) - (Nat.log2 x.den : ℤ)
  if (2 : ℚ) ^ e ≤ |x| then e else e - 1

/-- The distance of neighboring floating-point numbers around `x`. -/
def quantum (p : ℕ) (x : ℚ) : ℚ := (2 : ℚ) ^ (exponent x + 1 - p)

/-- The nearest integer, the even one in a tie. -/
def roundEven (q : ℚ) : ℤ :=
  if q - ⌊q⌋ < 1 / 2 then ⌊q⌋
  else if 1 / 2 < q - ⌊q⌋ then ⌊q⌋ + 1
  else if ⌊q⌋ % 2 = 0 then ⌊q⌋ else ⌊q⌋ + 1

/-- Rounding to `p` binary digits (IEEE 754, round to nearest even). -/
def rnd (p : ℕ) (x : ℚ) : ℚ := if x = 0 then 0 else roundEven (x / quantum p x) * quantum p x

/-- The four operations. -/
def add (p : ℕ) (a b : ℚ) : ℚ := rnd p (a + b)
def sub (p : ℕ) (a b : ℚ) : ℚ := rnd p (a - b)
def mul (p : ℕ) (a b : ℚ) : ℚ := rnd p (a * b)
def div (p : ℕ) (a b : ℚ) : ℚ := rnd p (a / b)

/-- `vec3` operations, `freud/util/VectorMath.h:65-80, 89-92, 270-273`, component by component. -/
def addV (p : ℕ) (a b : Vec3 ℚ) : Vec3 ℚ := ⟨add p a.x b.x, add p a.y b.y, add p a.z b.z⟩
def subV (p : ℕ) (a b : Vec3 ℚ) : Vec3 ℚ := ⟨sub p a.x b.x, sub p a.y b.y, sub p a.z b.z⟩
def mulV (p : ℕ) (a b : Vec3 ℚ) : Vec3 ℚ := ⟨mul p a.x b.x, mul p a.y b.y, mul p a.z b.z⟩
def divV (p : ℕ) (a b : Vec3 ℚ) : Vec3 ℚ := ⟨div p a.x b.x, div p a.y b.y, div p a.z b.z⟩
def dot (p : ℕ) (a b : Vec3 ℚ) : ℚ :=
  add p (add p (mul p a.x b.x) (mul p a.y b.y)) (mul p a.z b.z)

/-! ### Histogram axes -/

/-- `m_bin_width`, `freud/util/Histogram.h:129`. -/
def binWidth (p : ℕ) (a : RegularAxis ℚ) : ℚ := div p (sub p a.max a.min) (rnd p a.nbins)

/-- `m_inverse_bin_width`, `freud/util/Histogram.h:130`. -/
def invWidth (p : ℕ) (a : RegularAxis ℚ) : ℚ := div p 1 (binWidth p a)

/-- `m_bin_edges[i]`, `freud/util/Histogram.h:132-137`. -/
def binEdge (p : ℕ) (a : RegularAxis ℚ) (i : ℕ) : ℚ := add p a.min (mul p (rnd p i) (binWidth p a))

/-- `RegularAxis::bin`, `freud/util/Histogram.h:152-174`. -/
def bin (p : ℕ) (a : RegularAxis ℚ) (v : ℚ) : ℕ :=
  if v < a.min ∨ v ≥ a.max then OVERFLOW_BIN
  else
    let b := (trunc (mul p (sub p v a.min) (invWidth p a))).toNat
    if b = a.nbins then b - 1 else b

/-! ### The box -/

/-- `Box::makeAbsolute`, `freud/box/Box.h:212-222`. -/
def makeAbsolute (p : ℕ) (b : Box ℚ) (f : Vec3 ℚ) : Vec3 ℚ :=
  let v := addV p b.lo (mulV p f b.L)
  let v := { v with x := add p v.x (add p (mul p b.xy v.y) (mul p b.xz v.z)) }
  let v := { v with y := add p v.y (mul p b.yz v.z) }
  if b.is2D then { v with z := 0 } else v

/-- `Box::makeFractional`, `freud/box/Box.h:243-255`. -/
def makeFractional (p : ℕ) (b : Box ℚ) (v : Vec3 ℚ) : Vec3 ℚ :=
  let d := subV p v b.lo
  let t := add p (mul p (sub p b.xz (mul p b.yz b.xy)) v.z) (mul p b.xy v.y)
  let d := { d with x := sub p d.x t }
  let d := { d with y := sub p d.y (mul p b.yz v.z) }
  let d := divV p d b.L
  if b.is2D then { d with z := 0 } else d

/-- `std::fmod(a, 1)`: the remainder of the division truncated towards zero; it is exact. -/
def fmodOne (a : ℚ) : ℚ := a - trunc a

/-- `modulusPositive(a, 1)`, `freud/util/utils.h:29-32`. -/
def modulusPositive (p : ℕ) (a : ℚ) : ℚ := fmodOne (add p (fmodOne a) 1)

/-- `Box::wrap`, `freud/box/Box.h:307-329`. -/
def wrap (p : ℕ) (b : Box ℚ) (v : Vec3 ℚ) : Vec3 ℚ :=
  if !b.px && !b.py && !b.pz then v
  else
    let f := makeFractional p b v
    let f := if b.px then { f with x := modulusPositive p f.x } else f
    let f := if b.py then { f with y := modulusPositive p f.y } else f
    let f := if b.pz then { f with z := modulusPositive p f.z } else f
    makeAbsolute p b f

/-- The rounding of one component in `getImage`, `freud/box/Box.h:283-285`. -/
def imageOf (p : ℕ) (f : ℚ) : ℤ := trunc (if 0 ≤ f then add p f (1 / 2) else sub p f (1 / 2))

/-- `Box::getImage`, `freud/box/Box.h:276-286`. -/
def getImage (p : ℕ) (b : Box ℚ) (v : Vec3 ℚ) : Vec3 ℤ :=
  let f := subV p (makeFractional p b v) ⟨1 / 2, 1 / 2, 1 / 2⟩
  let f := if b.is2D then { f with z := 0 } else f
  ⟨imageOf p f.x, imageOf p f.y, imageOf p f.z⟩

/-- `Box::unwrap` for one vector, `freud/box/Box.h:352-366`. -/
def unwrap (p : ℕ) (b : Box ℚ) (v : Vec3 ℚ) (n : Vec3 ℤ) : Vec3 ℚ :=
  let scaled (c : ℤ) (a : Vec3 ℚ) : Vec3 ℚ := ⟨mul p (rnd p c) a.x, mul p (rnd p c) a.y, mul p (rnd p c) a.z⟩
  let r := addV p v (scaled n.x ⟨b.L.x, 0, 0⟩)
  let r := addV p r (scaled n.y ⟨mul p b.L.y b.xy, b.L.y, 0⟩)
  if b.is2D then r else addV p r (scaled n.z ⟨mul p b.L.z b.xz, mul p b.L.z b.yz, b.L.z⟩)

/-! ### Neighbors -/

/-- The test of one pair in `AABBQueryBallIterator::next`, `freud/locality/AABBQuery.cc:79-80, 93,
124-129`: `im` is the image vector, `q` the query point, `r` the point. -/
def inBall (p : ℕ) (rMax rMin : ℚ) (q im r : Vec3 ℚ) : Bool :=
  let rij := subV p r (addV p q im)
  let rsq := dot p rij rij
  decide (rsq < mul p rMax rMax ∧ mul p rMin rMin ≤ rsq)

/-- One component of `LinkCell::getCellCoord`, `freud/locality/LinkCell.cc:356-367`. Before the
remainder is taken, the conversion of a negative number to `unsigned int` is undefined (`none`). -/
def cellCoord (p : ℕ) (alpha : ℚ) (dim : ℕ) : Option ℕ :=
  let c := ⌊mul p alpha (rnd p dim)⌋
  if c < 0 then none else some (c.toNat % dim)

/-! ### Sums -/

/-- A sum accumulated by one thread, in its order. -/
def sum (p : ℕ) (l : List ℚ) : ℚ := l.foldl (add p) 0

/-- A sum accumulated by several threads: each sums its part, then the parts are added
(`freud/util/ThreadStorage.h:99-121`). -/
def threadSum (p : ℕ) (parts : List (List ℚ)) : ℚ := sum p (parts.map (sum p))

end Fl
end Freud
