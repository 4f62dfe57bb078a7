import Verif.Model.Box

/-!
# Periodic copies of points

Model of `freud/locality/PeriodicBuffer.cc`. Exceptions are `none`.
-/

namespace Freud
variable {K : Type*} [Field K] [LinearOrder K] [IsStrictOrderedRing K] [FloorRing K]
set_option linter.unusedSectionVars false

namespace PeriodicBuffer

/-- The result of `compute`, `freud/locality/PeriodicBuffer.h:55-59`. The two vectors
`m_buffer_points` and `m_buffer_ids`, which are always extended together, are one list of pairs. -/
structure Buffer (K : Type*) where
  box : Box K
  points : List (Vec3 K × ℕ)

/-- The values of a loop variable from `lo` to `hi` inclusive,
`freud/locality/PeriodicBuffer.cc:72-76`. -/
def loop (lo hi : ℤ) : List ℤ := (List.range (hi - lo + 1).toNat).map fun (i : ℕ) => lo + (i : ℤ)

/-- `images`, `freud/locality/PeriodicBuffer.cc:45-64`. In 2D the C++ expression `buff.z / L.z` may
be infinite; the component is overwritten. -/
def images (b : Box K) (buff : Vec3 K) (useImages : Bool) : Vec3 ℤ :=
  let n : Vec3 ℤ :=
    if useImages then ⟨⌈buff.x⌉, ⌈buff.y⌉, ⌈buff.z⌉⟩
    else ⟨⌈buff.x / b.L.x⌉, ⌈buff.y / b.L.y⌉, ⌈buff.z / b.L.z⌉⟩
  if b.is2D then { n with z := 0 } else n

/-- `m_buffer_box`, `freud/locality/PeriodicBuffer.cc:47-59`. -/
def bufferBox (b : Box K) (buff : Vec3 K) (useImages : Bool) : Box K :=
  if useImages then
    Box.mk' (((1 + ⌈buff.x⌉ : ℤ) : K) * b.L.x) (((1 + ⌈buff.y⌉ : ℤ) : K) * b.L.y)
      (((1 + ⌈buff.z⌉ : ℤ) : K) * b.L.z) b.xy b.xz b.yz b.is2D
  else
    Box.mk' (b.L.x + 2 * buff.x) (b.L.y + 2 * buff.y) (b.L.z + 2 * buff.z) b.xy b.xz b.yz b.is2D

/-- `point_image`, `freud/locality/PeriodicBuffer.cc:84-92`. The lattice vectors are written out
because index 0, 1 (and 2 in 3D) never throw. -/
def pointImage (b : Box K) (p : Vec3 K) (i j k : ℤ) : Vec3 K :=
  let v := p + Vec3.smul (i : K) ⟨b.L.x, 0, 0⟩
  let v := v + Vec3.smul (j : K) ⟨b.L.y * b.xy, b.L.y, 0⟩
  if b.is2D then v else v + Vec3.smul (k : K) ⟨b.L.z * b.xz, b.L.z * b.yz, b.L.z⟩

/-- The test of the fractional coordinates, `freud/locality/PeriodicBuffer.cc:111-113`. -/
def inside (bb : Box K) (is2D : Bool) (v : Vec3 K) : Bool :=
  let f := bb.makeFractional v
  decide (0 ≤ f.x) && decide (f.x < 1) && decide (0 ≤ f.y) && decide (f.y < 1) &&
    (is2D || (decide (0 ≤ f.z) && decide (f.z < 1)))

/-- The body of the innermost loop, `freud/locality/PeriodicBuffer.cc:78-118`: the point that is
appended, if any. -/
def body (b bb : Box K) (useImages incl : Bool) (p : Vec3 K) (i j k : ℤ) : Option (Vec3 K) :=
  if !incl && decide (i = 0) && decide (j = 0) && decide (k = 0) then none
  else
    let v := pointImage b p i j k
    if useImages then some (bb.wrap v)
    else if inside bb b.is2D v then some v
    else none

/-- The loops over the images of one point, `freud/locality/PeriodicBuffer.cc:72-121`. -/
def copies (b bb : Box K) (n : Vec3 ℤ) (useImages incl : Bool) (p : Vec3 K) : List (Vec3 K) :=
  (loop (if useImages then 0 else -n.x) n.x).flatMap fun i =>
    (loop (if useImages then 0 else -n.y) n.y).flatMap fun j =>
      (loop (if useImages then 0 else -n.z) n.z).filterMap fun k =>
        body b bb useImages incl p i j k

/-- `PeriodicBuffer::compute`, `freud/locality/PeriodicBuffer.cc:20-123`. -/
def compute (b : Box K) (pts : List (Vec3 K)) (buff : Vec3 K) (useImages incl : Bool) :
    Option (Buffer K) :=
  if buff.x < 0 then none
  else if buff.y < 0 then none
  else if buff.z < 0 then none
  else
    let bb := bufferBox b buff useImages
    let n := images b buff useImages
    some ⟨bb, pts.zipIdx.flatMap fun pi => (copies b bb n useImages incl pi.1).map fun w => (w, pi.2)⟩

/-- The argument `buffer` of the Python method: a number or a sequence of numbers. (Arrays of higher dimension
are not modelled.) -/
inductive BufferArg (K : Type*)
  | scalar (x : K)
  | sequence (l : List K)

/-- `buffer_vec`, `freud/locality.py:1120-1129`; `none` is the `ValueError`. -/
def BufferArg.vec : BufferArg K → Option (Vec3 K)
  | .scalar x => some ⟨x, x, x⟩
  | .sequence [x, y, z] => some ⟨x, y, z⟩
  | .sequence _ => none

/-- `PeriodicBuffer.compute` of Python, `freud/locality.py:1099-1132`, for a system that is accepted. -/
def pyCompute (b : Box K) (pts : List (Vec3 K)) (buffer : BufferArg K) (useImages incl : Bool) : Option (Buffer K) :=
  buffer.vec.bind fun v => compute b pts v useImages incl

end PeriodicBuffer
end Freud
