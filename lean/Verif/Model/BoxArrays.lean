import Verif.Model.BoxOps

/-!
# The array methods of `Box` and the memory they read and write

Model of `freud/box.py:199-541`, `freud/box/export-Box.cc` and of the loops over arrays in
`freud/box/Box.h`. Memory is a map from addresses to numbers; one element of an array is one address, so
that a `float64` element and a `float32` element are one address each. Numbers are exact, so that a
conversion to another type keeps the values; integers and Booleans (1, 0) are stored as numbers. Arrays of
different types do not share memory (views made with `ndarray.view(dtype)` are not modelled).
-/

namespace Freud
namespace BoxArrays

variable {K : Type*}

/-- A NumPy array: its shape, whether its type is `float32`, the addresses of its elements in row-major
order, whether it can be written. Views share addresses. -/
structure Arr where
  shape : List ℕ
  f32 : Bool
  cells : List ℕ
  writable : Bool
deriving DecidableEq

/-- The flag `C_CONTIGUOUS`: the elements follow each other in memory. -/
def Arr.contiguous (a : Arr) : Bool := a.cells == List.range' (a.cells.headD 0) a.cells.length

/-- The memory; arrays in use have addresses below `next`. -/
structure Heap (K : Type*) where
  mem : ℕ → K
  next : ℕ

/-- A new array with the elements of `a`, of type `float32`. -/
def Heap.copy (h : Heap K) (a : Arr) : Heap K × Arr :=
  (⟨fun c => if h.next ≤ c ∧ c < h.next + a.cells.length then h.mem (a.cells.getD (c - h.next) 0) else h.mem c,
    h.next + a.cells.length⟩,
   ⟨a.shape, true, List.range' h.next a.cells.length, true⟩)

/-- `np.empty`: whatever the memory holds. -/
def Heap.empty (h : Heap K) (shape : List ℕ) : Heap K × Arr :=
  (⟨h.mem, h.next + shape.prod⟩, ⟨shape, true, List.range' h.next shape.prod, true⟩)

/-- `np.require(array, float32, "C")`: the array itself, or a copy if it is not as required. The flag tells
whether it is the array itself. -/
def Heap.require (h : Heap K) (a : Arr) : (Heap K × Arr) × Bool :=
  if a.f32 && a.contiguous then ((h, a), true) else (h.copy a, false)

/-- The shape check of `_convert_array`, `freud/util.py:126-139`. -/
def shapeOK (shape : List ℕ) (want : List (Option ℕ)) : Bool :=
  shape.length == want.length && (List.zip shape want).all fun p => p.2.isNone || p.2 == some p.1

/-- `_convert_array` for `float32`, `freud/util.py:86-141`; `none` is the `ValueError`. -/
def convert (h : Heap K) (a : Arr) (want : List (Option ℕ)) (allowCopy : Bool) : Option (Heap K × Arr) :=
  if !allowCopy && !(h.require a).2 then none
  else if shapeOK (h.require a).1.2.shape want then some (h.require a).1 else none

/-- `_convert_array` of the argument `out`, which may be `None`, for the given shape. The last condition is
nanobind's: an array that cannot be written is not taken for `nb_array<float>`,
`freud/box/export-Box.h:15-16`. -/
def convertOut (h : Heap K) (out : Option Arr) (shape : List ℕ) : Option (Heap K × Arr) :=
  match out with
  | none => some (h.empty shape)
  | some o => (convert h o (shape.map some) false).bind fun r => if r.2.writable then some r else none

/-- `np.atleast_2d`. -/
def atleast2d (a : Arr) : Arr :=
  match a.shape with
  | [] => { a with shape := [1, 1] }
  | [n] => { a with shape := [1, n] }
  | _ => a

/-- `np.squeeze`: a view without the axes of length one. -/
def squeeze (a : Arr) : Arr := { a with shape := a.shape.filter (· ≠ 1) }

/-! ### Loops over rows -/

/-- One access to memory of a parallel loop: iteration `t` reads its `j`-th input, or writes its `j`-th
output. -/
inductive Op where
  | read (t j : ℕ)
  | write (t j : ℕ)
deriving DecidableEq

/-- A loop: the numbers of inputs and outputs of an iteration, their addresses, and what an iteration
computes from its inputs. -/
structure Loop (K : Type*) where
  nIn : ℕ
  nOut : ℕ
  addrIn : ℕ → ℕ → ℕ
  addrOut : ℕ → ℕ → ℕ
  body : ℕ → List K → List K

/-- The memory, and the local variables of the iterations. -/
structure State (K : Type*) where
  mem : ℕ → K
  loc : ℕ → ℕ → K

variable [Zero K]

/-- One access. -/
def Loop.step (l : Loop K) (s : State K) : Op → State K
  | .read t j => ⟨s.mem, fun t' j' => if t' = t ∧ j' = j then s.mem (l.addrIn t j) else s.loc t' j'⟩
  | .write t j => ⟨fun c => if c = l.addrOut t j then (l.body t ((List.range l.nIn).map (s.loc t))).getD j 0
      else s.mem c, s.loc⟩

/-- `util::forLoopWrapper`, `freud/util/utils.h:54-66`: the accesses of all iterations in the order `ev`, in
which the threads make them. -/
def Loop.run (l : Loop K) (mem : ℕ → K) (ev : List Op) : ℕ → K :=
  (ev.foldl l.step ⟨mem, fun _ _ => 0⟩).mem

/-- All accesses of the first `n` iterations of a loop with `nIn` inputs and `nOut` outputs. -/
def ops (nIn nOut n : ℕ) : List Op :=
  (List.range n).flatMap fun t => (List.range nIn).map (Op.read t) ++ (List.range nOut).map (Op.write t)

/-- An order of the accesses that the loop allows: each access once, and an iteration writes when it has
read its inputs. Iterations of the same thread need not even follow each other. -/
def Schedule (nIn nOut n : ℕ) (ev : List Op) : Prop :=
  ev.Perm (ops nIn nOut n) ∧ ∀ t < n, ∀ j < nIn, ∀ k < nOut,
    ∃ l1 l2, ev = l1 ++ l2 ∧ Op.read t j ∈ l1 ∧ Op.write t k ∈ l2

/-- The vector stored in three numbers, and back (`reinterpret_cast<vec3<float>*>`). -/
def toVec : List K → Vec3 K
  | [a, b, c] => ⟨a, b, c⟩
  | _ => ⟨0, 0, 0⟩

def ofVec {K : Type*} (v : Vec3 K) : List K := [v.x, v.y, v.z]

/-- The address of the data of an array, `vecs.data()`. -/
def Arr.data (a : Arr) : ℕ := a.cells.headD 0

/-- `out[i] = f(i, vecs[i])` for all rows: the loops of `makeAbsolute`, `makeFractional`, `wrap`,
`getImages`, `unwrap` and `center`, `freud/box/Box.h:229-237, 262-270, 293-301, 336-344, 352-366, 404-409`.
The second statement of the loop of `unwrap` adds to `out[i]` what the model adds before it writes. -/
def rowLoop (f : ℕ → Vec3 K → Vec3 K) (vecs out : ℕ) : Loop K :=
  ⟨3, 3, fun t j => vecs + (3 * t + j), fun t j => out + (3 * t + j), fun t l => ofVec (f t (toVec l))⟩

/-- `unsigned int Nvecs = vecs.shape(0)`, `freud/box/export-Box.cc:19` and the like: the number of iterations
of the loops, that is, of what the arguments `ev` below are schedules of. -/
def rows32 (a : Arr) : ℕ := a.shape.headD 0 % 2 ^ 32

end BoxArrays

open BoxArrays

variable {K : Type*} [Field K] [LinearOrder K] [IsStrictOrderedRing K] [FloorRing K]

/-- The methods that have the same Python code, `freud/box.py:199-250, 305-333`. -/
inductive BoxArrays.Method where
  | makeAbsolute
  | makeFractional
  | wrap

/-- The member function of `freud/box/Box.h` called for each row. -/
def BoxArrays.Method.point (b : Box K) : Method → Vec3 K → Vec3 K
  | .makeAbsolute => b.makeAbsolute
  | .makeFractional => b.makeFractional
  | .wrap => b.wrap

namespace BoxArrays

/-- `Box.make_absolute`, `make_fractional` and `wrap` of an array, `freud/box.py:215-224, 241-250, 324-333`
with `freud/box/export-Box.cc:17-33, 44-50`. The result is the memory after the call and the array
returned; `none` is an exception. -/
def apply (m : Method) (b : Box K) (h : Heap K) (vecs : Arr) (out : Option Arr) (ev : List Op) :
    Option (Heap K × Arr) :=
  (convert h (atleast2d vecs) [none, some 3] true).bind fun v =>
    (convertOut v.1 out v.2.shape).map fun o =>
      (⟨(rowLoop (fun _ => m.point b) v.2.data o.2.data).run o.1.mem ev, o.1.next⟩,
        if vecs.shape.length = 1 then squeeze o.2 else o.2)

/-- `np.broadcast_arrays` of `vecs` and an array of shape `(m, 3)`, called when the numbers of rows differ,
`freud/box.py:358-361`. The result is a view. -/
def broadcast (a : Arr) (m : ℕ) : Option Arr :=
  match a.shape with
  | [r, c] =>
    if r = m then some a
    else if (r = 1 ∨ m = 1) ∧ (c = 3 ∨ c = 1) then
      let n := if r = 1 then m else r
      some ⟨[n, 3], a.f32, (List.range n).flatMap fun i => (List.range 3).map fun j =>
        a.cells.getD ((if r = 1 then 0 else i) * c + if c = 1 then 0 else j) 0, false⟩
    else none
  | _ => none

/-- `Box.unwrap`, `freud/box.py:335-368` and `freud/box/export-Box.cc:52-60`. The images are integers and do
not share memory with the positions; they are given by their rows. If the arrays have different numbers of
rows, one of them must have one row, which is repeated. -/
def unwrap (b : Box K) (h : Heap K) (vecs : Arr) (imgs : List (Vec3 ℤ)) (out : Option Arr) (ev : List Op) :
    Option (Heap K × Arr) :=
  (broadcast (atleast2d vecs) imgs.length).bind fun v0 =>
    (convert h v0 [none, some 3] true).bind fun v1 =>
      let v := v1.1.copy v1.2
      let img : ℕ → Vec3 ℤ := fun i => if imgs.length = 1 then imgs.getD 0 ⟨0, 0, 0⟩ else imgs.getD i ⟨0, 0, 0⟩
      (convertOut v.1 out v.2.shape).map fun o =>
        (⟨(rowLoop (fun i p => b.unwrap p (img i)) v.2.data o.2.data).run o.1.mem ev, o.1.next⟩,
          if vecs.shape.length = 1 then squeeze o.2 else o.2)

/-- `Box.get_images`, `freud/box.py:252-271` and `freud/box/export-Box.cc:35-42`. -/
def getImages (b : Box K) (h : Heap K) (vecs : Arr) (ev : List Op) : Option (Heap K × Arr) :=
  (convert h (atleast2d vecs) [none, some 3] true).map fun v =>
    let o := v.1.empty v.2.shape
    let f : ℕ → Vec3 K → Vec3 K := fun _ p => let n := b.getImage p; ⟨(n.x : K), (n.y : K), (n.z : K)⟩
    (⟨(rowLoop f v.2.data o.2.data).run o.1.mem ev, o.1.next⟩,
      if vecs.shape.length = 1 then squeeze { o.2 with f32 := false } else { o.2 with f32 := false })

/-- `Box.contains`, `freud/box.py:504-541`, `freud/box/export-Box.cc:107-114` and `freud/box/Box.h:469-480`. -/
def contains (b : Box K) (h : Heap K) (points : Arr) (ev : List Op) : Option (Heap K × Arr) :=
  (convert h (atleast2d points) [none, some 3] true).map fun v =>
    let o := v.1.empty [v.2.shape.headD 0]
    let loop : Loop K := ⟨3, 1, fun t j => v.2.data + (3 * t + j), fun t _ => o.2.data + t,
      fun _ l => [if b.contains (toVec l) then 1 else 0]⟩
    (⟨loop.run o.1.mem ev, o.1.next⟩, { o.2 with f32 := false })

/-- `Box.compute_distances`, `freud/box.py:448-473`, `freud/box/export-Box.cc:82-95` and
`freud/box/Box.h:430-439`. -/
noncomputable def computeDistances (b : Box ℝ) (h : Heap ℝ) (queryPoints points : Arr) (ev : List Op) :
    Option (Heap ℝ × Arr) :=
  (convert h (atleast2d queryPoints) [none, some 3] true).bind fun q =>
    (convert q.1 (atleast2d points) [none, some 3] true).bind fun p =>
      let o := p.1.empty [q.2.shape.headD 0]
      if rows32 q.2 ≠ rows32 p.2 then none
      else
        let loop : Loop ℝ := ⟨6, 1,
          fun t j => if j < 3 then q.2.data + (3 * t + j) else p.2.data + (3 * t + (j - 3)),
          fun t _ => o.2.data + t,
          fun _ l => [b.computeDistance (toVec (l.take 3)) (toVec (l.drop 3))]⟩
        some (⟨loop.run o.1.mem ev, o.1.next⟩, o.2)

/-- `Box.compute_all_distances`, `freud/box.py:475-502`, `freud/box/export-Box.cc:97-105` and
`freud/box/Box.h:449-463`. Iteration `t` of the loop is the pair `i = t / n_points`, `j = t % n_points` of
the two loops. -/
noncomputable def computeAllDistances (b : Box ℝ) (h : Heap ℝ) (queryPoints points : Arr) (ev : List Op) :
    Option (Heap ℝ × Arr) :=
  (convert h (atleast2d queryPoints) [none, some 3] true).bind fun q =>
    (convert q.1 (atleast2d points) [none, some 3] true).map fun p =>
      let o := p.1.empty [q.2.shape.headD 0, p.2.shape.headD 0]
      let n := rows32 p.2
      let loop : Loop ℝ := ⟨6, 1,
        fun t j => if j < 3 then q.2.data + (3 * (t / n) + j) else p.2.data + (3 * (t % n) + (j - 3)),
        fun t _ => o.2.data + ((t / n) * n + t % n),
        fun _ l => [b.computeDistance (toVec (l.take 3)) (toVec (l.drop 3))]⟩
      (⟨loop.run o.1.mem ev, o.1.next⟩, o.2)

/-- `Box.center`, `freud/box.py:409-446`, `freud/box/export-Box.cc:73-80` and `freud/box/Box.h:401-410`. The
center of mass is computed before the loop; the masses are given by their values. -/
noncomputable def center (b : Box ℝ) (h : Heap ℝ) (vecs : Arr) (masses : Option (List ℝ)) (ev : List Op) :
    Option (Heap ℝ × Arr) :=
  (convert h vecs [none, some 3] true).bind fun v1 =>
    let v := v1.1.copy v1.2
    let n := v.2.shape.headD 0
    let ms := masses.getD (List.replicate n 1)
    if ms.length ≠ n then none
    else
      let com := b.centerOfMass ((List.range (rows32 v.2)).map fun i =>
        (⟨v.1.mem (v.2.data + 3 * i), v.1.mem (v.2.data + (3 * i + 1)), v.1.mem (v.2.data + (3 * i + 2))⟩,
          ms.getD i 0))
      some (⟨(rowLoop (fun _ p => b.wrap (p - com)) v.2.data v.2.data).run v.1.mem ev, v.1.next⟩, v.2)

end BoxArrays
end Freud
