import Verif.Model.BoxArrays

/-!
# Specification: what the array methods of `Box` should do
-/

namespace Freud.Spec
open Freud BoxArrays

variable {K : Type*}

/-- The elements of an array, in row-major order. -/
def values (h : Heap K) (a : Arr) : List K := a.cells.map h.mem

/-- Numbers taken by threes. -/
def vectors : List K → List (Vec3 K)
  | x :: y :: z :: l => ⟨x, y, z⟩ :: vectors l
  | _ => []

/-- An array in use: it has as many elements as its shape says, in memory that is in use. -/
structure Live (h : Heap K) (a : Arr) : Prop where
  size : a.cells.length = a.shape.prod
  old : ∀ c ∈ a.cells, c < h.next

/-- An array of `n` vectors, of shape `(n, 3)` or, if `n = 1`, `(3,)`. -/
def IsVectors (a : Arr) (n : ℕ) : Prop := a.shape = [n, 3] ∨ a.shape = [3] ∧ n = 1

/-- The output array the methods accept: it can be written, its type is `float32`, it is contiguous and
has the shape `(n, 3)`. -/
structure IsOutput (o : Arr) (n : ℕ) : Prop where
  shape : o.shape = [n, 3]
  f32 : o.f32 = true
  contiguous : o.contiguous = true
  writable : o.writable = true

/-- The output array is the input array, or shares no memory with it; or the input array is one of which
the method makes a copy. -/
def Apart (vecs o : Arr) : Prop :=
  o.cells = vecs.cells ∨ (∀ c ∈ o.cells, c ∉ vecs.cells) ∨ vecs.f32 = false ∨ vecs.contiguous = false

/-- No memory that was in use has changed, but that of `o`. -/
def OnlyChanges (o : List ℕ) (h h' : Heap K) : Prop := ∀ c < h.next, c ∉ o → h'.mem c = h.mem c

/-- The array is made of memory that was not in use. -/
def Fresh (h : Heap K) (a : Arr) : Prop := ∀ c ∈ a.cells, h.next ≤ c

end Freud.Spec
