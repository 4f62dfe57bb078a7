import Mathlib.Algebra.BigOperators.Group.List.Basic
import Mathlib.Data.List.Zip

/-!
# Arrays and prefix sums

Model of `freud/util/ManagedArray.h` and of `prefixSum` in `freud/util/utils.h`. Sizes and
indices are natural numbers: overflow of `size_t` (and of the `int` accumulator in
`getMultiIndex`) is not modelled. Exceptions are `none`.
-/

namespace Freud

/-- `ManagedArray`, data members `m_shape` and `m_data`, `freud/util/ManagedArray.h:38-327`.
`m_size` is the length of `m_data`. -/
structure MArray (α : Type*) where
  shape : List ℕ
  data : List α
deriving DecidableEq, Repr

namespace MArray
variable {α : Type*}

/-- The shape constructor followed by `reset`, `freud/util/ManagedArray.h:46-56, 82-88`. -/
def mk' [Zero α] (shape : List ℕ) : MArray α := ⟨shape, List.replicate shape.prod 0⟩

/-- `reset`, `freud/util/ManagedArray.h:82-88`. -/
def reset [Zero α] (a : MArray α) : MArray α := { a with data := List.replicate a.data.length 0 }

/-- `size()`, `freud/util/ManagedArray.h:136-139`. -/
def size (a : MArray α) : ℕ := a.data.length

/-- Reading through `operator[]`, `freud/util/ManagedArray.h:124-133`. -/
def get? (a : MArray α) (i : ℕ) : Option α := if i ≥ a.size then none else a.data[i]?

/-- Writing through `operator[]`, `freud/util/ManagedArray.h:112-121`. -/
def set? (a : MArray α) (i : ℕ) (v : α) : Option (MArray α) :=
  if i ≥ a.size then none else some { a with data := a.data.set i v }

/-- The reverse loop of the static `getIndex` and of `operator()`,
`freud/util/ManagedArray.h:186-200, 246-258`. The state is `(idx, cur_prod)`. More indices
than dimensions is an out-of-range read in the code; the model ignores the surplus. -/
def linIndex (shape idx : List ℕ) : ℕ :=
  ((idx.zip shape).foldr (fun p acc => (acc.1 + p.1 * acc.2, acc.2 * p.2)) (0, 1)).1

/-- The member `getIndex`, `freud/util/ManagedArray.h:269-287`. The bound check compares with
`>`, as in the code. -/
def getIndex (a : MArray α) (idx : List ℕ) : Option ℕ :=
  if idx.length ≠ a.shape.length then none
  else if (idx.zip a.shape).any (fun p => decide (p.1 > p.2)) then none
  else some (linIndex a.shape idx)

/-- Reading through `operator()`, `freud/util/ManagedArray.h:202-215`. -/
def at? (a : MArray α) (idx : List ℕ) : Option α := a.get? (linIndex a.shape idx)

/-- Writing through `operator()`, `freud/util/ManagedArray.h:186-200`. -/
def put? (a : MArray α) (idx : List ℕ) (v : α) : Option (MArray α) :=
  a.set? (linIndex a.shape idx) v

/-- The loop of `getMultiIndex`, `freud/util/ManagedArray.h:229-235`. -/
def multiGo : List ℕ → ℕ → ℕ → List ℕ
  | [], _, _ => []
  | s :: ss, indexSize, index =>
    (index / (indexSize / s)) :: multiGo ss (indexSize / s) (index % (indexSize / s))

/-- `getMultiIndex`, `freud/util/ManagedArray.h:224-237`. -/
def getMultiIndex (shape : List ℕ) (index : ℕ) : List ℕ := multiGo shape shape.prod index

end MArray

/-- The loop of `prefixSum`, `freud/util/utils.h:92-101`, with the running `offset`. -/
def prefixSumGo : ℕ → List ℕ → List ℕ
  | _, [] => []
  | offset, s :: ss => offset :: prefixSumGo (offset + s) ss

/-- `prefixSum`, `freud/util/utils.h:92-101`. -/
def prefixSum (summands : List ℕ) : List ℕ := prefixSumGo 0 summands

end Freud
