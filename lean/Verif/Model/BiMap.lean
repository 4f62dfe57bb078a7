import Mathlib.Data.List.Basic
import Mathlib.Data.List.Nodup

/-!
# BiMap

Model of `freud/util/BiMap.h`. Pairs live on a heap and are never moved; `container` and the two
ordered sets hold addresses. A `std::set` of pointers with a comparison of the values they point to
finds an element exactly when one with an equal value is in the set (as long as the values in the
set are not changed from outside); it is modelled by a search through its elements.
-/

namespace Freud

/-- `BiMap`, data members, `freud/util/BiMap.h:96-99`, with the heap of pairs. -/
structure BiMap (T U : Type*) where
  heap : List (T × U)
  container : List ℕ
  setA : List ℕ
  setB : List ℕ

namespace BiMap
variable {T U : Type*} [DecidableEq T] [DecidableEq U]

/-- The default constructor, `freud/util/BiMap.h:107`. -/
def new : BiMap T U := ⟨[], [], [], []⟩

/-- `set_A.find(&key)`: the address of the element, if there is one. -/
def findA (m : BiMap T U) (a : T) : Option ℕ :=
  m.setA.find? (fun p => decide ((m.heap[p]?).map (·.1) = some a))

/-- `set_B.find(&key)`. -/
def findB (m : BiMap T U) (b : U) : Option ℕ :=
  m.setB.find? (fun p => decide ((m.heap[p]?).map (·.2) = some b))

/-- `emplace`, `freud/util/BiMap.h:152-165`: the new map and the returned flag. The pair is allocated
first and deleted again when it is refused (here it stays on the heap, unreferenced). -/
def emplace (m : BiMap T U) (a : T) (b : U) : BiMap T U × Bool :=
  let pair := m.heap.length
  let heap' := m.heap ++ [(a, b)]
  if (m.findA a).isSome ∨ (m.findB b).isSome then ({ m with heap := heap' }, false)
  else (⟨heap', m.container ++ [pair], m.setA ++ [pair], m.setB ++ [pair]⟩, true)

/-- `clear`, `freud/util/BiMap.h:318-323`. -/
def clear (m : BiMap T U) : BiMap T U := { m with container := [], setA := [], setB := [] }

/-- The elements, in the order of the container (`begin`, `end`, `freud/util/BiMap.h:335-343`). -/
def pairs (m : BiMap T U) : List (T × U) := m.container.filterMap (fun p => m.heap[p]?)

/-- The copy constructor, `freud/util/BiMap.h:116-122`: insert every element into an empty map. -/
def copy (m : BiMap T U) : BiMap T U := m.pairs.foldl (fun c p => (c.emplace p.1 p.2).1) new

/-- `size`, `freud/util/BiMap.h:330-333`. -/
def size (m : BiMap T U) : ℕ := m.container.length

/-- `left.at`, `freud/util/BiMap.h:193-201`; `none` is `std::out_of_range`. -/
def leftAt (m : BiMap T U) (a : T) : Option U :=
  (m.findA a).bind (fun p => (m.heap[p]?).map (·.2))

/-- `right.at`, `freud/util/BiMap.h:268-276`. -/
def rightAt (m : BiMap T U) (b : U) : Option T :=
  (m.findB b).bind (fun p => (m.heap[p]?).map (·.1))

/-- `left.operator[]`, `freud/util/BiMap.h:203-212`: the map after a possible insertion and the
address the returned reference belongs to; `none` when the code dereferences `end()`. -/
def leftIndex [Inhabited U] (m : BiMap T U) (a : T) : BiMap T U × Option ℕ :=
  let m' := if (m.findA a).isSome then m else (m.emplace a default).1
  (m', m'.findA a)

/-- Writing through the reference returned by `left[a]`, as in the example of
`freud/util/BiMap.h:54`. -/
def leftAssign [Inhabited U] (m : BiMap T U) (a : T) (b : U) : Option (BiMap T U) :=
  let r := m.leftIndex a
  r.2.bind (fun p => (r.1.heap[p]?).map (fun q => { r.1 with heap := r.1.heap.set p (q.1, b) }))

/-- `asMap`, `freud/util/BiMap.h:141-149`, as an association list: a later element with the same key
overwrites an earlier one. -/
def asMap (m : BiMap T U) : T → Option U :=
  m.pairs.foldl (fun f p => Function.update f p.1 (some p.2)) (fun _ => none)

/-- What a user does with a map. -/
inductive Op (T U : Type*)
  | emplace (a : T) (b : U)
  | clear
  | copy

/-- One operation. -/
def step (m : BiMap T U) : Op T U → BiMap T U
  | .emplace a b => (m.emplace a b).1
  | .clear => m.clear
  | .copy => m.copy

/-- A history of operations. -/
def run (ops : List (Op T U)) : BiMap T U := ops.foldl step new

end BiMap
end Freud
