import Verif.Model.NeighborList

/-!
# Interface (freud/interface.py)

Python code over the two index columns of a neighbor list.
-/

namespace Freud

namespace NumpyUnique

/-- Insertion of a value into a sorted list. -/
def insertSorted (a : ℕ) : List ℕ → List ℕ
  | [] => [a]
  | b :: l => if a ≤ b then a :: b :: l else b :: insertSorted a l

/-- `ar.sort()`: for natural numbers the result does not depend on the algorithm, insertion sort is
used here. -/
def sort : List ℕ → List ℕ
  | [] => []
  | a :: l => insertSorted a (sort l)

/-- `mask[1:] = aux[1:] != aux[:-1]; ar[mask]` of NumPy's one-dimensional `unique`: an entry is kept when
it is the first or differs from the entry before it. -/
def dropRepeats : Option ℕ → List ℕ → List ℕ
  | _, [] => []
  | prev, a :: l => if prev = some a then dropRepeats (some a) l else a :: dropRepeats (some a) l

/-- `np.unique(ar)` for a one-dimensional integer array. -/
def unique (l : List ℕ) : List ℕ := dropRepeats none (sort l)

end NumpyUnique

namespace Interface

/-- The `neighbors` argument after Python's type dispatch in `_make_default_nlist`
(freud/locality.py:830-836): a `NeighborList`, a dictionary of query arguments (carried here as the
neighbor list that `nq.query(...).toNeighborList()` returns for it, `none` when the query raises), or
`None`. -/
inductive Neighbors (K : Type*) where
  | list (n : NList K)
  | dict (found : Option (NList K))
  | absent

/-- `_make_default_nlist` (freud/locality.py:808-836).  `None` has no method `copy`: AttributeError. -/
def makeDefaultNlist {K : Type*} : Neighbors K → Option (NList K)
  | .list n => some n
  | .dict found => found
  | .absent => none

/-- `_point_ids`, `_query_point_ids` (freud/interface.py:19-21) and whether `compute` returned once
(freud/util.py:47-52; the constructor does not call the base constructor, so the flag is missing
before, which reads as an AttributeError as well). -/
structure State where
  pointIds : List ℕ
  queryPointIds : List ℕ
  called : Bool
  deriving DecidableEq

/-- The constructor (freud/interface.py:19-21). -/
def new : State := ⟨[], [], false⟩

/-- `compute` (freud/interface.py:23-46): the new state and whether it raised. -/
def compute {K : Type*} (nb : Neighbors K) (s : State) : State × Bool :=
  match makeDefaultNlist nb with
  | none => (s, true)
  | some n => (⟨NumpyUnique.unique (n.bonds.map (·.p)), NumpyUnique.unique (n.bonds.map (·.q)), true⟩,
      false)

/-- Any sequence of calls (exceptions caught by the caller). -/
def run {K : Type*} (calls : List (Neighbors K)) : State :=
  calls.foldl (fun s nb => (compute nb s).1) new

/-- The computed properties (freud/interface.py:48-68); `none` is AttributeError. -/
def getPointIds (s : State) : Option (List ℕ) := if s.called then some s.pointIds else none
/-- `point_count` (freud/interface.py:48-51). -/
def getPointCount (s : State) : Option ℕ := if s.called then some s.pointIds.length else none
/-- `query_point_ids` (freud/interface.py:64-68). -/
def getQueryPointIds (s : State) : Option (List ℕ) := if s.called then some s.queryPointIds else none
/-- `query_point_count` (freud/interface.py:58-62). -/
def getQueryPointCount (s : State) : Option ℕ :=
  if s.called then some s.queryPointIds.length else none

end Interface

end Freud
