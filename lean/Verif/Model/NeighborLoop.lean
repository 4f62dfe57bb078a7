import Verif.Model.NeighborList

/-!
# Loops over the neighbors of every query point

Model of `NeighborListPerPointIterator` and `loopOverNeighborsIterator` in
`freud/locality/NeighborComputeFunctional.h`, for a given neighbor list.
-/

namespace Freud

/-- Data members of `NeighborListPerPointIterator`,
`freud/locality/NeighborComputeFunctional.h:77-84` and `m_query_point_idx` of
`freud/locality/NeighborPerPointIterator.h:57`. -/
structure PPIter where
  queryIdx : ℕ
  cur : ℕ
  returned : ℕ
  finished : Bool

namespace PPIter
variable {K : Type*}

/-- The constructor, `freud/locality/NeighborComputeFunctional.h:43-52`. -/
def new (n : NList K) (i : ℕ) : PPIter :=
  let cur := n.findFirstIndex i
  let finished := decide (cur = n.bonds.length)
  ⟨i, cur, if finished then 0xffffffff else (n.bonds.map (·.q)).getD cur 0, finished⟩

/-- `next`, `freud/locality/NeighborComputeFunctional.h:56-71`; `none` is
`ITERATOR_TERMINATOR`. -/
def next (n : NList K) (it : PPIter) : Option (Bond K) × PPIter :=
  match n.bonds[it.cur]? with
  | none => (none, { it with finished := true })
  | some nb => (some nb, { it with cur := it.cur + 1, returned := nb.q })

/-- `end`, `freud/locality/NeighborComputeFunctional.h:73-76`. -/
def isEnd (it : PPIter) : Bool := decide (it.returned ≠ it.queryIdx) || it.finished

/-- The bonds seen by `for (nb = it->next(); !it->end(); nb = it->next())`, as in
`freud/density/LocalDensity.cc:56`. When the list is exhausted `next` sets `m_finished`, so that
`end` holds and the loop stops. -/
def collect (n : NList K) (it : PPIter) : List (Bond K) :=
  match h : n.bonds[it.cur]? with
  | none => []
  | some nb => if (it.next n).2.isEnd then [] else nb :: collect n (it.next n).2
termination_by n.bonds.length - it.cur
decreasing_by
  have : it.cur < n.bonds.length := (List.getElem?_eq_some_iff.mp h).1
  simp only [next, h]
  omega

end PPIter

namespace MArray
variable {T : Type*}

/-- A loop whose iteration `i` rewrites element `i` of an array, in the order in which the threads
run the iterations (`freud/util/utils.h:55-66`). -/
def forEach (order : List ℕ) (body : ℕ → T → Option T) (a : MArray T) : Option (MArray T) :=
  order.foldlM (fun a i => (a.get? i).bind (fun x => (body i x).bind (a.set? i))) a

end MArray

/-- `loopOverNeighborsIterator` with a neighbor list, for a compute function that only writes
element `i` of the results, `freud/locality/NeighborComputeFunctional.h:107-125`. -/
def loopOverNeighborsIterator {K T : Type*} (n : NList K) (cf : ℕ → List (Bond K) → T → Option T)
    (order : List ℕ) (a : MArray T) : Option (MArray T) :=
  a.forEach order (fun i => cf i ((PPIter.new n i).collect n))

end Freud
