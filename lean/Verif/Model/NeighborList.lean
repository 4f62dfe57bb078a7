import Verif.Model.Schedule
import Verif.Model.BoxReal

/-!
# Neighbor lists

Model of `freud/locality/NeighborBond.h`, `freud/locality/NeighborList.{h,cc}` and of
`toNeighborList` in `freud/locality/NeighborQuery.h`. The parallel arrays `m_neighbors`,
`m_distances`, `m_weights`, `m_vectors`, which always have the same length, are one list of
bonds. Indices are natural numbers.
-/

namespace Freud

/-- `NeighborBond`, `freud/locality/NeighborBond.h:18-166`. -/
structure Bond (K : Type*) where
  q : ℕ
  p : ℕ
  dist : K
  weight : K
  vec : Vec3 K
deriving DecidableEq

namespace Bond

/-- The constructor that computes the distance from the vector,
`freud/locality/NeighborBond.h:40-43`. -/
noncomputable def ofVec (q p : ℕ) (w : ℝ) (v : Vec3 ℝ) : Bond ℝ := ⟨q, p, v.norm, w, v⟩

section
variable {K : Type*} [LinearOrder K]

/-- `less_as_tuple`, `freud/locality/NeighborBond.h:80-95`. -/
def lessTuple (a b : Bond K) : Bool :=
  if a.q ≠ b.q then decide (a.q < b.q)
  else if a.p ≠ b.p then decide (a.p < b.p)
  else if a.weight ≠ b.weight then decide (a.weight < b.weight)
  else decide (a.dist < b.dist)

/-- `less_as_distance`, `freud/locality/NeighborBond.h:97-112`. -/
def lessDistance (a b : Bond K) : Bool :=
  if a.q ≠ b.q then decide (a.q < b.q)
  else if a.dist ≠ b.dist then decide (a.dist < b.dist)
  else if a.p ≠ b.p then decide (a.p < b.p)
  else decide (a.weight < b.weight)

/-- The comparator chosen by the `by_distance` flag, `freud/locality/NeighborList.cc:378-385,
432-440`. -/
def less (byDistance : Bool) : Bond K → Bond K → Bool :=
  if byDistance then lessDistance else lessTuple
end

/-- What `tbb::parallel_sort(l, less)` may return: a permutation in which no later element is
less than an earlier one. The sort is not stable, so this is a relation. -/
def SortedBy {α : Type*} (less : α → α → Bool) (l out : List α) : Prop :=
  out.Perm l ∧ out.Pairwise (fun a b => less b a = false)

end Bond

/-- `NeighborList`, data members, `freud/locality/NeighborList.h:139-157`. -/
structure NList (K : Type*) where
  numQueryPoints : ℕ
  numPoints : ℕ
  bonds : List (Bond K)
  segUpdated : Bool
  counts : List ℕ
  segments : List ℕ

namespace NList

/-- The loop of the array constructor, `freud/locality/NeighborList.cc:62-81`: bonds are read
from the three arrays, with the running `last_index`; `none` is a thrown exception. -/
noncomputable def arrayLoop (nq np : ℕ) : ℕ → List (ℕ × ℕ × ℝ × Vec3 ℝ) →
    Option (List (Bond ℝ))
  | _, [] => some []
  | last, (index, pi, w, v) :: rest =>
    if index < last then none
    else if index ≥ nq then none
    else if pi ≥ np then none
    else (arrayLoop nq np index rest).map (Bond.ofVec index pi w v :: ·)

/-- `NeighborList.from_arrays`, `freud/locality/NeighborList.cc:51-82`; the Python wrapper
checks that the arrays have equal length (`freud/locality.py:533-548`), so they are one list. -/
noncomputable def fromArrays (nq np : ℕ) (entries : List (ℕ × ℕ × ℝ × Vec3 ℝ)) :
    Option (NList ℝ) :=
  (arrayLoop nq np 0 entries).map (fun b =>
    ⟨nq, np, b, false, List.replicate nq 0, List.replicate nq 0⟩)

/-- The inner loop of the all-pairs constructor for query point `i`, starting at slot
`bond_idx`, `freud/locality/NeighborList.cc:110-125`. Points are read through `qpt`, `pt`. -/
noncomputable def allPairsRow (b : Box ℝ) (qpt pt : ℕ → Vec3 ℝ) (excl : Bool) (i : ℕ) :
    List ℕ → ℕ → List (Bond ℝ) → List (Bond ℝ)
  | [], _, arr => arr
  | j :: js, idx, arr =>
    if excl && decide (i = j) then allPairsRow b qpt pt excl i js idx arr
    else
      let dr := b.wrap (qpt i - pt j)
      allPairsRow b qpt pt excl i js (idx + 1) (arr.set idx ⟨i, j, Real.sqrt (dr.dot dr), 1, dr⟩)

/-- The start slot of a row, `freud/locality/NeighborList.cc:104-108`. -/
def rowStart (excl : Bool) (np i : ℕ) : ℕ := if excl then i * np - min i np else i * np

/-- The all-pairs constructor, `freud/locality/NeighborList.cc:84-128`; `order` is the order in
which the rows are filled by the parallel loop. -/
noncomputable def allPairs (b : Box ℝ) (qpt pt : ℕ → Vec3 ℝ) (excl : Bool) (nq np : ℕ)
    (order : List ℕ) : NList ℝ :=
  let numII := if excl then min np nq else 0
  let numBonds := np * nq - numII
  ⟨nq, np, order.foldl (fun arr i => allPairsRow b qpt pt excl i (List.range np)
      (rowStart excl np i) arr) (List.replicate numBonds ⟨0, 0, 0, 0, ⟨0, 0, 0⟩⟩),
    false, List.replicate nq 0, List.replicate nq 0⟩

/-- `INDEX_TERMINATOR`, `freud/locality/NeighborList.cc:205`. -/
def indexTerminator : ℕ := 0xffffffff

/-- The local variables of `updateSegmentCounts`. -/
structure SegState where
  counts : List ℕ
  segments : List ℕ
  last : ℕ
  counter : ℕ

/-- A checked write `(*array)[index] = value`, `freud/util/ManagedArray.h:112-121`. -/
def setChecked (l : List ℕ) (i v : ℕ) : Option (List ℕ) :=
  if i ≥ l.length then none else some (l.set i v)

/-- The loop body of `updateSegmentCounts`, `freud/locality/NeighborList.cc:208-225`, for bond
number `i` with query index `index`. -/
def segStep (s : SegState) (i index : ℕ) : Option SegState :=
  (if index ≠ s.last then
    (setChecked s.segments index i).bind (fun segs =>
      if index > 0 then
        (if s.last ≠ indexTerminator then setChecked s.counts s.last s.counter
          else some s.counts).map (fun c => { s with segments := segs, counts := c, counter := 0 })
      else some { s with segments := segs })
  else some s).map (fun s => { s with last := index, counter := s.counter + 1 })

/-- The loop of `updateSegmentCounts`, `freud/locality/NeighborList.cc:208-225`. -/
def segLoop : SegState → ℕ → List ℕ → Option SegState
  | s, _, [] => some s
  | s, i, index :: rest => (segStep s i index).bind (fun s' => segLoop s' (i + 1) rest)

/-- Lines 203-229 of `freud/locality/NeighborList.cc`: the new `(counts, segments)`. -/
def segCompute (nq : ℕ) (qs : List ℕ) : Option (List ℕ × List ℕ) :=
  (segLoop ⟨List.replicate nq 0, List.replicate nq 0, indexTerminator, 0⟩ 0 qs).bind (fun s =>
    (if s.last ≠ indexTerminator then setChecked s.counts s.last s.counter
      else some s.counts).map (fun c => (c, s.segments)))

variable {K : Type*}

/-- `updateSegmentCounts`, `freud/locality/NeighborList.cc:199-232`. -/
def updateSegmentCounts (n : NList K) : Option (NList K) :=
  if n.segUpdated then some n
  else (segCompute n.numQueryPoints (n.bonds.map (·.q))).map (fun cs =>
    { n with counts := cs.1, segments := cs.2, segUpdated := true })

/-- `bisection_search`, `freud/locality/NeighborList.cc:416-430`; `qs` is the first column of
the neighbors array. -/
def bisectionSearch (qs : List ℕ) (val left right : ℕ) : ℕ :=
  if left + 1 ≥ right then left
  else
    let middle := (left + right) / 2
    if qs.getD middle 0 < val then bisectionSearch qs val middle right
    else bisectionSearch qs val left middle
termination_by right - left
decreasing_by all_goals omega

/-- `find_first_index`, `freud/locality/NeighborList.cc:309-316`. -/
def findFirstIndex (n : NList K) (i : ℕ) : ℕ :=
  let qs := n.bonds.map (·.q)
  if qs.length ≠ 0 then
    bisectionSearch qs i 0 qs.length + (if i > qs.getD 0 0 then 1 else 0)
  else 0

/-- The loop of `filter`, `freud/locality/NeighborList.cc:255-269`: `num_good` is the next free
slot of the new array. -/
def filterLoop : List (Bond K) → List Bool → ℕ → List (Bond K) → List (Bond K)
  | b :: bs, m :: ms, good, arr =>
    if m then filterLoop bs ms (good + 1) (arr.set good b) else filterLoop bs ms good arr
  | _, _, _, arr => arr

/-- `filter`, `freud/locality/NeighborList.cc:239-277`: the new list and the number of removed
bonds. The length of the mask is not checked by the code; with a mask that is too short the
code reads past its end, which is `none` here. Entries past the number of bonds are not read. -/
def filter [Zero K] (n : NList K) (mask : List Bool) : Option (NList K × ℕ) :=
  if mask.length < n.bonds.length then none
  else
    let mask' := mask.take n.bonds.length
    let newSize := mask'.count true
    some ({ n with
        bonds := filterLoop n.bonds mask' 0
          (List.replicate newSize ⟨0, 0, 0, 0, ⟨0, 0, 0⟩⟩)
        segUpdated := false }, n.bonds.length - newSize)

/-- `filter_r`, `freud/locality/NeighborList.cc:286-307`. -/
def filterR [Zero K] [LinearOrder K] (n : NList K) (rMax rMin : K) : Option (NList K × ℕ) :=
  if rMax ≤ 0 then none
  else if rMin < 0 then none
  else if rMax ≤ rMin then none
  else n.filter (n.bonds.map (fun b => decide (b.dist ≥ rMin) && decide (b.dist < rMax)))

/-- `sort`, `freud/locality/NeighborList.cc:371-399`, with the outcome `out` of the parallel
sort; the cache flag is left as it is. -/
def withBonds (n : NList K) (out : List (Bond K)) : NList K := { n with bonds := out }

end NList

/-- The per-point part of `toNeighborList`, `freud/locality/NeighborQuery.h:438-455`: the bonds
found for query point `i` are appended to the vector of the thread. The distance is recomputed
from the vector. -/
noncomputable def collectBonds (found : ℕ → List (Bond ℝ)) (i : ℕ) (acc : List (Bond ℝ)) :
    Option (List (Bond ℝ)) :=
  some (acc ++ (found i).map (fun b => Bond.ofVec b.q b.p b.weight b.vec))

/-- `toNeighborList`, `freud/locality/NeighborQuery.h:434-481`, as a relation: `nl` is a possible
result for the execution `ev` of the loop over query points. -/
def ToNeighborList (found : ℕ → List (Bond ℝ)) (nq np : ℕ) (byDistance : Bool)
    (ev : List (ℕ × ℕ)) (nl : NList ℝ) : Prop :=
  ∃ t : TLS (List (Bond ℝ)), TLS.parallelFor (collectBonds found) ⟨[], []⟩ ev = some t ∧
    ∃ out, Bond.SortedBy (Bond.less byDistance) (t.locals.flatMap (·.2)) out ∧
      nl = ⟨nq, np, out, false, [], []⟩

end Freud
