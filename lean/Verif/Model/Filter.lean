import Verif.Model.NeighborList

/-!
# Parameter-free neighbor filters

Model of `freud/locality/Filter.h`, `freud/locality/FilterSANN.cc`,
`freud/locality/FilterRAD.cc`, of the constructor `NeighborList(std::vector<NeighborBond>)`, and
of `makeDefaultNlist` for a given neighbor list. The thread-local vectors of bonds follow the
executions of `Verif.Model.Schedule`; sorts are relations. Arithmetic is exact.
-/

namespace Freud

section
variable {K : Type*}

/-- `NeighborList::validate`, `freud/locality/NeighborList.cc:359-369`: `true` if no exception. -/
def NList.validate (n : NList K) (nq np : ℕ) : Bool :=
  if nq ≠ n.numQueryPoints then false
  else if np ≠ n.numPoints then false
  else true

/-- The constructor from a vector of bonds, `freud/locality/NeighborList.cc:130-174`. The sizes
are one more than the largest indices (the maximum of the maxima of the threads, each starting
at 0). For no bonds the range of thread-local maxima is empty and its `max_element` is
dereferenced, which is undefined: `none`. -/
def NList.ofBonds (bonds : List (Bond K)) : Option (NList K) :=
  if bonds = [] then none
  else
    let maxQ := bonds.foldl (fun m b => if m < b.q then b.q else m) 0
    let maxP := bonds.foldl (fun m b => if m < b.p then b.p else m) 0
    some ⟨maxQ + 1, maxP + 1, bonds, false, List.replicate (maxQ + 1) 0,
      List.replicate (maxQ + 1) 0⟩

namespace Filter

/-- The copy of the list after `sort(true)` (with outcome `out`) and `getCounts`,
`freud/locality/FilterSANN.cc:33-40`, `freud/locality/FilterRAD.cc:39-51`. -/
def sortedList (n : NList K) (out : List (Bond K)) : Option (NList K) :=
  ({ n with segUpdated := false }.withBonds out).updateSegmentCounts

/-- The part shared by both filters: the parallel loop over query points, where `point i` gives
the bonds appended by iteration `i` and whether it sets `unfilled_qps[i]`, followed by
`warnAboutUnfilledNeighborShells` (`freud/locality/Filter.h:80-103`), which throws if incomplete
shells are not allowed and otherwise only prints. Cell `i` of `unfilled_qps` is written by
iteration `i` only, so the cells are read off `point`. -/
def collect (point : ℕ → Option (List (Bond K) × Bool)) (nq : ℕ) (allow : Bool)
    (ev : List (ℕ × ℕ)) : Option (List (Bond K)) :=
  (TLS.parallelFor (fun i acc => (point i).map (fun r => acc ++ r.1)) ⟨[], []⟩ ev).bind (fun t =>
    if !allow && (List.range nq).any (fun i => (point i).any (·.2)) then none
    else some (t.locals.flatMap (·.2)))

/-- The common structure of both `compute` functions for a given neighbor list,
`freud/locality/FilterSANN.cc:30-102`, `freud/locality/FilterRAD.cc:36-130`, as a relation: `r`
is a possible `filtered_nlist` (`none` is an exception) for the execution `ev`. `makeDefaultNlist`
only validates a given list, `freud/locality/NeighborComputeFunctional.cc:29-32`. -/
def Run [LinearOrder K] (point : NList K → ℕ → Option (List (Bond K) × Bool)) (n : NList K)
    (nq np : ℕ) (allow : Bool) (ev : List (ℕ × ℕ)) (r : Option (NList K)) : Prop :=
  if n.validate nq np = false then r = none
  else ∃ sorted, Bond.SortedBy (Bond.less true) n.bonds sorted ∧
    match (sortedList n sorted).bind (fun s => collect (point s) s.numQueryPoints allow ev) with
    | none => r = none
    | some l => ∃ out, Bond.SortedBy (Bond.less true) l out ∧ r = NList.ofBonds out

end Filter
end

namespace FilterSANN
variable {K : Type*} [Field K] [LinearOrder K]

/-- The loop over the three closest neighbors, `freud/locality/FilterSANN.cc:63-69`; `row m` is
entry `first_idx + m` of the sorted list. -/
def firstThree (row : ℕ → Option (Bond K)) (num i : ℕ) (m : ℕ) (sum : K) (acc : List (Bond K)) :
    Option (ℕ × K × List (Bond K)) :=
  if m < 3 ∧ m < num then
    (row m).bind (fun b => firstThree row num i (m + 1) (sum + b.dist)
      (acc ++ [⟨i, b.p, b.dist, b.weight, b.vec⟩]))
  else some (m, sum, acc)
termination_by 3 - m
decreasing_by all_goals omega

/-- The `while` loop over the other neighbors, `freud/locality/FilterSANN.cc:72-79`. -/
def others (row : ℕ → Option (Bond K)) (num i : ℕ) (m : ℕ) (sum : K) (acc : List (Bond K)) :
    Option (ℕ × List (Bond K)) :=
  if m < num then
    (row m).bind (fun b =>
      if sum / ((m : K) - 2) > b.dist then
        others row num i (m + 1) (sum + b.dist) (acc ++ [⟨i, b.p, b.dist, b.weight, b.vec⟩])
      else some (m, acc))
  else some (m, acc)
termination_by num - m
decreasing_by all_goals omega

/-- One iteration of the parallel loop, `freud/locality/FilterSANN.cc:55-89`: the bonds added for
query point `i` and whether its shell is incomplete. -/
def point (s : NList K) (i : ℕ) : Option (List (Bond K) × Bool) :=
  let num := s.counts.getD i 0
  let first := s.findFirstIndex i
  let row := fun m => s.bonds[first + m]?
  (firstThree row num i 0 0 []).bind (fun r =>
    (others row num i r.1 r.2.1 r.2.2).map (fun r' => (r'.2, decide (r'.1 = num))))

/-- `FilterSANN::compute` for a given neighbor list, `freud/locality/FilterSANN.cc:22-103`. -/
def Compute (n : NList K) (nq np : ℕ) (allow : Bool) (ev : List (ℕ × ℕ)) (r : Option (NList K)) :
    Prop :=
  Filter.Run point n nq np allow ev r

end FilterSANN

namespace FilterRAD
variable {K : Type*} [Field K] [LinearOrder K] [FloorRing K]

/-- The test whether neighbor `bk` blocks neighbor `bj`, `freud/locality/FilterRAD.cc:76-86`. -/
def blocks (box : Box K) (qp : Vec3 K) (pt : ℕ → Vec3 K) (radius : ℕ → K) (bj bk : Bond K) :
    Bool :=
  let v1 := box.wrap (qp - pt bj.p)
  let v2 := box.wrap (qp - pt bk.p)
  let rj2 := radius bj.p * radius bj.p
  let rk2 := radius bk.p * radius bk.p
  decide (rj2 * v2.dot v2 * bj.dist * bk.dist < rk2 * v1.dot v2 * v1.dot v1)

/-- The loop over `k < j`, `freud/locality/FilterRAD.cc:74-91`; `test k` says whether neighbor
`k` blocks. The result is `good_neighbor`. -/
def unblocked (test : ℕ → Option Bool) (j k : ℕ) : Option Bool :=
  if k < j then (test k).bind (fun b => if b then some false else unblocked test j (k + 1))
  else some true
termination_by j - k
decreasing_by all_goals omega

/-- The loop over the candidates `j`, `freud/locality/FilterRAD.cc:67-104`, with the collected
bonds `acc` and the last value of `good_neighbor`. -/
def candidates (good : ℕ → Option Bool) (bond : ℕ → Option (Bond K)) (closed : Bool) (num : ℕ)
    (j : ℕ) (acc : List (Bond K)) (last : Bool) : Option (List (Bond K) × Bool) :=
  if j < num then
    (good j).bind (fun g =>
      if g then (bond j).bind (fun b => candidates good bond closed num (j + 1) (acc ++ [b]) g)
      else if closed then some (acc, g)
      else candidates good bond closed num (j + 1) acc g)
  else some (acc, last)
termination_by num - j
decreasing_by all_goals omega

/-- One iteration of the parallel loop, `freud/locality/FilterRAD.cc:60-118`. -/
def point (box : Box K) (qpt pt : ℕ → Vec3 K) (radius : ℕ → K) (closed : Bool) (s : NList K)
    (i : ℕ) : Option (List (Bond K) × Bool) :=
  let num := s.counts.getD i 0
  let first := s.findFirstIndex i
  let row := fun m => s.bonds[first + m]?
  let test := fun j k => (row j).bind (fun bj => (row k).map (blocks box (qpt i) pt radius bj))
  let bond := fun j => (row j).map (fun b => ⟨i, b.p, b.dist, 1, box.wrap (qpt i - pt b.p)⟩)
  (candidates (fun j => unblocked (test j) j 0) bond closed num 0 [] true).map (fun r =>
    (r.1, r.2 && closed))

/-- `FilterRAD::compute` for a given neighbor list, `freud/locality/FilterRAD.cc:22-131`.
`radius` are the radii of the points (1 by default, `freud/locality.py:1466-1477`;
`query_points_radii` is not used); `closed` is `terminate_after_blocked`. Indices in a validated
list are in range, so the point arrays are total functions. -/
def Compute (box : Box K) (qpt pt : ℕ → Vec3 K) (radius : ℕ → K) (closed : Bool) (n : NList K)
    (nq np : ℕ) (allow : Bool) (ev : List (ℕ × ℕ)) (r : Option (NList K)) : Prop :=
  Filter.Run (point box qpt pt radius closed) n nq np allow ev r

end FilterRAD
end Freud
