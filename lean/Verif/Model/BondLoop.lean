import Verif.Model.NeighborList

/-!
# The loop over the bonds of a block of points

`AngularSeparationNeighbor` and `LocalBondProjection` fill an array with one row
per bond by the same loop: `forLoopWrapper` (freud/util/utils.h:55-66) hands blocks of consecutive
point indices to the threads, and each block walks through the neighbor list with a bond cursor
that starts at `find_first_index(begin)`.

Arrays are functions of the bond index (the loop only writes indices below the number of bonds); rows
of different bonds do not overlap, so the blocks are executed one after the other, in any order.
-/

namespace Freud.BondLoop

variable {K : Type*} {V : Type*}

/-- `for (; bond < tot_num_neigh && neighbors(bond, 0) == i; ++bond) array[bond] = f(i, bond)`
(freud/environment/AngularSeparation.cc:82-90, LocalBondProjection.cc:81-104).  `none` is a read
outside an array in `f`. -/
def inner (n : NList K) (f : ℕ → Bond K → Option V) (i bond : ℕ) (arr : ℕ → V) :
    Option (ℕ × (ℕ → V)) :=
  if h : bond < n.bonds.length then
    if n.bonds[bond].q = i then
      (f i n.bonds[bond]).bind fun v => inner n f i (bond + 1) (Function.update arr bond v)
    else some (bond, arr)
  else some (bond, arr)
termination_by n.bonds.length - bond

/-- `for (size_t i = begin; i < end; ++i)` with the cursor carried along
(AngularSeparation.cc:77-92). -/
def points (n : NList K) (f : ℕ → Bond K → Option V) : List ℕ → ℕ → (ℕ → V) → Option (ℕ × (ℕ → V))
  | [], bond, arr => some (bond, arr)
  | i :: is, bond, arr => (inner n f i bond arr).bind fun r => points n f is r.1 r.2

/-- The body for one block (AngularSeparation.cc:76-93): the cursor starts at
`find_first_index(begin)`. -/
def block (n : NList K) (f : ℕ → Bond K → Option V) (be : ℕ × ℕ) (arr : ℕ → V) : Option (ℕ → V) :=
  (points n f (List.range' be.1 (be.2 - be.1)) (n.findFirstIndex be.1) arr).map (·.2)

/-- All blocks, in the order in which they are executed. -/
def run (n : NList K) (f : ℕ → Bond K → Option V) : List (ℕ × ℕ) → (ℕ → V) → Option (ℕ → V)
  | [], arr => some arr
  | be :: bs, arr => (block n f be arr).bind (run n f bs)

end Freud.BondLoop
