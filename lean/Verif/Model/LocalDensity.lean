import Verif.Model.NeighborLoop
import Verif.Model.Box

/-!
# Local density

Model of `freud/density/LocalDensity.cc`. `pi` stands for `M_PI`. The two result arrays
`m_num_neighbors_array` and `m_density_array` are one array of pairs.
-/

namespace Freud
variable {K : Type*} [Field K] [LinearOrder K] [IsStrictOrderedRing K] [FloorRing K]

set_option linter.unusedSectionVars false

/-- Data members, `freud/density/LocalDensity.h`. -/
structure LocalDensity (K : Type*) where
  rMax : K
  diameter : K
  results : MArray (K × K)

namespace LocalDensity

/-- The constructor, `freud/density/LocalDensity.cc:25-37`. -/
def new (rMax diameter : K) : Option (LocalDensity K) :=
  if rMax ≤ 0 then none else if diameter < 0 then none
  else some ⟨rMax, diameter, ⟨[], []⟩⟩

/-- What one neighbor adds, `freud/density/LocalDensity.cc:58-71`. -/
def contribution (s : LocalDensity K) (d : K) : K :=
  if d < s.rMax - s.diameter / 2 then 1
  else 1 + (s.rMax - (d + s.diameter / 2)) / s.diameter

/-- The loop over the neighbors of one query point: the running count and what is stored,
`freud/density/LocalDensity.cc:54-83`. Both arrays are written for every neighbor. -/
def point (pi : K) (b : Box K) (s : LocalDensity K) :
    List (Bond K) → K → K × K → K × K
  | [], _, stored => stored
  | nb :: bonds, num, _ =>
    let num' := num + s.contribution nb.dist
    let area := pi * s.rMax * s.rMax
    let volume := 4 / 3 * pi * s.rMax * s.rMax * s.rMax
    point pi b s bonds num' (num', if b.is2D then num' / area else num' / volume)

/-- `compute`, `freud/density/LocalDensity.cc:39-84`, on a given neighbor list. -/
def compute (pi : K) (s : LocalDensity K) (b : Box K) (nQuery : ℕ) (nlist : NList K)
    (order : List ℕ) : Option (LocalDensity K) :=
  (loopOverNeighborsIterator nlist (fun _ bonds x => some (s.point pi b bonds 0 x)) order
    ⟨[nQuery], List.replicate nQuery (0, 0)⟩).map (fun a => { s with results := a })

/-- `default_query_args`, `freud/density.py:511-514`: the radius of the ball query. -/
def defaultRMax (s : LocalDensity K) : K := s.rMax + 1 / 2 * s.diameter

end LocalDensity
end Freud
