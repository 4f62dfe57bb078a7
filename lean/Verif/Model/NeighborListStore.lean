import Verif.Model.NeighborList

/-!
# Neighbor list objects sharing memory

`NeighborList` holds its arrays through shared pointers. `sort` writes into the arrays it has,
`filter`, `resize` and `copy` allocate new ones. This file models a set of neighbor list
objects with a heap of bond arrays, so that independence of copies is a statement about
addresses. The counts and segments arrays are never written after they are filled (they are
replaced), so they are values.
-/

namespace Freud

/-- A `NeighborList` object, `freud/locality/NeighborList.h:139-157`; `addr` stands for the four
bond arrays. -/
structure NLObj where
  numQueryPoints : ℕ
  numPoints : ℕ
  addr : ℕ
  segUpdated : Bool
  counts : List ℕ
  segments : List ℕ
deriving DecidableEq

/-- The heap of bond arrays and the objects. -/
structure NLStore (K : Type*) where
  heap : List (List (Bond K))
  objs : List NLObj

namespace NLStore
variable {K : Type*}

/-- What the object shows. -/
def view (s : NLStore K) (o : NLObj) : NList K :=
  ⟨o.numQueryPoints, o.numPoints, s.heap.getD o.addr [], o.segUpdated, o.counts, o.segments⟩

/-- The list object number `i`, if there is one. -/
def viewAt (s : NLStore K) (i : ℕ) : Option (NList K) := (s.objs[i]?).map s.view

/-- Operations. A sort carries the outcome of the unstable parallel sort. -/
inductive Op (K : Type*)
  | filter (i : ℕ) (mask : List Bool)
  | filterR (i : ℕ) (rMax rMin : K)
  | sort (i : ℕ) (byDistance : Bool) (out : List (Bond K))
  | copyInto (dst src : ℕ)
  | newCopy (src : ℕ)
  | segments (i : ℕ)
  | counts (i : ℕ)

/-- What an operation gives back. -/
inductive Out
  | nothing
  | removed (n : ℕ)
  | array (l : List ℕ)
  | raised
deriving DecidableEq

/-- The end of `filter`, `freud/locality/NeighborList.cc:271-276`: the object points to freshly
allocated arrays. -/
def putNew (s : NLStore K) (i : ℕ) (n : NList K) : NLStore K :=
  ⟨s.heap ++ [n.bonds],
    s.objs.set i ⟨n.numQueryPoints, n.numPoints, s.heap.length, n.segUpdated, n.counts, n.segments⟩⟩

/-- One operation on object `o` found at `i`. -/
def filterAt [Zero K] (s : NLStore K) (i : ℕ) (o : NLObj) (mask : List Bool) :
    Option (NLStore K × Out) :=
  ((s.view o).filter mask).map (fun p => (s.putNew i p.1, .removed p.2))

/-- `copy`, `freud/locality/NeighborList.cc:346-357`: all arrays are deep copies. -/
def copyObj (s : NLStore K) (o : NLObj) : NLStore K × NLObj :=
  (⟨s.heap ++ [s.heap.getD o.addr []], s.objs⟩, { o with addr := s.heap.length })

/-- `getSegments`, `getCounts`, `freud/locality/NeighborList.h:86-96`. -/
def readAt (s : NLStore K) (i : ℕ) (o : NLObj) (f : NList K → List ℕ) :
    Option (NLStore K × Out) :=
  ((s.view o).updateSegmentCounts).map (fun n =>
    (⟨s.heap, s.objs.set i ⟨o.numQueryPoints, o.numPoints, o.addr, n.segUpdated, n.counts,
      n.segments⟩⟩, .array (f n)))

/-- One step; `none` is undefined behaviour (no such object, mask too short, index out of range).
An invalid `filter_r` raises and changes nothing, `freud/locality/NeighborList.cc:288-299`. The
`sort` writes into the arrays in place and does not touch the cache flag,
`freud/locality/NeighborList.cc:371-399`. -/
def step [Zero K] [LinearOrder K] (s : NLStore K) : Op K → Option (NLStore K × Out)
  | .filter i mask => (s.objs[i]?).bind (fun o => s.filterAt i o mask)
  | .filterR i rMax rMin => (s.objs[i]?).bind (fun o =>
      match (s.view o).filterR rMax rMin with
      | none => some (s, .raised)
      | some p => some (s.putNew i p.1, .removed p.2))
  | .sort i _ out => (s.objs[i]?).map (fun o =>
      ({ s with heap := s.heap.set o.addr out }, .nothing))
  | .copyInto dst src => (s.objs[src]?).bind (fun o => (s.objs[dst]?).map (fun _ =>
      let p := s.copyObj o
      ({ p.1 with objs := p.1.objs.set dst p.2 }, .nothing)))
  | .newCopy src => (s.objs[src]?).map (fun o =>
      let p := s.copyObj o
      ({ p.1 with objs := p.1.objs ++ [p.2] }, .nothing))
  | .segments i => (s.objs[i]?).bind (fun o => s.readAt i o (·.segments))
  | .counts i => (s.objs[i]?).bind (fun o => s.readAt i o (·.counts))

/-- A history. -/
def run [Zero K] [LinearOrder K] (s : NLStore K) : List (Op K) → Option (NLStore K)
  | [] => some s
  | o :: os => (s.step o).bind (fun p => run p.1 os)

end NLStore
end Freud
