import Verif.Model.HistCompute
import Verif.Model.NeighborListStore

/-!
# Arrays a user keeps

The arrays shown by the properties of a compute object are views of memory the object holds through
a shared pointer (`freud/util/export-ManagedArray.h:20-30`), so they can change after the user got
them. This file models the memory: objects point to arrays, reads fill them in place.
-/

namespace Freud
variable {K : Type*} [Field K] [LinearOrder K] [IsStrictOrderedRing K] [FloorRing K]
variable {C F R : Type*}

set_option linter.unusedSectionVars false

/-- Objects of a class derived from `BondHistogramCompute`, each with the address of its arrays, and
the memory. One cell holds the arrays of one object: the bin counts
(`freud/util/Histogram.h:479`) and the results of the derived class (for example
`freud/density/RDF.h:71-73`). An object that was deleted is `none`. -/
structure ArrayStore (K C F R : Type*) where
  memory : List (List ℕ × R)
  objs : List (Option (HistCompute K C F R × ℕ))

namespace ArrayStore

/-- What the arrays of an object hold. -/
def contents (o : HistCompute K C F R) : List ℕ × R := (o.bhc.histogram.counts.data, o.out)

/-- What a user does: make an object, use one of them, delete one of them. -/
inductive Op (K C F : Type*)
  | make (axes : List (RegularAxis K)) (cfg : C) (info : F)
  | use (i : ℕ) (op : HistCompute.Op K C F)
  | delete (i : ℕ)

/-- The constructor allocates the arrays (`freud/util/Histogram.h:289-295`,
`freud/density/RDF.cc:44-49`). -/
def make (zero : R) (s : ArrayStore K C F R) (axes : List (RegularAxis K)) (cfg : C) (info : F) :
    ArrayStore K C F R :=
  let o : HistCompute K C F R := HistCompute.new axes cfg info zero
  ⟨s.memory ++ [contents o], s.objs ++ [some (o, s.memory.length)]⟩

/-- `reset` allocates new arrays and leaves the old ones alone
(`freud/locality/BondHistogramCompute.h:39-49`, `freud/density/RDF.cc:66-71`,
`freud/pmft/PMFT.h:43-50`, `freud/environment/BondOrder.cc:79-83`); a read writes into the arrays of
the object (`freud/util/Histogram.h:262-274, 434-443`, `freud/density/RDF.cc:73-99`); a frame goes
to the thread-local histograms. -/
def use (fill : C → F → ℕ → List ℕ → R) (zero : R) (s : ArrayStore K C F R) (i : ℕ)
    (o : HistCompute K C F R) (addr : ℕ) (op : HistCompute.Op K C F) :
    Option (ArrayStore K C F R) :=
  (o.step fill zero op).map (fun o' =>
    match op with
    | .reset => ⟨s.memory ++ [contents o'], s.objs.set i (some (o', s.memory.length))⟩
    | .read _ => ⟨s.memory.set addr (contents o'), s.objs.set i (some (o', addr))⟩
    | _ => ⟨s.memory, s.objs.set i (some (o', addr))⟩)

/-- One step; `none` if there is no such object or the operation is undefined. Deleting an object
drops its pointers; an array a user holds keeps the memory alive
(`freud/util/export-ManagedArray.h:20-30`: the owner of the view is the array object). -/
def step (fill : C → F → ℕ → List ℕ → R) (zero : R) (s : ArrayStore K C F R) :
    Op K C F → Option (ArrayStore K C F R)
  | .make axes cfg info => some (s.make zero axes cfg info)
  | .use i op => (s.objs[i]?.join).bind (fun p => s.use fill zero i p.1 p.2 op)
  | .delete i => (s.objs[i]?.join).map (fun _ => { s with objs := s.objs.set i none })

/-- A history. -/
def run (fill : C → F → ℕ → List ℕ → R) (zero : R) (s : ArrayStore K C F R) :
    List (Op K C F) → Option (ArrayStore K C F R)
  | [] => some s
  | o :: os => (s.step fill zero o).bind (fun s' => run fill zero s' os)

/-- Before anything was made. -/
def empty : ArrayStore K C F R := ⟨[], []⟩

end ArrayStore

end Freud

namespace Freud
variable {K : Type*}

/-- Neighbor list objects of which some belong to a `Voronoi` object. -/
inductive ListOp (K : Type*)
  | list (op : NLStore.Op K)
  /-- `Voronoi.compute` with these bonds, on the list number `i` -/
  | voronoi (i : ℕ) (result : NList K)

/-- One step on neighbor lists. `Voronoi::compute` fills the one list object of the `Voronoi` object
(`freud/locality/Voronoi.cc:211-221`), which is the object `Voronoi.nlist` gave to the user
(`freud/locality.py:1213-1218`, `freud/locality/Voronoi.h:25-28`): `resize` and `setNumBonds` replace the
arrays (`freud/locality/NeighborList.cc:191-197, 318-344`), the object stays. -/
def NLStore.listStep [Zero K] [LinearOrder K] (s : NLStore K) : ListOp K → Option (NLStore K)
  | .list op => (s.step op).map (·.1)
  | .voronoi i n => (s.objs[i]?).map (fun _ => s.putNew i n)

/-- A history. -/
def NLStore.listRun [Zero K] [LinearOrder K] (s : NLStore K) : List (ListOp K) → Option (NLStore K)
  | [] => some s
  | o :: os => (s.listStep o).bind (fun s' => NLStore.listRun s' os)

end Freud
