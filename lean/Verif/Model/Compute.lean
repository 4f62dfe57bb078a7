import Verif.Model.RDF
import Verif.Model.Cluster

/-!
# The compute protocol (freud/util.py:9-76)

Every compute class keeps its results in the object and guards its properties with the flag
`_called_compute`.  A `compute` method is modelled as the sequence of its statements: each may change
the results and may raise.  The order of the statements is what decides what a failed call leaves
behind.
-/

namespace Freud.Compute

/-- A statement of a `compute` body with arguments `A` acting on the results `R`: an action (the Boolean
says whether it raises), or the assignment `self._called_compute = True`. -/
inductive Step (A R : Type*) where
  | act (f : A → R → R × Bool)
  | flag

/-- A statement that only validates its arguments. -/
def check {A R : Type*} (ok : A → Bool) : Step A R := .act (fun a r => (r, !ok a))

/-- A statement that cannot raise. -/
def update {A R : Type*} (f : A → R → R) : Step A R := .act (fun a r => (f a r, false))

/-- A compute object.  `called` is `_called_compute`; classes whose `__init__` does not call the parent's
do not have the attribute before the first `compute` (freud/util.py:36-37), which raises the same
`AttributeError` when it is read (freud/util.py:56, 75), so both are `false`. -/
structure Obj (R : Type*) where
  called : Bool
  res : R

/-- Runs the statements up to the first one that raises. -/
def body {A R : Type*} : List (Step A R) → A → Obj R → Obj R × Bool
  | [], _, o => (o, false)
  | .act f :: l, a, o =>
    let r := f a o.res
    if r.2 then ({ o with res := r.1 }, true) else body l a { o with res := r.1 }
  | .flag :: l, a, o => body l a { o with called := true }

/-- `obj.compute(...)`: the wrapper of `__getattribute__` sets the flag after the method returned
(freud/util.py:39-53).  The Boolean says whether the call raised. -/
def compute {A R : Type*} (steps : List (Step A R)) (a : A) (o : Obj R) : Obj R × Bool :=
  let r := body steps a o
  if r.2 then r else ({ r.1 with called := true }, false)

/-- What reading a property or looking up `plot` can do. -/
inductive Outcome (V : Type*) where
  | attributeError
  | value (v : V)
  deriving DecidableEq

/-- Reading a computed property (freud/util.py:62-79): the guard, then the getter.  The getter may also
change the object (lazy reduction). -/
def read {R V : Type*} (get : R → R × V) (o : Obj R) : Obj R × Outcome V :=
  if o.called then ({ o with res := (get o.res).1 }, .value (get o.res).2) else (o, .attributeError)

/-- Looking up `plot` (freud/util.py:54-58). -/
def plot {R V : Type*} (draw : R → V) (o : Obj R) : Outcome V :=
  if o.called then .value (draw o.res) else .attributeError

/-- What a user does with an object: compute, or read. -/
inductive Op (A : Type*) where
  | compute (a : A)
  | read

/-- A history of operations, with the exceptions caught by the caller; also returns, newest last, for each
`compute` whether it raised. -/
def run {A R V : Type*} (steps : List (Step A R)) (get : R → R × V) :
    List (Op A) → Obj R → Obj R × List Bool
  | [], o => (o, [])
  | .compute a :: ops, o =>
    let c := compute steps a o
    let r := run steps get ops c.1
    (r.1, c.2 :: r.2)
  | .read :: ops, o => run steps get ops (read get o).1

/-- A new object. -/
def new {R : Type*} (r : R) : Obj R := ⟨false, r⟩

/-! ### The bodies of the classes -/

/-- Classes that convert and check everything first and whose C++ part then cannot raise: Nematic and
Cubatic (freud/order.py:63-95, 166-200), RotationalAutocorrelation (852-880), AngularSeparationGlobal
(freud/environment.py), ClusterProperties (freud/cluster.py), PeriodicBuffer
(freud/locality/PeriodicBuffer.cc:26-38 checks before it changes anything). -/
def validateFirst {A R : Type*} (ok : A → Bool) (f : A → R → R) : List (Step A R) :=
  [check ok, update f]

/-- The results of an RDF object. -/
abbrev RDFRes (K : Type*) := HistCompute K NormalizationMode (FrameInfo K) (List K × List K)

/-- Arguments of `RDF.compute` (freud/density.py:614): `pyOk` says that the arguments are converted without
an exception, `cppOk` that the neighbor query does not raise (for instance because `r_max` is too
large for the box). -/
structure RDFArg (K : Type*) where
  reset : Bool
  pyOk : Bool
  cppOk : Bool
  info : FrameInfo K
  n : ℕ
  dists : ℕ → List K
  ev : List (ℕ × ℕ)

section
variable {K : Type*} [Field K] [LinearOrder K] [IsStrictOrderedRing K] [FloorRing K]

/-- `self._reset()` (freud/density.py:637-638). -/
def rdfReset (pi : K) (ax : RegularAxis K) (o : RDFRes K) : RDFRes K :=
  (o.step (RDF.fill pi ax) (RDF.zero ax) .reset).getD o

/-- `m_box = neighbor_query->getBox()` (freud/locality/BondHistogramCompute.h:122). -/
def rdfSetBox (b : Box K) (o : RDFRes K) : RDFRes K := { o with info := { o.info with box := b } }

/-- `RDF.compute` (freud/density.py:637-647) with `accumulateGeneral`
(freud/locality/BondHistogramCompute.h:116-128): reset; convert the arguments; remember the box; loop;
count the frame.  A query that raises does so for the first point, before any bond is counted. -/
def rdfBody (pi : K) (ax : RegularAxis K) : List (Step (RDFArg K) (RDFRes K)) :=
  [ update (fun a o => if a.reset then rdfReset pi ax o else o),
    check (fun a => a.pyOk),
    update (fun a o => rdfSetBox a.info.box o),
    check (fun a => a.cppOk),
    .act (fun a o =>
      match o.step (RDF.fill pi ax) (RDF.zero ax) (RDF.frame a.info a.n a.dists a.ev) with
      | some o' => (o', false)
      | none => (o, true)) ]

/-- `rdf` (freud/density.py:649-653): reduce if needed, and the array. -/
def rdfGet (pi : K) (ax : RegularAxis K) (order : List ℕ) (o : RDFRes K) : RDFRes K × List K :=
  let o' := (o.refresh (RDF.fill pi ax) order).getD o
  (o', o'.out.1)

end

/-- Arguments of `Cluster.compute` (freud/cluster.py): whether the conversions succeed, the number of
points, whether the neighbor query returns, and the labels that the rest of the method finds. -/
structure ClusterArg where
  pyOk : Bool
  n : ℕ
  cppOk : Bool
  result : Cluster.Result

/-- `Cluster.compute` (freud/cluster.py; freud/cluster/Cluster.cc:21-97): the new array of labels is put
in place (line 26) before the loop over neighbors (lines 29-38), which may raise. -/
def clusterBody : List (Step ClusterArg Cluster.Result) :=
  [ check (fun a => a.pyOk),
    update (fun a o => { o with clusterIdx := List.replicate a.n 0 }),
    check (fun a => a.cppOk),
    update (fun a _ => a.result) ]

end Freud.Compute
