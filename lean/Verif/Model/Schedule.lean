import Verif.Model.Histogram

/-!
# Parallel loops, thread-local accumulation and accumulation histories

Model of `freud/util/utils.h` (`forLoopWrapper`), `freud/util/ThreadStorage.h`,
`ThreadLocalHistogram` in `freud/util/Histogram.h`, and
`freud/locality/BondHistogramCompute.h`.

An execution of a parallel loop is a list of events `(thread, index)` in the order in which
the iterations complete. Any partition of the range into blocks, any assignment of blocks to
threads and any interleaving of threads gives such a list, and its indices are a permutation
of the index range (`Spec.IsExecution`). One iteration is one step: an iteration touches
only the storage of its own thread, so finer interleavings reach the same states.
-/

namespace Freud

/-- An execution of a parallel loop over `0..n-1`: every index is run exactly once, on any
thread, in any order. `forLoopWrapper(0, n, body, parallel)`, `freud/util/utils.h:55-66`
(with `parallel = false` the execution is `(0,0), (0,1), ...`). -/
def Spec.IsExecution (n : ℕ) (ev : List (ℕ × ℕ)) : Prop :=
  (ev.map (·.2)).Perm (List.range n)

/-- `tbb::enumerable_thread_specific` as used in `freud/util/ThreadStorage.h:33-134` and
`freud/util/Histogram.h:207-283`: the values that exist, one per thread that has asked for
one; new ones are copies of `exemplar`. -/
structure TLS (σ : Type*) where
  exemplar : σ
  locals : List (ℕ × σ)

namespace TLS
variable {σ : Type*}

/-- `local()` followed by an operation on the returned reference: find the value of the
thread or append a copy of the exemplar, `freud/util/ThreadStorage.h:93-96`. -/
def upd (ex : σ) (g : σ → Option σ) (tid : ℕ) : List (ℕ × σ) → Option (List (ℕ × σ))
  | [] => (g ex).map (fun s => [(tid, s)])
  | (t, s) :: rest =>
    if t = tid then (g s).map (fun s' => (t, s') :: rest)
    else (upd ex g tid rest).map ((t, s) :: ·)

/-- One step of a parallel loop: the iteration `e.2` runs on thread `e.1`. -/
def step (body : ℕ → σ → Option σ) (t : TLS σ) (e : ℕ × ℕ) : Option (TLS σ) :=
  (upd t.exemplar (body e.2) e.1 t.locals).map (fun l => { t with locals := l })

/-- A parallel loop over an execution, `freud/util/utils.h:55-66`. -/
def parallelFor (body : ℕ → σ → Option σ) (t : TLS σ) (ev : List (ℕ × ℕ)) : Option (TLS σ) :=
  ev.foldlM (step body) t

/-- `reset` of every existing local value, `freud/util/ThreadStorage.h:61-67`,
`freud/util/Histogram.h:245-251`. -/
def resetWith (r : σ → σ) (t : TLS σ) : TLS σ :=
  { t with locals := t.locals.map (fun p => (p.1, r p.2)) }

end TLS

section reduce
variable {T : Type*} [AddCommMonoid T]

/-- The inner loop of both `reduceInto` functions for one cell,
`freud/util/Histogram.h:272-276`, `freud/util/ThreadStorage.h:112-116`. -/
def addLocals (locals : List (MArray T)) (i : ℕ) (r : MArray T) : Option (MArray T) :=
  locals.foldlM (fun r l =>
    (l.get? i).bind (fun x => (r.get? i).bind (fun y => r.set? i (y + x)))) r

/-- The parallel loop over cells of both `reduceInto` functions; `order` is the order in which
the cells are processed. -/
def reduceCells (locals : List (MArray T)) (order : List ℕ) (r : MArray T) : Option (MArray T) :=
  order.foldlM (fun r i => addLocals locals i r) r

/-- `ThreadStorage::reduceInto`, `freud/util/ThreadStorage.h:98-120`: the result is reset when
no local exists, otherwise the locals are added to what it holds. -/
def storageReduceInto (t : TLS (MArray T)) (order : List ℕ) (result : MArray T) :
    Option (MArray T) :=
  if t.locals = [] then some result.reset
  else reduceCells (t.locals.map (·.2)) order result

/-- One iteration of a loop that adds weights to cells of the thread's array, such as
`freud/order/Nematic.cc:57-82`, `freud/density/GaussianDensity.cc:96-165` (cell number,
weight). -/
def addCells (cells : List (ℕ × T)) (a : MArray T) : Option (MArray T) :=
  cells.foldlM (fun a c => (a.get? c.1).bind (fun y => a.set? c.1 (y + c.2))) a

variable {K : Type*} [Field K] [LinearOrder K] [IsStrictOrderedRing K] [FloorRing K]

/-- `ThreadLocalHistogram::reduceInto`, `freud/util/Histogram.h:266-278`. -/
def histReduceInto (t : TLS (Histogram K T)) (order : List ℕ) (result : MArray T) :
    Option (MArray T) :=
  reduceCells (t.locals.map (·.2.counts)) order result.reset

/-- `BondHistogramCompute`, data members, `freud/locality/BondHistogramCompute.h:128-137`
(the box and the numbers of points, which do not affect the counts, are left out; they are
part of the models of the normalised results). -/
structure BHC (K T : Type*) where
  histogram : Histogram K T
  locals : TLS (Histogram K T)
  frameCounter : ℕ
  needReduce : Bool

namespace BHC

/-- A freshly constructed compute object (for example `freud/density/RDF.cc:45-47` with the
initialisers of `freud/locality/BondHistogramCompute.h:130-133`). The thread-local histograms
are copies of the empty histogram, `freud/util/Histogram.h:209-216`. -/
def new (axes : List (RegularAxis K)) : BHC K T :=
  ⟨Histogram.mk' axes, ⟨Histogram.mk' axes, []⟩, 0, true⟩

/-- `reset`, `freud/locality/BondHistogramCompute.h:39-49`. -/
def reset (s : BHC K T) : BHC K T :=
  { histogram := Histogram.mk' s.histogram.axes
    locals := s.locals.resetWith Histogram.reset
    frameCounter := 0
    needReduce := true }

/-- `accumulateGeneral`, `freud/locality/BondHistogramCompute.h:116-126`: `samples i` are the
histogram samples made for the bonds of query point `i`. -/
def accumulate (s : BHC K T) (samples : ℕ → List (List K × T)) (ev : List (ℕ × ℕ)) :
    Option (BHC K T) :=
  (s.locals.parallelFor (fun i h => h.addAll (samples i)) ev).map (fun l =>
    { s with locals := l, frameCounter := s.frameCounter + 1, needReduce := true })

/-- `reduceAndReturn(m_histogram.getBinCounts())` with a `reduce` that calls
`reduceOverThreads`, `freud/locality/BondHistogramCompute.h:61-75`,
`freud/util/Histogram.h:434-458`. The array returned is the one that is filled in place. -/
def getBinCounts (s : BHC K T) (order : List ℕ) : Option (BHC K T × MArray T) :=
  if s.needReduce then
    (histReduceInto s.locals order s.histogram.counts).map (fun c =>
      ({ s with histogram := { s.histogram with counts := c }, needReduce := false }, c))
  else some (s, s.histogram.counts)

/-- What a user does with the object: `reset`, one more frame, or a read of the counts.
`compute(reset=True)` is `reset` followed by `frame`, `compute(reset=False)` is `frame`
(`freud/density.py:637-646`). -/
inductive Op (K T : Type*)
  | reset
  | frame (n : ℕ) (samples : ℕ → List (List K × T)) (ev : List (ℕ × ℕ))
  | read (order : List ℕ)

/-- One operation; the second component is the value returned by a read. -/
def step (s : BHC K T) : Op K T → Option (BHC K T × Option (MArray T))
  | .reset => some (s.reset, none)
  | .frame _ f ev => (s.accumulate f ev).map (fun s' => (s', none))
  | .read order => (s.getBinCounts order).map (fun p => (p.1, some p.2))

/-- A history of operations. -/
def run (s : BHC K T) : List (Op K T) → Option (BHC K T)
  | [] => some s
  | o :: os => (s.step o).bind (fun p => run p.1 os)

end BHC
end reduce
end Freud
