import Verif.Model.LinkCell
import Verif.Model.CellQuery
import Verif.Model.BallQuery
import Verif.Model.RDF

/-!
# Where a computation gets its bonds from

Model of what `query` returns for the query engines (`freud/locality/NeighborQuery.h`,
`freud/locality/RawPoints.h`, `freud/locality.py`) and of `loopOverNeighbors` in
`freud/locality/NeighborComputeFunctional.h`, for ball queries.
-/

namespace Freud

/-- The state of a per-point iterator of a query engine, seen from outside
(`freud/locality/NeighborQuery.h:318-352`): the bonds it has still to return, as computed by the
model of the engine, and `m_finished`. -/
structure QIter where
  rest : List (Bond ℝ)
  finished : Bool

/-- `next`: the next bond, or the terminator (`none`), which sets `m_finished`. All engines end with
`m_finished = true; return ITERATOR_TERMINATOR;` and set it nowhere else in `next`
(`freud/locality/AABBQuery.cc:148-149, 266-280`, `freud/locality/LinkCell.cc:571-572, 666-678`,
`freud/locality/CellIterator.h:78-95`). -/
def QIter.next (it : QIter) : Option (Bond ℝ) × QIter :=
  match it.rest with
  | [] => (none, ⟨[], true⟩)
  | b :: r => (some b, ⟨r, it.finished⟩)

/-- `nb = it->next(); while (!it->end()) { cf(nb); nb = it->next(); }`,
`freud/locality/NeighborComputeFunctional.h:207-213`, from the state where `nb` has been read: the
bonds given to `cf`. The fuel bounds the number of rounds. -/
def QIter.forLoop : ℕ → Option (Bond ℝ) → QIter → Option (List (Bond ℝ))
  | 0, _, _ => none
  | fuel + 1, nb, it =>
    if it.finished then some []
    else (forLoop fuel it.next.1 it.next.2).map (nb.toList ++ ·)

/-- `while (!it->end()) { nb = it->next(); if (nb != ITERATOR_TERMINATOR) add(nb); }`, the loop of
`toNeighborList`, `freud/locality/NeighborQuery.h:443-454`. -/
def QIter.whileLoop : ℕ → QIter → Option (List (Bond ℝ))
  | 0, _ => none
  | fuel + 1, it =>
    if it.finished then some []
    else (whileLoop fuel it.next.2).map (it.next.1.toList ++ ·)

/-- `NeighborQueryIterator`, `freud/locality/NeighborQuery.h:484-490`; `found i` are the bonds that
`this->query(i)` will return. -/
structure QResult where
  found : ℕ → List (Bond ℝ)
  nq : ℕ
  curP : ℕ
  iter : QIter
  finished : Bool

namespace QResult

/-- The constructor, `freud/locality/NeighborQuery.h:367-373`. It makes the iterator of query point
0, so with no query points it reads past the end of their array, which is `none`. -/
def new (found : ℕ → List (Bond ℝ)) (nq : ℕ) : Option QResult :=
  if 0 < nq then some ⟨found, nq, 0, ⟨found 0, false⟩, false⟩ else none

/-- The loop `while (true)` of `next`, `freud/locality/NeighborQuery.h:399-416`: the inner loop
returns at the first call of the per-point iterator that gives a bond; if it gives the terminator it
is at its end. The fuel bounds the number of query points visited. -/
def seek : ℕ → QResult → Option (Bond ℝ) × QResult
  | 0, r => (none, { r with finished := true })
  | fuel + 1, r =>
    let n := if r.iter.finished then (none, r.iter) else r.iter.next
    match n.1 with
    | some b => (some b, { r with iter := n.2 })
    | none =>
      if r.curP + 1 ≥ r.nq then (none, { r with iter := n.2, curP := r.curP + 1, finished := true })
      else seek fuel { r with curP := r.curP + 1, iter := ⟨r.found (r.curP + 1), false⟩ }

/-- `next`, `freud/locality/NeighborQuery.h:391-419`. -/
def next (r : QResult) : Option (Bond ℝ) × QResult :=
  if r.finished then (none, r) else seek (r.nq - r.curP) r

/-- The generator `NeighborQueryResult.__iter__`, `freud/locality.py:201-211`: calls of `next` until
the terminator. -/
def pyLoop : ℕ → QResult → Option (List (Bond ℝ))
  | 0, _ => none
  | fuel + 1, r =>
    match r.next.1 with
    | none => some []
    | some b => (pyLoop fuel r.next.2).map (b :: ·)

end QResult

/-- A system as a compute class or a user queries it: a `(box, points)` pair, which becomes a
`_RawPoints` object (`freud/locality.py:347-352`), or an object of one of the engines. -/
inductive System
  | raw (aq : AABBQuery)
  | aabb (aq : AABBQuery)
  | linkCell (lc : LinkCell)
  | cell (o : CellQuery)

/-- The ball query `query(qpts, …)` succeeds and its iterator for query point `i` at `q` returns the
bonds `out`: `freud/locality/RawPoints.h:49-77` and `freud/locality/NeighborQuery.h:128-142` with the
`querySingle` of the engine. -/
def System.Single : System → List (Vec3 ℝ) → ℝ → ℝ → Bool → ℕ → Vec3 ℝ → List (Bond ℝ) → Prop
  | .raw aq, _, rMax, rMin, excl, i, q, out => aq.ballSingle q i rMax rMin excl = some out
  | .aabb aq, _, rMax, rMin, excl, i, q, out => aq.ball q i rMax rMin excl = some out
  | .linkCell lc, _, rMax, rMin, excl, i, q, out => lc.Ball q i rMax rMin excl out
  | .cell o, qpts, rMax, rMin, excl, i, _, out => ∃ o' r g fuel,
      o.query qpts rMax rMin excl = some (o', r) ∧ o'.grid = some g ∧
      (CellQuery.querySingle g r i).collect g fuel = some out

/-- The same for all query points. -/
def System.Finds (s : System) (qpts : List (Vec3 ℝ)) (rMax rMin : ℝ) (excl : Bool)
    (found : ℕ → List (Bond ℝ)) : Prop :=
  ∀ i q, qpts[i]? = some q → s.Single qpts rMax rMin excl i q (found i)

/-- What `loopOverNeighbors` loops over, `freud/locality/NeighborComputeFunctional.h:176-218`: the
bonds of a neighbor list, one iteration per bond, or the query points of a query, one iteration per
query point. -/
inductive Source
  | list (nl : NList ℝ)
  | query (found : ℕ → List (Bond ℝ)) (nq : ℕ)

/-- The number of iterations of the parallel loop,
`freud/locality/NeighborComputeFunctional.h:181, 201`. -/
def Source.iterations : Source → ℕ
  | .list nl => nl.bonds.length
  | .query _ nq => nq

/-- The bonds given to the compute function by iteration `i`,
`freud/locality/NeighborComputeFunctional.h:184-191, 204-214`. -/
def Source.bonds : Source → ℕ → Option (List (Bond ℝ))
  | .list nl, i => (nl.bonds[i]?).map (fun b => [⟨b.q, b.p, b.dist, b.weight, b.vec⟩])
  | .query found _, i =>
    let it : QIter := ⟨found i, false⟩
    QIter.forLoop ((found i).length + 1) it.next.1 it.next.2

/-- `RDF::accumulate`, `freud/density/RDF.cc:101-110`, with the bonds of a source. -/
def RDF.frameFrom (info : FrameInfo ℝ) (src : Source) (ev : List (ℕ × ℕ)) :
    HistCompute.Op ℝ NormalizationMode (FrameInfo ℝ) :=
  RDF.frame info src.iterations (fun i => ((src.bonds i).getD []).map (·.dist)) ev

end Freud
