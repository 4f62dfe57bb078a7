import Mathlib.Logic.Relation
import Mathlib.Data.List.Basic

/-!
# The lock-free disjoint set

Model of `DisjointSets` in `extern/dset/dset.h` and of its use in the parallel loop over bonds in
`freud/cluster/Cluster.cc:29-39`, at the granularity of single atomic operations.

All accesses to `mData[i]` are sequentially consistent atomics (the defaults of `std::atomic`), so
an execution is an interleaving of the atomic operations of the threads. `stepPc` performs one
atomic operation of one thread. A 64-bit word `rank << 32 | parent` is a pair of natural numbers;
that a rank needs more than 31 bits is not modelled. The lock bit is never set by freud.
-/

namespace Freud

/-- One word of `mData`: the rank in the high half, the parent in the low half,
`extern/dset/dset.h:152-158`. -/
structure Cell where
  rank : ℕ
  parent : ℕ
deriving DecidableEq

/-- `mData`, `extern/dset/dset.h:166`. -/
structure DMem where
  size : ℕ
  cell : ℕ → Cell

namespace DMem

/-- The constructor, `extern/dset/dset.h:29-32`. -/
def new (n : ℕ) : DMem := ⟨n, fun i => ⟨0, i⟩⟩

/-- An atomic load; `none` is an access out of range. -/
def load (m : DMem) (i : ℕ) : Option Cell := if i < m.size then some (m.cell i) else none

/-- The effect of a successful compare-and-swap. -/
def store (m : DMem) (i : ℕ) (c : Cell) : DMem := ⟨m.size, Function.update m.cell i c⟩

end DMem

namespace DSet

/-- Program counter inside `find`, `extern/dset/dset.h:34-46`: before the load of the loop
condition; before the load of `value`; before the load of the parent of the parent; before the
compare-and-swap. -/
inductive FindPc
  | f0 (id : ℕ)
  | f1 (id : ℕ)
  | f2 (id : ℕ) (v : Cell)
  | f3 (id : ℕ) (v : Cell) (np : ℕ)

/-- Where `find` was called from, with the other local variable: the two calls in `same`
(`extern/dset/dset.h:50-51`) and the two calls in `unite` (61-62). -/
inductive Cont
  | same1 (id2 : ℕ)
  | same2 (id1 : ℕ)
  | unite1 (id2 : ℕ)
  | unite2 (id1 : ℕ)

/-- Program counter of a thread working on one bond: in a `find`; before line 54 of `same`; before
the two loads of ranks in line 67, before the compare-and-swap in line 77 (after the exchange of
lines 69-72) and before the one in line 84 of `unite`. -/
inductive Pc
  | find (f : FindPc) (k : Cont)
  | sameCheck (id1 id2 : ℕ)
  | rank1 (id1 id2 : ℕ)
  | rank2 (id1 id2 r1 : ℕ)
  | cas (id1 id2 r1 r2 : ℕ)
  | bump (id2 r2 : ℕ)

/-- `find` returns `r` to its caller. `none`: the work on the bond is finished, because `same`
returned true (`extern/dset/dset.h:52-53`) or `unite` found a common root (64-65). -/
def ret (r : ℕ) : Cont → Option Pc
  | .same1 id2 => some (.find (.f0 id2) (.same2 r))
  | .same2 id1 => if id1 = r then none else some (.sameCheck id1 r)
  | .unite1 id2 => some (.find (.f0 id2) (.unite2 r))
  | .unite2 id1 => if id1 = r then none else some (.rank1 id1 r)

/-- One atomic operation on behalf of the bond `(a, b)`: `if (!same(a, b)) unite(a, b)`,
`freud/cluster/Cluster.cc:33-36` with `extern/dset/dset.h:34-91`. `spurious` makes a weak
compare-and-swap fail. The result is the new memory and the new program counter, `none` when the
work on the bond is finished. -/
def stepPc (spurious : Bool) (m : DMem) (a b : ℕ) : Pc → Option (DMem × Option Pc)
  | .find (.f0 id) k => (m.load id).map (fun c =>
      (m, if c.parent = id then ret id k else some (.find (.f1 id) k)))
  | .find (.f1 id) k => (m.load id).map (fun v => (m, some (.find (.f2 id v) k)))
  | .find (.f2 id v) k => (m.load v.parent).map (fun c =>
      (m, some (if c.parent ≠ v.parent then .find (.f3 id v c.parent) k
        else .find (.f0 c.parent) k)))
  | .find (.f3 id v np) k => (m.load id).map (fun c =>
      (if c = v ∧ spurious = false then m.store id ⟨v.rank, np⟩ else m,
        some (.find (.f0 np) k)))
  | .sameCheck id1 id2 => (m.load id1).map (fun c =>
      (m, some (if c.parent = id1 then .find (.f0 a) (.unite1 b)
        else .find (.f0 id1) (.same1 id2))))
  | .rank1 id1 id2 => (m.load id1).map (fun c => (m, some (.rank2 id1 id2 c.rank)))
  | .rank2 id1 id2 r1 => (m.load id2).map (fun c =>
      (m, some (if r1 > c.rank ∨ (r1 = c.rank ∧ id1 < id2) then .cas id2 id1 c.rank r1
        else .cas id1 id2 r1 c.rank)))
  | .cas id1 id2 r1 r2 => (m.load id1).map (fun c =>
      if c = ⟨r1, id1⟩ then
        (m.store id1 ⟨r1, id2⟩, if r1 = r2 then some (.bump id2 r2) else none)
      else (m, some (.find (.f0 id1) (.unite1 id2))))
  | .bump id2 r2 => (m.load id2).map (fun c =>
      (if c = ⟨r2, id2⟩ ∧ spurious = false then m.store id2 ⟨r2 + 1, id2⟩ else m, none))

/-- A thread: the bonds it has still to process and the one it is working on. -/
structure Thr where
  todo : List (ℕ × ℕ)
  cur : Option (ℕ × ℕ × Pc)

/-- The thread has nothing left to do. -/
def Thr.finished (t : Thr) : Prop := t.todo = [] ∧ t.cur = none

/-- One step of a thread; `none` if it is finished or accesses memory out of range. -/
def tstep (spurious : Bool) (m : DMem) (t : Thr) : Option (DMem × Thr) :=
  match t.cur with
  | none =>
    match t.todo with
    | [] => none
    | (a, b) :: rest => some (m, ⟨rest, some (a, b, .find (.f0 a) (.same1 b))⟩)
  | some (a, b, pc) => (stepPc spurious m a b pc).map (fun r =>
      (r.1, ⟨t.todo, r.2.map (fun p => (a, b, p))⟩))

/-- The state of the parallel loop. -/
structure DState where
  mem : DMem
  threads : List Thr

/-- The start: `work` lists the bonds (point index, query point index) that each thread will
process, in its order. Any partition of the bonds among any number of threads is of this form. -/
def init (n : ℕ) (work : List (List (ℕ × ℕ))) : DState :=
  ⟨DMem.new n, work.map (fun w => ⟨w, none⟩)⟩

/-- Some thread performs its next operation. -/
def Step (s s' : DState) : Prop :=
  ∃ i t spurious m' t', s.threads[i]? = some t ∧ tstep spurious s.mem t = some (m', t') ∧
    s' = ⟨m', s.threads.set i t'⟩

/-- States that some interleaving leads to. -/
def Reachable (n : ℕ) (work : List (List (ℕ × ℕ))) (s : DState) : Prop :=
  Relation.ReflTransGen Step (init n work) s

/-- `find` without concurrent activity, as called in `freud/cluster/Cluster.cc:52, 87`. The loop
runs at most `fuel` times; `none` if it has not ended by then, or on an access out of range. -/
def findSeq : ℕ → DMem → ℕ → Option (DMem × ℕ)
  | 0, _, _ => none
  | fuel + 1, m, id => (m.load id).bind (fun c =>
      if c.parent = id then some (m, id)
      else (m.load c.parent).bind (fun c' =>
        let m' := if c'.parent ≠ c.parent then m.store id ⟨c.rank, c'.parent⟩ else m
        findSeq fuel m' c'.parent))

end DSet
end Freud
