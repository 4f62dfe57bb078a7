import Verif.Model.NearestQuery

/-!
# Cell lists with ghost particles

Model of `CellQuery` and its iterator in `freud/locality/CellQuery.{h,cc}` and
`freud/locality/CellIterator.h`. Exceptions are `none`. Coordinates are real numbers.
-/

namespace Freud

/-- `TaggedPosition`, `freud/locality/CellQuery.h:21-25`. -/
structure Tagged where
  p : Vec3 ℝ
  idx : ℤ

/-- `~static_cast<int>(i)`, `freud/locality/CellQuery.cc:102`. -/
def ghostTag (i : ℕ) : ℤ := -(i : ℤ) - 1

/-- `raw ^ (raw >> 31)`, `freud/locality/CellIterator.h:165-166`: on 32-bit integers the complement
of a negative number, and a non-negative number itself. -/
def realId (raw : ℤ) : ℕ := if raw < 0 then (-raw - 1).toNat else raw.toNat

namespace CellQuery

/-- The data that `buildGrid` computes, `freud/locality/CellQuery.h:170-173, 205-206, 301-304`.
`m_n_total` is the length of the buffer. -/
structure Grid where
  inv : ℝ
  minPos : Vec3 ℝ
  nx : ℕ
  ny : ℕ
  nz : ℕ
  counts : List ℕ
  countsReal : List ℕ
  starts : List ℕ
  buffer : List Tagged

/-- The first part of `setupGrid`: the number of cells, `freud/locality/CellQuery.h:146-156`.
(`static_cast<int>` of a non-negative number rounds down.) -/
noncomputable def gridDims (b : Box ℝ) (r : ℝ) : Vec3 ℕ :=
  let inv := 1 / r
  let wx := b.L.x + b.L.y * |b.xy| + b.L.z * |b.xz|
  let wy := b.L.y + b.L.z * |b.yz|
  let wz := b.L.z
  ⟨⌊wx * inv⌋₊ + 3, ⌊wy * inv⌋₊ + 3, ⌊wz * inv⌋₊ + 3⟩

/-- The second part of `setupGrid`: the lowest corner, `freud/locality/CellQuery.h:158-166`. -/
noncomputable def gridMin (b : Box ℝ) (r : ℝ) : Vec3 ℝ :=
  let bx := b.L.y * min 0 b.xy + b.L.z * min 0 b.xz
  let bY := b.L.z * min 0 b.yz
  ⟨bx - r, bY - r, -r⟩ + b.makeAbsolute ⟨0, 0, 0⟩

/-- `cell_idx_xyz`, `freud/locality/CellQuery.h:54-60`. -/
noncomputable def cellXYZ (minPos : Vec3 ℝ) (inv : ℝ) (p : Vec3 ℝ) : Vec3 ℤ :=
  ⟨⌊(p.x - minPos.x) * inv⌋, ⌊(p.y - minPos.y) * inv⌋, ⌊(p.z - minPos.z) * inv⌋⟩

/-- `getCellIdxSafe`, `freud/locality/CellQuery.h:62-76`; `none` if the point is outside the grid. -/
noncomputable def cellIdxSafe (minPos : Vec3 ℝ) (inv : ℝ) (dim : Vec3 ℕ) (p : Vec3 ℝ) : Option ℕ :=
  let c := cellXYZ minPos inv p
  if c.x < 0 ∨ c.y < 0 ∨ c.z < 0 ∨ c.x ≥ dim.x ∨ c.y ≥ dim.y ∨ c.z ≥ dim.z then none
  else some ((c.z.toNat * dim.y + c.y.toNat) * dim.x + c.x.toNat)

/-- One of the steps `dx`, `dy`, `dz`, `freud/locality/CellQuery.h:229-234`. -/
noncomputable def ghostStep (f fr : ℝ) : ℤ := (if f ≤ fr then 1 else 0) - (if f ≥ 1 - fr then 1 else 0)

/-- `new_site`, `freud/locality/CellQuery.h:246-262`, with the lattice vectors of
`freud/locality/CellQuery.cc:95-97`. -/
noncomputable def newSite (b : Box ℝ) (i j k : ℤ) : Vec3 ℝ :=
  let lx : Vec3 ℝ := ⟨b.L.x, 0, 0⟩
  let ly : Vec3 ℝ := ⟨b.L.y * b.xy, b.L.y, 0⟩
  let lz : Vec3 ℝ := if b.is2D then 0 else ⟨b.L.z * b.xz, b.L.z * b.yz, b.L.z⟩
  let s : Vec3 ℝ := 0
  let s := if i ≠ 0 then s + (if i = 1 then lx else -lx) else s
  let s := if j ≠ 0 then s + (if j = 1 then ly else -ly) else s
  if k ≠ 0 then s + (if k = 1 then lz else -lz) else s

/-- The images for which `generateGhosts` makes a site, `freud/locality/CellQuery.h:240-298`. -/
def ghostSites (dx dy dz : ℤ) : List (ℤ × ℤ × ℤ) :=
  if dx = 0 ∧ dy = 0 ∧ dz = 0 then []
  else
    (if dx ≠ 0 then [(dx, 0, 0)] else []) ++ (if dy ≠ 0 then [(0, dy, 0)] else []) ++
    (if dz ≠ 0 then [(0, 0, dz)] else []) ++ (if dx ≠ 0 ∧ dy ≠ 0 then [(dx, dy, 0)] else []) ++
    (if dx ≠ 0 ∧ dz ≠ 0 then [(dx, 0, dz)] else []) ++
    (if dy ≠ 0 ∧ dz ≠ 0 then [(0, dy, dz)] else []) ++
    (if dx ≠ 0 ∧ dy ≠ 0 ∧ dz ≠ 0 then [(dx, dy, dz)] else [])

/-- `generateGhosts`, `freud/locality/CellQuery.h:218-299`. -/
noncomputable def generateGhosts (b : Box ℝ) (r : ℝ) (p : Vec3 ℝ) : List (Vec3 ℝ) :=
  let d := b.getNearestPlaneDistance
  let f := b.makeFractional p
  let dx := ghostStep f.x (r / d.x)
  let dy := ghostStep f.y (r / d.y)
  let dz := if b.is2D then 0 else ghostStep f.z (r / d.z)
  (ghostSites dx dy dz).map fun s => newSite b s.1 s.2.1 s.2.2

/-- The entries of `particle_cell_mapping` for one point, `freud/locality/CellQuery.cc:86-125`:
ghosts first, then the point itself. -/
noncomputable def entries (b : Box ℝ) (r : ℝ) (cell : Vec3 ℝ → Option ℕ) (p : Vec3 ℝ) (i : ℕ) :
    List (ℕ × Tagged) :=
  ((generateGhosts b r p).filterMap fun s => (cell (p + s)).map fun c => (c, ⟨p + s, ghostTag i⟩)) ++
    ((cell p).map fun c => (c, (⟨p, i⟩ : Tagged))).toList

/-- The increments of `m_counts` or `m_counts_real` for a list of cells,
`freud/locality/CellQuery.cc:112, 122-123`. -/
def tally (n : ℕ) (cells : List ℕ) : List ℕ :=
  cells.foldl (fun l c => l.modify c (· + 1)) (List.replicate n 0)

/-- `util::prefixSum`, `freud/util/utils.h:92-101`. -/
def prefixSum (offset : ℕ) : List ℕ → List ℕ
  | [] => []
  | a :: l => offset :: prefixSum (offset + a) l

/-- The variables of the loop of `placeParticlesInSortedOrder`: the buffer and the two arrays of
numbers inserted so far. -/
structure Placing where
  buf : List (Option Tagged)
  real : List ℕ
  ghost : List ℕ

/-- The body of the loop, `freud/locality/CellQuery.cc:162-175`. -/
def place (starts countsReal : List ℕ) (s : Placing) (e : ℕ × Tagged) : Placing :=
  if e.2.idx < 0 then
    ⟨s.buf.set (starts.getD e.1 0 + countsReal.getD e.1 0 + s.ghost.getD e.1 0) (some e.2), s.real,
      s.ghost.modify e.1 (· + 1)⟩
  else
    ⟨s.buf.set (starts.getD e.1 0 + s.real.getD e.1 0) (some e.2), s.real.modify e.1 (· + 1), s.ghost⟩

/-- `placeParticlesInSortedOrder`, `freud/locality/CellQuery.cc:139-176`: a slot that is not written
would keep a default value, here `none`. -/
def placeAll (n total : ℕ) (starts countsReal : List ℕ) (m : List (ℕ × Tagged)) :
    List (Option Tagged) :=
  (m.foldl (place starts countsReal)
    ⟨List.replicate total none, List.replicate n 0, List.replicate n 0⟩).buf

/-- `buildGrid`, `freud/locality/CellQuery.cc:55-137`. The grid is never empty: each dimension is at
least 3. A slot without an entry would become the default, the origin with index 0. -/
noncomputable def buildGrid (b : Box ℝ) (pts : List (Vec3 ℝ)) (r : ℝ) : Option Grid :=
  if r ≤ 0 then none
  else
    let inv := 1 / r
    let dim := gridDims b r
    let mn := gridMin b r
    let m := pts.zipIdx.flatMap fun pi => entries b r (cellIdxSafe mn inv dim) pi.1 pi.2
    let n := dim.x * dim.y * dim.z
    let counts := tally n (m.map Prod.fst)
    let countsReal := tally n ((m.filter fun e => decide (0 ≤ e.2.idx)).map Prod.fst)
    let starts := prefixSum 0 counts
    some ⟨inv, mn, dim.x, dim.y, dim.z, counts, countsReal, starts,
      (placeAll n m.length starts countsReal m).map fun t => t.getD ⟨⟨0, 0, 0⟩, 0⟩⟩

/-- `CellQueryBallIterator`, data members, `freud/locality/CellIterator.h:187-195`. `m_particle_idx`
is `none` for -1; `m_current_bond` is `none` for the terminator. -/
structure Iter where
  qp : Vec3 ℝ
  qi : ℕ
  rMax : ℝ
  rMin : ℝ
  excl : Bool
  cell : Vec3 ℤ
  dy : ℤ
  dz : ℤ
  pidx : Option ℕ
  listEnd : ℕ
  cur : Option (Bond ℝ)
  finished : Bool

/-- `test_particle`, `freud/locality/CellIterator.h:161-185`. -/
noncomputable def test (it : Iter) (t : Tagged) : Option (Bond ℝ) :=
  if it.excl && decide (realId t.idx = it.qi) then none
  else
    let delta := t.p - it.qp
    let d2 := Vec3.dot delta delta
    if d2 < it.rMax * it.rMax ∧ d2 ≥ it.rMin * it.rMin then
      some ⟨it.qi, realId t.idx, Real.sqrt d2, 1, delta⟩
    else none

/-- The loop over the particles of a row, `freud/locality/CellIterator.h:145-151`: the first
particle with index in `[i, e)` that passes, and its index. -/
noncomputable def scan (g : Grid) (it : Iter) (e : ℕ) (i : ℕ) : Option (ℕ × Bond ℝ) :=
  if i < e then
    match test it (g.buffer.getD i ⟨⟨0, 0, 0⟩, 0⟩) with
    | some b => some (i, b)
    | none => scan g it e (i + 1)
  else none
termination_by e - i

/-- The first and the last cell of a row, `freud/locality/CellIterator.h:123-143`, as a range of
indices into the buffer. -/
def rowRange (g : Grid) (it : Iter) (y z : ℤ) : ℕ × ℕ :=
  let row := (z * g.ny + y) * g.nx + it.cell.x
  let s := (row + (if it.cell.x > 0 then -1 else 0)).toNat
  let e := (row + (if it.cell.x < (g.nx : ℤ) - 1 then 1 else 0)).toNat
  (g.starts.getD s 0, g.starts.getD e 0 + g.counts.getD e 0)

/-- The rows `(dz, dy)` in the order of the two loops, from where the last call stopped,
`freud/locality/CellIterator.h:100-102, 112-121, 156`. -/
def rowsFrom (dz dy : ℤ) : List (ℤ × ℤ) :=
  let all := [-1, 0, 1]
  (((all.filter fun y => decide (dy ≤ y)).map fun y => (dz, y)) ++
    ((all.filter fun z => decide (dz < z)).flatMap fun z => all.map fun y => (z, y)))

/-- Where the scan of a row begins and ends, `freud/locality/CellIterator.h:122-143`. -/
def startOf (g : Grid) (it : Iter) (y z : ℤ) (pidx : Option ℕ) (listEnd : ℕ) : ℕ × ℕ :=
  match pidx with
  | some i => (i, listEnd)
  | none => rowRange g it y z

/-- `find_next_pair`, `freud/locality/CellIterator.h:98-159`: the rows that remain, the particle
index (`none` for -1) and the end of the current row. -/
noncomputable def findIn (g : Grid) (it : Iter) : List (ℤ × ℤ) → Option ℕ → ℕ → Iter
  | [], _, _ => { it with cur := none }
  | (dz, dy) :: rest, pidx, listEnd =>
    let z := it.cell.z + dz
    let y := it.cell.y + dy
    if 0 ≤ z ∧ z < g.nz ∧ 0 ≤ y ∧ y < g.ny then
      let se := startOf g it y z pidx listEnd
      match scan g it se.2 se.1 with
      | some (i, b) => { it with cur := some b, dy := dy, dz := dz, pidx := some (i + 1), listEnd := se.2 }
      | none => findIn g it rest none se.2
    else findIn g it rest pidx listEnd

noncomputable def findNext (g : Grid) (it : Iter) : Iter :=
  findIn g it (rowsFrom it.dz it.dy) it.pidx it.listEnd

/-- The constructor, `freud/locality/CellIterator.h:39-72`; for the check of the buffer see `query`. -/
noncomputable def Iter.new (g : Grid) (qp : Vec3 ℝ) (qi : ℕ) (rMax rMin : ℝ) (excl : Bool) : Iter :=
  let c := cellXYZ g.minPos g.inv qp
  match cellIdxSafe g.minPos g.inv ⟨g.nx, g.ny, g.nz⟩ qp with
  | none => ⟨qp, qi, rMax, rMin, excl, ⟨0, 0, 0⟩, 0, 0, none, 0, none, true⟩
  | some _ => findNext g ⟨qp, qi, rMax, rMin, excl, c, -1, -1, none, 0, none, false⟩

/-- `next`, `freud/locality/CellIterator.h:78-95`; `none` is the terminator. -/
noncomputable def Iter.next (g : Grid) (it : Iter) : Option (Bond ℝ) × Iter :=
  if it.finished then (none, it)
  else match it.cur with
    | none => (none, { it with finished := true })
    | some b => (some b, findNext g it)

/-- `while (!it->end()) it->next()`: the bonds an iterator returns if the grid stays as it is; the
fuel bounds the number of calls. -/
noncomputable def Iter.collect (g : Grid) : ℕ → Iter → Option (List (Bond ℝ))
  | 0, _ => none
  | fuel + 1, it =>
    if it.finished then some []
    else
      let r := it.next g
      (collect g fuel r.2).map (r.1.toList ++ ·)

end CellQuery

/-- A `CellQuery` object. The grid is `mutable` and shared by all queries on the object. -/
structure CellQuery where
  box : Box ℝ
  pts : List (Vec3 ℝ)
  grid : Option CellQuery.Grid

namespace CellQuery

/-- The constructor, `freud/locality/NeighborQuery.h:92-112`. -/
noncomputable def new (b : Box ℝ) (pts : List (Vec3 ℝ)) : Option CellQuery :=
  if pts = [] then none
  else if b.is2D = true ∧ ∃ p ∈ pts, |p.z| > 1 / 1000000 then none
  else some ⟨b, pts, none⟩

/-- `CellQuery::validateQueryArgs`, `freud/locality/CellQuery.h:177-203`, after the part that is
common to all queries, for ball queries with a finite `r_max`; nearest-neighbor queries raise. -/
noncomputable def validate (b : Box ℝ) (rMax rMin : ℝ) : Bool :=
  let d := b.getNearestPlaneDistance
  !(decide (d.x ≤ rMax * 2) || decide (d.y ≤ rMax * 2) || (!b.is2D && decide (d.z ≤ rMax * 2))) &&
    !decide (rMax ≤ 0) && !decide (rMax ≤ rMin)

/-- `NeighborQueryIterator`, `freud/locality/NeighborQuery.h:484-490`. -/
structure Result where
  qpts : List (Vec3 ℝ)
  rMax : ℝ
  rMin : ℝ
  excl : Bool
  curP : ℕ
  iter : Iter
  finished : Bool

/-- `querySingle`, `freud/locality/CellQuery.cc:36-46`; validation has succeeded before with the
same arguments. -/
noncomputable def querySingle (g : Grid) (r : Result) (i : ℕ) : Iter :=
  Iter.new g (r.qpts.getD i 0) i r.rMax r.rMin r.excl

/-- `query`, `freud/locality/CellQuery.cc:16-34`, and the constructor of the result
(`freud/locality/NeighborQuery.h:367-374`). `m_built` is never set to true anywhere in the class, so
the grid is rebuilt at each call. The constructor of the first per-point iterator raises if there is
no buffer, `freud/locality/CellIterator.h:43-46`; an empty vector has none. -/
noncomputable def query (o : CellQuery) (qpts : List (Vec3 ℝ)) (rMax rMin : ℝ) (excl : Bool) :
    Option (CellQuery × Result) :=
  if validate o.box rMax rMin then
    (buildGrid o.box o.pts rMax).bind fun g =>
      if g.buffer.isEmpty then none
      else some ({ o with grid := some g },
        ⟨qpts, rMax, rMin, excl, 0, Iter.new g (qpts.getD 0 0) 0 rMax rMin excl, false⟩)
  else none

/-- The outer loop of `NeighborQueryIterator::next` when the current per-point iterator is at its
end, `freud/locality/NeighborQuery.h:410-418`: go to the next query point that has a bond. The
number is that of query points left. -/
noncomputable def advance (g : Grid) : ℕ → Result → Option (Bond ℝ) × Result
  | 0, r => (none, { r with finished := true })
  | left + 1, r =>
    let r := { r with curP := r.curP + 1 }
    if r.curP ≥ r.qpts.length then (none, { r with finished := true })
    else
      let n := (querySingle g r r.curP).next g
      match n.1 with
      | some b => (some b, { r with iter := n.2 })
      | none => advance g left { r with iter := n.2 }

/-- `NeighborQueryIterator::next`, `freud/locality/NeighborQuery.h:392-419`. A per-point iterator
that returns the terminator is at its end. -/
noncomputable def Result.next (g : Grid) (r : Result) : Option (Bond ℝ) × Result :=
  if r.finished then (none, r)
  else
    let n := r.iter.next g
    match n.1 with
    | some b => (some b, { r with iter := n.2 })
    | none => advance g r.qpts.length { r with iter := n.2 }

/-- What a loop over the result yields if the grid stays as it is, `freud/locality.py:201-211`: calls
of `next` until the terminator. -/
noncomputable def Result.collect (g : Grid) : ℕ → Result → Option (List (Bond ℝ))
  | 0, _ => none
  | fuel + 1, r =>
    match (r.next g).1 with
    | none => some []
    | some b => (collect g fuel (r.next g).2).map (b :: ·)

end CellQuery
end Freud
