import Verif.Model.CellShell
import Verif.Model.MArray
import Verif.Model.NearestQuery

/-!
# Cell lists

Model of `LinkCell` and its iterators in `freud/locality/LinkCell.{h,cc}`. Exceptions are `none`.
-/

namespace Freud

/-- `LinkCell`, data members, `freud/locality/LinkCell.h:247-254`. `list` is `m_cell_list`;
`LINK_CELL_TERMINATOR` is `none`. The cache `m_cell_neighbors` is not used by queries and left
out. -/
structure LinkCell where
  box : Box ℝ
  pts : List (Vec3 ℝ)
  width : ℝ
  dim : Vec3 ℕ
  list : List (Option ℕ)

namespace LinkCell

/-- `computeDimensions`, `freud/locality/LinkCell.cc:274-311`. -/
noncomputable def computeDimensions (b : Box ℝ) (w : ℝ) : Vec3 ℕ :=
  let L := b.getNearestPlaneDistance
  let one := fun n : ℕ => if n = 0 then 1 else n
  ⟨one ⌊L.x / w⌋₊, one ⌊L.y / w⌋₊, one (if b.is2D then 1 else ⌊L.z / w⌋₊)⟩

/-- `coordToIndex`, `freud/locality/LinkCell.cc:344-350`. -/
def coordToIndex (dim : Vec3 ℕ) (x y z : ℕ) : ℕ :=
  MArray.linIndex [dim.z, dim.y, dim.x] [z, y, x]

/-- `getCellCoord`, `freud/locality/LinkCell.cc:352-363`. The conversion of a negative number to
`unsigned int` (a point below the box) is undefined in C++ and 0 here. -/
noncomputable def getCellCoord (b : Box ℝ) (dim : Vec3 ℕ) (p : Vec3 ℝ) : Vec3 ℕ :=
  let a := b.makeFractional p
  ⟨⌊a.x * dim.x⌋.toNat % dim.x, ⌊a.y * dim.y⌋.toNat % dim.y, ⌊a.z * dim.z⌋.toNat % dim.z⟩

/-- `getCell`, `freud/locality/LinkCell.h:204-208`. -/
noncomputable def getCell (b : Box ℝ) (dim : Vec3 ℕ) (p : Vec3 ℝ) : ℕ :=
  let c := getCellCoord b dim p
  coordToIndex dim c.x c.y c.z

/-- One component of `getCellIndex`: the remainder of C++, made non-negative,
`freud/locality/LinkCell.cc:263-268`. -/
def wrapCoord (c : ℤ) (w : ℕ) : ℕ :=
  let x := Int.tmod c w
  (x + (if x < 0 then (w : ℤ) else 0)).toNat

/-- `getCellIndex`, `freud/locality/LinkCell.cc:257-271`. -/
def getCellIndex (dim : Vec3 ℕ) (c : Vec3 ℤ) : ℕ :=
  coordToIndex dim (wrapCoord c.x dim.x) (wrapCoord c.y dim.y) (wrapCoord c.z dim.z)

/-- Writing an element of a `ManagedArray`, `freud/util/ManagedArray.h:112-121`. -/
def put (l : List (Option ℕ)) (i : ℕ) (v : Option ℕ) : Option (List (Option ℕ)) :=
  if i < l.length then some (l.set i v) else none

/-- The body of the loop that inserts point `i` in front of its cell,
`freud/locality/LinkCell.cc:327-331`. -/
def insertPoint (n i cell : ℕ) (l : List (Option ℕ)) : Option (List (Option ℕ)) :=
  (l[n + cell]?).bind fun head => (put l i head).bind fun l => put l (n + cell) (some i)

/-- `computeCellList`, `freud/locality/LinkCell.cc:313-332`, for the cells `cs` of the points: the
loop runs from the last point to the first. -/
def computeCellList (cs : List ℕ) (nc : ℕ) : Option (List (Option ℕ)) :=
  cs.zipIdx.foldr (fun ci acc => acc.bind (insertPoint cs.length ci.2 ci.1))
    (some (List.replicate (cs.length + nc) none))

/-- The constructor, `freud/locality/LinkCell.cc:222-255` with
`freud/locality/NeighborQuery.h:88-111`. A negative cell width is not modelled. The reset of
`m_celldim.z` in 2D repeats what `computeDimensions` did. -/
noncomputable def new (b : Box ℝ) (pts : List (Vec3 ℝ)) (cellWidth : ℝ) : Option LinkCell :=
  if pts = [] then none
  else if b.is2D = true ∧ ∃ p ∈ pts, |p.z| > 1 / 1000000 then none
  else
    let w : ℝ := if cellWidth = 0 then
      (b.getVolume / (max (pts.length / 10) 1 : ℕ)) ^ (1 / 3 : ℝ) else cellWidth
    let d := b.getNearestPlaneDistance
    let dim := computeDimensions b w
    if w * 2 > d.x ∨ w * 2 > d.y ∨ (b.is2D = false ∧ w * 2 > d.z) then none
    else
      let size := dim.x * dim.y * dim.z
      if size < 1 then none
      else (computeCellList (pts.map (getCell b dim)) size).map fun l => ⟨b, pts, w, dim, l⟩

/-- The walk of `IteratorLinkCell::next` from index `cur` to the terminator,
`freud/locality/LinkCell.cc:35-44`, with a bound on its length; `none` if the bound is exceeded or
an index is out of range. -/
def walk (l : List (Option ℕ)) : ℕ → ℕ → Option (List ℕ)
  | 0, _ => none
  | fuel + 1, cur => (l[cur]?).bind fun
    | none => some []
    | some j => (walk l fuel j).map (j :: ·)

/-- All points of a cell: `itercell` and its iteration, `freud/locality/LinkCell.h:59-65, 220-223`.
-/
def iterCell (lc : LinkCell) (cell : ℕ) : Option (List ℕ) :=
  walk lc.list (lc.pts.length + 1) (lc.pts.length + cell)

/-- The test of a point, `freud/locality/LinkCell.cc:497-510` and `:587-599`; `r_max` may be
infinite. -/
noncomputable def test (lc : LinkCell) (q : Vec3 ℝ) (qi : ℕ) (rMax : WithTop ℝ) (rMin : ℝ)
    (excl : Bool) (j : ℕ) : Option (Bond ℝ) :=
  if excl && decide (qi = j) then none
  else
    let rij := lc.box.wrap (lc.pts.getD j 0 - q)
    let rsq := Vec3.dot rij rij
    if (rsq : WithTop ℝ) < rMax.map (fun r => r * r) ∧ rsq ≥ rMin * rMin then
      some ⟨qi, j, Real.sqrt rsq, 1, rij⟩
    else none

/-- The bonds found in one cell. -/
noncomputable def cellBonds (lc : LinkCell) (q : Vec3 ℝ) (qi : ℕ) (rMax : WithTop ℝ) (rMin : ℝ)
    (excl : Bool) (cell : ℕ) : Option (List (Bond ℝ)) :=
  (lc.iterCell cell).map fun js => js.filterMap (lc.test q qi rMax rMin excl)

/-- The coordinates of the cell of the query point, as `vec3<int>`,
`freud/locality/LinkCell.cc:483-486`. -/
noncomputable def pointCell (lc : LinkCell) (q : Vec3 ℝ) : Vec3 ℤ :=
  let c := getCellCoord lc.box lc.dim q
  ⟨c.x, c.y, c.z⟩

/-- The index of the cell at the current position of the walk. -/
noncomputable def cellAt (lc : LinkCell) (q : Vec3 ℝ) (s : CellShell) : ℕ :=
  getCellIndex lc.dim (lc.pointCell q + s.offset)

/-- `m_extra_search_width`, `freud/locality/LinkCell.h:336-347`. -/
noncomputable def extra (lc : LinkCell) (rMax : ℝ) : ℤ := if rMax = lc.width then 0 else 1

/-- The loop of `LinkCellQueryBallIterator::next` after a cell has been searched,
`freud/locality/LinkCell.cc:512-548`: advance to the next cell that is new and in range, search it,
and so on. `next` returns at each bond and the next call continues in the same cell, so the
sequence of returned bonds is what the loops find. (The insertion of the current cell into
`m_searched_cells` at the start of each call repeats an earlier one.) The fuel bounds the number of
increments of the walk. -/
noncomputable def ballLoop (lc : LinkCell) (q : Vec3 ℝ) (qi : ℕ) (rMax rMin : ℝ) (excl : Bool) :
    ℕ → CellShell → Finset ℕ → Option (List (Bond ℝ))
  | 0, _, _ => none
  | fuel + 1, s, searched =>
    let s := s.step
    if rMax < ((s.range - lc.extra rMax : ℤ) : ℝ) * lc.width then some []
    else
      let c := lc.cellAt q s
      if c ∈ searched then ballLoop lc q qi rMax rMin excl fuel s searched
      else (lc.cellBonds q qi rMax rMin excl c).bind fun bonds =>
        (ballLoop lc q qi rMax rMin excl fuel s (insert c searched)).map (bonds ++ ·)

/-- A ball query of the API, for one query point: the checks of `query`
(`freud/locality/NeighborQuery.h:131-136`) and of the iterator (`freud/locality/NeighborQuery.h:332-343`),
then `LinkCellQueryBallIterator` run to the end, `freud/locality/LinkCell.cc:478-556`. -/
def Ball (lc : LinkCell) (q : Vec3 ℝ) (qi : ℕ) (rMax rMin : ℝ) (excl : Bool)
    (out : List (Bond ℝ)) : Prop :=
  (lc.box.px = true ∧ lc.box.py = true ∧ lc.box.pz = true) ∧ ¬ rMax ≤ 0 ∧ ¬ rMax ≤ rMin ∧
  ∃ first fuel rest,
    lc.cellBonds q qi rMax rMin excl (getCell lc.box lc.dim q) = some first ∧
    lc.ballLoop q qi rMax rMin excl fuel (CellShell.reset lc.box.is2D 0)
      {lc.cellAt q (CellShell.reset lc.box.is2D 0)} = some rest ∧
    out = first ++ rest

/-- `max_range`, `freud/locality/LinkCell.cc:563-570`. -/
noncomputable def maxRange (lc : LinkCell) : ℕ := ⌈minPlane lc.box / (2 * lc.width)⌉₊ + 1

/-- The inner loop of `LinkCellQueryIterator::next`, `freud/locality/LinkCell.cc:601-629`: the next
cell that has not been searched, or the end of the search. -/
noncomputable def advance (lc : LinkCell) (q : Vec3 ℝ) :
    ℕ → CellShell → Finset ℕ → Option (CellShell × Finset ℕ × ℕ)
  | 0, _, _ => none
  | fuel + 1, s, searched =>
    let s := s.step
    if s = CellShell.reset lc.box.is2D lc.maxRange then some (s, searched, 0)
    else
      let c := lc.cellAt q s
      if c ∈ searched then advance lc q fuel s searched else some (s, insert c searched, c)

/-- The distance of the `k`-th entry after sorting, `freud/locality/LinkCell.cc:634-637`. Entries of
equal distance may come in any order, which does not change the distance. -/
noncomputable def kthDist (k : ℕ) (cur : List (Bond ℝ)) : Option ℝ :=
  ((cur.map Bond.dist).mergeSort (fun a b => decide (a ≤ b)))[k - 1]?

/-- The outer loop, `freud/locality/LinkCell.cc:578-642`: `cell` is the cell to search next. Returns
`m_current_neighbors` (as a collection: it is sorted at the end). -/
noncomputable def nearLoop (lc : LinkCell) (q : Vec3 ℝ) (qi k : ℕ) (rMax : WithTop ℝ) (rMin : ℝ)
    (excl : Bool) : ℕ → CellShell → Finset ℕ → ℕ → List (Bond ℝ) → Option (List (Bond ℝ))
  | 0, _, _, _, _ => none
  | fuel + 1, s, searched, cell, cur =>
    if s = CellShell.reset lc.box.is2D lc.maxRange then some cur
    else
      (lc.cellBonds q qi rMax rMin excl cell).bind fun bonds =>
      (lc.advance q fuel s searched).bind fun a =>
        let cur := cur ++ bonds
        if k ≤ cur.length ∧ ((kthDist k cur).any fun d =>
            decide (d < ((a.1.range - 1 : ℤ) : ℝ) * lc.width)) = true then some cur
        else nearLoop lc q qi k rMax rMin excl fuel a.1 a.2.1 a.2.2 cur

/-- A nearest-neighbor query of the API for one query point, with validated arguments (`r_max` is
infinite if not given), `freud/locality/LinkCell.cc:558-663`. `num_neighbors = 0` reads an element
before the first and is excluded. -/
def Nearest (lc : LinkCell) (q : Vec3 ℝ) (qi k : ℕ) (rMax : WithTop ℝ) (rMin : ℝ) (excl : Bool)
    (out : List (Bond ℝ)) : Prop :=
  (lc.box.px = true ∧ lc.box.py = true ∧ lc.box.pz = true) ∧
  ¬ rMax ≤ ((0 : ℝ) : WithTop ℝ) ∧ ¬ rMax ≤ (rMin : WithTop ℝ) ∧ 0 < k ∧
  ∃ fuel cur sorted,
    lc.nearLoop q qi k rMax rMin excl fuel (CellShell.reset lc.box.is2D 0)
      {lc.cellAt q (CellShell.reset lc.box.is2D 0)} (getCell lc.box lc.dim q) [] = some cur ∧
    Bond.SortedBy NearIter.lessDist cur sorted ∧
    out = (sorted.take k).takeWhile (fun nb => decide ((nb.dist : WithTop ℝ) ≤ rMax))

end LinkCell
end Freud
