import Verif.Model.Vec3

/-!
# The walk over shells of cells

Model of `IteratorCellShell` in `freud/locality/LinkCell.{h,cc}`. Coordinates are integers:
overflow of `int` is not modelled.
-/

namespace Freud

/-- `IteratorCellShell`, data members, `freud/locality/LinkCell.h:140-150`. -/
structure CellShell where
  range : ℤ
  stage : ℕ
  x : ℤ
  y : ℤ
  z : ℤ
  is2D : Bool
deriving DecidableEq, Repr

namespace CellShell

/-- `reset` and the constructor, `freud/locality/LinkCell.cc:186-211`,
`freud/locality/LinkCell.h:108-111`. -/
def reset (is2D : Bool) (range : ℕ) : CellShell :=
  if range = 0 then ⟨0, 5, 0, 0, 0, is2D⟩
  else ⟨range, 0, -range, range, if is2D then 0 else -(range : ℤ) + 1, is2D⟩

/-- `operator*`, `freud/locality/LinkCell.h:117-120`. -/
def offset (s : CellShell) : Vec3 ℤ := ⟨s.x, s.y, s.z⟩

/-- The advance of `z` shared by stages 0 to 3, `freud/locality/LinkCell.cc:75-80` (and
`:94-99, 113-118, 132-137`): in 3D `z` moves on when the row is done. Returns the new `z` and
whether the stage is done. -/
def nextZ (s : CellShell) (wrapped : Bool) : ℤ × Bool :=
  if s.is2D then (s.z, wrapped)
  else
    let z := s.z + (if wrapped then 1 else 0)
    if z ≥ s.range then (z + (1 - 2 * s.range), true) else (z, false)

/-- `operator++`, `freud/locality/LinkCell.cc:57-184`. -/
def step (s : CellShell) : CellShell :=
  match s.stage with
  | 0 =>
    let x := s.x + 1
    let w := decide (x ≥ s.range)
    let x := if w then x - 2 * s.range else x
    let z := s.nextZ w
    if z.2 then { s with stage := 1, x := s.range, z := z.1 } else { s with x := x, z := z.1 }
  | 1 =>
    let y := s.y - 1
    let w := decide (y ≤ -s.range)
    let y := if w then y + 2 * s.range else y
    let z := s.nextZ w
    if z.2 then { s with stage := 2, y := -s.range, z := z.1 } else { s with y := y, z := z.1 }
  | 2 =>
    let x := s.x - 1
    let w := decide (x ≤ -s.range)
    let x := if w then x + 2 * s.range else x
    let z := s.nextZ w
    if z.2 then { s with stage := 3, x := -s.range, z := z.1 } else { s with x := x, z := z.1 }
  | 3 =>
    let y := s.y + 1
    let w := decide (y ≥ s.range)
    let y := if w then y - 2 * s.range else y
    let z := s.nextZ w
    if z.2 then
      if s.is2D then reset s.is2D (s.range + 1).toNat
      else { s with stage := 4, x := -s.range, y := -s.range, z := -s.range }
    else { s with y := y, z := z.1 }
  | st =>
    let x := s.x + 1
    let w := decide (x > s.range)
    let x := if w then x - (2 * s.range + 1) else x
    let y := if w then s.y + 1 else s.y
    let w := decide (y > s.range)
    let y := if w then y - (2 * s.range + 1) else y
    if w then
      if st + 1 > 5 then reset s.is2D (s.range + 1).toNat
      else { s with stage := st + 1, x := x, y := y, z := s.range }
    else { s with x := x, y := y }

/-- The state after `t` increments of an iterator that starts at shell 0. -/
def at' (is2D : Bool) (t : ℕ) : CellShell := step^[t] (reset is2D 0)

end CellShell
end Freud
