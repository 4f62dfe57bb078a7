import Verif.Model.Sources
import Verif.Model.QueryArgs

/-!
# Nearest-neighbor queries of every kind of system
-/

namespace Freud

/-- The query `query(qpts, p)` succeeds and its iterator for query point `i` at `q` returns the bonds `out`,
for arguments `p` that ask for nearest neighbors: `freud/locality/RawPoints.h:49-77` and
`freud/locality/AABBQuery.cc:28-45` for a `(box, points)` pair and an `AABBQuery`,
`freud/locality/NeighborQuery.h:128-142` and `freud/locality/LinkCell.cc:479-494` for a `LinkCell`, which uses
the validation of the base class, and `freud/locality/CellQuery.h:177-193` for a `CellQuery`, which raises. -/
def System.NearQuery : System → PyArgs → ℕ → Vec3 ℝ → List (Bond ℝ) → Prop
  | .raw aq, p, i, q, out => aq.Query true p q i out
  | .aabb aq, p, i, q, out => aq.Query false p q i out
  | .linkCell lc, p, i, q, out => ∃ a a', p.toArgs = some a ∧ validateQueryArgs a = some a' ∧ a'.mode = .nearest ∧
      lc.Nearest q i a'.numNeighbors a'.rMax a'.rMin a'.excludeII out
  | .cell o, p, _, _, _ => ∃ a a', p.toArgs = some a ∧ validateCellQuery o.box a = some a' ∧ a'.mode = .nearest

/-- The same for all query points. -/
def System.FindsNear (s : System) (qpts : List (Vec3 ℝ)) (p : PyArgs) (found : ℕ → List (Bond ℝ)) : Prop :=
  ∀ i q, qpts[i]? = some q → s.NearQuery p i q (found i)

end Freud
