import Verif.Model.SavedArrays

/-!
# Specification: which operations concern an array a user kept
-/

namespace Freud.Spec
open Freud
variable {K C F : Type*}

/-- The operations on object `i`, in order. -/
def opsOn (i : ℕ) : List (ArrayStore.Op K C F) → List (HistCompute.Op K C F)
  | [] => []
  | .use j op :: os => if j = i then op :: opsOn i os else opsOn i os
  | _ :: os => opsOn i os

/-- The operations on object `i` before it is first reset or deleted. -/
def opsUntilReset (i : ℕ) : List (ArrayStore.Op K C F) → List (HistCompute.Op K C F)
  | [] => []
  | .use j .reset :: os => if j = i then [] else opsUntilReset i os
  | .use j op :: os => if j = i then op :: opsUntilReset i os else opsUntilReset i os
  | .delete j :: os => if j = i then [] else opsUntilReset i os
  | .make _ _ _ :: os => opsUntilReset i os

/-- No results are read. -/
def NoRead (l : List (HistCompute.Op K C F)) : Prop := ∀ o, HistCompute.Op.read o ∉ l

/-- No frame is added. -/
def NoFrame (l : List (HistCompute.Op K C F)) : Prop :=
  ∀ info n f ev, HistCompute.Op.frame info n f ev ∉ l

/-- List number `i` is not sorted before it gets new arrays (by a filter, by being overwritten with a
copy, or by a new Voronoi computation). -/
def NotSortedInPlace (i : ℕ) : List (ListOp K) → Prop
  | [] => True
  | .list (.sort j _ _) :: os => j ≠ i ∧ NotSortedInPlace i os
  | .list (.filter j _) :: os => j = i ∨ NotSortedInPlace i os
  | .list (.copyInto j _) :: os => j = i ∨ NotSortedInPlace i os
  | .voronoi j _ :: os => j = i ∨ NotSortedInPlace i os
  | _ :: os => NotSortedInPlace i os

/-- Different lists have different arrays. -/
structure SeparateArrays (s : NLStore K) : Prop where
  addr : ∀ o ∈ s.objs, o.addr < s.heap.length
  distinct : s.objs.Pairwise (fun a b => a.addr ≠ b.addr)

end Freud.Spec
