import Verif.Model.Bounds

/-!
# Specification for C88: calls that stay inside their arrays
-/

namespace Freud

open Bounds

/-- Every element that is read exists. -/
def Spec.InBounds (t : List Access) : Prop := ∀ a ∈ t, a.index < a.size

/-- The pairs a search or a `NeighborList` object can hold: a search finds query points and points that it
was given (C22, C25, C27); a `NeighborList` object holds indices below its own sizes (C14). -/
def Spec.RealNeighbors (numPoints : ℕ) : Nbrs → Prop
  | .search find => ∀ k, ∀ b ∈ find k, b.1 < k ∧ b.2 < numPoints
  | .list a b bonds => ∀ c ∈ bonds, c.1 < a ∧ c.2 < b

/-- The neighbors fit the system: a search does; a list has the sizes of the call. -/
def Spec.FitsSystem (numQuery numPoints : ℕ) : Nbrs → Prop
  | .search _ => True
  | .list a b _ => a = numQuery ∧ b = numPoints

/-- Whatever the bonds of a `NeighborList` with the two given sizes are, the accepted calls `f` with that
list read only elements that exist. -/
def Spec.SafeForLists (numQuery numPoints : ℕ) (f : Nbrs → Option (List Access)) : Prop :=
  ∀ bonds, (∀ c ∈ bonds, c.1 < numQuery ∧ c.2 < numPoints) →
    ∀ t, f (.list numQuery numPoints bonds) = some t → Spec.InBounds t

end Freud
