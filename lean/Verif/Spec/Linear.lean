import Verif.Model.CorrelationFunction
import Verif.Model.NeighborList

/-!
# Specification: histories and lists that differ in values or weights
-/

namespace Freud.Spec
open Freud

variable {K : Type*} {V : Type*} [Mul V] [Add V]

/-- The list of `c * x + d * y` for the entries `x`, `y` of two lists. -/
def combine (c d : V) (l l' : List V) : List V := List.zipWith (fun x y => c * x + d * y) l l'

/-- Three histories of a `CorrelationFunction` object with the same frames but for `query_values`: those of
the third history are combined, with factors `c` and `d`, of those of the first and the second. The
schedules may differ. -/
inductive QueryCombined (c d : V) : List (CorrelationFunction.Op K V) → List (CorrelationFunction.Op K V) →
    List (CorrelationFunction.Op K V) → Prop
  | nil : QueryCombined c d [] [] []
  | reset {a b e : List (CorrelationFunction.Op K V)} (h : QueryCombined c d a b e) :
    QueryCombined c d (.reset :: a) (.reset :: b) (.reset :: e)
  | read {a b e : List (CorrelationFunction.Op K V)} (o o' o'' : List ℕ) (h : QueryCombined c d a b e) :
    QueryCombined c d (.read o :: a) (.read o' :: b) (.read o'' :: e)
  | frame {a b e : List (CorrelationFunction.Op K V)} (v w w' : List V) (hw : w.length = w'.length) (n : ℕ)
    (bonds : ℕ → List (CFBond K)) (ev ev' ev'' : List (ℕ × ℕ)) (h : QueryCombined c d a b e) :
    QueryCombined c d (.frame v w n bonds ev :: a) (.frame v w' n bonds ev' :: b)
      (.frame v (combine c d w w') n bonds ev'' :: e)

/-- The same for `values`. -/
inductive ValuesCombined (c d : V) : List (CorrelationFunction.Op K V) → List (CorrelationFunction.Op K V) →
    List (CorrelationFunction.Op K V) → Prop
  | nil : ValuesCombined c d [] [] []
  | reset {a b e : List (CorrelationFunction.Op K V)} (h : ValuesCombined c d a b e) :
    ValuesCombined c d (.reset :: a) (.reset :: b) (.reset :: e)
  | read {a b e : List (CorrelationFunction.Op K V)} (o o' o'' : List ℕ) (h : ValuesCombined c d a b e) :
    ValuesCombined c d (.read o :: a) (.read o' :: b) (.read o'' :: e)
  | frame {a b e : List (CorrelationFunction.Op K V)} (v v' w : List V) (hv : v.length = v'.length) (n : ℕ)
    (bonds : ℕ → List (CFBond K)) (ev ev' ev'' : List (ℕ × ℕ)) (h : ValuesCombined c d a b e) :
    ValuesCombined c d (.frame v w n bonds ev :: a) (.frame v' w n bonds ev' :: b)
      (.frame (combine c d v v') w n bonds ev'' :: e)

/-- The bonds `l'` are the bonds `l`, with the weights of the bonds of query point `i` multiplied by
`c i`. -/
def Reweighted (c : ℕ → ℝ) (l l' : List (Bond ℝ)) : Prop :=
  List.Forall₂ (fun nb nb' : Bond ℝ => nb' = { nb with weight := c nb.q * nb.weight }) l l'

end Freud.Spec
