import Verif.Model.BallQuery
import Verif.Model.QueryArgs
import Mathlib.Analysis.SpecialFunctions.Log.Base

/-!
# Nearest-neighbor queries with the tree of bounding boxes

Model of `AABBQueryIterator` in `freud/locality/AABBQuery.{h,cc}`.
-/

namespace Freud

/-- The members of `AABBQueryIterator` that do not change, `freud/locality/AABBQuery.h:113-139`. -/
structure NearIter where
  aq : AABBQuery
  qp : Vec3 ℝ
  qi : ℕ
  k : ℕ
  rMax : WithTop ℝ
  rMin : ℝ
  scale : ℝ
  excludeII : Bool

namespace NearIter

/-- One ball query of the search, `freud/locality/AABBQuery.cc:181-197`: it starts at distance 0
and without the check of the cutoff. -/
noncomputable def ballAt (it : NearIter) (rCur : ℝ) : Option (List (Bond ℝ)) :=
  (BallIter.new it.aq it.qp it.qi (minTop rCur it.rMax) 0 it.excludeII false).map fun ball =>
    ((ball.run 0 0 0).filter fun nb => !it.excludeII || decide (it.qi ≠ nb.p)).map
      fun nb => { nb with q := it.qi }

/-- `m_all_bonds_minimum_distance` as a partial map and `m_query_points_below_r_min`. -/
abbrev MinState := (ℕ → Option (Bond ℝ)) × Finset ℕ

/-- The body of the loop in the extended search, `freud/locality/AABBQuery.cc:202-213`. -/
noncomputable def minStep (rMin : ℝ) (s : MinState) (nb : Bond ℝ) : MinState :=
  if (∀ old, s.1 nb.p = some old → nb.dist < old.dist) then
    (Function.update s.1 nb.p (some nb), if nb.dist < rMin then insert nb.p s.2 else s.2)
  else s

/-- The entries of the map in the order of `std::map`. Keys are indices of points. -/
def mapBonds (n : ℕ) (m : ℕ → Option (Bond ℝ)) : List (Bond ℝ) := (List.range n).filterMap m

theorem search_dec {m r s : ℝ} (hr : 0 < r) (hs : 1 < s) (h : ¬ m ≤ r * s) :
    ⌊Real.logb s (m / (r * s))⌋₊ < ⌊Real.logb s (m / r)⌋₊ := by
  have hm : r * s < m := not_le.mp h
  have hs0 : 0 < s := by linarith
  have h1 : Real.logb s (m / r) = Real.logb s (m / (r * s)) + 1 := by
    have e : m / r = m / (r * s) * s := by field_simp
    rw [e, Real.logb_mul (by have : 0 < m / (r * s) := div_pos (by nlinarith) (by positivity)
                             exact this.ne') hs0.ne', Real.logb_self_eq_one hs]
  have h2 : 0 ≤ Real.logb s (m / (r * s)) := by
    apply Real.logb_nonneg hs
    rw [le_div_iff₀ (by positivity)]; linarith
  rw [h1, Nat.floor_add_one h2]
  exact Nat.lt_succ_self _

/-- The loop of `AABBQueryIterator::next`, `freud/locality/AABBQuery.cc:172-254`, from the radius
`m_r_cur` and the flag `m_search_extended` on: `m_current_neighbors` before it is sorted. A radius
that is not positive makes the ball query throw; `scale` is above 1 after validation, so the guard
on it is never false. -/
noncomputable def search (it : NearIter) (rCur : ℝ) (extended : Bool) : Option (List (Bond ℝ)) :=
  if h : 0 < rCur ∧ 1 < it.scale then
    (it.ballAt rCur).bind fun bonds =>
      let cur := if extended then [] else bonds.filter (fun nb => it.rMin ≤ nb.dist)
      let st : MinState := if extended then bonds.foldl (minStep it.rMin) (fun _ => none, ∅)
        else (fun _ => none, ∅)
      let all := mapBonds it.aq.pts.length st.1
      if it.k ≤ cur.length then some cur
      else if hm : maxPlane it.aq.box ≤ rCur * it.scale then
        some (cur ++ all.filter (fun nb => it.rMin ≤ nb.dist))
      else if it.rMax ≤ ((rCur * it.scale : ℝ) : WithTop ℝ) ∨ it.k ≤ all.length - st.2.card then
        some (cur ++ all.filter (fun nb => it.rMin ≤ nb.dist))
      else it.search (rCur * it.scale)
        (extended || decide (minPlane it.aq.box / 2 < rCur * it.scale))
  else none
termination_by ⌊Real.logb it.scale (maxPlane it.aq.box / rCur)⌋₊
decreasing_by exact search_dec h.1 h.2 hm

/-- `operator<` of bonds, `freud/locality/NeighborBond.h:62-65`. -/
noncomputable def lessDist (a b : Bond ℝ) : Bool := decide (a.dist < b.dist)

/-- What is returned one by one: the first `num_neighbors` neighbors, up to the first one beyond
`r_max`, `freud/locality/AABBQuery.cc:256-272`. -/
noncomputable def emit (it : NearIter) (sorted : List (Bond ℝ)) : List (Bond ℝ) :=
  (sorted.take it.k).takeWhile (fun nb => decide ((nb.dist : WithTop ℝ) ≤ it.rMax))

end NearIter

/-- All bonds of the nearest-neighbor query around one query point, after validation of the
arguments: `AABBQuery::querySingle` in nearest mode (`freud/locality/AABBQuery.cc:38-44`) with the
checks of the constructors (`freud/locality/NeighborQuery.h:332-343`, `AABBQuery.h:113-123`), run to
the end. `std::sort` leaves bonds of equal length in any order, so this is a relation. -/
def AABBQuery.Nearest (aq : AABBQuery) (qp : Vec3 ℝ) (qi k : ℕ) (rMax : WithTop ℝ)
    (rMin rGuess scale : ℝ) (excl : Bool) (out : List (Bond ℝ)) : Prop :=
  ¬ rMax ≤ ((0 : ℝ) : WithTop ℝ) ∧ ¬ rMax ≤ (rMin : WithTop ℝ) ∧
  (updateImageVectors aq.box 0 true).isSome ∧
  ∃ cur sorted, NearIter.search ⟨aq, qp, qi, k, rMax, rMin, scale, excl⟩ rGuess false = some cur ∧
    Bond.SortedBy NearIter.lessDist cur sorted ∧
    out = NearIter.emit ⟨aq, qp, qi, k, rMax, rMin, scale, excl⟩ sorted

/-- The query of the API: arguments are validated first, `freud/locality/AABBQuery.cc:28-44`. -/
def AABBQuery.NearestQuery (aq : AABBQuery) (qp : Vec3 ℝ) (qi : ℕ) (a : QueryArgs)
    (out : List (Bond ℝ)) : Prop :=
  ∃ a', validateAABB aq.box aq.pts.length a = some a' ∧ a'.mode = .nearest ∧
    aq.Nearest qp qi a'.numNeighbors a'.rMax a'.rMin a'.rGuess a'.scale a'.excludeII out

/-- A whole query of an `AABBQuery` (`raw = false`) or of a `(box, points)` tuple (`raw = true`) for
one query point: conversion of the keyword arguments, the check of periodicity
(`freud/locality/NeighborQuery.h:131-136`, absent from `freud/locality/RawPoints.h:49-60`),
validation, and the iterator of the mode (`freud/locality/AABBQuery.cc:28-45`). An infinite `r_max`
in ball mode fails the check of the cutoff on every periodic axis; it is not modelled further
(`none`). The bonds returned are related to the query by this relation; an exception is the absence
of any result. -/
def AABBQuery.Query (raw : Bool) (aq : AABBQuery) (p : PyArgs) (qp : Vec3 ℝ) (qi : ℕ)
    (out : List (Bond ℝ)) : Prop :=
  (raw = false → aq.box.px = true ∧ aq.box.py = true ∧ aq.box.pz = true) ∧
  ∃ a a', p.toArgs = some a ∧ validateAABB aq.box aq.pts.length a = some a' ∧
    match a'.mode with
    | .none => False
    | .ball => ∃ r : ℝ, a'.rMax = (r : WithTop ℝ) ∧
        aq.ballSingle qp qi r a'.rMin a'.excludeII = some out
    | .nearest =>
      aq.Nearest qp qi a'.numNeighbors a'.rMax a'.rMin a'.rGuess a'.scale a'.excludeII out

end Freud
