import Verif.Model.BiMap
import Verif.Model.Quat

/-!
# Brute-force registration of two point sets

Model of `RegisterBruteForce` in freud/environment/Registration.h. Coordinates are exact. The Kabsch
rotation, the square root and the standard sort are parameters. The random triple of reference points
is a parameter as well. `none` is a read outside an array (undefined behaviour in the code).
-/

namespace Freud.Reg

variable {K : Type*} [Field K] [LinearOrder K]

/-- `dot(delta, delta)` for `delta = a - b`, freud/environment/Registration.h:371-372 and
freud/environment/MatchEnv.cc:339-340. -/
def dist2 (a b : Vec3 K) : K := Vec3.dot (a - b) (a - b)

/-- The outer product `p qᵀ`. -/
def outer (p q : Vec3 K) : Mat3 K :=
  ⟨⟨p.x * q.x, p.x * q.y, p.x * q.z⟩, ⟨p.y * q.x, p.y * q.y, p.y * q.z⟩,
    ⟨p.z * q.x, p.z * q.y, p.z * q.z⟩⟩

/-- The sum of two matrices. -/
def madd (a b : Mat3 K) : Mat3 K := ⟨a.row0 + b.row0, a.row1 + b.row1, a.row2 + b.row2⟩

/-- `P.transpose() * Q` for matrices with one row per point, freud/environment/Registration.h:119. -/
def covariance (P Q : List (Vec3 K)) : Mat3 K :=
  (List.zipWith outer P Q).foldl madd ⟨⟨0, 0, 0⟩, ⟨0, 0, 0⟩, ⟨0, 0, 0⟩⟩

/-- `V.col(V.cols() - 1) *= -1.0`, freud/environment/Registration.h:133. -/
def negLastCol (V : Mat3 K) : Mat3 K :=
  ⟨⟨V.row0.x, V.row0.y, -V.row0.z⟩, ⟨V.row1.x, V.row1.y, -V.row1.z⟩, ⟨V.row2.x, V.row2.y, -V.row2.z⟩⟩

/-- `KabschAlgorithm`, freud/environment/Registration.h:116-137. The singular value decomposition of
Eigen is a parameter: the matrices `U` and `V` for a given matrix. -/
def kabsch (svd : Mat3 K → Mat3 K × Mat3 K) (P Q : List (Vec3 K)) : Mat3 K :=
  let U := (svd (covariance P Q)).1
  let V := (svd (covariance P Q)).2
  let det := (V.mul U.transpose).det
  let V' := if det < 0 then negLastCol V else V
  V'.mul U.transpose

/-- A `do … while` loop whose body does not change the loop variable: the values the body sees.
`none`: the loop is still running after `fuel` rounds. -/
def doWhile {A : Type*} (next : A → Option A) : ℕ → A → Option (List A)
  | 0, _ => none
  | fuel + 1, a => match next a with
    | none => some [a]
    | some b => (doWhile next fuel b).map (a :: ·)

/-- `NextCombination` from position `i` on, freud/environment/Registration.h:409-435: the last
position that can be incremented is (the loop runs from `k - 1` down), and the positions after it
are refilled with consecutive numbers. `none` is the return value `false`. -/
def nextCombFrom (N k : ℕ) : ℕ → List ℕ → Option (List ℕ)
  | _, [] => none
  | i, c :: cs => match nextCombFrom N k (i + 1) cs with
    | some cs' => some (c :: cs')
    | none => if c + 1 < N + i - k + 1 then some ((c + 1) :: List.range' (c + 2) cs.length) else none

/-- `NextCombination(comb, N, k)`, freud/environment/Registration.h:409-435. -/
def nextCombination (N k : ℕ) (comb : List ℕ) : Option (List ℕ) :=
  if k = 0 ∨ N = 0 then none else nextCombFrom N k 0 comb

/-- `std::next_permutation` as in the C++ standard library: the last position with a larger entry
behind it takes the smallest such entry, and the entries behind it are put in ascending order; when
there is no such position, the range becomes ascending and the result is `false`. -/
def nextPermutation : List ℕ → Bool × List ℕ
  | [] => (false, [])
  | a :: l =>
    let r := nextPermutation l
    if r.1 then (true, a :: r.2)
    else match r.2.find? (fun b => decide (a < b)) with
      | some b => (true, b :: r.2.map (fun x => if x = b then a else x))
      | none => (false, r.2 ++ [a])

/-- One step of the two nested loops, freud/environment/Registration.h:294-295. The array `comb` is
left as `std::next_permutation` leaves it. -/
def advance (N k : ℕ) (comb : List ℕ) : Option (List ℕ) :=
  let r := nextPermutation comb
  if r.1 then some r.2 else nextCombination N k r.2

/-- `num_pts`, freud/environment/Registration.h:220-243. -/
def numPts (N : ℕ) : ℕ := if N = 2 then 2 else if N = 1 then 1 else 3

/-- The tuples of point indices the nested loops of `Fit` go through,
freud/environment/Registration.h:219,244-295. Only the first `num_pts` entries of the array `comb`
are modelled, the others are never used. -/
def tuples (N : ℕ) : Option (List (List ℕ)) :=
  doWhile (advance N (numPts N)) ((N + 2) ^ numPts N) (List.range (numPts N))

/-- The state of the loop of `AlignedRMSDTree`. -/
structure TreeState (K : Type*) where
  unused : List ℕ
  map : BiMap ℕ ℕ
  sum : K

/-- One round of the loop of `AlignedRMSDTree`, freud/environment/Registration.h:362-384. -/
def treeStep (sort : List (ℕ × K) → List (ℕ × K)) (ref : List (Vec3 K)) (st : TreeState K)
    (pr : Vec3 K × ℕ) : Option (TreeState K) :=
  (st.unused.mapM (fun i => (ref[i]?).map (fun p => (i, dist2 p pr.1)))).bind fun ds =>
    ((sort ds).head?).map fun best =>
      ⟨st.unused.erase best.1, (st.map.emplace best.1 pr.2).1, st.sum + best.2⟩

/-- `AlignedRMSDTree`, freud/environment/Registration.h:345-389: the root mean square and the map. -/
def alignedRMSDTree (sqrt : K → K) (sort : List (ℕ × K) → List (ℕ × K)) (ref points : List (Vec3 K)) :
    Option (K × BiMap ℕ ℕ) :=
  (points.zipIdx.foldlM (treeStep sort ref) ⟨List.range ref.length, BiMap.new, 0⟩).map
    fun st => (sqrt (st.sum / (points.length : K)), st.map)

/-- What `Fit` remembers: `rmsd_min`, `m_rmsd`, `m_rotation`, `m_vec_map`
(freud/environment/Registration.h:188, 472-483). -/
structure FitState (K : Type*) where
  rmsdMin : K
  rmsd : K
  rotation : Mat3 K
  map : BiMap ℕ ℕ

/-- The body of the loops of `Fit` for one tuple, freud/environment/Registration.h:246-293; the flag
says that `Fit` returns early. -/
def fitBody (kabsch : List (Vec3 K) → List (Vec3 K) → Mat3 K) (sqrt : K → K)
    (sort : List (ℕ × K) → List (ℕ × K)) (tol : K) (ref points p : List (Vec3 K)) (comb : List ℕ)
    (st : FitState K) : Option (FitState K × Bool) :=
  (comb.mapM (fun i => points[i]?)).bind fun q =>
    let r := kabsch q p
    (alignedRMSDTree sqrt sort ref (points.map r.mulVec)).map fun res =>
      if res.1 < st.rmsdMin ∨ st.rmsdMin < 0 then (⟨res.1, res.1, r, res.2⟩, decide (res.1 < tol))
      else (st, false)

/-- The loops of `Fit`, freud/environment/Registration.h:244-295. -/
def fitLoop (kabsch : List (Vec3 K) → List (Vec3 K) → Mat3 K) (sqrt : K → K)
    (sort : List (ℕ × K) → List (ℕ × K)) (tol : K) (ref points p : List (Vec3 K)) :
    List (List ℕ) → FitState K → Option (FitState K)
  | [], st => some st
  | comb :: rest, st => (fitBody kabsch sqrt sort tol ref points p comb st).bind fun r =>
      if r.2 then some r.1 else fitLoop kabsch sqrt sort tol ref points p rest r.1

/-- `Fit`, freud/environment/Registration.h:168-303, with the default of one shuffle (line 479);
`pick` are the reference points `p0, p1, p2` of the random draw (lines 191-214). `none` is an
exception or undefined behaviour. Initially `m_rotation` is an empty matrix; the identity stands for
it, it is never returned. -/
def fit (kabsch : List (Vec3 K) → List (Vec3 K) → Mat3 K) (sqrt : K → K)
    (sort : List (ℕ × K) → List (ℕ × K)) (tol : K) (pick : List ℕ) (ref points : List (Vec3 K)) :
    Option (FitState K) :=
  if points.length ≠ ref.length then none
  else (pick.mapM (fun i => ref[i]?)).bind fun p =>
    (tuples points.length).bind fun ts =>
      fitLoop kabsch sqrt sort tol ref points p ts ⟨-1, 0, Mat3.one, BiMap.new⟩

end Freud.Reg

namespace Freud.Spec
variable {K : Type*} [LinearOrder K]

/-- What `std::sort` with `compare_ref_distances` (freud/environment/Registration.h:402-406)
guarantees: a permutation of its input in ascending order of the distances. -/
def SortOK (sort : List (ℕ × K) → List (ℕ × K)) : Prop :=
  ∀ l, (sort l).Perm l ∧ (sort l).Pairwise (fun a b => a.2 ≤ b.2)

/-- The random draw of `Fit` (freud/environment/Registration.h:191-214) gives different indices of
reference points, as many as are used. -/
def PickOK (N : ℕ) (pick : List ℕ) : Prop :=
  pick.length = Reg.numPts N ∧ pick.Nodup ∧ ∀ i ∈ pick, i < N

end Freud.Spec
