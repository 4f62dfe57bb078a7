import Verif.Model.DSet
import Verif.Model.NeighborList

/-!
# Cluster labels

Model of `Cluster::compute` after the parallel loop, `freud/cluster/Cluster.cc:41-97`, and of
`sort_indexes_inverse`, 102-129. Accesses to `std::vector` are unchecked in the code; reads are
`getD` and writes are `List.set` here, and the indices used are in range.
-/

namespace Freud
namespace Cluster
open DSet

/-- The local variables of the first pass, `freud/cluster/Cluster.cc:46-51`. -/
structure Pass1 where
  mem : DMem
  label : List ℕ
  count : List ℕ
  minId : List ℕ
  num : ℕ

/-- The start of the first pass, `freud/cluster/Cluster.cc:46-51`. -/
def Pass1.new (m : DMem) (n : ℕ) : Pass1 :=
  ⟨m, List.replicate n n, List.replicate n 0, List.replicate n n, 0⟩

/-- Lines 57-65 of `freud/cluster/Cluster.cc`: a representative seen for the first time gets the
next label. -/
def Pass1.see (n : ℕ) (s : Pass1) (r i : ℕ) : Pass1 :=
  if s.label.getD r 0 = n then
    { s with label := s.label.set r s.num, minId := s.minId.set s.num i, num := s.num + 1 }
  else s

/-- Line 68 of `freud/cluster/Cluster.cc`. -/
def Pass1.tally (s : Pass1) (r : ℕ) : Pass1 :=
  { s with count := s.count.set (s.label.getD r 0) (s.count.getD (s.label.getD r 0) 0 + 1) }

/-- The body of the first loop, `freud/cluster/Cluster.cc:52-69`. -/
def Pass1.step (n : ℕ) (s : Pass1) (i : ℕ) : Option Pass1 :=
  (findSeq (n + 1) s.mem i).map (fun p => (Pass1.see n { s with mem := p.1 } p.2 i).tally p.2)

/-- The first loop, `freud/cluster/Cluster.cc:52-69`. -/
def pass1 (n : ℕ) (m : DMem) : Option Pass1 :=
  (List.range n).foldlM (Pass1.step n) (Pass1.new m n)

/-- The comparison in `sort_indexes_inverse`, `freud/cluster/Cluster.cc:110-119`. -/
def less (count minId : List ℕ) (i1 i2 : ℕ) : Bool :=
  if count.getD i1 0 ≠ count.getD i2 0 then decide (count.getD i1 0 > count.getD i2 0)
  else decide (minId.getD i1 0 < minId.getD i2 0)

/-- The inversion of the permutation, `freud/cluster/Cluster.cc:121-127`. -/
def invert (idx : List ℕ) : List ℕ :=
  idx.zipIdx.foldl (fun inv p => inv.set p.1 p.2) (List.replicate idx.length 0)

/-- The local variables of the second pass. -/
structure Pass2 where
  mem : DMem
  clusterIdx : List ℕ
  keys : List (List ℕ)

/-- The body of the second loop, `freud/cluster/Cluster.cc:85-97`. -/
def Pass2.step (n : ℕ) (label reindex : List ℕ) (key : ℕ → ℕ) (s : Pass2) (i : ℕ) : Option Pass2 :=
  (findSeq (n + 1) s.mem i).map (fun p =>
    let c := reindex.getD (label.getD p.2 0) 0
    ⟨p.1, s.clusterIdx.set i c, s.keys.set c (s.keys.getD c [] ++ [key i])⟩)

/-- The second loop, `freud/cluster/Cluster.cc:79-97`. -/
def pass2 (n : ℕ) (p : Pass1) (idx : List ℕ) (key : ℕ → ℕ) : Option Pass2 :=
  (List.range n).foldlM (Pass2.step n p.label (invert idx) key)
    ⟨p.mem, List.replicate n 0, List.replicate p.num []⟩

/-- What `Cluster.compute` leaves for the user: `num_clusters`, `cluster_idx`, `cluster_keys`. -/
structure Result where
  num : ℕ
  clusterIdx : List ℕ
  keys : List (List ℕ)

/-- Everything after the parallel loop, `freud/cluster/Cluster.cc:41-97`. `std::sort` is a
relation: `idx` is any permutation of the labels in which no later one is less than an earlier
one (the counts and minimal indices are cut to `num` entries, lines 71-75, which does not change
the entries that are compared). `key` is `keys[i]`, or `i` when no keys are given. -/
def Finish (n : ℕ) (m : DMem) (key : ℕ → ℕ) (res : Result) : Prop :=
  ∃ p idx q, pass1 n m = some p ∧ Bond.SortedBy (less p.count p.minId) (List.range p.num) idx ∧
    pass2 n p idx key = some q ∧ res = ⟨p.num, q.clusterIdx, q.keys⟩

end Cluster
end Freud
