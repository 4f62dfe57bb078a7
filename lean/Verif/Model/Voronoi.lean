import Verif.Model.NeighborList
import Mathlib.Analysis.SpecialFunctions.Complex.Arg

/-!
# Voronoi diagrams

Model of what `freud/locality/Voronoi.cc` does with the cells that the library voro++ returns. Exact
arithmetic over the reals. The cells are data: a list of the arrays that voro++ fills, in the order
of its loop. `std::sort` and `tbb::parallel_sort` are parameters.
-/

namespace Freud
namespace Voronoi

/-- The arrays that voro++ returns for one particle, `freud/locality/Voronoi.cc:79-87, 135`. -/
structure RawCell where
  pid : ℕ
  pos : Vec3 ℝ
  faceAreas : List ℝ
  faceVertices : List ℕ
  neighbors : List ℕ
  normals : List ℝ
  vertices : List ℝ
  volume : ℝ

/-- Three consecutive elements starting at `3 * k`; `none` is a read past the end. -/
def triple (l : List ℝ) (k : ℕ) : Option (Vec3 ℝ) :=
  (l[3 * k]?).bind fun x => (l[3 * k + 1]?).bind fun y => (l[3 * k + 2]?).map fun z => ⟨x, y, z⟩

/-- The loop over the vertices of a cell, `freud/locality/Voronoi.cc:89-113`. -/
noncomputable def relativeVertices (is2D : Bool) (pos : Vec3 ℝ) :
    List ℝ → Option (List (Vec3 ℝ))
  | [] => some []
  | x :: y :: z :: rest =>
    if is2D then
      if z < 0 then relativeVertices is2D pos rest
      else (relativeVertices is2D pos rest).map ((⟨x, y, 0⟩ - pos) :: ·)
    else (relativeVertices is2D pos rest).map ((⟨x, y, z⟩ - pos) :: ·)
  | _ => none

/-- The comparison of vertices by angle, `freud/locality/Voronoi.cc:118-121`. -/
noncomputable def angleLess (a b : Vec3 ℝ) : Bool :=
  decide (Complex.arg ⟨a.x, a.y⟩ < Complex.arg ⟨b.x, b.y⟩)

/-- `std::max_element` of a range that is not empty, with the comparison `f a < f b`: the first of
the largest elements. -/
noncomputable def maxElement (f : Vec3 ℝ → ℝ) (first : Vec3 ℝ) (rest : List (Vec3 ℝ)) : Vec3 ℝ :=
  rest.foldl (fun best v => if f best < f v then v else best) first

/-- `cosine_vertex_to_normal`, `freud/locality/Voronoi.cc:175-182`. -/
noncomputable def cosine (pos normal rv : Vec3 ℝ) : ℝ :=
  let riv := rv - pos
  Vec3.dot riv normal / Real.sqrt (Vec3.dot riv riv) / Real.sqrt (Vec3.dot normal normal)

/-- The vertex chosen on a face, `freud/locality/Voronoi.cc:184-195`. The range that is searched
begins at `face_vertices[fi + 1]` and ends before `face_vertices[fi + count]`, so it leaves out the
last vertex of the face; if it is empty, `std::max_element` returns its end, which is then the only
vertex of the face. A face without vertices is undefined. -/
noncomputable def chooseVertex (c : RawCell) (normal : Vec3 ℝ) (fi : ℕ) : Option (Vec3 ℝ) :=
  (c.faceVertices[fi]?).bind fun count =>
    if count = 0 then none
    else
      (((c.faceVertices.drop (fi + 1)).take (count - 1)).mapM (triple c.vertices)).bind fun vs =>
        match vs with
        | [] => (c.faceVertices[fi + 1]?).bind (triple c.vertices)
        | v :: vs => some (maxElement (cosine c.pos normal) v vs)

/-- Whether a face is skipped, `freud/locality/Voronoi.cc:156-157`. -/
noncomputable def skip (is2D : Bool) (n : Vec3 ℝ) : Bool :=
  (is2D && decide (|n.z| > 1 / 2)) || decide (n.x = 0 ∧ n.y = 0 ∧ n.z = 0)

/-- The bond of one face, `freud/locality/Voronoi.cc:162-199`. -/
noncomputable def faceBond (c : RawCell) (normal : Vec3 ℝ) (k fi pointId : ℕ) : Option (Bond ℝ) :=
  (c.faceAreas[k]?).bind fun weight =>
    (chooseVertex c normal fi).map fun rv =>
      let riv := rv - c.pos
      Bond.ofVec c.pid pointId weight (Vec3.smul (2 * Vec3.dot riv normal) normal)

/-- The loop over the faces of a cell, `freud/locality/Voronoi.cc:137-200`: `k` is
`neighbor_counter`, `fi` is `face_vertices_index`. -/
noncomputable def faceLoop (is2D : Bool) (c : RawCell) : ℕ → ℕ → List ℕ → Option (List (Bond ℝ))
  | _, _, [] => some []
  | k, fi, pointId :: rest =>
    (triple c.normals k).bind fun normal =>
      (if skip is2D normal then some [] else (faceBond c normal k fi pointId).map ([·])).bind
        fun here => (c.faceVertices[fi]?).bind fun count =>
          (faceLoop is2D c (k + 1) (fi + (count + 1)) rest).map (here ++ ·)

/-- Data members, `freud/locality/Voronoi.h:45-49`. -/
structure State where
  nlist : NList ℝ
  polytopes : List (List (Vec3 ℝ))
  volumes : List ℝ

/-- `std::vector::resize`. -/
def resize {T : Type*} (l : List T) (n : ℕ) (d : T) : List T :=
  l.take n ++ List.replicate (n - l.length) d

/-- One iteration of the loop over particles, `freud/locality/Voronoi.cc:75-202`. `points` are the
positions the user gave, `sortV` is `std::sort` with `angleLess`. The accumulator is the polytopes,
the volumes and the bonds. -/
noncomputable def cellStep (is2D : Bool) (points : List (Vec3 ℝ))
    (sortV : List (Vec3 ℝ) → List (Vec3 ℝ))
    (acc : List (List (Vec3 ℝ)) × List ℝ × List (Bond ℝ)) (c : RawCell) :
    Option (List (List (Vec3 ℝ)) × List ℝ × List (Bond ℝ)) :=
  (relativeVertices is2D c.pos c.vertices).bind fun rel =>
    let rel := if is2D then sortV rel else rel
    (points[c.pid]?).bind fun sys =>
      if c.pid < acc.1.length ∧ c.pid < acc.2.1.length then
        (faceLoop is2D c 0 0 c.neighbors).map fun bonds =>
          (acc.1.set c.pid (rel.map (· + sys)), acc.2.1.set c.pid c.volume, acc.2.2 ++ bonds)
      else none

/-- `less_id_ref_weight`, `freud/locality/NeighborBond.h:67-78`. -/
noncomputable def lessRefWeight (a b : Bond ℝ) : Bool :=
  if a.q ≠ b.q then decide (a.q < b.q)
  else if a.p ≠ b.p then decide (a.p < b.p)
  else decide (a.weight < b.weight)

/-- `Voronoi::compute`, `freud/locality/Voronoi.cc:31-220`. `sortB` is `tbb::parallel_sort` with
`lessRefWeight`; the parallel loop at 214-219 writes every bond once. `none` is undefined
behaviour. -/
noncomputable def compute (is2D : Bool) (points : List (Vec3 ℝ))
    (sortV : List (Vec3 ℝ) → List (Vec3 ℝ)) (sortB : List (Bond ℝ) → List (Bond ℝ))
    (s : State) (cells : List RawCell) : Option State :=
  (cells.foldlM (cellStep is2D points sortV)
      (resize s.polytopes points.length [], List.replicate points.length 0, [])).map fun r =>
    ⟨⟨points.length, points.length, sortB r.2.2, false, s.nlist.counts, s.nlist.segments⟩, r.1, r.2.1⟩

end Voronoi
end Freud
