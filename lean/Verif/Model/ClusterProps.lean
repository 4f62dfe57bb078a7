import Verif.Model.BoxOps

/-!
# Cluster properties

Model of `ClusterProperties::compute`, `freud/cluster/ClusterProperties.cc:29-131`, and of
`radii_of_gyration`, `freud/cluster.py:265-284`. A point is an entry (label, position, mass);
without masses every mass is one. The Python layer does not check that the mass array is as long
as the point array (`freud/cluster.py:182-183`); a shorter array is read out of range by the code
and is not modelled. The loops over points are sequential in the code.
-/

namespace Freud
namespace ClusterProps

/-- One point: `cluster_idx[i]`, `(*nq)[i]`, `masses[i]`. -/
structure Entry where
  c : ℕ
  pos : Vec3 ℝ
  m : ℝ

/-- A 3x3 matrix by rows, `m_cluster_moments_of_inertia(c, i, j)`. -/
abbrev Mat := Vec3 (Vec3 ℝ)

/-- `num_clusters`, `freud/cluster/ClusterProperties.cc:33-34`. For an empty array the code
dereferences the end pointer; a system has at least one point. -/
def numClusters (es : List Entry) : ℕ := (es.map (·.c)).foldl max 0 + 1

/-- `array[c] = f(array[c], e)` where `c` is the label of the point. -/
def upd {α : Type*} (d : α) (f : α → Entry → α) (arr : List α) (e : Entry) : List α :=
  arr.set e.c (f (arr.getD e.c d) e)

/-- `cluster_points`, `freud/cluster/ClusterProperties.cc:55-56`. -/
def clusterPoints (es : List Entry) : List (List (Vec3 ℝ)) :=
  es.foldl (upd [] (fun l e => l ++ [e.pos])) (List.replicate (numClusters es) [])

/-- `m_cluster_sizes`, `freud/cluster/ClusterProperties.cc:57`. -/
def sizes (es : List Entry) : List ℕ :=
  es.foldl (upd 0 (fun n _ => n + 1)) (List.replicate (numClusters es) 0)

/-- `m_cluster_masses`, `freud/cluster/ClusterProperties.cc:58-59`. -/
noncomputable def masses (es : List Entry) : List ℝ :=
  es.foldl (upd 0 (fun s e => s + e.m)) (List.replicate (numClusters es) 0)

/-- `m_cluster_centers[c]`, `freud/cluster/ClusterProperties.cc:66`: no masses are passed. -/
noncomputable def center (b : Box ℝ) (es : List Entry) (c : ℕ) : Vec3 ℝ :=
  b.centerOfMass (((clusterPoints es).getD c []).map (fun v => (v, 1)))

/-- The offset of `cluster_point_masses` when cluster `c` is reached,
`freud/cluster/ClusterProperties.cc:63, 70-77`. -/
def massOffset (es : List Entry) (c : ℕ) : ℕ := ((sizes es).take c).sum

/-- `m_cluster_centers_of_mass[c]`, `freud/cluster/ClusterProperties.cc:67-68`. -/
noncomputable def centerOfMass (b : Box ℝ) (es : List Entry) (c : ℕ) : Vec3 ℝ :=
  let ms := ((es.map (·.m)).drop (massOffset es c)).take ((sizes es).getD c 0)
  b.centerOfMass (((clusterPoints es).getD c []).zip ms)

/-- What one point adds to the moment of inertia, `freud/cluster/ClusterProperties.cc:91-103`. -/
def inertiaTerm (d : Vec3 ℝ) (m : ℝ) : Mat :=
  ⟨⟨(d.y * d.y + d.z * d.z) * m, -(d.x * d.y * m), -(d.x * d.z * m)⟩,
   ⟨-(d.y * d.x * m), (d.x * d.x + d.z * d.z) * m, -(d.y * d.z * m)⟩,
   ⟨-(d.z * d.x * m), -(d.z * d.y * m), (d.x * d.x + d.y * d.y) * m⟩⟩

/-- What one point adds to the gyration tensor, `freud/cluster/ClusterProperties.cc:106-114`. -/
def gyrationTerm (d : Vec3 ℝ) : Mat :=
  ⟨⟨d.x * d.x, d.x * d.y, d.x * d.z⟩, ⟨d.y * d.x, d.y * d.y, d.y * d.z⟩,
   ⟨d.z * d.x, d.z * d.y, d.z * d.z⟩⟩

/-- `m_cluster_moments_of_inertia`, `freud/cluster/ClusterProperties.cc:82-103`. -/
noncomputable def inertia (b : Box ℝ) (es : List Entry) : List Mat :=
  es.foldl (upd 0 (fun t e => t + inertiaTerm (b.wrap (e.pos - centerOfMass b es e.c)) e.m))
    (List.replicate (numClusters es) 0)

/-- `m_cluster_gyrations` before the division, `freud/cluster/ClusterProperties.cc:82-114`. -/
noncomputable def gyrationSum (b : Box ℝ) (es : List Entry) : List Mat :=
  es.foldl (upd 0 (fun t e => t + gyrationTerm (b.wrap (e.pos - center b es e.c))))
    (List.replicate (numClusters es) 0)

/-- Division of all entries, `freud/cluster/ClusterProperties.cc:120-129`. -/
noncomputable def matDiv (t : Mat) (s : ℝ) : Mat :=
  ⟨⟨t.x.x / s, t.x.y / s, t.x.z / s⟩, ⟨t.y.x / s, t.y.y / s, t.y.z / s⟩,
   ⟨t.z.x / s, t.z.y / s, t.z.z / s⟩⟩

/-- `m_cluster_gyrations[c]`, `freud/cluster/ClusterProperties.cc:117-130`. -/
noncomputable def gyration (b : Box ℝ) (es : List Entry) (c : ℕ) : Mat :=
  matDiv ((gyrationSum b es).getD c 0) ((sizes es).getD c 0 : ℝ)

/-- `radii_of_gyration[c]`, `freud/cluster.py:279-282`. -/
noncomputable def radiusOfGyration (b : Box ℝ) (es : List Entry) (c : ℕ) : ℝ :=
  let t := (inertia b es).getD c 0
  Real.sqrt ((t.x.x + t.y.y + t.z.z) / (2 * (masses es).getD c 0))

end ClusterProps
end Freud
