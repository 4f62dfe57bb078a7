import Verif.Lemmas.Voronoi
import Verif.Lemmas.PeriodicBuffer

/-!
# Property C80: Voronoi diagrams
-/

set_option linter.unusedSectionVars false

namespace Freud
open Spec Voronoi

namespace Voronoi

/-- The vertices of a polytope as freud saves them. -/
noncomputable def saved (is2D : Bool) (points : List (Vec3 ℝ))
    (sortV : List (Vec3 ℝ) → List (Vec3 ℝ)) (c : Cell) : List (Vec3 ℝ) :=
  (if is2D then sortV (kept is2D c) else kept is2D c).map (· + points.getD c.pid ⟨0, 0, 0⟩)

theorem cellStep_spec (b : Box ℝ) (points : List (Vec3 ℝ)) (sortV : List (Vec3 ℝ) → List (Vec3 ℝ))
    (c : Cell) (hc : CellOK b points c) (acc : List (List (Vec3 ℝ)) × List ℝ × List (Bond ℝ))
    (h1 : acc.1.length = points.length) (h2 : acc.2.1.length = points.length) :
    cellStep b.is2D points sortV acc (raw c) = some (acc.1.set c.pid (saved b.is2D points sortV c),
      acc.2.1.set c.pid c.volume, acc.2.2 ++ ridgeBonds b.is2D c) := by
  obtain ⟨p, hp, -⟩ := hc.pos
  have hlt : c.pid < points.length := (List.getElem?_eq_some_iff.mp hp).1
  unfold cellStep
  have hrel : relativeVertices b.is2D (raw c).pos (raw c).vertices = some (kept b.is2D c) :=
    relativeVertices_spec b.is2D c.pos c.verts
  have hpid : points[(raw c).pid]? = some p := hp
  have hf : faceLoop b.is2D (raw c) 0 0 (raw c).neighbors = some (ridgeBonds b.is2D c) :=
    faceLoop_spec b.is2D c hc.ridges c.ridges [] rfl
  rw [hrel, Option.bind_some]
  dsimp only
  rw [hpid, Option.bind_some, if_pos (by
    show c.pid < _ ∧ c.pid < _
    omega), hf, Option.map_some]
  unfold saved
  rw [List.getD_eq_getElem?_getD, hp, Option.getD_some]
  rfl

theorem fold_spec (b : Box ℝ) (points : List (Vec3 ℝ)) (sortV : List (Vec3 ℝ) → List (Vec3 ℝ))
    (cells : List Cell) : ∀ (acc : List (List (Vec3 ℝ)) × List ℝ × List (Bond ℝ)),
    (∀ c ∈ cells, CellOK b points c) → (cells.map (·.pid)).Nodup →
    acc.1.length = points.length → acc.2.1.length = points.length →
    ∃ r, (cells.map raw).foldlM (cellStep b.is2D points sortV) acc = some r ∧
      r.1.length = points.length ∧ r.2.1.length = points.length ∧
      r.2.2 = acc.2.2 ++ cells.flatMap (ridgeBonds b.is2D) ∧
      (∀ c ∈ cells, r.1[c.pid]? = some (saved b.is2D points sortV c) ∧ r.2.1[c.pid]? = some c.volume) ∧
      (∀ i, i ∉ cells.map (·.pid) → r.1[i]? = acc.1[i]? ∧ r.2.1[i]? = acc.2.1[i]?) := by
  induction cells with
  | nil => intro acc _ _ h1 h2; exact ⟨acc, rfl, h1, h2, by simp, by simp, by simp⟩
  | cons c cs ih =>
    intro acc hc hnd h1 h2
    have hcc := hc c (by simp)
    obtain ⟨p, hp, -⟩ := hcc.pos
    have hlt : c.pid < points.length := (List.getElem?_eq_some_iff.mp hp).1
    rw [List.map_cons, List.nodup_cons] at hnd
    obtain ⟨r, e, hr1, hr2, hb, hin, hout⟩ := ih (acc.1.set c.pid (saved b.is2D points sortV c),
      acc.2.1.set c.pid c.volume, acc.2.2 ++ ridgeBonds b.is2D c) (fun d hd => hc d (by simp [hd]))
      hnd.2 (by simpa using h1) (by simpa using h2)
    refine ⟨r, ?_, hr1, hr2, ?_, ?_, ?_⟩
    · rw [List.map_cons, List.foldlM_cons, cellStep_spec b points sortV c hcc acc h1 h2]
      exact e
    · rw [hb, List.flatMap_cons, List.append_assoc]
    · intro d hd
      rw [List.mem_cons] at hd
      rcases hd with rfl | hd
      · have := hout d.pid hnd.1
        rw [this.1, this.2]
        exact ⟨List.getElem?_set_self (by omega), List.getElem?_set_self (by omega)⟩
      · exact hin d hd
    · intro i hi
      rw [List.map_cons, List.mem_cons, not_or] at hi
      have := hout i hi.2
      rw [this.1, this.2]
      exact ⟨List.getElem?_set_ne (Ne.symm hi.1), List.getElem?_set_ne (Ne.symm hi.1)⟩

theorem compute_spec (b : Box ℝ) (points : List (Vec3 ℝ)) (cells : List Cell)
    (h : DiagramOK b points cells) (sortV : List (Vec3 ℝ) → List (Vec3 ℝ))
    (sortB : List (Bond ℝ) → List (Bond ℝ)) (s : Voronoi.State) :
    ∃ s', compute b.is2D points sortV sortB s (cells.map raw) = some s' ∧
      s'.nlist = ⟨points.length, points.length, sortB (cells.flatMap (ridgeBonds b.is2D)), false,
        s.nlist.counts, s.nlist.segments⟩ ∧
      s'.polytopes.length = points.length ∧ s'.volumes.length = points.length ∧
      ∀ c ∈ cells, s'.polytopes[c.pid]? = some (saved b.is2D points sortV c) ∧
        s'.volumes[c.pid]? = some c.volume := by
  have hlen : (resize s.polytopes points.length ([] : List (Vec3 ℝ))).length = points.length := by
    unfold resize; simp; omega
  obtain ⟨r, e, hr1, hr2, hb, hin, -⟩ := fold_spec b points sortV cells
    (resize s.polytopes points.length [], List.replicate points.length 0, []) h.each
    (h.all.nodup_iff.mpr List.nodup_range) hlen (by simp)
  rw [List.nil_append] at hb
  refine ⟨_, by unfold compute; rw [e, Option.map_some], ?_, hr1, hr2, hin⟩
  rw [hb]

end Voronoi

/-- **C80**: the neighbor list of a Voronoi diagram has exactly one bond for each ridge between
particles, in the direction from the particle of the cell to the image of its neighbor, with the
distance between them and the area (in 2D length) of the ridge as weight; it is sorted by query
point, point and weight, and its indices are in range. This holds whatever was computed with the
object before. -/
theorem C80_neighbor_list (b : Box ℝ) (points : List (Vec3 ℝ)) (cells : List Cell)
    (h : DiagramOK b points cells) (sortV : List (Vec3 ℝ) → List (Vec3 ℝ))
    (sortB : List (Bond ℝ) → List (Bond ℝ)) (hs : SortsOK sortV sortB) (s : Voronoi.State) :
    ∃ s', compute b.is2D points sortV sortB s (cells.map raw) = some s' ∧
      s'.nlist.bonds.Perm (cells.flatMap (ridgeBonds b.is2D)) ∧
      s'.nlist.bonds.Pairwise (fun x y => x.q < y.q ∨ (x.q = y.q ∧ (x.p < y.p ∨ (x.p = y.p ∧
        x.weight ≤ y.weight)))) ∧
      s'.nlist.numQueryPoints = points.length ∧ s'.nlist.numPoints = points.length ∧
      s'.nlist.segUpdated = false ∧ GoodList s'.nlist := by
  classical
  obtain ⟨s', e, hn, -⟩ := compute_spec b points cells h sortV sortB s
  have hsort := hs.bonds (cells.flatMap (ridgeBonds b.is2D))
  have hrange : ∀ nb ∈ sortB (cells.flatMap (ridgeBonds b.is2D)),
      nb.q < points.length ∧ nb.p < points.length := by
    intro nb hnb
    have hnb := hsort.1.mem_iff.mp hnb
    obtain ⟨c, hc, hnb⟩ := List.mem_flatMap.mp hnb
    obtain ⟨r, hr, rfl⟩ := List.mem_map.mp hnb
    rw [List.mem_filter] at hr
    have hok := h.each c hc
    obtain ⟨p, hp, -⟩ := hok.pos
    obtain ⟨p', hp', -⟩ := hok.images r hr.1 (of_decide_eq_true hr.2)
    exact ⟨(List.getElem?_eq_some_iff.mp hp).1, (List.getElem?_eq_some_iff.mp hp').1⟩
  have hord : (sortB (cells.flatMap (ridgeBonds b.is2D))).Pairwise (fun x y => x.q < y.q ∨ (x.q = y.q ∧
      (x.p < y.p ∨ (x.p = y.p ∧ x.weight ≤ y.weight)))) := by
    refine hsort.2.imp ?_
    intro x y hxy
    unfold lessRefWeight at hxy
    split_ifs at hxy with h1 h2 <;> simp only [decide_eq_false_iff_not, not_lt] at hxy
    · exact Or.inl (by omega)
    · exact Or.inr ⟨by omega, Or.inl (by omega)⟩
    · exact Or.inr ⟨by omega, Or.inr ⟨by omega, hxy⟩⟩
  refine ⟨s', e, by rw [hn]; exact hsort.1, by rw [hn]; exact hord, by rw [hn], by rw [hn], by rw [hn], ?_⟩
  rw [hn]
  refine ⟨?_, fun nb hnb => (hrange nb hnb).1, fun nb hnb => (hrange nb hnb).2, h.small⟩
  rw [List.pairwise_map]
  refine hsort.2.imp ?_
  intro x y hxy
  by_contra hlt
  push Not at hlt
  unfold lessRefWeight at hxy
  rw [if_pos (by omega)] at hxy
  simp at hxy
  omega

/-- **C80**: the bond vectors of a Voronoi neighbor list join the query point to a periodic image of
the point: they are the difference of the positions up to a lattice vector. -/
theorem C80_vectors (b : Box ℝ) (points : List (Vec3 ℝ)) (cells : List Cell)
    (h : DiagramOK b points cells) (sortV : List (Vec3 ℝ) → List (Vec3 ℝ))
    (sortB : List (Bond ℝ) → List (Bond ℝ)) (hs : SortsOK sortV sortB) (s : Voronoi.State) :
    ∃ s', compute b.is2D points sortV sortB s (cells.map raw) = some s' ∧
      ∀ nb ∈ s'.nlist.bonds, nb.dist = Vec3.norm nb.vec ∧ 0 < nb.dist ∧
        ∃ p q, points[nb.p]? = some p ∧ points[nb.q]? = some q ∧ LatticeImage b (p - q) nb.vec := by
  classical
  obtain ⟨s', e, hn, -⟩ := compute_spec b points cells h sortV sortB s
  refine ⟨s', e, fun nb hnb => ?_⟩
  rw [hn] at hnb
  have hnb := (hs.bonds (cells.flatMap (ridgeBonds b.is2D))).1.mem_iff.mp hnb
  obtain ⟨c, hc, hnb⟩ := List.mem_flatMap.mp hnb
  obtain ⟨r, hr, rfl⟩ := List.mem_map.mp hnb
  rw [List.mem_filter] at hr
  have hok := h.each c hc
  obtain ⟨q, hq, n1, h1⟩ := hok.pos
  obtain ⟨p, hp, n2, h2⟩ := hok.images r hr.1 (of_decide_eq_true hr.2)
  refine ⟨rfl, lt_of_le_of_ne (norm_nonneg' _) (Ne.symm (norm_ne_zero (hok.ridges r hr.1))),
    p, q, hp, hq, n2 - n1, ?_⟩
  dsimp only
  rw [h1, h2]
  ext <;> simp [lattice, comb] <;> ring

/-- **C80**: the volumes are those of the cells, and in three dimensions the polytope of a point has
the vertices of its cell, moved with the point to where the user has it (by a lattice vector), in
the same order. -/
theorem C80_polytopes (b : Box ℝ) (h3 : b.is2D = false) (points : List (Vec3 ℝ)) (cells : List Cell)
    (h : DiagramOK b points cells) (sortV : List (Vec3 ℝ) → List (Vec3 ℝ))
    (sortB : List (Bond ℝ) → List (Bond ℝ)) (s : Voronoi.State) :
    ∃ s', compute b.is2D points sortV sortB s (cells.map raw) = some s' ∧
      s'.polytopes.length = points.length ∧ s'.volumes.length = points.length ∧
      ∀ c ∈ cells, s'.volumes[c.pid]? = some c.volume ∧ ∃ n : Vec3 ℤ,
        (∃ p, points[c.pid]? = some p ∧ p = c.pos + lattice b n) ∧
        s'.polytopes[c.pid]? = some (c.verts.map (· + lattice b n)) := by
  obtain ⟨s', e, -, hl1, hl2, hc⟩ := compute_spec b points cells h sortV sortB s
  refine ⟨s', e, hl1, hl2, fun c hcm => ⟨(hc c hcm).2, ?_⟩⟩
  obtain ⟨p, hp, n, hn⟩ := (h.each c hcm).pos
  refine ⟨-n, ⟨p, hp, ?_⟩, ?_⟩
  · rw [hn]; ext <;> simp [lattice, comb] <;> ring
  · rw [(hc c hcm).1]
    unfold saved kept
    simp only [h3, Bool.false_eq_true, if_false, List.map_map]
    rw [List.getD_eq_getElem?_getD, hp, Option.getD_some]
    congr 1
    refine List.map_congr_left fun v _ => ?_
    simp only [Function.comp]
    rw [hn]
    ext <;> simp [lattice, comb] <;> ring

/-- **C80**: in two dimensions the polytope of a point has the vertices of the upper side of its cell,
projected to the plane and moved with the point, in the order of their angle around the point. -/
theorem C80_polygons (b : Box ℝ) (h2 : b.is2D = true) (points : List (Vec3 ℝ)) (cells : List Cell)
    (h : DiagramOK b points cells) (sortV : List (Vec3 ℝ) → List (Vec3 ℝ))
    (sortB : List (Bond ℝ) → List (Bond ℝ)) (hs : SortsOK sortV sortB) (s : Voronoi.State)  :
    ∃ s', compute b.is2D points sortV sortB s (cells.map raw) = some s' ∧
      s'.polytopes.length = points.length ∧ s'.volumes.length = points.length ∧
      ∀ c ∈ cells, s'.volumes[c.pid]? = some c.volume ∧
        ∃ p poly, points[c.pid]? = some p ∧ s'.polytopes[c.pid]? = some poly ∧
          poly.Perm ((c.verts.filter (fun v => decide (0 ≤ v.z))).map
            (fun v => ⟨v.x, v.y, 0⟩ + (p - c.pos))) ∧
          poly.Pairwise (fun v w => Complex.arg ⟨v.x - p.x, v.y - p.y⟩ ≤
            Complex.arg ⟨w.x - p.x, w.y - p.y⟩) := by
  obtain ⟨s', e, -, hl1, hl2, hc⟩ := compute_spec b points cells h sortV sortB s
  refine ⟨s', e, hl1, hl2, fun c hcm => ⟨(hc c hcm).2, ?_⟩⟩
  obtain ⟨p, hp, n, hn⟩ := (h.each c hcm).pos
  obtain ⟨hperm, hsort⟩ := hs.verts (kept b.is2D c)
  refine ⟨p, _, hp, (hc c hcm).1, ?_, ?_⟩
  · unfold saved
    rw [if_pos h2, List.getD_eq_getElem?_getD, hp, Option.getD_some]
    refine (hperm.map _).trans (List.Perm.of_eq ?_)
    unfold kept
    rw [if_pos h2, List.map_map]
    refine List.map_congr_left fun v _ => ?_
    simp only [Function.comp]
    ext <;> simp <;> ring
  · unfold saved
    rw [if_pos h2, List.getD_eq_getElem?_getD, hp, Option.getD_some, List.pairwise_map]
    refine hsort.imp ?_
    intro v w hvw
    unfold angleLess at hvw
    simp only [decide_eq_false_iff_not, not_lt] at hvw
    simpa using hvw

open Classical in
/-- **C80**: the bonds of a point are those of the ridges of its cell, so that their weights add up to
the area of these ridges. -/
theorem C80_surface (b : Box ℝ) (points : List (Vec3 ℝ)) (cells : List Cell)
    (h : DiagramOK b points cells) (sortV : List (Vec3 ℝ) → List (Vec3 ℝ))
    (sortB : List (Bond ℝ) → List (Bond ℝ)) (hs : SortsOK sortV sortB) (s : Voronoi.State) :
    ∃ s', compute b.is2D points sortV sortB s (cells.map raw) = some s' ∧
      ∀ c ∈ cells, (s'.nlist.bonds.filter (fun nb => decide (nb.q = c.pid))).Perm
        (ridgeBonds b.is2D c) ∧
        ((s'.nlist.bonds.filter (fun nb => decide (nb.q = c.pid))).map (·.weight)).sum =
          ((c.ridges.filter (fun r => decide (¬ Horizontal b.is2D r))).map (·.area)).sum := by
  obtain ⟨s', e, hn, -⟩ := compute_spec b points cells h sortV sortB s
  refine ⟨s', e, fun c hc => ?_⟩
  suffices hp : (s'.nlist.bonds.filter (fun nb => decide (nb.q = c.pid))).Perm
      (ridgeBonds b.is2D c) by
    refine ⟨hp, ?_⟩
    rw [(hp.map _).sum_eq]
    unfold ridgeBonds
    rw [List.map_map]
    rfl
  rw [hn]
  refine ((hs.bonds (cells.flatMap (ridgeBonds b.is2D))).1.filter _).trans (List.Perm.of_eq ?_)
  have hnd : (cells.map (·.pid)).Nodup := h.all.nodup_iff.mpr List.nodup_range
  have hq : ∀ d : Cell, ∀ nb ∈ ridgeBonds b.is2D d, nb.q = d.pid := by
    intro d nb hnb
    obtain ⟨r, -, rfl⟩ := List.mem_map.mp hnb
    rfl
  generalize cells = l at hc hnd
  induction l with
  | nil => simp at hc
  | cons d ds ih =>
    rw [List.map_cons, List.nodup_cons] at hnd
    rw [List.flatMap_cons, List.filter_append]
    rw [List.mem_cons] at hc
    rcases hc with rfl | hc
    · have h1 : (ridgeBonds b.is2D c).filter (fun nb => decide (nb.q = c.pid)) = ridgeBonds b.is2D c :=
        List.filter_eq_self.mpr fun nb hnb => by simpa using hq c nb hnb
      have h2 : (ds.flatMap (ridgeBonds b.is2D)).filter (fun nb => decide (nb.q = c.pid)) = [] := by
        rw [List.filter_eq_nil_iff]
        intro nb hnb
        obtain ⟨d, hd, hnb⟩ := List.mem_flatMap.mp hnb
        rw [hq d nb hnb]
        intro he
        exact hnd.1 (List.mem_map.mpr ⟨d, hd, of_decide_eq_true he⟩)
      rw [h1, h2, List.append_nil]
    · have h1 : (ridgeBonds b.is2D d).filter (fun nb => decide (nb.q = c.pid)) = [] := by
        rw [List.filter_eq_nil_iff]
        intro nb hnb
        rw [hq d nb hnb]
        intro he
        exact hnd.1 (List.mem_map.mpr ⟨c, hc, (of_decide_eq_true he).symm⟩)
      rw [h1, List.nil_append]
      exact ih hc hnd.2

namespace Voronoi

theorem sorted_exists {T : Type*} (less : T → T → Bool)
    (ht : ∀ a b c, less b a = false → less c b = false → less c a = false)
    (hl : ∀ a b, less b a = false ∨ less a b = false) (l : List T) :
    Bond.SortedBy less l (l.mergeSort (fun a b => !(less b a))) := by
  refine ⟨List.mergeSort_perm _ _, ?_⟩
  have := List.pairwise_mergeSort (le := fun a b : T => !(less b a)) (by
    intro a b c hab hbc
    simp only [Bool.not_eq_true'] at *
    exact ht a b c hab hbc) (by
    intro a b
    simpa [Bool.or_eq_true] using hl a b) l
  exact this.imp (fun h => by simpa using h)

/-- Sorting functions exist. -/
theorem sorts_exist : ∃ sortV sortB, SortsOK sortV sortB := by
  refine ⟨fun l => l.mergeSort (fun a b => !(angleLess b a)),
    fun l => l.mergeSort (fun a b => !(lessRefWeight b a)),
    fun l => sorted_exists angleLess ?_ ?_ l, fun l => sorted_exists lessRefWeight ?_ ?_ l⟩
  · intro a b c h1 h2
    simp only [angleLess, decide_eq_false_iff_not, not_lt] at *
    exact h1.trans h2
  · intro a b
    simp only [angleLess, decide_eq_false_iff_not, not_lt]
    exact le_total _ _
  · intro a b c h1 h2
    unfold lessRefWeight at *
    split_ifs at * <;> simp only [decide_eq_false_iff_not, not_lt] at * <;> first | omega | linarith
  · intro a b
    unfold lessRefWeight
    split_ifs <;> simp only [decide_eq_false_iff_not, not_lt] <;> first | omega | exact le_total _ _

/-- One particle in a cube of side 1; the user has it at `-1/4` and voro++ moves it to `3/4`. -/
noncomputable def cube : Cell where
  pid := 0
  pos := ⟨3 / 4, 0, 0⟩
  verts := [⟨1 / 4, -(1 / 2), -(1 / 2)⟩, ⟨5 / 4, -(1 / 2), -(1 / 2)⟩, ⟨1 / 4, 1 / 2, -(1 / 2)⟩,
    ⟨5 / 4, 1 / 2, -(1 / 2)⟩, ⟨1 / 4, -(1 / 2), 1 / 2⟩, ⟨5 / 4, -(1 / 2), 1 / 2⟩,
    ⟨1 / 4, 1 / 2, 1 / 2⟩, ⟨5 / 4, 1 / 2, 1 / 2⟩]
  ridges := [⟨0, ⟨-(1 / 4), 0, 0⟩, 1, ⟨-1, 0, 0⟩, [0, 2, 6, 4]⟩,
    ⟨0, ⟨7 / 4, 0, 0⟩, 1, ⟨1, 0, 0⟩, [1, 3, 7, 5]⟩,
    ⟨0, ⟨3 / 4, -1, 0⟩, 1, ⟨0, -1, 0⟩, [0, 1, 5, 4]⟩,
    ⟨0, ⟨3 / 4, 1, 0⟩, 1, ⟨0, 1, 0⟩, [2, 3, 7, 6]⟩,
    ⟨0, ⟨3 / 4, 0, -1⟩, 1, ⟨0, 0, -1⟩, [0, 1, 3, 2]⟩,
    ⟨0, ⟨3 / 4, 0, 1⟩, 1, ⟨0, 0, 1⟩, [4, 5, 7, 6]⟩]
  volume := 1

theorem cube_norm (r : Ridge) (hr : r ∈ cube.ridges) : Vec3.norm (r.image - cube.pos) = 1 := by
  simp only [cube, List.mem_cons, List.not_mem_nil, or_false] at hr
  rcases hr with rfl | rfl | rfl | rfl | rfl | rfl <;>
    norm_num [cube, Vec3.norm, Vec3.dot]

theorem cube_ok : DiagramOK (Box.mk' 1 1 1 0 0 0 false) [⟨-(1 / 4), 0, 0⟩] [cube] := by
  refine ⟨?_, ?_, by simp⟩
  · intro c hc
    rw [List.mem_singleton] at hc
    subst hc
    refine ⟨⟨_, rfl, ⟨1, 0, 0⟩, ?_⟩, ?_, ?_⟩
    · ext <;> norm_num [cube, lattice, comb, Box.mk', Box.setL, a1, a2, a3]
    · intro r hr
      have hn := cube_norm r hr
      have hr' := hr
      simp only [cube, List.mem_cons, List.not_mem_nil, or_false] at hr'
      refine ⟨?_, ?_, ?_, ?_, ?_⟩
      · rcases hr' with rfl | rfl | rfl | rfl | rfl | rfl <;> simp
      · intro he
        rw [he] at hn
        have : cube.pos - cube.pos = ⟨0, 0, 0⟩ := by ext <;> simp
        rw [this] at hn
        simp [Vec3.norm, Vec3.dot] at hn
      · rcases hr' with rfl | rfl | rfl | rfl | rfl | rfl <;> norm_num [Vec3.dot]
      · rw [hn]
        rcases hr' with rfl | rfl | rfl | rfl | rfl | rfl <;> ext <;>
          norm_num [cube, Vec3.smul]
      · rcases hr' with rfl | rfl | rfl | rfl | rfl | rfl <;> intro i hi <;>
          simp only [List.mem_cons, List.not_mem_nil, or_false] at hi <;>
          rcases hi with rfl | rfl | rfl | rfl <;>
          refine ⟨_, rfl, ?_⟩ <;> norm_num [cube, Vec3.norm, Vec3.dot]
    · intro r hr _
      simp only [cube, List.mem_cons, List.not_mem_nil, or_false] at hr
      rcases hr with rfl | rfl | rfl | rfl | rfl | rfl
      · exact ⟨_, rfl, ⟨0, 0, 0⟩, by ext <;> norm_num [lattice, comb, Box.mk', Box.setL, a1, a2, a3]⟩
      · exact ⟨_, rfl, ⟨2, 0, 0⟩, by ext <;> norm_num [lattice, comb, Box.mk', Box.setL, a1, a2, a3]⟩
      · exact ⟨_, rfl, ⟨1, -1, 0⟩, by ext <;> norm_num [lattice, comb, Box.mk', Box.setL, a1, a2, a3]⟩
      · exact ⟨_, rfl, ⟨1, 1, 0⟩, by ext <;> norm_num [lattice, comb, Box.mk', Box.setL, a1, a2, a3]⟩
      · exact ⟨_, rfl, ⟨1, 0, -1⟩, by ext <;> norm_num [lattice, comb, Box.mk', Box.setL, a1, a2, a3]⟩
      · exact ⟨_, rfl, ⟨1, 0, 1⟩, by ext <;> norm_num [lattice, comb, Box.mk', Box.setL, a1, a2, a3]⟩
  · exact List.Perm.refl _

end Voronoi

/-- The hypotheses of the theorems above are met by the cube, whose particle has six bonds of length
1 to its own images. -/
example : ∃ sortV sortB, SortsOK sortV sortB ∧
    DiagramOK (Box.mk' 1 1 1 0 0 0 false) [⟨-(1 / 4), 0, 0⟩] [Voronoi.cube] ∧
    (ridgeBonds false Voronoi.cube).length = 6 ∧
    ∀ nb ∈ ridgeBonds false Voronoi.cube, nb.dist = 1 := by
  obtain ⟨sv, sb, h⟩ := sorts_exist
  refine ⟨sv, sb, h, cube_ok, ?_, ?_⟩
  · unfold ridgeBonds
    rw [List.length_map, List.filter_eq_self.mpr (by intro r _; simp [Horizontal])]
    rfl
  · intro nb hnb
    obtain ⟨r, hr, rfl⟩ := List.mem_map.mp hnb
    exact cube_norm r (List.mem_of_mem_filter hr)

end Freud
