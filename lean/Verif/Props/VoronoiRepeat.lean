import Verif.Spec.VoronoiRepeat
import Verif.Props.VoronoiOrder
import Verif.Props.RepeatCell

/-!
# Property C135: Voronoi diagrams of a larger cell of the same periodic system
-/

namespace Freud
open Spec Voronoi

namespace Diagram

/-- A vector of the container: one of the box and, in 2D, a height. -/
theorem vector_split {b : Box ℝ} {k : Container} (hk : container b = some k) (hper : FullyPeriodic b) (n : Vec3 ℤ) :
    ∃ (m : Vec3 ℤ) (h : ℤ), AllowedShift b m ∧ containerVector k n = lattice b m + Vec3.smul (h : ℝ) ⟨0, 0, 1⟩ ∧
      (b.is2D = false → h = 0) := by
  obtain ⟨f1, f2, f3⟩ := hper
  by_cases h2 : b.is2D = true
  · refine ⟨⟨n.x, n.y, 0⟩, n.z, ⟨by simp [f1], by simp [f2], fun _ => rfl⟩, ?_, fun h => by simp [h2] at h⟩
    rw [vector_2D hk h2]
  · refine ⟨n, 0, ⟨by simp [f1], by simp [f2], fun h0 => by rcases h0 with h0 | h0 <;> simp_all⟩, ?_, fun _ => rfl⟩
    rw [vector_3D hk (by simpa using h2)]
    ext <;> simp

theorem vector_join {b : Box ℝ} {k : Container} (hk : container b = some k) {m : Vec3 ℤ} (hm : AllowedShift b m)
    {h : ℤ} (hh : b.is2D = false → h = 0) :
    ∃ n, lattice b m + Vec3.smul (h : ℝ) ⟨0, 0, 1⟩ = containerVector k n := by
  by_cases h2 : b.is2D = true
  · have hz := hm.2.2 (.inr h2)
    refine ⟨⟨m.x, m.y, h⟩, ?_⟩
    rw [vector_2D hk h2]
    obtain ⟨mx, my, mz⟩ := m
    simp only at hz
    subst hz
    ext <;> simp
  · have h2' : b.is2D = false := by simpa using h2
    refine ⟨m, ?_⟩
    rw [vector_3D hk h2', hh h2']
    ext <;> simp

/-- The sites of the two descriptions are the same. -/
theorem sites_repeated {b b' : Box ℝ} (hper : FullyPeriodic b) (hper' : FullyPeriodic b') (hl : CoarserLattice b b')
    {t : Vec3 ℝ} {φ : ℕ → ℕ} {pts pts' : List (Vec3 ℝ)} (hp : Repeated b b' t φ pts pts') {k k' : Container}
    (hk : container b = some k) (hk' : container b' = some k') (j : ℕ) (s : Vec3 ℝ) :
    (∃ i, φ i = j ∧ Site k' pts' i (s + t)) ↔ Site k pts j s := by
  constructor
  · rintro ⟨i, rfl, p', n, hp', e⟩
    obtain ⟨p, hpi, m0, hm0, rfl⟩ := hp.point i p' hp'
    obtain ⟨m, h, hm, en, hh⟩ := vector_split hk' hper' n
    obtain ⟨m1, hm1, em⟩ := hl.sub m hm
    obtain ⟨n0, e0⟩ := vector_join hk hm0 (h := 0) (fun _ => rfl)
    obtain ⟨n1, e1⟩ := vector_join hk hm1 (h := h) (by rw [← hl.dims]; exact hh)
    refine ⟨p, n0 + n1, hpi, ?_⟩
    rw [vector_add, ← e0, ← e1]
    rw [en, em] at e
    have ex := congrArg Vec3.x e
    have ey := congrArg Vec3.y e
    have ez := congrArg Vec3.z e
    simp at ex ey ez
    ext <;> simp <;> linarith
  · rintro ⟨p, n, hpj, rfl⟩
    obtain ⟨m, h, hm, en, hh⟩ := vector_split hk hper n
    obtain ⟨i, p', hi, hp', m', hm', e'⟩ := hp.all j p _ hpj ⟨m, hm, rfl⟩
    obtain ⟨n0, e0⟩ := vector_join hk' hm' (h := 0) (fun _ => rfl)
    obtain ⟨n1, e1⟩ := vector_join hk' (m := ⟨0, 0, 0⟩) ⟨fun _ => rfl, fun _ => rfl, fun _ => rfl⟩ (h := h)
      (by rw [hl.dims]; exact hh)
    refine ⟨i, hi, p', -n0 + n1, hp', ?_⟩
    rw [vector_add, vector_neg, ← e0, ← e1, e', en]
    have z : lattice b' ⟨0, 0, 0⟩ = ⟨0, 0, 0⟩ := by ext <;> simp [lattice, comb]
    rw [z]
    ext <;> simp <;> ring

/-- Regions and facets depend on where the sites are, and not on whose sites they are. -/
theorem region_union {k k' : Container} {pts pts' : List (Vec3 ℝ)} {o : Vec3 ℝ}
    (hs : ∀ s, (∃ j, Site k' pts' j (s + o)) ↔ ∃ j, Site k pts j s) :
    (∀ s, region k' pts' (s + o) = (fun x => x + o) '' region k pts s) ∧
      ∀ s t, shared k' pts' (s + o) (t + o) = (fun x => x + o) '' shared k pts s t := by
  have e : ∀ x y : Vec3 ℝ, x + o - (y + o) = x - y := by intro x y; ext <;> simp
  have back : ∀ x : Vec3 ℝ, ∃ y, x = y + o := fun x => ⟨x - o, by ext <;> simp⟩
  have hinj : ∀ x y : Vec3 ℝ, x + o = y + o → x = y := by
    intro x y h0
    have hx := congrArg Vec3.x h0
    have hy := congrArg Vec3.y h0
    have hz := congrArg Vec3.z h0
    simp only [Vec3.add_x, Vec3.add_y, Vec3.add_z] at hx hy hz
    ext <;> linarith
  have hmem : ∀ s x, x + o ∈ region k' pts' (s + o) ↔ x ∈ region k pts s := by
    intro s x
    constructor
    · intro hx j t ht
      obtain ⟨j', hj'⟩ := (hs t).mpr ⟨j, ht⟩
      have := hx j' _ hj'
      rwa [e, e] at this
    · intro hx j t ht
      obtain ⟨t, rfl⟩ := back t
      obtain ⟨j', hj'⟩ := (hs t).mp ⟨j, ht⟩
      rw [e, e]
      exact hx j' t hj'
  refine ⟨fun s => ?_, fun s t => ?_⟩
  · ext x
    obtain ⟨x, rfl⟩ := back x
    rw [hmem]
    exact ⟨fun h => ⟨x, h, rfl⟩, fun ⟨y, hy, e⟩ => by rwa [← hinj _ _ e]⟩
  · ext x
    obtain ⟨x, rfl⟩ := back x
    have : x + o ∈ shared k' pts' (s + o) (t + o) ↔ x ∈ shared k pts s t := by
      change (_ ∧ Vec3.norm (x + o - (s + o)) = Vec3.norm (x + o - (t + o))) ↔
        (_ ∧ Vec3.norm (x - s) = Vec3.norm (x - t))
      rw [hmem, e, e]
    rw [this]
    exact ⟨fun h => ⟨x, h, rfl⟩, fun ⟨y, hy, e⟩ => by rwa [← hinj _ _ e]⟩

open Classical in
/-- The bonds of the list that start at the particle of a cell are the bonds of the cell. -/
theorem bonds_of_cell {is2D : Bool} {cells : List Spec.Cell} (hnd : (cells.map (·.pid)).Nodup) {c : Spec.Cell}
    (hc : c ∈ cells) :
    (cells.flatMap (ridgeBonds is2D)).filter (fun nb => nb.q = c.pid) = ridgeBonds is2D c := by
  have hself : ∀ d : Spec.Cell, (ridgeBonds is2D d).filter (fun nb => nb.q = c.pid) =
      if d.pid = c.pid then ridgeBonds is2D d else [] := by
    intro d
    have hq : ∀ nb ∈ ridgeBonds is2D d, nb.q = d.pid := by
      intro nb hnb
      obtain ⟨r, -, rfl⟩ := List.mem_map.mp hnb
      rfl
    by_cases h : d.pid = c.pid
    · rw [if_pos h, List.filter_eq_self]
      intro nb hnb
      simp [hq nb hnb, h]
    · rw [if_neg h, List.filter_eq_nil_iff]
      intro nb hnb
      simp [hq nb hnb, h]
  induction cells with
  | nil => cases hc
  | cons d ds ih =>
    rw [List.flatMap_cons, List.filter_append, hself]
    rw [List.map_cons, List.nodup_cons] at hnd
    rcases List.mem_cons.mp hc with rfl | hc
    · rw [if_pos rfl]
      have : (ds.flatMap (ridgeBonds is2D)).filter (fun nb => nb.q = c.pid) = [] := by
        rw [List.filter_eq_nil_iff]
        intro nb hnb
        obtain ⟨d, hd, hnb⟩ := List.mem_flatMap.mp hnb
        obtain ⟨r, -, rfl⟩ := List.mem_map.mp hnb
        simp only [decide_eq_true_eq]
        intro h
        exact hnd.1 (List.mem_map.mpr ⟨d, hd, h⟩)
      rw [this, List.append_nil]
    · have hne : d.pid ≠ c.pid := fun h => hnd.1 (List.mem_map.mpr ⟨c, hc, h.symm⟩)
      rw [if_neg hne, List.nil_append, ih hnd.2 hc]

end Diagram

open Diagram in
/-- **C135**: a larger cell of the same periodic system gives the same Voronoi diagram: each particle has the volume of
the particle that it is an image of, and sees the same neighbors at the same distances, with the same vectors and
weights. -/
theorem C135_larger_cell (b b' : Box ℝ) (hper : FullyPeriodic b) (hper' : FullyPeriodic b')
    (hl : CoarserLattice b b') (t : Vec3 ℝ) (φ : ℕ → ℕ) (pts pts' : List (Vec3 ℝ)) (hp : Repeated b b' t φ pts pts')
    (area : Set (Vec3 ℝ) → ℝ) (harea : ∀ S v, area ((fun x => x + v) '' S) = area S) (k k' : Container)
    (hk : container b = some k) (hk' : container b' = some k') (cells cells' : List Spec.Cell)
    (h : DiagramOK b pts cells) (h' : DiagramOK b' pts' cells')
    (hv : ∀ c ∈ cells, VoroOK k pts area c) (hv' : ∀ c ∈ cells', VoroOK k' pts' area c)
    (sortV sortV' : List (Vec3 ℝ) → List (Vec3 ℝ)) (sortB sortB' : List (Bond ℝ) → List (Bond ℝ))
    (hs : SortsOK sortV sortB) (hs' : SortsOK sortV' sortB') (s s' : Voronoi.State) :
    ∃ s1 s1', compute b.is2D pts sortV sortB s (cells.map raw) = some s1 ∧
      compute b'.is2D pts' sortV' sortB' s' (cells'.map raw) = some s1' ∧
      ∀ i < pts'.length, s1'.volumes[i]? = s1.volumes[φ i]? ∧
        ((s1'.nlist.bonds.filter fun nb => nb.q = i).map (seen φ)).Perm
          ((s1.nlist.bonds.filter fun nb => nb.q = φ i).map (seen id)) := by
  classical
  obtain ⟨s1, e, hn, -, -, hvol⟩ := compute_spec b pts cells h sortV sortB s
  obtain ⟨s1', e', hn', -, -, hvol'⟩ := compute_spec b' pts' cells' h' sortV' sortB' s'
  have hperm : s1.nlist.bonds.Perm (cells.flatMap (ridgeBonds b.is2D)) := by
    rw [hn]; exact (hs.bonds _).1
  have hperm' : s1'.nlist.bonds.Perm (cells'.flatMap (ridgeBonds b'.is2D)) := by
    rw [hn']; exact (hs'.bonds _).1
  refine ⟨s1, s1', e, e', fun i hi => ?_⟩
  obtain ⟨c', hc', rfl⟩ : ∃ c' ∈ cells', c'.pid = i := by
    have h1 : i ∈ cells'.map (·.pid) := by rw [h'.all.mem_iff, List.mem_range]; exact hi
    simpa using h1
  obtain ⟨c, hc, hpid⟩ : ∃ c ∈ cells, c.pid = φ c'.pid := by
    obtain ⟨p, hpp, -⟩ := hp.point c'.pid _ (List.getElem?_eq_getElem hi)
    have h1 : φ c'.pid ∈ cells.map (·.pid) := by
      rw [h.all.mem_iff, List.mem_range]
      exact (List.getElem?_eq_some_iff.mp hpp).1
    simpa using h1
  have ok := hv c hc
  have ok' := hv' c' hc'
  -- where the larger cell has the site of the smaller one
  obtain ⟨o, hsite, hpos⟩ : ∃ o, (∀ j s, (∃ i, φ i = j ∧ Site k' pts' i (s + o)) ↔ Site k pts j s) ∧
      c'.pos = c.pos + o := by
    have hsite := sites_repeated hper hper' hl hp hk hk'
    have h1 : Site k pts c.pid (c'.pos - t) := by
      rw [hpid, ← hsite]
      refine ⟨c'.pid, rfl, ?_⟩
      have : c'.pos - t + t = c'.pos := by ext <;> simp
      rw [this]
      exact ok'.pos
    obtain ⟨n, hn⟩ := site_diff ok.pos h1
    refine ⟨containerVector k n + t, fun j s => ?_, ?_⟩
    · have e1 : s + (containerVector k n + t) = s + containerVector k n + t := by ext <;> simp <;> ring
      rw [e1, hsite]
      refine ⟨fun h2 => ?_, fun h2 => site_add h2 n⟩
      have := site_add h2 (-n)
      have e2 : s + containerVector k n + containerVector k (-n) = s := by
        rw [vector_neg]; ext <;> simp
      rwa [e2] at this
    · have hx := congrArg Vec3.x hn
      have hy := congrArg Vec3.y hn
      have hz := congrArg Vec3.z hn
      simp only [Vec3.sub_x, Vec3.sub_y, Vec3.sub_z, Vec3.add_x, Vec3.add_y, Vec3.add_z] at hx hy hz
      ext <;> simp <;> linarith
  obtain ⟨hreg, hsh⟩ := region_union (o := o) (k := k) (k' := k') (pts := pts) (pts' := pts') fun s =>
    ⟨fun ⟨i, hi⟩ => ⟨φ i, (hsite _ s).mp ⟨i, rfl, hi⟩⟩, fun ⟨j, hj⟩ =>
      let ⟨i, _, hi⟩ := (hsite j s).mpr hj
      ⟨i, hi⟩⟩
  have hid : Rigid (fun v : Vec3 ℝ => v) := fun _ _ => rfl
  have back : ∀ x : Vec3 ℝ, ∃ y, x = y + o := fun x => ⟨x - o, by ext <;> simp⟩
  have ediff : ∀ x : Vec3 ℝ, x + o - (c.pos + o) = x - c.pos := by intro x; ext <;> simp
  have hinj : ∀ x y : Vec3 ℝ, x + o = y + o → x = y := by
    intro x y h0
    have hx := congrArg Vec3.x h0
    have hy := congrArg Vec3.y h0
    have hz := congrArg Vec3.z h0
    simp only [Vec3.add_x, Vec3.add_y, Vec3.add_z] at hx hy hz
    ext <;> linarith
  have hsubinj : ∀ x y p : Vec3 ℝ, x - p = y - p → x = y := by
    intro x y p h0
    have hx := congrArg Vec3.x h0
    have hy := congrArg Vec3.y h0
    have hz := congrArg Vec3.z h0
    simp only [Vec3.sub_x, Vec3.sub_y, Vec3.sub_z] at hx hy hz
    ext <;> linarith
  refine ⟨?_, ?_⟩
  · rw [(hvol' c' hc').2, ← hpid, (hvol c hc).2, ok.volume, ok'.volume, hpos, hreg, volumeOf_image hid]
  have hb : (s1.nlist.bonds.filter fun nb => nb.q = φ c'.pid).Perm (ridgeBonds b.is2D c) := by
    rw [← hpid, ← bonds_of_cell (is2D := b.is2D) (h.all.nodup_iff.mpr List.nodup_range) hc]
    exact hperm.filter _
  have hb' : (s1'.nlist.bonds.filter fun nb => nb.q = c'.pid).Perm (ridgeBonds b'.is2D c') := by
    rw [← bonds_of_cell (is2D := b'.is2D) (h'.all.nodup_iff.mpr List.nodup_range) hc']
    exact hperm'.filter _
  refine (hb'.map _).trans (List.Perm.trans ?_ (hb.map _).symm)
  -- ridges that correspond to one another
  have key : ∀ r ∈ c.ridges, ∀ r' ∈ c'.ridges, r.neighbor = φ r'.neighbor → r'.image = r.image + o →
      (Horizontal b.is2D r' ↔ Horizontal b.is2D r) ∧
      seen φ ⟨c'.pid, r'.neighbor, Vec3.norm (r'.image - c'.pos), r'.area, r'.image - c'.pos⟩ =
        seen id ⟨c.pid, r.neighbor, Vec3.norm (r.image - c.pos), r.area, r.image - c.pos⟩ := by
    intro r h1 r' h1' hn hi
    have hvec : r'.image - c'.pos = r.image - c.pos := by rw [hi, hpos, ediff]
    constructor
    · unfold Horizontal
      rw [normal_turned hid ((h.each c hc).ridges r h1) ((h'.each c' hc').ridges r' h1') hvec]
    · unfold seen
      rw [hvec, ok.area r h1, ok'.area r' h1', hi, hpos, hsh, harea]
      simp [hn]
  have there : ∀ r' ∈ c'.ridges, ∃ r ∈ c.ridges, r.neighbor = φ r'.neighbor ∧ r'.image = r.image + o := by
    intro r' hr'
    obtain ⟨u, hu⟩ := back r'.image
    obtain ⟨h1, h2, h3⟩ := (ok'.each r'.neighbor r'.image).mp ⟨r', hr', rfl, rfl⟩
    rw [hu] at h1 h2 h3
    rw [hpos] at h2 h3
    rw [hsh, broad_turned hid] at h3
    obtain ⟨r, hr, hr1, hr2⟩ := (ok.each (φ r'.neighbor) u).mpr
      ⟨(hsite _ _).mp ⟨_, rfl, h1⟩, fun h0 => h2 (by rw [h0]), h3⟩
    exact ⟨r, hr, hr1, by rw [hu, hr2]⟩
  have back' : ∀ r ∈ c.ridges, ∃ r' ∈ c'.ridges, r.neighbor = φ r'.neighbor ∧ r'.image = r.image + o := by
    intro r hr
    obtain ⟨h1, h2, h3⟩ := (ok.each r.neighbor r.image).mp ⟨r, hr, rfl, rfl⟩
    obtain ⟨i, hi, hsi⟩ := (hsite _ _).mpr h1
    obtain ⟨r', hr', hr1, hr2⟩ := (ok'.each i (r.image + o)).mpr
      ⟨hsi, fun h0 => h2 (hinj _ _ (by rw [h0, hpos])), by rw [hpos, hsh, broad_turned hid]; exact h3⟩
    exact ⟨r', hr', by rw [hr1, hi], hr2⟩
  rw [hl.dims]
  have hnd : ((ridgeBonds b.is2D c).map (seen id)).Nodup := by
    unfold ridgeBonds
    rw [List.map_map]
    refine ((List.Nodup.of_map _ ok.once).filter _).map_on fun r h1 r' h1' heq => ?_
    simp only [Function.comp_apply, seen, Prod.mk.injEq, id] at heq
    exact List.inj_on_of_nodup_map ok.once (List.mem_of_mem_filter h1) (List.mem_of_mem_filter h1')
      (Prod.ext heq.1 (hsubinj _ _ _ heq.2.2.2))
  have hnd' : ((ridgeBonds b.is2D c').map (seen φ)).Nodup := by
    unfold ridgeBonds
    rw [List.map_map]
    refine ((List.Nodup.of_map _ ok'.once).filter _).map_on fun r h1 r' h1' heq => ?_
    simp only [Function.comp_apply, seen, Prod.mk.injEq] at heq
    have himg := hsubinj _ _ _ heq.2.2.2
    have hr := List.mem_of_mem_filter h1
    have hr' := List.mem_of_mem_filter h1'
    obtain ⟨p, n, hp1, e1⟩ := ((ok'.each _ _).mp ⟨r, hr, rfl, rfl⟩).1
    obtain ⟨p', n', hp2, e2⟩ := ((ok'.each _ _).mp ⟨r', hr', rfl, rfl⟩).1
    refine List.inj_on_of_nodup_map ok'.once hr hr' (Prod.ext ?_ himg)
    obtain ⟨p0, hp0, m0, hm0, rfl⟩ := hp.point _ _ hp1
    obtain ⟨p0', hp0', m0', hm0', rfl⟩ := hp.point _ _ hp2
    obtain rfl : p0 = p0' := Option.some.inj (hp0.symm.trans (by rw [heq.1]; exact hp0'))
    obtain ⟨m, h0, hm, en, hh⟩ := vector_split hk' hper' n
    obtain ⟨m', h0', hm', en', hh'⟩ := vector_split hk' hper' n'
    have heq' := himg
    rw [e1, e2, en, en'] at heq'
    have hx := congrArg Vec3.x heq'
    have hy := congrArg Vec3.y heq'
    have hz := congrArg Vec3.z heq'
    have hheight : (h0 : ℝ) = h0' := by
      by_cases h2 : b'.is2D = true
      · have z1 := hm0.2.2 (.inr (hl.dims ▸ h2))
        have z2 := hm0'.2.2 (.inr (hl.dims ▸ h2))
        have z3 := hm.2.2 (.inr h2)
        have z4 := hm'.2.2 (.inr h2)
        simpa [lattice, comb, a1, a2, a3, z1, z2, z3, z4] using hz
      · rw [hh (by simpa using h2), hh' (by simpa using h2)]
    refine hp.once _ _ _ _ hp1 hp2 heq.1 ⟨m + -m', ⟨fun h => ?_, fun h => ?_, fun h => ?_⟩, ?_⟩
    · simp [hm.1 h, hm'.1 h]
    · simp [hm.2.1 h, hm'.2.1 h]
    · simp [hm.2.2 h, hm'.2.2 h]
    · rw [lattice_add, lattice_neg]
      simp only [Vec3.add_x, Vec3.add_y, Vec3.add_z, Vec3.smul_x, Vec3.smul_y, Vec3.smul_z, hheight] at hx hy hz
      ext <;> simp only [Vec3.add_x, Vec3.add_y, Vec3.add_z, Vec3.neg_x, Vec3.neg_y, Vec3.neg_z] <;> linarith
  refine (List.perm_ext_iff_of_nodup hnd' hnd).mpr fun x => ?_
  unfold ridgeBonds
  simp only [List.mem_map]
  constructor
  · rintro ⟨_, ⟨r', h1, rfl⟩, rfl⟩
    obtain ⟨r, hr, hr1, hr2⟩ := there r' (List.mem_of_mem_filter h1)
    obtain ⟨hh, he⟩ := key r hr r' (List.mem_of_mem_filter h1) hr1 hr2
    refine ⟨_, ⟨r, List.mem_filter.mpr ⟨hr, ?_⟩, rfl⟩, he.symm⟩
    rw [← hh]
    exact (List.mem_filter.mp h1).2
  · rintro ⟨_, ⟨r, h1, rfl⟩, rfl⟩
    obtain ⟨r', hr', hr1, hr2⟩ := back' r (List.mem_of_mem_filter h1)
    obtain ⟨hh, he⟩ := key r (List.mem_of_mem_filter h1) r' hr' hr1 hr2
    refine ⟨_, ⟨r', List.mem_filter.mpr ⟨hr', ?_⟩, rfl⟩, he⟩
    rw [hh]
    exact (List.mem_filter.mp h1).2

/-- Coordination numbers do not depend on the order of the neighbors. -/
theorem coordRow_perm (p : Coordination.Params) {xs ys : List ℝ} (h : xs.Perm ys) : coordRow p xs = coordRow p ys := by
  have hl := h.length_eq
  have h1 : ∀ m, coordPower m xs = coordPower m ys := by
    intro m
    unfold coordPower
    rw [hl, (h.map _).sum_eq]
  have h2 : coordLog xs = coordLog ys := by
    unfold coordLog
    rw [hl, (h.map _).sum_eq]
  have h3 : coordExp xs = coordExp ys := by
    unfold coordExp
    rw [hl, (h.map _).sum_eq]
  unfold coordRow
  rw [h2, h3, hl]
  simp only [h1]

/-- **C135**: the continuous coordination numbers of a particle in a larger cell are those of the particle that it is
an image of, whatever the threads do. -/
theorem C135_coordination (b b' : Box ℝ) (hper : FullyPeriodic b) (hper' : FullyPeriodic b')
    (hl : CoarserLattice b b') (t : Vec3 ℝ) (φ : ℕ → ℕ) (pts pts' : List (Vec3 ℝ)) (hp : Repeated b b' t φ pts pts')
    (area : Set (Vec3 ℝ) → ℝ) (harea : ∀ S v, area ((fun x => x + v) '' S) = area S) (k k' : Container)
    (hk : container b = some k) (hk' : container b' = some k') (cells cells' : List Spec.Cell)
    (h : DiagramOK b pts cells) (h' : DiagramOK b' pts' cells')
    (hv : ∀ c ∈ cells, VoroOK k pts area c) (hv' : ∀ c ∈ cells', VoroOK k' pts' area c)
    (hvol : ∀ c ∈ cells ++ cells', 0 < c.volume) (hpos : ∀ c ∈ cells ++ cells', ∀ r ∈ c.ridges, 0 < r.area)
    (hridge : ∀ c ∈ cells ++ cells', ∃ r ∈ c.ridges, ¬ Horizontal b.is2D r)
    (sortV sortV' : List (Vec3 ℝ) → List (Vec3 ℝ)) (sortB sortB' : List (Bond ℝ) → List (Bond ℝ))
    (hs : SortsOK sortV sortB) (hs' : SortsOK sortV' sortB') (s s' : Voronoi.State) :
    ∃ s1 s1', compute b.is2D pts sortV sortB s (cells.map raw) = some s1 ∧
      compute b'.is2D pts' sortV' sortB' s' (cells'.map raw) = some s1' ∧
      ∀ (p : Coordination.Params) (order order' : List ℕ), order.Perm (List.range pts.length) →
        order'.Perm (List.range pts'.length) →
        ∃ rows rows', Coordination.compute p b.is2D s1 order = some rows ∧
          Coordination.compute p b'.is2D s1' order' = some rows' ∧
          ∀ i < pts'.length, ∃ row, rows'[i]? = some row ∧ rows[φ i]? = some row := by
  obtain ⟨s1, s1', e, e', hsame⟩ := C135_larger_cell b b' hper hper' hl t φ pts pts' hp area harea k k' hk hk' cells
    cells' h h' hv hv' sortV sortV' sortB sortB' hs hs' s s'
  obtain ⟨s2, e2, hq, hproper, -⟩ := C81_voronoi b pts cells h sortV sortB hs s
    (fun c hc => hvol c (List.mem_append_left _ hc)) (fun c hc => hpos c (List.mem_append_left _ hc))
    (fun c hc => hridge c (List.mem_append_left _ hc))
  obtain rfl : s1 = s2 := Option.some.inj (e.symm.trans e2)
  obtain ⟨s2', e2', hq', hproper', -⟩ := C81_voronoi b' pts' cells' h' sortV' sortB' hs' s'
    (fun c hc => hvol c (List.mem_append_right _ hc)) (fun c hc => hpos c (List.mem_append_right _ hc))
    (fun c hc => by rw [hl.dims]; exact hridge c (List.mem_append_right _ hc))
  obtain rfl : s1' = s2' := Option.some.inj (e'.symm.trans e2')
  refine ⟨s1, s1', e, e', fun p order order' ho ho' => ?_⟩
  refine ⟨_, _, C81_value p b.is2D s1 hproper order (by rw [hq]; exact ho),
    C81_value p b'.is2D s1' hproper' order' (by rw [hq']; exact ho'), fun i hi => ?_⟩
  obtain ⟨h1, h2⟩ := hsame i hi
  have hφ : φ i < pts.length := hp.lt hi
  refine ⟨_, by rw [hq', List.getElem?_map, List.getElem?_range hi]; rfl, ?_⟩
  rw [hq, List.getElem?_map, List.getElem?_range hφ]
  refine congrArg some (coordRow_perm p ?_)
  have e1 : s1'.volumes.getD i 0 = s1.volumes.getD (φ i) 0 := by
    rw [List.getD_eq_getElem?_getD, List.getD_eq_getElem?_getD, h1]
  have hm := h2.map fun x => pyramid (dimension b.is2D) x.2.2.1 (x.2.1 / 2) / s1.volumes.getD (φ i) 0
  rw [List.map_map, List.map_map] at hm
  unfold fractions bondsOfPoint
  rw [e1, hl.dims]
  exact hm.symm

/-- **C135**: systems that `generate_system` makes from the same cell with the same scale, with `m` times as many
replicas along each direction, have the same Voronoi diagram. -/
theorem C135_generate (u : UnitCell ℝ) (hu : GoodCell u.box) (n m : Vec3 ℤ) (scale : ℝ) (b b' : Box ℝ)
    (pts pts' : List (Vec3 ℝ)) (hg : u.generateSystem n scale none = some (b, pts))
    (hg' : u.generateSystem ⟨m.x * n.x, m.y * n.y, m.z * n.z⟩ scale none = some (b', pts'))
    (area : Set (Vec3 ℝ) → ℝ) (harea : ∀ S v, area ((fun x => x + v) '' S) = area S) (k k' : Container)
    (hk : container b = some k) (hk' : container b' = some k') (cells cells' : List Spec.Cell)
    (h : DiagramOK b pts cells) (h' : DiagramOK b' pts' cells')
    (hv : ∀ c ∈ cells, VoroOK k pts area c) (hv' : ∀ c ∈ cells', VoroOK k' pts' area c)
    (sortV sortV' : List (Vec3 ℝ) → List (Vec3 ℝ)) (sortB sortB' : List (Bond ℝ) → List (Bond ℝ))
    (hs : SortsOK sortV sortB) (hs' : SortsOK sortV' sortB') (s s' : Voronoi.State) :
    ∃ s1 s1', compute b.is2D pts sortV sortB s (cells.map raw) = some s1 ∧
      compute b'.is2D pts' sortV' sortB' s' (cells'.map raw) = some s1' ∧
      ∃ t φ, Repeated b b' t φ pts pts' ∧ ∀ i < pts'.length, s1'.volumes[i]? = s1.volumes[φ i]? ∧
        ((s1'.nlist.bonds.filter fun nb => nb.q = i).map (seen φ)).Perm
          ((s1.nlist.bonds.filter fun nb => nb.q = φ i).map (seen id)) := by
  obtain ⟨hl, ⟨t, φ, hp⟩, hsys, hsys', -⟩ := C109_generate u hu n m scale b b' pts pts' hg hg'
  obtain ⟨s1, s1', e, e', hall⟩ := C135_larger_cell b b' hsys.periodic hsys'.periodic hl t φ pts pts' hp area harea k
    k' hk hk' cells cells' h h' hv hv' sortV sortV' sortB sortB' hs hs' s s'
  exact ⟨s1, s1', e, e', t, φ, hp, hall⟩

/-- The cells of simple cubic crystals have positive volumes and have ridges. -/
theorem sc_positive {n : Vec3 ℤ} {scale : ℝ} {box : Box ℝ} {points : List (Vec3 ℝ)} {cells : List Spec.Cell}
    {area : Set (Vec3 ℝ) → ℝ} {k : Container}
    (hg : (⟨Box.mk' 1 1 1 0 0 0 false, [⟨0, 0, 0⟩]⟩ : UnitCell ℝ).generateSystem n scale none = some (box, points))
    (hd : DiagramOK box points cells) (hk : container box = some k) (hv : ∀ c ∈ cells, VoroOK k points area c) :
    ∀ c ∈ cells, 0 < c.volume ∧ ∃ r ∈ c.ridges, ¬ Horizontal box.is2D r := by
  classical
  obtain ⟨u, hu, h⟩ := C131_sc
  obtain rfl : _ = u := Option.some.inj (sc_cell.symm.trans hu)
  obtain ⟨sortV, sortB, hs⟩ := sorts_exist
  obtain ⟨t, g⟩ := generated sc_star.cell sc_star.distinct hg
  obtain ⟨s1, e1, hper, hvol⟩ := h _ _ _ _ hg _ hd _ _ hk hv sortV sortB hs ⟨⟨0, 0, [], false, [], []⟩, [], []⟩
  obtain ⟨s2, e2, -, -, -, h3⟩ := compute_spec box points _ hd sortV sortB ⟨⟨0, 0, [], false, [], []⟩, [], []⟩
  obtain rfl : s2 = s1 := Option.some.inj (e2.symm.trans e1)
  obtain ⟨s3, e3, hsurf⟩ := C80_surface box points _ hd sortV sortB hs ⟨⟨0, 0, [], false, [], []⟩, [], []⟩
  obtain rfl : s3 = s2 := Option.some.inj (e3.symm.trans e2)
  intro c hc
  have hi : c.pid < points.length := by
    have := hd.all.mem_iff.mp (List.mem_map.mpr ⟨c, hc, rfl⟩)
    simpa using this
  have h2 : box.is2D = false := by rw [g.dim]; simp [Box.mk', Box.setL]
  obtain ⟨L1, L2, L3⟩ := g.positive
  constructor
  · have h4 := (h3 c hc).2
    rw [hvol, List.getElem?_replicate, if_pos hi] at h4
    rw [← Option.some.inj h4]
    have hp : (0 : ℝ) < points.length := by exact_mod_cast (Nat.zero_le _).trans_lt hi
    refine div_pos ?_ hp
    simp only [Box.getVolume, h2]
    have := L3 h2
    simp only [Bool.false_eq_true, if_false]
    positivity
  · have h5 := (hsurf c hc).1
    have h6 := (hper c.pid hi).length_eq
    have h7 : ridgeBonds box.is2D c ≠ [] := by
      intro h0
      rw [h0] at h5
      rw [h5.eq_nil] at h6
      simp at h6
    obtain ⟨nb, hnb⟩ := List.exists_mem_of_ne_nil _ h7
    obtain ⟨r, hr, -⟩ := List.mem_map.mp hnb
    exact ⟨r, List.mem_of_mem_filter hr, of_decide_eq_true (List.mem_filter.mp hr).2⟩

open Diagram in
/-- The hypotheses of the theorems are met by the simple cubic crystals of one and of 27 cells. -/
example : ∃ b b' t φ pts pts' k k' cells cells', FullyPeriodic b ∧ FullyPeriodic b' ∧ CoarserLattice b b' ∧
    Repeated b b' t φ pts pts' ∧ pts.length = 1 ∧ pts'.length = 27 ∧
    (∀ S v, facetArea ((fun x => x + v) '' S) = facetArea S) ∧ container b = some k ∧ container b' = some k' ∧
    DiagramOK b pts cells ∧ DiagramOK b' pts' cells' ∧ (∀ c ∈ cells, VoroOK k pts facetArea c) ∧
    (∀ c ∈ cells', VoroOK k' pts' facetArea c) ∧ (∀ c ∈ cells ++ cells', 0 < c.volume) ∧
    (∀ c ∈ cells ++ cells', ∀ r ∈ c.ridges, 0 < r.area) ∧
    (∀ c ∈ cells ++ cells', ∃ r ∈ c.ridges, ¬ Horizontal b.is2D r) ∧ ∃ sortV sortB, SortsOK sortV sortB := by
  obtain ⟨u, b, p, o, hu, hg, hd, hk, hv, -⟩ := sc_one
  obtain ⟨b', pts', cells', k', hlen', hg', -, hd', hk', hv', har'⟩ := sc_diagram
  obtain rfl : _ = u := Option.some.inj (sc_cell.symm.trans hu)
  obtain ⟨hl, ⟨t, φ, hp⟩, hsys, hsys', -⟩ := C109_generate _ sc_star.cell ⟨1, 1, 1⟩ ⟨3, 3, 3⟩ 1 b b' [p] pts' hg hg'
  have h1 := sc_positive hg hd hk hv
  have h2 := sc_positive hg' hd' hk' hv'
  refine ⟨b, b', t, φ, [p], pts', _, k', _, cells', hsys.periodic, hsys'.periodic, hl, hp, rfl, hlen',
    facetArea_add, hk, hk', hd, hd', hv, hv', fun c hc => ?_, fun c hc r hr => ?_, fun c hc => ?_, sorts_exist⟩
  · rcases List.mem_append.mp hc with hc | hc
    · exact (h1 c hc).1
    · exact (h2 c hc).1
  · rcases List.mem_append.mp hc with hc | hc
    · rw [List.mem_singleton] at hc
      subst hc
      obtain ⟨r', hr', rfl⟩ := List.mem_map.mp hr
      simp only [cubeV, cube, List.mem_cons, List.not_mem_nil, or_false] at hr'
      rcases hr' with rfl | rfl | rfl | rfl | rfl | rfl <;> norm_num
    · rw [har' c hc r hr]
      norm_num
  · rcases List.mem_append.mp hc with hc | hc
    · exact (h1 c hc).2
    · have := (h2 c hc).2
      rwa [hl.dims] at this

end Freud
