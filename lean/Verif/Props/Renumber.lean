import Verif.Spec.Renumber
import Verif.Props.Sources
import Verif.Props.LocalDensity
import Verif.Props.Hexatic
import Verif.Props.Cluster

/-!
# Property C86: numbering, origin and images of the particles
-/

namespace Freud
open Spec

theorem lattice_add (b : Box ℝ) (m n : Vec3 ℤ) : lattice b (m + n) = lattice b m + lattice b n := by
  ext <;> simp [lattice, comb] <;> ring

theorem lattice_neg (b : Box ℝ) (n : Vec3 ℤ) : lattice b (-n) = -lattice b n := by
  ext <;> simp [lattice, comb] <;> ring

theorem allowed_add {b : Box ℝ} {m n : Vec3 ℤ} (hm : AllowedShift b m) (hn : AllowedShift b n) :
    AllowedShift b (m + n) :=
  ⟨fun e => by simp [hm.1 e, hn.1 e], fun e => by simp [hm.2.1 e, hn.2.1 e],
    fun e => by simp [hm.2.2 e, hn.2.2 e]⟩

theorem allowed_neg {b : Box ℝ} {n : Vec3 ℤ} (hn : AllowedShift b n) : AllowedShift b (-n) :=
  ⟨fun e => by simp [hn.1 e], fun e => by simp [hn.2.1 e], fun e => by simp [hn.2.2 e]⟩

theorem isImage_trans {b : Box ℝ} {u v w : Vec3 ℝ} (h : IsImage b u v) (h' : IsImage b v w) :
    IsImage b u w := by
  obtain ⟨m, hm, rfl⟩ := h
  obtain ⟨n, hn, rfl⟩ := h'
  exact ⟨m + n, allowed_add hm hn, by rw [lattice_add]; ext <;> simp <;> ring⟩

theorem isImage_symm {b : Box ℝ} {u v : Vec3 ℝ} (h : IsImage b u v) : IsImage b v u := by
  obtain ⟨m, hm, rfl⟩ := h
  exact ⟨-m, allowed_neg hm, by rw [lattice_neg]; ext <;> simp⟩

/-- Separations of images of shifted particles are images of the separation. -/
theorem isImage_separation {b : Box ℝ} {t p q p' q' : Vec3 ℝ} (hp : IsImage b (p + t) p')
    (hq : IsImage b (q + t) q') : IsImage b (p - q) (p' - q') := by
  obtain ⟨m, hm, rfl⟩ := hp
  obtain ⟨n, hn, rfl⟩ := hq
  exact ⟨m + -n, allowed_add hm (allowed_neg hn), by
    rw [lattice_add, lattice_neg]; ext <;> simp <;> ring⟩

theorem Spec.Renumbered.lt_iff {b : Box ℝ} {t : Vec3 ℝ} {σ : Equiv.Perm ℕ} {pts pts' : List (Vec3 ℝ)}
    (h : Renumbered b t σ pts pts') (i : ℕ) : σ i < pts.length ↔ i < pts'.length := by
  have hf : ∀ i ∈ Finset.range pts.length, σ i ∈ Finset.range pts.length := by
    intro i hi
    rw [Finset.mem_range, ← h.length] at hi
    obtain ⟨p, hp, -⟩ := h.point i _ (List.getElem?_eq_getElem hi)
    exact Finset.mem_range.mpr (List.getElem?_eq_some_iff.mp hp).1
  rw [h.length]
  constructor
  · intro hi
    have hs : Finset.image σ (Finset.range pts.length) = Finset.range pts.length :=
      Finset.eq_of_subset_of_card_le (Finset.image_subset_iff.mpr hf)
        (by rw [Finset.card_image_of_injective _ σ.injective])
    have : σ i ∈ Finset.image σ (Finset.range pts.length) := by rw [hs]; exact Finset.mem_range.mpr hi
    obtain ⟨j, hj, e⟩ := Finset.mem_image.mp this
    rw [← σ.injective e]
    exact Finset.mem_range.mp hj
  · intro hi
    exact Finset.mem_range.mp (hf i (Finset.mem_range.mpr hi))

theorem Spec.Renumbered.get {b : Box ℝ} {t : Vec3 ℝ} {σ : Equiv.Perm ℕ} {pts pts' : List (Vec3 ℝ)}
    (h : Renumbered b t σ pts pts') {i : ℕ} {p : Vec3 ℝ} (hp : pts[σ i]? = some p) :
    ∃ p', pts'[i]? = some p' ∧ IsImage b (p + t) p' := by
  have hi : i < pts'.length := (h.lt_iff i).mp (List.getElem?_eq_some_iff.mp hp).1
  obtain ⟨q, hq, him⟩ := h.point i _ (List.getElem?_eq_getElem hi)
  obtain rfl : q = p := Option.some.inj (hq.symm.trans hp)
  exact ⟨_, List.getElem?_eq_getElem hi, him⟩

theorem queryBond_relabel {b : Box ℝ} {t : Vec3 ℝ} {σ τ : Equiv.Perm ℕ}
    {pts pts' qpts qpts' : List (Vec3 ℝ)} (hp : Renumbered b t τ pts pts')
    (hq : Renumbered b t σ qpts qpts') {rMax rMin : ℝ} {excl : Bool} (hex : excl = true → σ = τ)
    (bd : Bond ℝ) :
    IsQueryBond b pts qpts rMax rMin excl (relabel σ τ bd) ↔
      IsQueryBond b pts' qpts' rMax rMin excl bd := by
  have hne : (excl = true → τ bd.p ≠ σ bd.q) ↔ (excl = true → bd.p ≠ bd.q) := by
    refine imp_congr_right fun e => ?_
    rw [hex e, ne_eq, τ.injective.eq_iff]
  constructor
  · rintro ⟨q, hq0, -, h1, h2, h3, h4, h5, p, hp0, h6⟩
    simp only [relabel] at hq0 h1 h2 h3 h4 h5 hp0 h6
    obtain ⟨q', hq', i1⟩ := hq.get hq0
    obtain ⟨p', hp', i2⟩ := hp.get hp0
    exact ⟨q', hq', rfl, h1, h2, hne.mp h3, h4, h5, p', hp',
      isImage_trans (isImage_symm (isImage_separation i2 i1)) h6⟩
  · rintro ⟨q', hq', -, h1, h2, h3, h4, h5, p', hp', h6⟩
    obtain ⟨q, hq0, i1⟩ := hq.point _ _ hq'
    obtain ⟨p, hp0, i2⟩ := hp.point _ _ hp'
    exact ⟨q, hq0, rfl, h1, h2, hne.mpr h3, h4, h5, p, hp0,
      isImage_trans (isImage_separation i2 i1) h6⟩

theorem relabel_injective (σ τ : Equiv.Perm ℕ) : Function.Injective (relabel σ τ) := by
  rintro ⟨q, p, d, w, v⟩ ⟨q', p', d', w', v'⟩ h
  simp only [relabel, Bond.mk.injEq] at h
  obtain ⟨h1, h2, rfl, rfl, rfl⟩ := h
  rw [σ.injective h1, τ.injective h2]

/-- **C86**: numbering the particles differently, moving the origin, or giving other periodic images
of the particles changes nothing in the bonds a compute class is given, whichever way the neighbors are
specified for either description, except that the ends of the bonds have the other numbers. -/
theorem C86_bonds (b : Box ℝ) (t : Vec3 ℝ) (σ τ : Equiv.Perm ℕ) (pts pts' qpts qpts' : List (Vec3 ℝ))
    (hs : PeriodicSystem b pts qpts) (hs' : PeriodicSystem b pts' qpts')
    (hp : Renumbered b t τ pts pts') (hq : Renumbered b t σ qpts qpts') (rMax rMin : ℝ)
    (hmin : 0 ≤ rMin) (hhalf : BelowHalf b rMax) (excl : Bool) (hex : excl = true → σ = τ)
    (src src' : Source) (h : IsSource b pts qpts rMax rMin excl src)
    (h' : IsSource b pts' qpts' rMax rMin excl src') :
    (bondsFrom src).Perm ((bondsFrom src').map (relabel σ τ)) := by
  obtain ⟨-, a, p, m, n⟩ := source_perm hs hmin hhalf h
  obtain ⟨-, a', p', m', n'⟩ := source_perm hs' hmin hhalf h'
  refine (p.trans ?_).trans (p'.map (relabel σ τ)).symm
  refine (List.perm_ext_iff_of_nodup (n.of_map _)
    ((n'.of_map _).map (relabel_injective σ τ))).mpr fun bd => ?_
  rw [m, List.mem_map]
  constructor
  · intro hbd
    have e : relabel σ τ (relabel σ.symm τ.symm bd) = bd := by
      cases bd; simp [relabel]
    refine ⟨_, (m' _).mpr ((queryBond_relabel hp hq hex _).mp ?_), e⟩
    rw [e]; exact hbd
  · rintro ⟨bd', hbd', rfl⟩
    exact (queryBond_relabel hp hq hex _).mpr ((m' _).mp hbd')

/-- Shifting all particles and wrapping them back into the box is one of the changes allowed in
`C86_bonds`. -/
theorem C86_shift_and_wrap (b : Box ℝ) (pts qpts : List (Vec3 ℝ)) (hs : PeriodicSystem b pts qpts)
    (t : Vec3 ℝ) (ht : Planar b t) :
    PeriodicSystem b (pts.map fun p => b.wrap (p + t)) (qpts.map fun q => b.wrap (q + t)) ∧
      Renumbered b t 1 pts (pts.map fun p => b.wrap (p + t)) ∧
      Renumbered b t 1 qpts (qpts.map fun q => b.wrap (q + t)) := by
  have hv := hs.inBox.valid
  have hpl : ∀ v, InCell b v → Planar b (v + t) := by
    intro v hc e
    have := inCell_planar hv hc e
    simp [this, ht e]
  have hin : ∀ v, InCell b v → InCell b (b.wrap (v + t)) := by
    intro v hc
    obtain ⟨-, h2, ⟨f, hf⟩, ⟨g, hg⟩⟩ := C01_wrap_in_box b hv (v + t) (hpl v hc)
    have := h2 f g hf hg
    simp only [hs.periodic.1, hs.periodic.2.1, hs.periodic.2.2, if_true] at this
    exact ⟨g, hg, ⟨this.1.1, this.1.2.le⟩, ⟨this.2.1.1, this.2.1.2.le⟩, ⟨this.2.2.1, this.2.2.2.le⟩⟩
  have hr : ∀ l : List (Vec3 ℝ), (∀ p ∈ l, InCell b p) →
      Renumbered b t 1 l (l.map fun p => b.wrap (p + t)) := by
    intro l hl
    refine ⟨by simp, fun i p' hp' => ?_⟩
    rw [List.getElem?_map] at hp'
    obtain ⟨p, hp, rfl⟩ := Option.map_eq_some_iff.mp hp'
    exact ⟨p, hp, (C01_wrap_in_box b hv (p + t) (hpl p (hl p (List.mem_of_getElem? hp)))).1⟩
  refine ⟨⟨⟨hv, hs.inBox.pos, ?_⟩, hs.periodic, ?_⟩, hr _ hs.inBox.inside, hr _ hs.query⟩
  · intro p' hp'
    obtain ⟨p, hp, rfl⟩ := List.mem_map.mp hp'
    exact hin p (hs.inBox.inside p hp)
  · intro p' hp'
    obtain ⟨p, hp, rfl⟩ := List.mem_map.mp hp'
    exact hin p (hs.query p hp)

/-! ### Results -/

theorem nearestImage_congr {b : Box ℝ} {u v w : Vec3 ℝ} (h : IsImage b u v) :
    NearestImage b u w ↔ NearestImage b v w :=
  ⟨fun k => ⟨isImage_trans (isImage_symm h) k.1, fun w' hw' => k.2 w' (isImage_trans h hw')⟩,
    fun k => ⟨isImage_trans h k.1, fun w' hw' => k.2 w' (isImage_trans (isImage_symm h) hw')⟩⟩

theorem pairsIn_renumbered {b : Box ℝ} {t : Vec3 ℝ} {σ τ : Equiv.Perm ℕ}
    {pts pts' qpts qpts' : List (Vec3 ℝ)} (hp : Renumbered b t τ pts pts')
    (hq : Renumbered b t σ qpts qpts') {excl : Bool} (hex : excl = true → σ = τ) (lo hi : ℝ) :
    (pairsIn b pts' qpts' excl lo hi).ncard = (pairsIn b pts qpts excl lo hi).ncard := by
  rw [← Set.ncard_image_of_injective _ (σ.injective.prodMap τ.injective)]
  congr 1
  ext ⟨i, j⟩
  simp only [Set.mem_image, Prod.map, Prod.mk.injEq, Prod.exists]
  constructor
  · rintro ⟨i', j', ⟨h1, q', p', w, h2, h3, h4, h5⟩, rfl, rfl⟩
    obtain ⟨q, hq0, i1⟩ := hq.point _ _ h2
    obtain ⟨p, hp0, i2⟩ := hp.point _ _ h3
    refine ⟨fun e => ?_, q, p, w, hq0, hp0, (nearestImage_congr (isImage_separation i2 i1)).mpr h4, h5⟩
    simp only [hex e, ne_eq, τ.injective.eq_iff]
    exact h1 e
  · rintro ⟨h1, q, p, w, h2, h3, h4, h5⟩
    simp only at h1 h2 h3
    have e1 : σ (σ.symm i) = i := σ.apply_symm_apply i
    have e2 : τ (τ.symm j) = j := τ.apply_symm_apply j
    rw [← e1] at h2
    rw [← e2] at h3
    obtain ⟨q', hq', i1⟩ := hq.get h2
    obtain ⟨p', hp', i2⟩ := hp.get h3
    refine ⟨σ.symm i, τ.symm j, ⟨fun e => ?_, q', p', w, hq', hp',
      (nearestImage_congr (isImage_separation i2 i1)).mp h4, h5⟩, e1, e2⟩
    simp only [hex e, ne_eq, τ.symm.injective.eq_iff]
    exact h1 e

/-- One frame of an RDF, described twice. -/
def Spec.SameFrame (f f' : RDFFrame) : Prop :=
  f'.box = f.box ∧ f'.excl = f.excl ∧ ∃ t σ τ, (f.excl = true → σ = τ) ∧
    Renumbered f.box t τ f.pts f'.pts ∧ Renumbered f.box t σ f.qpts f'.qpts

/-- **C86**: the RDF does not depend on the numbering of the particles, the origin or the images,
which may change from frame to frame. -/
theorem C86_rdf (pi : ℝ) (bins : ℕ) (rMax rMin : ℝ) (a : RegularAxis ℝ)
    (ha : RDF.mkAxis bins rMax rMin = some a) (hb : bins ≤ OVERFLOW_BIN) (mode : NormalizationMode)
    (box0 box0' : Box ℝ) (fs fs' : List RDFFrame) (hfs : ∀ f ∈ fs, f.OK rMax rMin)
    (hfs' : ∀ f ∈ fs', f.OK rMax rMin) (hsame : List.Forall₂ SameFrame fs fs') (last : RDFFrame)
    (hlast : fs.getLast? = some last)
    (hok : FrameOK mode ⟨last.box, last.pts.length, last.qpts.length⟩) (order order' : List ℕ)
    (hord : order.Perm (List.range bins)) (hord' : order'.Perm (List.range bins)) :
    ∃ s s1 s' s1', (RDF.new a mode box0).run (RDF.fill pi a) (RDF.zero a)
        (fs.map fun f => RDF.frameFrom ⟨f.box, f.pts.length, f.qpts.length⟩ f.src f.ev) = some s ∧
      s.refresh (RDF.fill pi a) order = some s1 ∧
      (RDF.new a mode box0').run (RDF.fill pi a) (RDF.zero a)
        (fs'.map fun f => RDF.frameFrom ⟨f.box, f.pts.length, f.qpts.length⟩ f.src f.ev) = some s' ∧
      s'.refresh (RDF.fill pi a) order' = some s1' ∧
      ∀ k < bins, s1'.out.1[k]? = s1.out.1[k]? ∧ s1'.out.2[k]? = s1.out.2[k]? := by
  have hsum : ∀ lo hi, (fs'.map fun f => (pairsIn f.box f.pts f.qpts f.excl lo hi).ncard) =
      fs.map fun f => (pairsIn f.box f.pts f.qpts f.excl lo hi).ncard := by
    intro lo hi
    clear hfs hfs' hlast
    induction hsame with
    | nil => rfl
    | cons h _ ih =>
      obtain ⟨e1, e2, t, σ, τ, hex, hp, hq⟩ := h
      rw [List.map_cons, List.map_cons, ih, e1, e2, pairsIn_renumbered hp hq hex]
  obtain ⟨last', hlast', hl⟩ : ∃ last', fs'.getLast? = some last' ∧ SameFrame last last' := by
    clear hfs hfs' hsum hok
    induction hsame with
    | nil => cases hlast
    | @cons f f' l l' h ht ih =>
      cases ht with
      | nil =>
        simp only [List.getLast?_singleton, Option.some.injEq] at hlast
        subst hlast
        exact ⟨f', rfl, h⟩
      | cons h2 ht2 =>
        rw [List.getLast?_cons_cons] at hlast
        rw [List.getLast?_cons_cons]
        exact ih hlast
  obtain ⟨e1, e2, t, σ, τ, hex, hp, hq⟩ := hl
  obtain ⟨s, s1, h1, h2, h3⟩ := C85_rdf pi bins rMax rMin a ha hb mode box0 fs hfs last hlast hok order hord
  obtain ⟨s', s1', h1', h2', h3'⟩ := C85_rdf pi bins rMax rMin a ha hb mode box0' fs' hfs' last' hlast'
    (by rw [e1, hp.length, hq.length]; exact hok) order' hord'
  refine ⟨s, s1, s', s1', h1, h2, h1', h2', fun k hk => ?_⟩
  have := h3 k hk
  have := h3' k hk
  simp only at *
  rw [(h3' k hk).1, (h3' k hk).2, (h3 k hk).1, (h3 k hk).2, e1, hp.length, hq.length]
  simp only [← hsame.length_eq, hsum]
  exact ⟨trivial, trivial⟩

/-- The bonds of the second list are those of the first with the other numbers. -/
def Spec.SameBonds (σ : Equiv.Perm ℕ) (nl nl' : NList ℝ) : Prop :=
  nl.bonds.Perm (nl'.bonds.map (relabel σ σ))

theorem bondsFrom_list (nl : NList ℝ) : bondsFrom (.list nl) = nl.bonds := by
  have : bondsFrom (.list nl) =
      (List.range nl.bonds.length).map fun i => nl.bonds.getD i ⟨0, 0, 0, 0, 0⟩ := by
    unfold bondsFrom
    rw [List.map_eq_flatMap]
    refine List.flatMap_congr fun i hi => ?_
    have hi := List.mem_range.mp hi
    simp [Source.bonds, List.getElem?_eq_getElem (show i < nl.bonds.length from hi)]
  rw [this]
  refine List.ext_getElem (by simp) fun i h1 h2 => ?_
  simp [List.getElem?_eq_getElem h2]

/-- **C86**: the neighbor lists of the two descriptions, made by any engines under any schedules. -/
theorem C86_neighbor_lists (b : Box ℝ) (t : Vec3 ℝ) (σ : Equiv.Perm ℕ) (pts pts' : List (Vec3 ℝ))
    (hs : PeriodicSystem b pts pts) (hs' : PeriodicSystem b pts' pts')
    (hp : Renumbered b t σ pts pts') (rMax rMin : ℝ) (hmin : 0 ≤ rMin) (hhalf : BelowHalf b rMax)
    (excl : Bool) (nl nl' : NList ℝ) (h : IsSource b pts pts rMax rMin excl (.list nl))
    (h' : IsSource b pts' pts' rMax rMin excl (.list nl')) : SameBonds σ nl nl' := by
  have := C86_bonds b t σ σ pts pts' pts pts' hs hs' hp hp rMax rMin hmin hhalf excl (fun _ => rfl) _ _ h h'
  rwa [bondsFrom_list, bondsFrom_list] at this

/-- A list made by a query fits its system. -/
theorem list_source {b : Box ℝ} {pts : List (Vec3 ℝ)} (hs : PeriodicSystem b pts pts)
    (hsmall : pts.length ≤ 0xffffffff) {rMax rMin : ℝ} (hmin : 0 ≤ rMin) (hhalf : BelowHalf b rMax)
    {excl : Bool} {nl : NList ℝ} (h : IsSource b pts pts rMax rMin excl (.list nl)) :
    ListFor nl pts.length ∧ nl.numQueryPoints = pts.length ∧
      ∀ nb ∈ nl.bonds, IsQueryBond b pts pts rMax rMin excl nb := by
  obtain ⟨-, a, p, m, -⟩ := source_perm hs hmin hhalf h
  have p : nl.bonds.Perm a := by
    have e := bondsFrom_list nl
    unfold bondsFrom at e
    rwa [e] at p
  have hmem : ∀ nb ∈ nl.bonds, IsQueryBond b pts pts rMax rMin excl nb :=
    fun nb hnb => (m nb).mp (p.mem_iff.mp hnb)
  have hlt : ∀ nb ∈ nl.bonds, nb.q < pts.length ∧ nb.p < pts.length := by
    intro nb hnb
    obtain ⟨q, hq, -, -, -, -, -, -, p, hp, -⟩ := hmem nb hnb
    exact ⟨(List.getElem?_eq_some_iff.mp hq).1, (List.getElem?_eq_some_iff.mp hp).1⟩
  obtain ⟨s, found, -, -, h0 | ⟨d, ev, nl0, hev, hnl, h0⟩⟩ := h
  · cases h0
  · cases h0
    obtain ⟨-, hsorted, e1, e2, -⟩ := C20_holds_found_bonds found _ _ d ev hev nl hnl
    refine ⟨⟨⟨?_, ?_, ?_, by rw [e1]; exact hsmall⟩, fun nb hnb _ => (hlt nb hnb).2⟩, e1, hmem⟩
    · rw [List.pairwise_map]
      refine hsorted.imp fun {x y} hxy => ?_
      by_contra hlt'
      push Not at hlt'
      have : Bond.less d y x = true := by
        cases d <;> simp [Bond.less, Bond.lessTuple, Bond.lessDistance, hlt'.ne, hlt']
      rw [this] at hxy
      cases hxy
    · intro nb hnb; rw [e1]; exact (hlt nb hnb).1
    · intro nb hnb; rw [e2]; exact (hlt nb hnb).2

theorem filter_relabel {σ : Equiv.Perm ℕ} {nl nl' : NList ℝ} (h : SameBonds σ nl nl') (i : ℕ) :
    (nl.bonds.filter (fun nb => nb.q = σ i)).Perm
      ((nl'.bonds.filter (fun nb => nb.q = i)).map (relabel σ σ)) := by
  refine (h.filter _).trans (List.Perm.of_eq ?_)
  rw [List.filter_map]
  congr 1
  refine List.filter_congr fun nb _ => ?_
  simp [relabel, σ.injective.eq_iff]

/-- **C86**: numbers of neighbors and densities of `LocalDensity` move with the particles. -/
theorem C86_local_density (pi : ℝ) (s : LocalDensity ℝ) (hD : 0 ≤ s.diameter) (b : Box ℝ) (n : ℕ)
    (σ : Equiv.Perm ℕ) (hσ : ∀ i < n, σ i < n) (nl nl' : NList ℝ) (h : GoodList nl) (h' : GoodList nl')
    (hsame : SameBonds σ nl nl') (hdist : ∀ nb ∈ nl.bonds, nb.dist < s.defaultRMax)
    (order order' : List ℕ) (hord : order.Perm (List.range n)) (hord' : order'.Perm (List.range n)) :
    ∃ r r', s.compute pi b n nl order = some r ∧ s.compute pi b n nl' order' = some r' ∧
      ∀ i < n, r'.results.data[i]? = r.results.data[σ i]? := by
  have hdist' : ∀ nb ∈ nl'.bonds, nb.dist < s.defaultRMax := by
    intro nb hnb
    exact hdist (relabel σ σ nb) (hsame.mem_iff.mpr (List.mem_map_of_mem (f := relabel σ σ) hnb))
  obtain ⟨r, e, -, hv⟩ := C39_local_density pi s hD b n nl h hdist order hord
  obtain ⟨r', e', -, hv'⟩ := C39_local_density pi s hD b n nl' h' hdist' order' hord'
  refine ⟨r, r', e, e', fun i hi => ?_⟩
  rw [hv' i hi, hv (σ i) (hσ i hi)]
  have hp := (filter_relabel hsame i).map (fun nb => overlap s.rMax s.diameter nb.dist)
  rw [List.map_map] at hp
  have e2 : ((nl.bonds.filter (fun nb => nb.q = σ i)).map
      (fun nb => overlap s.rMax s.diameter nb.dist)).sum = ((nl'.bonds.filter (fun nb => nb.q = i)).map
      (fun nb => overlap s.rMax s.diameter nb.dist)).sum := hp.sum_eq
  rw [e2]

/-- Wrapped separations are the same in both descriptions. -/
theorem separation_renumbered {b : Box ℝ} (hb : Valid b) {t : Vec3 ℝ} {σ : Equiv.Perm ℕ}
    {pts pts' : List (Vec3 ℝ)} (hpl : ∀ v ∈ pts, Planar b v) (hp : Renumbered b t σ pts pts') {i j : ℕ}
    (hi : i < pts'.length) (hj : j < pts'.length) :
    b.wrap (pts'.getD j ⟨0, 0, 0⟩ - pts'.getD i ⟨0, 0, 0⟩) =
      b.wrap (pts.getD (σ j) ⟨0, 0, 0⟩ - pts.getD (σ i) ⟨0, 0, 0⟩) := by
  obtain ⟨q, hq, i1⟩ := hp.point i _ (List.getElem?_eq_getElem hi)
  obtain ⟨p, hp, i2⟩ := hp.point j _ (List.getElem?_eq_getElem hj)
  obtain ⟨m, hm, e⟩ := isImage_separation i2 i1
  simp only [List.getD_eq_getElem?_getD, List.getElem?_eq_getElem hi, List.getElem?_eq_getElem hj, hq, hp,
    Option.getD_some]
  rw [e]
  exact C02_wrap_translation b hb _ (planar_sub (hpl p (List.mem_of_getElem? hp))
    (hpl q (List.mem_of_getElem? hq))) m hm

theorem katic_perm {k : ℕ} {l l' : List (ℝ × Vec3 ℝ)} (h : l.Perm l') : katic k l = katic k l' := by
  unfold katic
  rw [(h.map (·.1)).sum_eq, (h.map fun b => (b.1 : ℂ) * direction b.2 ^ k).sum_eq]

/-- **C86**: the k-atic order parameters move with the particles. -/
theorem C86_hexatic (p : Hexatic.Params) (b : Box ℝ) (hb : Valid b) (h2 : b.is2D = true) (t : Vec3 ℝ)
    (σ : Equiv.Perm ℕ) (points points' : List (Vec3 ℝ)) (hpl : ∀ v ∈ points, Planar b v)
    (hp : Renumbered b t σ points points') (nl nl' : NList ℝ) (h : ListFor nl points.length)
    (h' : ListFor nl' points'.length) (hsame : SameBonds σ nl nl') (order order' : List ℕ)
    (hord : order.Perm (List.range points.length)) (hord' : order'.Perm (List.range points'.length)) :
    ∃ r r', Hexatic.compute p b points nl order = some r ∧
      Hexatic.compute p b points' nl' order' = some r' ∧ r'.length = points.length ∧
      ∀ i < points.length, r'[i]? = r[σ i]? := by
  refine ⟨_, _, C75_value p b h2 points nl h order hord, C75_value p b h2 points' nl' h' order' hord',
    by simp [hp.length], fun i hi => ?_⟩
  have hi' : i < points'.length := by rw [hp.length]; exact hi
  have hσ : σ i < points.length := (hp.lt_iff i).mpr hi'
  rw [List.getElem?_map, List.getElem?_map, List.getElem?_range hi', List.getElem?_range hσ,
    Option.map_some, Option.map_some]
  congr 1
  apply katic_perm
  unfold weightedBonds
  refine List.Perm.trans (List.Perm.of_eq ?_) ((filter_relabel hsame i).map _).symm
  rw [List.map_map]
  refine List.map_congr_left fun nb hnb => ?_
  obtain ⟨h3, h4⟩ := List.mem_filter.mp hnb
  obtain rfl : nb.q = i := of_decide_eq_true h4
  simp only [Function.comp, relabel]
  rw [separation_renumbered hb hpl hp hi' (h'.points nb h3 hi')]

theorem connected_map {f : ℕ → ℕ} {l l' : List (ℕ × ℕ)} (h : ∀ e ∈ l, (f e.1, f e.2) ∈ l') {x y : ℕ}
    (hc : Connected l x y) : Connected l' (f x) (f y) := by
  induction hc with
  | rel x y hxy => exact .rel _ _ (h _ hxy)
  | refl x => exact .refl _
  | symm x y _ ih => exact .symm _ _ ih
  | trans x y z _ _ ih1 ih2 => exact .trans _ _ _ ih1 ih2

theorem card_image_congr (n : ℕ) (f g : ℕ → ℕ) (h : ∀ i < n, ∀ j < n, f i = f j ↔ g i = g j) :
    (Finset.image f (Finset.range n)).card = (Finset.image g (Finset.range n)).card := by
  have key : ∀ f g : ℕ → ℕ, (∀ i < n, ∀ j < n, f i = f j → g i = g j) →
      (Finset.image f (Finset.range n)).card =
        (Finset.image (fun i => (f i, g i)) (Finset.range n)).card := by
    intro f g h
    rw [show Finset.image f (Finset.range n) =
      Finset.image Prod.fst (Finset.image (fun i => (f i, g i)) (Finset.range n)) by
        rw [Finset.image_image]; rfl]
    refine Finset.card_image_of_injOn ?_
    intro x hx y hy e
    simp only [Finset.coe_image, Set.mem_image, Finset.coe_range, Set.mem_Iio] at hx hy
    obtain ⟨i, hi, rfl⟩ := hx
    obtain ⟨j, hj, rfl⟩ := hy
    exact Prod.ext e (h i hi j hj e)
  rw [key f g fun i hi j hj => (h i hi j hj).mp, key g f fun i hi j hj => (h i hi j hj).mpr,
    ← Finset.card_image_of_injective (Finset.image (fun i => (g i, f i)) (Finset.range n))
      Prod.swap_injective, Finset.image_image]
  rfl

/-- **C86**: two particles are in one cluster in one description iff they are in the other, for every
interleaving of the threads in both; the numbers of clusters agree. -/
theorem C86_cluster (n : ℕ) (σ : Equiv.Perm ℕ) (hσ : ∀ i < n, σ i < n) (nl nl' : NList ℝ)
    (h : ListFor nl n) (hq : nl.numQueryPoints = n) (h' : ListFor nl' n) (hq' : nl'.numQueryPoints = n)
    (hsame : SameBonds σ nl nl') (work work' : List (List (ℕ × ℕ)))
    (hw : work.flatten.Perm (nl.bonds.map fun nb => (nb.q, nb.p)))
    (hw' : work'.flatten.Perm (nl'.bonds.map fun nb => (nb.q, nb.p))) (s s' : DSet.DState)
    (hr : DSet.Reachable n work s) (hr' : DSet.Reachable n work' s')
    (hfin : ∀ t ∈ s.threads, t.finished) (hfin' : ∀ t ∈ s'.threads, t.finished) (key key' : ℕ → ℕ)
    (res res' : Cluster.Result) (hres : Cluster.Finish n s.mem key res)
    (hres' : Cluster.Finish n s'.mem key' res') :
    (∀ i < n, ∀ j < n, res'.clusterIdx.getD i 0 = res'.clusterIdx.getD j 0 ↔
      res.clusterIdx.getD (σ i) 0 = res.clusterIdx.getD (σ j) 0) ∧ res'.num = res.num := by
  have hb : ∀ (nl : NList ℝ) (work : List (List (ℕ × ℕ))), ListFor nl n → nl.numQueryPoints = n →
      work.flatten.Perm (nl.bonds.map fun nb => (nb.q, nb.p)) → ∀ e ∈ work.flatten, e.1 < n ∧ e.2 < n := by
    intro nl work h hq hw e he
    obtain ⟨nb, hnb, rfl⟩ := List.mem_map.mp (hw.mem_iff.mp he)
    have : nb.q < n := hq ▸ h.good.qlt nb hnb
    exact ⟨this, h.points nb hnb this⟩
  obtain ⟨-, -, hc, hcan, -⟩ := C33_cluster_labels n work (hb _ _ h hq hw) s hr hfin key res hres
  obtain ⟨-, -, hc', hcan', -⟩ := C33_cluster_labels n work' (hb _ _ h' hq' hw') s' hr' hfin' key' res' hres'
  have hpart : ∀ i < n, ∀ j < n, res'.clusterIdx.getD i 0 = res'.clusterIdx.getD j 0 ↔
      res.clusterIdx.getD (σ i) 0 = res.clusterIdx.getD (σ j) 0 := by
    intro i hi j hj
    rw [hc' i hi j hj, hc (σ i) (hσ i hi) (σ j) (hσ j hj)]
    constructor
    · refine connected_map (f := σ) fun e he => ?_
      obtain ⟨nb, hnb, rfl⟩ := List.mem_map.mp (hw'.mem_iff.mp he)
      exact hw.mem_iff.mpr (List.mem_map.mpr ⟨_, hsame.mem_iff.mpr
        (List.mem_map_of_mem (f := relabel σ σ) hnb), rfl⟩)
    · intro hc
      have := connected_map (f := σ.symm) (l' := work'.flatten) (fun e he => by
        obtain ⟨nb, hnb, rfl⟩ := List.mem_map.mp (hw.mem_iff.mp he)
        obtain ⟨nb', hnb', rfl⟩ := List.mem_map.mp (hsame.mem_iff.mp hnb)
        refine hw'.mem_iff.mpr (List.mem_map.mpr ⟨nb', hnb', ?_⟩)
        simp [relabel]) hc
      simpa using this
  refine ⟨hpart, ?_⟩
  -- the labels are `0..num-1`, so the map between them is a bijection
  have hsurj : ∀ c < res.num, ∃ i < n, res.clusterIdx.getD (σ i) 0 = c := by
    intro c hcl
    obtain ⟨k, hk, e⟩ := hcan.onto c hcl
    have hs : Finset.image σ (Finset.range n) = Finset.range n :=
      Finset.eq_of_subset_of_card_le (Finset.image_subset_iff.mpr fun i hi =>
        Finset.mem_range.mpr (hσ i (Finset.mem_range.mp hi)))
        (by rw [Finset.card_image_of_injective _ σ.injective])
    have : k ∈ Finset.image σ (Finset.range n) := by rw [hs]; exact Finset.mem_range.mpr hk
    obtain ⟨i, hi, rfl⟩ := Finset.mem_image.mp this
    exact ⟨i, Finset.mem_range.mp hi, e⟩
  have c1 : (Finset.image (fun i => res'.clusterIdx.getD i 0) (Finset.range n)) = Finset.range res'.num := by
    ext c
    simp only [Finset.mem_image, Finset.mem_range]
    exact ⟨by rintro ⟨i, hi, rfl⟩; exact hcan'.range i hi, fun hc => hcan'.onto c hc⟩
  have c2 : (Finset.image (fun i => res.clusterIdx.getD (σ i) 0) (Finset.range n)) =
      Finset.range res.num := by
    ext c
    simp only [Finset.mem_image, Finset.mem_range]
    exact ⟨by rintro ⟨i, hi, rfl⟩; exact hcan.range _ (hσ i hi), fun hc => hsurj c hc⟩
  rw [← Finset.card_range res'.num, ← Finset.card_range res.num, ← c1, ← c2]
  exact card_image_congr n _ _ hpart

/-! ### Limits -/

/-- **C86** (limit): `AABBQuery` takes the points as they are and looks only at the images next to the
box, so a particle given by an image two boxes away is not found. -/
theorem C86_outside_counterexample : ∃ aq aq',
    AABBQuery.new (Box.mk' 10 10 10 0 0 0 false) [⟨1, 0, 0⟩] = some aq ∧
    AABBQuery.new (Box.mk' 10 10 10 0 0 0 false) [⟨21, 0, 0⟩] = some aq' ∧
    IsImage (Box.mk' 10 10 10 0 0 0 false) ⟨1, 0, 0⟩ ⟨21, 0, 0⟩ ∧
    (∃ bonds bd, aq.ball ⟨0, 0, 0⟩ 0 2 0 false = some bonds ∧ bd ∈ bonds ∧ bd.p = 0) ∧
    aq'.ball ⟨0, 0, 0⟩ 0 2 0 false = some [] := by
  obtain ⟨aq, h1⟩ := cube_new [⟨1, 0, 0⟩] (by simp)
  obtain ⟨aq', h2⟩ := cube_new [⟨21, 0, 0⟩] (by simp)
  have hh : BelowHalf (Box.mk' 10 10 10 0 0 0 false : Box ℝ) 2 := cube_half (by norm_num)
  obtain ⟨out, ho⟩ := (C22_single_raises_iff aq ⟨0, 0, 0⟩ 0 2 0 false).mpr
    ⟨by norm_num, by norm_num, by rw [new_box h1]; exact hh⟩
  obtain ⟨out', ho'⟩ := (C22_single_raises_iff aq' ⟨0, 0, 0⟩ 0 2 0 false).mpr
    ⟨by norm_num, by norm_num, by rw [new_box h2]; exact hh⟩
  refine ⟨aq, aq', h1, h2, ⟨⟨2, 0, 0⟩, ⟨by simp [Box.mk', Box.setL], by simp, by simp⟩, ?_⟩, ?_, ?_⟩
  · rw [cube_lattice]; ext <;> simp <;> norm_num
  · have hin : ∀ v : Vec3 ℝ, v = ⟨1, 0, 0⟩ ∨ v = ⟨0, 0, 0⟩ →
        InCell (Box.mk' 10 10 10 0 0 0 false : Box ℝ) v := by
      rintro v (rfl | rfl) <;> apply cube_inCell <;> norm_num [abs_le]
    refine ⟨out, ⟨0, 0, Vec3.norm ⟨1, 0, 0⟩, 1, ⟨1, 0, 0⟩⟩, ?_, ?_, rfl⟩
    · exact (C22_ball_raises_iff aq ⟨0, 0, 0⟩ 0 2 0 false out).mpr ⟨by rw [new_box h1]; exact ⟨rfl, rfl, rfl⟩, ho⟩
    · refine (C22_ball_exact _ cube_valid _ aq h1 (fun p hp => hin p (by simpa using Or.inl hp)) _
        (hin _ (Or.inr rfl)) 0 2 0 le_rfl false out ho _).mpr ⟨rfl, rfl, rfl, by simp, norm_nonneg' _, ?_,
          ⟨1, 0, 0⟩, rfl, ⟨0, 0, 0⟩, ⟨by simp, by simp, by simp⟩, ?_⟩
      · rw [norm_lt_iff _ _ (by norm_num)]; norm_num [Vec3.dot]
      · rw [cube_lattice]; ext <;> simp
  · refine (C22_ball_raises_iff aq' ⟨0, 0, 0⟩ 0 2 0 false []).mpr ⟨by rw [new_box h2]; exact ⟨rfl, rfl, rfl⟩, ?_⟩
    rw [ho']
    congr 1
    obtain ⟨ims, hims, rfl⟩ := ball_some ho'
    rw [List.eq_nil_iff_forall_not_mem]
    intro bd hbd
    obtain ⟨-, -, -, -, -, hlt, p, im, him, hp, hv⟩ := (mem_run aq' [⟨21, 0, 0⟩] _ h2
      (by simp [Planar, Box.mk', Box.setL]) _ rfl (by norm_num) le_rfl bd).mp hbd
    rw [new_box h2] at hims
    obtain ⟨n, -, hn, rfl⟩ := (mem_images hims im).mp him
    obtain rfl : p = ⟨21, 0, 0⟩ := by simpa using List.mem_of_getElem? hp
    rw [norm_lt_iff _ _ (by norm_num)] at hlt
    rw [hv, cube_lattice, flatten_planar (by simp [Planar, Box.mk', Box.setL])] at hlt
    simp only [Vec3.dot, Vec3.sub_x, Vec3.sub_y, Vec3.sub_z, Vec3.add_x, Vec3.add_y, Vec3.add_z] at hlt
    have h1 : n.x ≤ 1 := by
      rw [mem_imageSteps] at hn
      omega
    have h1 : (n.x : ℝ) ≤ 1 := by exact_mod_cast h1
    nlinarith [sq_nonneg ((n.y : ℝ) * 10), sq_nonneg ((n.z : ℝ) * 10)]

/-! ### A case that meets the hypotheses: the pair of C85, exchanged and moved by (1, 0, 0) -/

/-- The second particle first, both moved: -49/10 + 1 and 49/10 + 1 - 10. -/
noncomputable def movedPair : List (Vec3 ℝ) := [⟨-41 / 10, 0, 0⟩, ⟨-39 / 10, 0, 0⟩]

theorem movedPair_system : PeriodicSystem (Box.mk' 10 10 10 0 0 0 false) movedPair movedPair := by
  have h : ∀ p ∈ movedPair, InCell (Box.mk' 10 10 10 0 0 0 false : Box ℝ) p := by
    intro p hp
    simp only [movedPair, List.mem_cons, List.not_mem_nil, or_false] at hp
    rcases hp with rfl | rfl <;> apply cube_inCell <;> norm_num [abs_le]
  exact ⟨⟨cube_valid, cube_positive, h⟩, ⟨rfl, rfl, rfl⟩, h⟩

theorem movedPair_renumbered : Renumbered (Box.mk' 10 10 10 0 0 0 false) ⟨1, 0, 0⟩ (Equiv.swap 0 1)
    facePair movedPair := by
  refine ⟨rfl, fun i p' hp' => ?_⟩
  match i, hp' with
  | 0, hp' =>
    simp only [movedPair, List.getElem?_cons_zero, Option.some.injEq] at hp'
    subst hp'
    refine ⟨⟨49 / 10, 0, 0⟩, by simp [facePair], ⟨-1, 0, 0⟩, ⟨by simp [Box.mk', Box.setL], by simp, by simp⟩, ?_⟩
    rw [cube_lattice]; ext <;> simp <;> norm_num
  | 1, hp' =>
    simp only [movedPair, List.getElem?_cons_succ, List.getElem?_cons_zero, Option.some.injEq] at hp'
    subst hp'
    refine ⟨⟨-49 / 10, 0, 0⟩, by simp [facePair], ⟨0, 0, 0⟩, ⟨by simp, by simp, by simp⟩, ?_⟩
    rw [cube_lattice]; ext <;> simp <;> norm_num
  | i + 2, hp' => simp [movedPair] at hp'

-- both descriptions can be queried, with different engines
example : ∃ src src', IsSource (Box.mk' 10 10 10 0 0 0 false) facePair facePair 2 0 true src ∧
    IsSource (Box.mk' 10 10 10 0 0 0 false) movedPair movedPair 2 0 true src' := by
  obtain ⟨found, nl, h, -⟩ := facePair_sources
  obtain ⟨aq, h1⟩ := cube_new movedPair (by simp [movedPair])
  obtain ⟨found', hf'⟩ := (C85_accepted_iff (.aabb aq) _ _ _ h1 movedPair_system (by simp [movedPair]) 2 0
    true).mpr ⟨by norm_num, by norm_num, Or.inr (cube_half (by norm_num))⟩
  exact ⟨_, _, h, .aabb aq, found', h1, hf', Or.inl rfl⟩

-- lists as in `C86_local_density`, `C86_hexatic`, `C86_cluster` and `C86_steinhardt`
example : SameBonds (Equiv.swap 0 1) ⟨2, 2, [⟨0, 1, 1, 1, ⟨1, 0, 0⟩⟩], false, [], []⟩
    ⟨2, 2, [⟨1, 0, 1, 1, ⟨1, 0, 0⟩⟩], false, [], []⟩ := by
  simp [SameBonds, relabel]

end Freud
