import Verif.Spec.CrystalOrder
import Verif.Lemmas.CrystalChains
import Mathlib.RingTheory.RootsOfUnity.Complex

/-!
# C106: the order parameters of the named crystals
-/

namespace Freud
open Spec InUnits

section
open scoped Classical

namespace SolidLiquid

theorem dirOverlap_scaled (l : ℕ) (t : ℝ) (M N : List (ℝ × Vec3 ℝ)) :
    dirOverlap l (M.map fun d => (d.1 / t, d.2)) N = dirOverlap l M N / t := by
  unfold dirOverlap
  rw [List.map_map, div_eq_mul_inv, ← List.sum_map_mul_right]
  congr 1
  refine List.map_congr_left fun d _ => ?_
  rw [Function.comp_apply, ← List.sum_map_mul_right]
  congr 1
  exact List.map_congr_left fun e _ => by dsimp only; rw [div_eq_mul_inv]; ring

theorem dirOverlap_append (l : ℕ) (M M' N : List (ℝ × Vec3 ℝ)) :
    dirOverlap l (M ++ M') N = dirOverlap l M N + dirOverlap l M' N := by
  simp [dirOverlap]

/-- A mean of distributions that all look like `D`. -/
theorem dirOverlap_mix {l : ℕ} {D : List (ℝ × Vec3 ℝ)} {Ls : List (Option (List (ℝ × Vec3 ℝ)))} (hne : Ls ≠ [])
    (h : ∀ L ∈ Ls, ∃ L', L = some L' ∧ ∀ M, dirOverlap l L' M = dirOverlap l D M) :
    ∃ L', mix Ls = some L' ∧ ∀ M, dirOverlap l L' M = dirOverlap l D M := by
  have hn : none ∉ Ls := fun hc => by
    obtain ⟨L', e, -⟩ := h none hc
    cases e
  refine ⟨_, if_neg hn, fun M => ?_⟩
  have hsum : ∀ (t : ℝ) (Ks : List (Option (List (ℝ × Vec3 ℝ)))),
      (∀ L ∈ Ks, ∃ L', L = some L' ∧ ∀ M, dirOverlap l L' M = dirOverlap l D M) →
      dirOverlap l (Ks.flatMap fun L => (L.getD []).map fun d => (d.1 / t, d.2)) M =
        Ks.length * (dirOverlap l D M / t) := by
    intro t Ks hK
    induction Ks with
    | nil => simp [dirOverlap]
    | cons L Ks ih =>
      obtain ⟨L', rfl, hL⟩ := hK L List.mem_cons_self
      rw [List.flatMap_cons, dirOverlap_append, ih fun L hL => hK L (List.mem_cons_of_mem _ hL), Option.getD_some,
        dirOverlap_scaled, hL, List.length_cons]
      push_cast
      ring
  rw [hsum _ Ls h]
  have h0 : (Ls.length : ℝ) ≠ 0 := by
    rw [Nat.cast_ne_zero, ne_eq, List.length_eq_zero_iff]
    exact hne
  field_simp

theorem qValue_of_same {l : ℕ} {D L : List (ℝ × Vec3 ℝ)} (h : ∀ M, dirOverlap l L M = dirOverlap l D M) :
    qValue l L = qValue l D := by
  show Real.sqrt (dirOverlap l L L) = Real.sqrt (dirOverlap l D D)
  rw [h, dirOverlap_comm, h]

end SolidLiquid

open SolidLiquid in
/-- **C106**: if all particles see the same directions `D` (or, for even `l`, the opposite ones), and the weights are
equal if they are used, then `Steinhardt` gives `q_l` of `D` to every particle, with or without averaging, and to the
system. -/
theorem C106_same_surroundings (sph : Steinhardt.Sph) (p : Steinhardt.Params) (hw : p.wl = false)
    (hf : FsphOK sph p.l (sphericalHarmonic p.l)) (history : List Steinhardt.Call)
    (hh : ∀ c ∈ history, LegalSteinhardt p.l c) (c : Steinhardt.Call) (hc : LegalSteinhardt p.l c)
    (hq : ∀ nb ∈ c.nlist.bonds, nb.q < c.points.length)
    (hwt : p.weighted = true → ∃ w : ℝ, w ≠ 0 ∧ ∀ nb ∈ c.nlist.bonds, nb.weight = w)
    (D : List (Vec3 ℝ)) (hne : D ≠ []) (hD : SameSurroundings p.l c D) (hpts : c.points ≠ []) :
    ∃ r, Steinhardt.resultAfter sph p history c = some r ∧
      r.particleOrder p =
        List.replicate c.points.length (some (qValue p.l (D.map fun d => (1 / (D.length : ℝ), d)))) ∧
      r.order = some (qValue p.l (D.map fun d => (1 / (D.length : ℝ), d))) := by
  obtain ⟨r, e, -, h2, h3⟩ := C76_value sph p _ (C101_harmonics p.l) hf (by simp [hw]) history hh c hc
  obtain ⟨h3, h4⟩ := h3 hw
  obtain ⟨w, hw0, hdir⟩ : ∃ w : ℝ, w ≠ 0 ∧ ∀ i, directions c.box c.points p.weighted c.nlist.bonds i =
      ((c.nlist.bonds.filter fun nb => nb.q = i).map fun nb => unit (bondVector c.box c.points nb)).map
        fun d => (w, d) := by
    by_cases h : p.weighted = true
    · obtain ⟨w, hw0, hwt⟩ := hwt h
      refine ⟨w, hw0, fun i => ?_⟩
      unfold directions
      rw [List.map_map]
      refine List.map_congr_left fun nb hnb => ?_
      rw [Function.comp_apply, if_pos h, hwt nb (List.mem_filter.mp hnb).1]
    · refine ⟨1, one_ne_zero, fun i => ?_⟩
      unfold directions
      rw [List.map_map]
      refine List.map_congr_left fun nb hnb => ?_
      rw [Function.comp_apply, if_neg h]
  have hlen : (D.length : ℝ) ≠ 0 := by
    rw [Nat.cast_ne_zero, ne_eq, List.length_eq_zero_iff]
    exact hne
  have hnum : ∀ i < c.points.length, (c.nlist.bonds.filter fun nb => nb.q = i).length = D.length := by
    intro i hi
    rcases hD i hi with h | ⟨-, h⟩
    · simpa using h.length_eq
    · simpa using h.length_eq
  have hnrm : ∀ i < c.points.length, ∃ L, normalized (directions c.box c.points p.weighted c.nlist.bonds i) = some L ∧
      ∀ M, dirOverlap p.l L M = dirOverlap p.l (D.map fun d => (1 / (D.length : ℝ), d)) M := by
    intro i hi
    have hsum : ((directions c.box c.points p.weighted c.nlist.bonds i).map (·.1)).sum = (D.length : ℝ) * w := by
      rw [hdir, ← hnum i hi]
      simp [Function.comp_def]
    refine ⟨_, by rw [normalized, hsum, if_neg (mul_ne_zero hlen hw0)], fun M => ?_⟩
    have hone : (directions c.box c.points p.weighted c.nlist.bonds i).map
        (fun d => (d.1 / ((D.length : ℝ) * w), d.2)) =
        (((c.nlist.bonds.filter fun nb => nb.q = i).map fun nb => unit (bondVector c.box c.points nb)).map
          fun d => ((1 : ℝ), d)).map fun d => (d.1 / (D.length : ℝ), d.2) := by
      rw [hdir]
      simp only [List.map_map]
      refine List.map_congr_left fun nb _ => ?_
      simp only [Function.comp_apply, Prod.mk.injEq, and_true]
      field_simp
    rw [hone, dirOverlap_scaled, show (D.map fun d => (1 / (D.length : ℝ), d)) =
      (D.map fun d => ((1 : ℝ), d)).map fun d => (d.1 / (D.length : ℝ), d.2) by simp, dirOverlap_scaled]
    congr 1
    rcases hD i hi with h | ⟨hev, h⟩
    · exact dirOverlap_perm _ (h.map _) M
    · rw [dirOverlap_perm _ (h.map _) M, ← dirOverlap_inverted hev (D.map fun d => (1, d))]
      simp [Function.comp_def]
  have hdist : ∀ i < c.points.length, ∃ L, distribution c.box c.points p.weighted p.average c.nlist.bonds i = some L ∧
      ∀ M, dirOverlap p.l L M = dirOverlap p.l (D.map fun d => (1 / (D.length : ℝ), d)) M := by
    intro i hi
    unfold distribution
    split_ifs
    · refine dirOverlap_mix (by simp) fun L hL => ?_
      obtain ⟨j, hj, rfl⟩ := List.mem_map.mp hL
      refine hnrm j ?_
      rcases List.mem_append.mp hj with hj | hj
      · obtain ⟨nb, hnb, rfl⟩ := List.mem_map.mp hj
        have := (List.mem_filter.mp hnb).1
        exact hc.list.points nb this (hq nb this)
      · rw [List.mem_singleton.mp hj]; exact hi
    · exact hnrm i hi
  refine ⟨r, e, ?_, ?_⟩
  · rw [h3, h2, List.eq_replicate_iff]
    refine ⟨by simp, fun v hv => ?_⟩
    obtain ⟨i, hi, rfl⟩ := List.mem_map.mp hv
    obtain ⟨L, e1, e2⟩ := hdist i (List.mem_range.mp hi)
    rw [e1, Option.map_some, qValue_of_same e2]
  · obtain ⟨L, e1, e2⟩ := dirOverlap_mix (l := p.l) (D := D.map fun d => (1 / (D.length : ℝ), d))
      (Ls := (List.range c.points.length).map (distribution c.box c.points p.weighted p.average c.nlist.bonds))
      (by simpa using hpts) (fun L hL => by
        obtain ⟨i, hi, rfl⟩ := List.mem_map.mp hL
        exact hdist i (List.mem_range.mp hi))
    rw [h4, e1, Option.map_some, qValue_of_same e2]


/-! ### Crystals in which all particles have the same surroundings -/

/-- What has to be shown of the infinite crystal: the directions to the nearest neighbors are `D`, or, if `both`, the
opposite ones. -/
structure Star (u : UnitCell ℝ) (d d₂ : ℝ) (D : List (Vec3 ℝ)) (both : Bool) : Prop where
  cell : GoodCell u.box
  distinct : DistinctSites u
  basis : u.basis ≠ []
  near : ∀ f ∈ u.basis, ∃ vs : List (Vec3 ℝ), vs.Nodup ∧ (∀ s ∈ vs, Vec3.norm s = d) ∧
    (∀ s, s ∈ vs ↔ SiteVector u f s ∧ s ≠ ⟨0, 0, 0⟩ ∧ Vec3.norm s < d₂) ∧
    ((vs.map unit).Perm D ∨ (both = true ∧ (vs.map unit).Perm (D.map fun v => -v)))

/-- Everything that is needed of a neighbor list of a crystal. -/
structure CrystalCall (l : ℕ) (c : Steinhardt.Call) (D : List (Vec3 ℝ)) : Prop where
  legal : LegalSteinhardt l c
  queries : c.nlist.numQueryPoints = c.points.length
  points : c.nlist.numPoints = c.points.length
  nonempty : c.points ≠ []
  weights : ∃ w : ℝ, w ≠ 0 ∧ ∀ nb ∈ c.nlist.bonds, nb.weight = w
  same : SameSurroundings l c D

theorem CrystalCall.source {l : ℕ} {c : Steinhardt.Call} {D : List (Vec3 ℝ)} (h : CrystalCall l c D) :
    ∀ nb ∈ c.nlist.bonds, nb.q < c.points.length := fun nb hnb => by
  rw [← h.queries]; exact h.legal.list.good.qlt nb hnb

theorem generated_ne {u : UnitCell ℝ} (h : GoodCell u.box) (hb : u.basis ≠ []) {n : Vec3 ℤ} {s : ℝ} {box : Box ℝ}
    {points : List (Vec3 ℝ)} (hg : u.generateSystem n s none = some (box, points)) : points ≠ [] := by
  intro h0
  have hc := C59_count u n s h box points hg
  have hr := (C59_raises_iff u n s none h).not
  rw [hg] at hr
  simp only [reduceCtorEq, not_false_eq_true, true_iff, not_or] at hr
  obtain ⟨a, a', a''⟩ := not_not.mp hr.1
  have hbl : (0 : ℤ) < u.basis.length := by
    have := List.length_pos_of_ne_nil hb
    exact_mod_cast this
  rw [h0, List.length_nil] at hc
  have : 0 < (u.basis.length : ℤ) * (n.x * n.y * n.z) := mul_pos hbl (mul_pos (mul_pos a a') a'')
  omega

theorem Star.call {u : UnitCell ℝ} {d d₂ : ℝ} {D : List (Vec3 ℝ)} {both : Bool} (h : Star u d d₂ D both) {l : ℕ}
    (hl : both = true → Even l) {c : Steinhardt.Call} (hn : NearestNeighbors u d d₂ c.box c.points c.nlist)
    (h1 : IsExecution c.points.length c.ev) (h2 : IsExecution c.points.length c.evAve)
    (h3 : c.reduceOrder.Perm (List.range (2 * l + 1))) : CrystalCall l c D := by
  obtain ⟨⟨n, s, hg, r, r1, r2, hhalf, hsrc⟩, hsmall⟩ := hn
  obtain ⟨t, g⟩ := generated h.cell h.distinct hg
  obtain ⟨hlist, hq, hb⟩ := list_source g.system hsmall le_rfl hhalf hsrc
  have hp : c.nlist.numPoints = c.points.length := by
    obtain ⟨_, found, -, -, h0 | ⟨d, ev, nl0, hev, hnl, h0⟩⟩ := hsrc
    · cases h0
    · cases h0
      exact (C20_holds_found_bonds found _ _ d ev hev _ hnl).2.2.2.1
  have hpl : ∀ y ∈ c.points, Planar c.box y :=
    fun y hy => ((PeriodicBuffer.inHalfOpen_iff g.valid y).mp ((g.mem y).mp hy).1).1
  have hvec : ∀ nb ∈ c.nlist.bonds, bondVector c.box c.points nb = nb.vec ∧ nb.dist = Vec3.norm nb.vec ∧
      nb.weight = 1 := by
    intro nb hnb
    obtain ⟨x, hx, -, hw, hdist, -, -, hlt, p, hp, him⟩ := hb nb hnb
    have epi : c.points.getD nb.q ⟨0, 0, 0⟩ = x := by rw [List.getD_eq_getElem?_getD, hx]; rfl
    have epj : c.points.getD nb.p ⟨0, 0, 0⟩ = p := by rw [List.getD_eq_getElem?_getD, hp]; rfl
    refine ⟨?_, hdist, hw⟩
    unfold bondVector
    rw [epi, epj]
    exact (wrap_of_short g.valid hhalf
      (planar_sub (hpl p (List.mem_of_getElem? hp)) (hpl x (List.mem_of_getElem? hx))) him hlt).1
  have hne : c.points ≠ [] := generated_ne h.cell h.basis hg
  refine ⟨⟨hlist, fun nb hnb _ => ?_, h1, h2, h3⟩, hq, hp, hne, ⟨1, one_ne_zero, fun nb hnb => (hvec nb hnb).2.2⟩, fun i hi => ?_⟩
  · rw [(hvec nb hnb).1, (hvec nb hnb).2.1]; rfl
  · obtain ⟨f, hf, hv⟩ := g.vectors i hi
    obtain ⟨vs, hnd, hd, hmem, hdir⟩ := h.near f hf
    have hperm := hv r hhalf (.list c.nlist) hsrc vs hnd fun s' => by
      rw [hmem]
      constructor
      · rintro ⟨a1, a2, a3⟩
        refine ⟨a1, a2, ?_⟩
        rw [norm_smul_pos g.scale, hd s' ((hmem s').mpr ⟨a1, a2, a3⟩)]
        exact r1
      · rintro ⟨a1, a2, a3⟩
        refine ⟨a1, a2, ?_⟩
        rw [norm_smul_pos g.scale] at a3
        exact lt_of_mul_lt_mul_left (lt_of_lt_of_le a3 r2) g.scale.le
    rw [show allBonds (.list c.nlist) = c.nlist.bonds from bondsFrom_list c.nlist] at hperm
    have e : ((c.nlist.bonds.filter fun nb => nb.q = i).map fun nb => unit (bondVector c.box c.points nb)) =
        ((c.nlist.bonds.filter fun nb => nb.q = i).map Bond.vec).map unit := by
      rw [List.map_map]
      refine List.map_congr_left fun nb hnb => ?_
      rw [(hvec nb (List.mem_filter.mp hnb).1).1]; rfl
    have e' : (vs.map (Vec3.smul s)).map unit = vs.map unit := by
      rw [List.map_map]
      exact List.map_congr_left fun v _ => Steinhardt.unit_scaled g.scale v
    have hperm' := hperm.map unit
    rw [← e, e'] at hperm'
    rcases hdir with hdir | ⟨hbo, hdir⟩
    · exact .inl (hperm'.trans hdir)
    · exact .inr ⟨hl hbo, hperm'.trans hdir⟩

theorem Star.steinhardt {u : UnitCell ℝ} {d d₂ : ℝ} {D : List (Vec3 ℝ)} {both : Bool} (h : Star u d d₂ D both)
    (hD : D ≠ []) {l : ℕ} (hl : both = true → Even l) {cell : Option (UnitCell ℝ)} (hu : cell = some u) {q : ℝ}
    (hq : qValue l (D.map fun d => (1 / (D.length : ℝ), d)) = q) : SteinhardtIs cell d d₂ l q := by
  refine ⟨u, hu, fun c hn h1 h2 h3 sph hf history hh average weighted normalize => ?_⟩
  have hc := h.call hl hn h1 h2 h3
  rw [← hq]
  exact C106_same_surroundings sph ⟨l, average, false, weighted, normalize⟩ rfl hf history hh c hc.legal hc.source
    (fun _ => hc.weights) D hD hc.same hc.nonempty

theorem CrystalCall.solid {l : ℕ} {c : Steinhardt.Call} {D : List (Vec3 ℝ)} (hc : CrystalCall l c D)
    (hq : qValue l (D.map fun d => (1 / (D.length : ℝ), d)) ≠ 0) {order : List ℕ}
    (hord : order.Perm (List.range c.points.length)) {sph : Steinhardt.Sph}
    (hf : FsphOK sph l (sphericalHarmonic l)) {history : List Steinhardt.Call}
    (hh : ∀ c ∈ history, LegalSteinhardt l c) {thr : ℝ} {sthr : ℕ} (hthr : 0 ≤ thr) (hthr1 : thr < 1) :
    ∃ r, SolidLiquid.run sph ⟨l, thr, sthr, true⟩ history c order = some r ∧
      r.qlij = List.replicate c.nlist.bonds.length (some 1) ∧
      r.connections = List.replicate c.points.length D.length ∧
      r.clusterBonds.bonds = if sthr ≤ D.length then c.nlist.bonds else [] := by
  refine C104_crystal sph ⟨l, thr, sthr, true⟩ hthr hthr1 rfl hf history hh c order
    ⟨hc.legal, hc.queries, hc.points, hord⟩ D hc.same fun h0 => hq ?_
  change Real.sqrt (dirOverlap l _ _) = 0 at h0
  show Real.sqrt (dirOverlap l _ _) = 0
  rw [show (D.map fun d => (1 / (D.length : ℝ), d)) =
      (D.map fun d => ((1 : ℝ), d)).map fun d => (d.1 / (D.length : ℝ), d.2) by simp,
    SolidLiquid.dirOverlap_scaled, SolidLiquid.dirOverlap_comm, SolidLiquid.dirOverlap_scaled, div_div,
    Real.sqrt_div' _ (mul_self_nonneg _), h0, zero_div]

theorem Star.solid {u : UnitCell ℝ} {d d₂ : ℝ} {D : List (Vec3 ℝ)} {both : Bool} (h : Star u d d₂ D both)
    {l : ℕ} (hl : both = true → Even l) {cell : Option (UnitCell ℝ)} (hu : cell = some u)
    (hq : qValue l (D.map fun d => (1 / (D.length : ℝ), d)) ≠ 0) : SolidIs cell d d₂ l D.length :=
  ⟨u, hu, fun _ hn h1 h2 h3 _ hord _ hf _ hh _ _ hthr hthr1 =>
    (h.call hl hn h1 h2 h3).solid hq hord hf hh hthr hthr1⟩

/-! ### The same in integer coordinates -/

/-- The Legendre polynomials in rational numbers. -/
def legendreQ : ℕ → ℚ → ℚ
  | 0, _ => 1
  | 1, x => x
  | n + 2, x => ((2 * n + 3 : ℕ) * x * legendreQ (n + 1) x - (n + 1 : ℕ) * legendreQ n x) / (n + 2 : ℕ)

theorem legendre_cast (l : ℕ) (x : ℚ) : legendre l x = legendreQ l x := by
  induction l using Nat.twoStepInduction with
  | zero => simp [legendre, legendreQ]
  | one => simp [legendre, legendreQ]
  | more n h1 h2 =>
    rw [legendre, legendreQ, h1, h2]
    push_cast
    rfl

/-- The scalar product in integer coordinates, up to a factor. -/
def bilin (q x y : Vec3 ℤ) : ℤ := q.x * x.x * y.x + q.y * x.y * y.y + q.z * x.z * y.z

/-- The sum over all pairs of directions. -/
def pairSum (l : ℕ) (q : Vec3 ℤ) (D : ℤ) (xs : List (Vec3 ℤ)) : ℚ :=
  (xs.map fun x => (xs.map fun y => legendreQ l ((bilin q x y : ℚ) / D)).sum).sum


theorem dot_unit_units {ρ : Vec3 ℝ} {q : Vec3 ℤ} {N D : ℤ} (hN : 0 < N) (hD : 0 < D) (hx : ρ.x ^ 2 = q.x / N)
    (hy : ρ.y ^ 2 = q.y / N) (hz : ρ.z ^ 2 = q.z / N) {x y : Vec3 ℤ} (h1 : quad q x = D) (h2 : quad q y = D) :
    Vec3.dot (unit (units ρ x)) (unit (units ρ y)) = (((bilin q x y : ℚ) / D : ℚ) : ℝ) := by
  have hN' : (0 : ℝ) < N := by exact_mod_cast hN
  have hD' : (0 : ℝ) < D := by exact_mod_cast hD
  have hs : ∀ z, quad q z = D → unit (units ρ z) = Vec3.smul (1 / Real.sqrt (D / N)) (units ρ z) := by
    intro z hz'
    have hn := norm_units hx hy hz z
    rw [hz'] at hn
    unfold Vec3.norm at hn
    unfold unit
    rw [hn, if_neg]
    intro h0
    rw [h0] at hn
    have : 0 < Real.sqrt ((D : ℝ) / N) := Real.sqrt_pos.mpr (by positivity)
    rw [← hn] at this
    simp [Vec3.dot] at this
  rw [hs x h1, hs y h2]
  have hsq : Real.sqrt (D / N) * Real.sqrt (D / N) = D / N := Real.mul_self_sqrt (by positivity)
  have e : Vec3.dot (Vec3.smul (1 / Real.sqrt (D / N)) (units ρ x)) (Vec3.smul (1 / Real.sqrt (D / N)) (units ρ y)) =
      Vec3.dot (units ρ x) (units ρ y) / (Real.sqrt (D / N) * Real.sqrt (D / N)) := by
    simp only [Vec3.dot, Vec3.smul]
    ring
  rw [e, hsq]
  have e2 : Vec3.dot (units ρ x) (units ρ y) = (bilin q x y : ℝ) / N := by
    simp only [Vec3.dot, units, bilin]
    rw [show ρ.x * (x.x : ℝ) * (ρ.x * (y.x : ℝ)) = ρ.x ^ 2 * x.x * y.x by ring,
      show ρ.y * (x.y : ℝ) * (ρ.y * (y.y : ℝ)) = ρ.y ^ 2 * x.y * y.y by ring,
      show ρ.z * (x.z : ℝ) * (ρ.z * (y.z : ℝ)) = ρ.z ^ 2 * x.z * y.z by ring, hx, hy, hz]
    push_cast
    ring
  rw [e2]
  push_cast
  field_simp

/-- `q_l` of directions in integer coordinates. -/
theorem qValue_int {ρ : Vec3 ℝ} {q : Vec3 ℤ} {N D : ℤ} (hN : 0 < N) (hD : 0 < D) (hx : ρ.x ^ 2 = q.x / N)
    (hy : ρ.y ^ 2 = q.y / N) (hz : ρ.z ^ 2 = q.z / N) (l : ℕ) {xs : List (Vec3 ℤ)} (h : ∀ x ∈ xs, quad q x = D) :
    qValue l ((xs.map fun x => unit (units ρ x)).map fun d =>
      (1 / ((xs.map fun x => unit (units ρ x)).length : ℝ), d)) =
    Real.sqrt ((pairSum l q D xs : ℝ) / ((xs.length : ℝ) ^ 2)) := by
  have hc : (pairSum l q D xs : ℝ) =
      (xs.map fun x => (xs.map fun y => ((legendreQ l ((bilin q x y : ℚ) / D) : ℚ) : ℝ)).sum).sum := by
    unfold pairSum
    rw [Rat.cast_list_sum, List.map_map]
    congr 1
    refine List.map_congr_left fun x _ => ?_
    rw [Function.comp_apply, Rat.cast_list_sum, List.map_map]
    rfl
  rw [hc, div_eq_mul_inv _ ((xs.length : ℝ) ^ 2), ← List.sum_map_mul_right]
  unfold qValue
  congr 1
  rw [List.map_map, List.map_map, List.length_map]
  congr 1
  refine List.map_congr_left fun x hx' => ?_
  simp only [Function.comp_apply]
  rw [← List.sum_map_mul_right, List.map_map, List.map_map]
  congr 1
  refine List.map_congr_left fun y hy' => ?_
  simp only [Function.comp_apply]
  rw [dot_unit_units hN hD hx hy hz (h x hx') (h y hy'), legendre_cast]
  ring

theorem star_int {u : UnitCell ℝ} {ρ : Vec3 ℝ} {Lat : Vec3 ℤ → Bool} {F : List (Vec3 ℤ)} (h : InUnits u ρ Lat F)
    (q : Vec3 ℤ) (N D M : ℤ) (k : ℕ) (hN : 0 < N) (hD : 0 < D)
    (hx : ρ.x ^ 2 = q.x / N) (hy : ρ.y ^ 2 = q.y / N) (hz : ρ.z ^ 2 = q.z / N)
    (hM : M ≤ q.x * (k + 1) ^ 2 ∧ M ≤ q.y * (k + 1) ^ 2 ∧ M ≤ q.z * (k + 1) ^ 2)
    (hp : F.Pairwise fun A C => Lat (A - C) = false) (xs : List (Vec3 ℤ)) (both : Bool) (hF : F ≠ [])
    (hxs : ∀ x ∈ xs, quad q x = D)
    (hl : ∀ A ∈ F, (nearList Lat F q M k A).Perm xs ∨
      (both = true ∧ (nearList Lat F q M k A).Perm (xs.map fun x => -x))) :
    Star u (Real.sqrt (D / N)) (Real.sqrt (M / N)) (xs.map fun x => unit (units ρ x)) both := by
  have hneg : ∀ x, quad q (-x) = quad q x := fun x => by
    show q.x * (-x.x) ^ 2 + q.y * (-x.y) ^ 2 + q.z * (-x.z) ^ 2 = _
    unfold quad; ring
  have hq : ∀ A ∈ F, ∀ x ∈ nearList Lat F q M k A, quad q x = D := by
    intro A hA x hx
    rcases hl A hA with h | ⟨-, h⟩
    · exact hxs x (h.mem_iff.mp hx)
    · obtain ⟨y, hy, rfl⟩ := List.mem_map.mp (h.mem_iff.mp hx)
      rw [hneg]; exact hxs y hy
  refine ⟨h.cell, h.distinct hp, ?_, fun f hf => ?_⟩
  · obtain ⟨o, hb⟩ := h.basis
    intro h0
    rw [h0] at hb
    cases hb
    exact hF rfl
  · obtain ⟨A, hA, hs⟩ := h.site hf
    refine ⟨(nearList Lat F q M k A).map (units ρ),
      ((nodup_grid k).filter _).map_on fun x _ y _ e => units_inj h.nonzero e, ?_, ?_, ?_⟩
    · intro s hs'
      obtain ⟨x, hx', rfl⟩ := List.mem_map.mp hs'
      rw [norm_units hx hy hz, hq A hA x hx']
    · intro s
      rw [List.mem_map, hs]
      constructor
      · rintro ⟨x, hx', rfl⟩
        obtain ⟨a, b, c⟩ := (mem_nearList hN hx hy hz hM A x).mp hx'
        refine ⟨⟨x, rfl, a⟩, fun h0 => b ?_, c⟩
        exact units_inj h.nonzero (h0.trans (by simp [units]))
      · rintro ⟨⟨x, rfl, a⟩, b, c⟩
        refine ⟨x, (mem_nearList hN hx hy hz hM A x).mpr ⟨a, fun h0 => b ?_, c⟩, rfl⟩
        rw [h0]; simp [units]
    · rw [List.map_map]
      rcases hl A hA with h' | ⟨hb, h'⟩
      · exact .inl (h'.map _)
      · refine .inr ⟨hb, ?_⟩
        have := h'.map (unit ∘ units ρ)
        rw [List.map_map] at this ⊢
        refine this.trans (List.Perm.of_eq (List.map_congr_left fun x hx' => ?_))
        have hn : units ρ (-x) = -units ρ x := by
          ext <;> simp [units]
        simp only [Function.comp_apply]
        rw [hn]
        have h0 : units ρ x ≠ ⟨0, 0, 0⟩ := by
          intro h0
          have e : x = ⟨0, 0, 0⟩ := units_inj h.nonzero (h0.trans (by simp [units]))
          have := hxs x hx'
          rw [e] at this
          simp [quad] at this
          omega
        unfold unit
        rw [if_neg h0, if_neg (fun h1 => h0 ?_)]
        · ext <;> simp [Vec3.dot]
        · have : units ρ x = -(-units ρ x) := by ext <;> simp
          rw [this, h1]; ext <;> simp

/-- The directions to the nearest neighbors in sc, in integer coordinates. -/
def scNear : List (Vec3 ℤ) :=
  [⟨-1, 0, 0⟩, ⟨0, -1, 0⟩, ⟨0, 0, -1⟩, ⟨0, 0, 1⟩, ⟨0, 1, 0⟩, ⟨1, 0, 0⟩]

/-- The directions to the nearest neighbors in bcc, in integer coordinates. -/
def bccNear : List (Vec3 ℤ) :=
  [⟨-1, -1, -1⟩, ⟨-1, -1, 1⟩, ⟨-1, 1, -1⟩, ⟨-1, 1, 1⟩, ⟨1, -1, -1⟩, ⟨1, -1, 1⟩, ⟨1, 1, -1⟩, ⟨1, 1, 1⟩]

/-- The directions to the nearest neighbors in fcc, in integer coordinates. -/
def fccNear : List (Vec3 ℤ) :=
  [⟨-1, -1, 0⟩, ⟨-1, 0, -1⟩, ⟨-1, 0, 1⟩, ⟨-1, 1, 0⟩, ⟨0, -1, -1⟩, ⟨0, -1, 1⟩, ⟨0, 1, -1⟩, ⟨0, 1, 1⟩, ⟨1,
    -1, 0⟩, ⟨1, 0, -1⟩, ⟨1, 0, 1⟩, ⟨1, 1, 0⟩]

/-- The directions to the nearest neighbors in hcp, in integer coordinates. -/
def hcpNear : List (Vec3 ℤ) :=
  [⟨-2, 0, 0⟩, ⟨-1, -3, 0⟩, ⟨-1, -1, -1⟩, ⟨-1, -1, 1⟩, ⟨-1, 3, 0⟩, ⟨0, 2, -1⟩, ⟨0, 2, 1⟩, ⟨1, -3, 0⟩, ⟨1,
    -1, -1⟩, ⟨1, -1, 1⟩, ⟨1, 3, 0⟩, ⟨2, 0, 0⟩]

theorem sc_star : Star ⟨Box.mk' 1 1 1 0 0 0 false, [⟨0, 0, 0⟩]⟩ 1 (Real.sqrt 2)
    (scNear.map fun x => unit (units ⟨1, 1, 1⟩ x)) false := by
  have h := star_int (inUnits_3D ⟨1, 1, 1⟩ ⟨1, 1, 1⟩ (by norm_num) (by norm_num) [⟨0, 0, 0⟩]) ⟨1, 1, 1⟩
    1 1 2 1 (by norm_num) (by norm_num) (by norm_num) (by norm_num) (by norm_num) (by norm_num) (by decide +kernel)
    scNear false (by simp) (by decide +kernel) (by decide +kernel)
  simpa using h

theorem bcc_cell : UnitCell.bcc = some ⟨Box.mk' 1 1 1 0 0 0 false, [⟨1 / 2, 1 / 2, 1 / 2⟩, ⟨0, 0, 0⟩]⟩ := by
  rw [UnitCell.bcc, ofLike_3D _ _ _ (by norm_num) (by norm_num) (by norm_num)]

theorem fcc_cell : UnitCell.fcc = some ⟨Box.mk' 1 1 1 0 0 0 false,
    [⟨1 / 2, 1 / 2, 0⟩, ⟨1 / 2, 0, 1 / 2⟩, ⟨0, 1 / 2, 1 / 2⟩, ⟨0, 0, 0⟩]⟩ := by
  rw [UnitCell.fcc, ofLike_3D _ _ _ (by norm_num) (by norm_num) (by norm_num)]

theorem bcc_star : Star ⟨Box.mk' 1 1 1 0 0 0 false, [⟨1 / 2, 1 / 2, 1 / 2⟩, ⟨0, 0, 0⟩]⟩ (Real.sqrt 3 / 2) 1
    (bccNear.map fun x => unit (units ⟨1 / 2, 1 / 2, 1 / 2⟩ x)) false := by
  have h := star_int (inUnits_3D ⟨1 / 2, 1 / 2, 1 / 2⟩ ⟨2, 2, 2⟩ (by norm_num) (by norm_num)
    [⟨1, 1, 1⟩, ⟨0, 0, 0⟩]) ⟨1, 1, 1⟩ 4 3 4 1 (by norm_num) (by norm_num) (by norm_num) (by norm_num)
    (by norm_num) (by norm_num) (by decide +kernel) bccNear false (by simp) (by decide +kernel) (by decide +kernel)
  rw [← sqrt_quarter]
  simpa using h

theorem fcc_star : Star ⟨Box.mk' 1 1 1 0 0 0 false,
    [⟨1 / 2, 1 / 2, 0⟩, ⟨1 / 2, 0, 1 / 2⟩, ⟨0, 1 / 2, 1 / 2⟩, ⟨0, 0, 0⟩]⟩ (Real.sqrt 2 / 2) 1
    (fccNear.map fun x => unit (units ⟨1 / 2, 1 / 2, 1 / 2⟩ x)) false := by
  have h := star_int (inUnits_3D ⟨1 / 2, 1 / 2, 1 / 2⟩ ⟨2, 2, 2⟩ (by norm_num) (by norm_num)
    [⟨1, 1, 0⟩, ⟨1, 0, 1⟩, ⟨0, 1, 1⟩, ⟨0, 0, 0⟩]) ⟨1, 1, 1⟩ 4 2 4 1 (by norm_num) (by norm_num) (by norm_num)
    (by norm_num) (by norm_num) (by norm_num) (by decide +kernel) fccNear false (by simp) (by decide +kernel)
    (by decide +kernel)
  rw [← sqrt_quarter]
  simpa using h

theorem hcp_star : Star ⟨Box.mk' 1 (Real.sqrt 3 / 2) (Real.sqrt (8 / 3)) (-1 / Real.sqrt 3) 0 0 false,
    [⟨1 / 3, 2 / 3, 1 / 4⟩, ⟨2 / 3, 1 / 3, 3 / 4⟩]⟩ 1 (Real.sqrt 2)
    (hcpNear.map fun x => unit (units ⟨1 / 2, Real.sqrt 3 / 6, Real.sqrt (8 / 3) / 2⟩ x)) true := by
  have h := star_int inUnits_hcp ⟨3, 1, 8⟩ 12 12 24 4 (by norm_num) (by norm_num) (by norm_num)
    (by simp only [div_pow]; rw [Real.sq_sqrt (by norm_num)]; norm_num)
    (by simp only [div_pow]; rw [Real.sq_sqrt (by norm_num)]; norm_num) (by norm_num)
    (by decide +kernel) hcpNear true (by simp) (by decide +kernel) (by decide +kernel)
  norm_num at h
  norm_num
  exact h

theorem sc_q4 : qValue 4 (((scNear.map fun x => unit (units ⟨1, 1, 1⟩ x))).map fun d =>
    (1 / ((scNear.map fun x => unit (units ⟨1, 1, 1⟩ x)).length : ℝ), d)) = Real.sqrt (7 / 12) := by
  rw [qValue_int (q := ⟨1, 1, 1⟩) (N := 1) (D := 1) (by norm_num) (by norm_num) (by norm_num) (by norm_num) (by norm_num) 4 (by decide +kernel),
    show pairSum 4 ⟨1, 1, 1⟩ 1 scNear = 7 / 12 * 36 by decide +kernel]
  norm_num [scNear]

/-- **C106**: `q_4` in sc. -/
theorem C106_sc_q4 : SteinhardtIs UnitCell.sc (1) (Real.sqrt 2) 4 (Real.sqrt (7 / 12)) :=
  sc_star.steinhardt (by simp [scNear]) (by simp) sc_cell sc_q4

/-- **C106**: `SolidLiquid` with `l = 4` in sc. -/
theorem C106_sc_solid4 : SolidIs UnitCell.sc (1) (Real.sqrt 2) 4 6 :=
  sc_star.solid (by simp) sc_cell (by
    rw [sc_q4]
    exact (Real.sqrt_pos.mpr (by norm_num)).ne')

theorem sc_q6 : qValue 6 (((scNear.map fun x => unit (units ⟨1, 1, 1⟩ x))).map fun d =>
    (1 / ((scNear.map fun x => unit (units ⟨1, 1, 1⟩ x)).length : ℝ), d)) = Real.sqrt (1 / 8) := by
  rw [qValue_int (q := ⟨1, 1, 1⟩) (N := 1) (D := 1) (by norm_num) (by norm_num) (by norm_num) (by norm_num) (by norm_num) 6 (by decide +kernel),
    show pairSum 6 ⟨1, 1, 1⟩ 1 scNear = 1 / 8 * 36 by decide +kernel]
  norm_num [scNear]

/-- **C106**: `q_6` in sc. -/
theorem C106_sc_q6 : SteinhardtIs UnitCell.sc (1) (Real.sqrt 2) 6 (Real.sqrt (1 / 8)) :=
  sc_star.steinhardt (by simp [scNear]) (by simp) sc_cell sc_q6

/-- **C106**: `SolidLiquid` with `l = 6` in sc. -/
theorem C106_sc_solid6 : SolidIs UnitCell.sc (1) (Real.sqrt 2) 6 6 :=
  sc_star.solid (by simp) sc_cell (by
    rw [sc_q6]
    exact (Real.sqrt_pos.mpr (by norm_num)).ne')

theorem bcc_q4 : qValue 4 (((bccNear.map fun x => unit (units ⟨1 / 2, 1 / 2, 1 / 2⟩ x))).map fun d =>
    (1 / ((bccNear.map fun x => unit (units ⟨1 / 2, 1 / 2, 1 / 2⟩ x)).length : ℝ), d)) = Real.sqrt (7 / 27) := by
  rw [qValue_int (q := ⟨1, 1, 1⟩) (N := 4) (D := 3) (by norm_num) (by norm_num) (by norm_num) (by norm_num) (by norm_num) 4 (by decide +kernel),
    show pairSum 4 ⟨1, 1, 1⟩ 3 bccNear = 7 / 27 * 64 by decide +kernel]
  norm_num [bccNear]

/-- **C106**: `q_4` in bcc. -/
theorem C106_bcc_q4 : SteinhardtIs UnitCell.bcc (Real.sqrt 3 / 2) (1) 4 (Real.sqrt (7 / 27)) :=
  bcc_star.steinhardt (by simp [bccNear]) (by simp) bcc_cell bcc_q4

/-- **C106**: `SolidLiquid` with `l = 4` in bcc. -/
theorem C106_bcc_solid4 : SolidIs UnitCell.bcc (Real.sqrt 3 / 2) (1) 4 8 :=
  bcc_star.solid (by simp) bcc_cell (by
    rw [bcc_q4]
    exact (Real.sqrt_pos.mpr (by norm_num)).ne')

theorem bcc_q6 : qValue 6 (((bccNear.map fun x => unit (units ⟨1 / 2, 1 / 2, 1 / 2⟩ x))).map fun d =>
    (1 / ((bccNear.map fun x => unit (units ⟨1 / 2, 1 / 2, 1 / 2⟩ x)).length : ℝ), d)) = Real.sqrt (32 / 81) := by
  rw [qValue_int (q := ⟨1, 1, 1⟩) (N := 4) (D := 3) (by norm_num) (by norm_num) (by norm_num) (by norm_num) (by norm_num) 6 (by decide +kernel),
    show pairSum 6 ⟨1, 1, 1⟩ 3 bccNear = 32 / 81 * 64 by decide +kernel]
  norm_num [bccNear]

/-- **C106**: `q_6` in bcc. -/
theorem C106_bcc_q6 : SteinhardtIs UnitCell.bcc (Real.sqrt 3 / 2) (1) 6 (Real.sqrt (32 / 81)) :=
  bcc_star.steinhardt (by simp [bccNear]) (by simp) bcc_cell bcc_q6

/-- **C106**: `SolidLiquid` with `l = 6` in bcc. -/
theorem C106_bcc_solid6 : SolidIs UnitCell.bcc (Real.sqrt 3 / 2) (1) 6 8 :=
  bcc_star.solid (by simp) bcc_cell (by
    rw [bcc_q6]
    exact (Real.sqrt_pos.mpr (by norm_num)).ne')

theorem fcc_q4 : qValue 4 (((fccNear.map fun x => unit (units ⟨1 / 2, 1 / 2, 1 / 2⟩ x))).map fun d =>
    (1 / ((fccNear.map fun x => unit (units ⟨1 / 2, 1 / 2, 1 / 2⟩ x)).length : ℝ), d)) = Real.sqrt (7 / 192) := by
  rw [qValue_int (q := ⟨1, 1, 1⟩) (N := 4) (D := 2) (by norm_num) (by norm_num) (by norm_num) (by norm_num) (by norm_num) 4 (by decide +kernel),
    show pairSum 4 ⟨1, 1, 1⟩ 2 fccNear = 7 / 192 * 144 by decide +kernel]
  norm_num [fccNear]

/-- **C106**: `q_4` in fcc. -/
theorem C106_fcc_q4 : SteinhardtIs UnitCell.fcc (Real.sqrt 2 / 2) (1) 4 (Real.sqrt (7 / 192)) :=
  fcc_star.steinhardt (by simp [fccNear]) (by simp) fcc_cell fcc_q4

/-- **C106**: `SolidLiquid` with `l = 4` in fcc. -/
theorem C106_fcc_solid4 : SolidIs UnitCell.fcc (Real.sqrt 2 / 2) (1) 4 12 :=
  fcc_star.solid (by simp) fcc_cell (by
    rw [fcc_q4]
    exact (Real.sqrt_pos.mpr (by norm_num)).ne')

theorem fcc_q6 : qValue 6 (((fccNear.map fun x => unit (units ⟨1 / 2, 1 / 2, 1 / 2⟩ x))).map fun d =>
    (1 / ((fccNear.map fun x => unit (units ⟨1 / 2, 1 / 2, 1 / 2⟩ x)).length : ℝ), d)) = Real.sqrt (169 / 512) := by
  rw [qValue_int (q := ⟨1, 1, 1⟩) (N := 4) (D := 2) (by norm_num) (by norm_num) (by norm_num) (by norm_num) (by norm_num) 6 (by decide +kernel),
    show pairSum 6 ⟨1, 1, 1⟩ 2 fccNear = 169 / 512 * 144 by decide +kernel]
  norm_num [fccNear]

/-- **C106**: `q_6` in fcc. -/
theorem C106_fcc_q6 : SteinhardtIs UnitCell.fcc (Real.sqrt 2 / 2) (1) 6 (Real.sqrt (169 / 512)) :=
  fcc_star.steinhardt (by simp [fccNear]) (by simp) fcc_cell fcc_q6

/-- **C106**: `SolidLiquid` with `l = 6` in fcc. -/
theorem C106_fcc_solid6 : SolidIs UnitCell.fcc (Real.sqrt 2 / 2) (1) 6 12 :=
  fcc_star.solid (by simp) fcc_cell (by
    rw [fcc_q6]
    exact (Real.sqrt_pos.mpr (by norm_num)).ne')

theorem hcp_q4 : qValue 4 (((hcpNear.map fun x => unit (units ⟨1 / 2, Real.sqrt 3 / 6, Real.sqrt (8 / 3) / 2⟩ x))).map fun d =>
    (1 / ((hcpNear.map fun x => unit (units ⟨1 / 2, Real.sqrt 3 / 6, Real.sqrt (8 / 3) / 2⟩ x)).length : ℝ), d)) = Real.sqrt (49 / 5184) := by
  rw [qValue_int (q := ⟨3, 1, 8⟩) (N := 12) (D := 12) (by norm_num) (by norm_num) (by norm_num)
      (by simp only [div_pow]; rw [Real.sq_sqrt (by norm_num)]; norm_num)
      (by simp only [div_pow]; rw [Real.sq_sqrt (by norm_num)]; norm_num) 4 (by decide +kernel),
    show pairSum 4 ⟨3, 1, 8⟩ 12 hcpNear = 49 / 5184 * 144 by decide +kernel]
  norm_num [hcpNear]

/-- **C106**: `q_4` in hcp. -/
theorem C106_hcp_q4 : SteinhardtIs UnitCell.hcp (1) (Real.sqrt 2) 4 (Real.sqrt (49 / 5184)) :=
  hcp_star.steinhardt (by simp [hcpNear]) (fun _ => by decide) hcp_cell hcp_q4

/-- **C106**: `SolidLiquid` with `l = 4` in hcp. -/
theorem C106_hcp_solid4 : SolidIs UnitCell.hcp (1) (Real.sqrt 2) 4 12 :=
  hcp_star.solid (fun _ => by decide) hcp_cell (by
    rw [hcp_q4]
    exact (Real.sqrt_pos.mpr (by norm_num)).ne')

theorem hcp_q6 : qValue 6 (((hcpNear.map fun x => unit (units ⟨1 / 2, Real.sqrt 3 / 6, Real.sqrt (8 / 3) / 2⟩ x))).map fun d =>
    (1 / ((hcpNear.map fun x => unit (units ⟨1 / 2, Real.sqrt 3 / 6, Real.sqrt (8 / 3) / 2⟩ x)).length : ℝ), d)) = Real.sqrt (29237 / 124416) := by
  rw [qValue_int (q := ⟨3, 1, 8⟩) (N := 12) (D := 12) (by norm_num) (by norm_num) (by norm_num)
      (by simp only [div_pow]; rw [Real.sq_sqrt (by norm_num)]; norm_num)
      (by simp only [div_pow]; rw [Real.sq_sqrt (by norm_num)]; norm_num) 6 (by decide +kernel),
    show pairSum 6 ⟨3, 1, 8⟩ 12 hcpNear = 29237 / 124416 * 144 by decide +kernel]
  norm_num [hcpNear]

/-- **C106**: `q_6` in hcp. -/
theorem C106_hcp_q6 : SteinhardtIs UnitCell.hcp (1) (Real.sqrt 2) 6 (Real.sqrt (29237 / 124416)) :=
  hcp_star.steinhardt (by simp [hcpNear]) (fun _ => by decide) hcp_cell hcp_q6

/-- **C106**: `SolidLiquid` with `l = 6` in hcp. -/
theorem C106_hcp_solid6 : SolidIs UnitCell.hcp (1) (Real.sqrt 2) 6 12 :=
  hcp_star.solid (fun _ => by decide) hcp_cell (by
    rw [hcp_q6]
    exact (Real.sqrt_pos.mpr (by norm_num)).ne')


/-! ### Odd degrees -/

theorem dirOverlap_odd {l : ℕ} (hl : Odd l) (L M : List (ℝ × Vec3 ℝ)) :
    dirOverlap l (L.map fun d => (d.1, -d.2)) M = -dirOverlap l L M := by
  unfold dirOverlap
  rw [List.map_map, ← neg_one_mul, ← List.sum_map_mul_left]
  congr 1
  refine List.map_congr_left fun d _ => ?_
  rw [Function.comp_apply, ← List.sum_map_mul_left]
  congr 1
  refine List.map_congr_left fun e _ => ?_
  dsimp only
  rw [show Vec3.dot (-d.2) e.2 = -Vec3.dot d.2 e.2 by
    show (-d.2.x) * e.2.x + (-d.2.y) * e.2.y + (-d.2.z) * e.2.z = -(d.2.x * e.2.x + d.2.y * e.2.y + d.2.z * e.2.z)
    ring, SolidLiquid.legendre_neg, hl.neg_one_pow]
  ring

theorem qValue_odd {l : ℕ} (hl : Odd l) {D : List (Vec3 ℝ)} (h : (D.map fun d => -d).Perm D) (t : ℝ) :
    qValue l (D.map fun d => (t, d)) = 0 := by
  show Real.sqrt (dirOverlap l (D.map fun d => (t, d)) (D.map fun d => (t, d))) = 0
  have h1 := SolidLiquid.dirOverlap_perm l (h.map fun d => (t, d)) (D.map fun d => (t, d))
  have h2 := dirOverlap_odd hl (D.map fun d => (t, d)) (D.map fun d => (t, d))
  rw [List.map_map] at h1 h2
  have : dirOverlap l (D.map fun d => (t, d)) (D.map fun d => (t, d)) = 0 := by
    have e : (D.map ((fun d => (t, d)) ∘ fun d => -d)) = D.map ((fun d : ℝ × Vec3 ℝ => (d.1, -d.2)) ∘ fun d => (t, d)) := rfl
    rw [e] at h1
    linarith
  rw [this, Real.sqrt_zero]

theorem perm_neg {ρ : Vec3 ℝ} (hρ : ρ.x ≠ 0 ∧ ρ.y ≠ 0 ∧ ρ.z ≠ 0) {xs : List (Vec3 ℤ)}
    (h0 : ∀ x ∈ xs, x ≠ ⟨0, 0, 0⟩) (h : (xs.map fun x => -x).Perm xs) :
    ((xs.map fun x => unit (units ρ x)).map fun d => -d).Perm (xs.map fun x => unit (units ρ x)) := by
  refine (List.Perm.of_eq ?_).trans (h.map fun x => unit (units ρ x))
  rw [List.map_map, List.map_map]
  refine List.map_congr_left fun x hx => ?_
  simp only [Function.comp_apply]
  rw [show units ρ (-x) = -units ρ x by ext <;> simp [units]]
  have h1 : units ρ x ≠ ⟨0, 0, 0⟩ := fun e => h0 x hx (units_inj hρ (e.trans (by simp [units])))
  unfold unit
  rw [if_neg h1, if_neg (fun h2 => h1 ?_)]
  · ext <;> simp [Vec3.dot]
  · have : units ρ x = -(-units ρ x) := by ext <;> simp
    rw [this, h2]; ext <;> simp

/-- **C106**: the surroundings in sc are the same seen from the opposite side: `q_l` is zero for all odd `l`. -/
theorem C106_sc_odd (l : ℕ) (hl : Odd l) : SteinhardtIs UnitCell.sc 1 (Real.sqrt 2) l 0 :=
  sc_star.steinhardt (by simp [scNear]) (by simp) sc_cell
    (qValue_odd hl (perm_neg (by norm_num) (by decide +kernel) (by decide +kernel)) _)

/-- **C106**: `q_l` is zero for all odd `l` in bcc. -/
theorem C106_bcc_odd (l : ℕ) (hl : Odd l) : SteinhardtIs UnitCell.bcc (Real.sqrt 3 / 2) 1 l 0 :=
  bcc_star.steinhardt (by simp [bccNear]) (by simp) bcc_cell
    (qValue_odd hl (perm_neg (by norm_num) (by decide +kernel) (by decide +kernel)) _)

/-- **C106**: `q_l` is zero for all odd `l` in fcc. -/
theorem C106_fcc_odd (l : ℕ) (hl : Odd l) : SteinhardtIs UnitCell.fcc (Real.sqrt 2 / 2) 1 l 0 :=
  fcc_star.steinhardt (by simp [fccNear]) (by simp) fcc_cell
    (qValue_odd hl (perm_neg (by norm_num) (by decide +kernel) (by decide +kernel)) _)

/-! ### One cluster -/

theorem oneCluster {n : ℕ} (hn : 0 < n) {bonds : List (Bond ℝ)} (hb : ∀ b ∈ bonds, b.p < n ∧ b.q < n)
    (h : ∀ i < n, ∀ j < n, Relation.ReflTransGen (fun i j => ∃ nb ∈ bonds, nb.q = i ∧ nb.p = j) i j) :
    OneCluster n bonds := by
  intro work hwork s hr hfin key res hres
  have hmem : ∀ e ∈ work.flatten, e.1 < n ∧ e.2 < n := by
    intro e he
    obtain ⟨b, hbm, rfl⟩ := List.mem_map.mp (hwork.subset he)
    exact hb b hbm
  obtain ⟨-, -, g2, g3, -⟩ := C33_cluster_labels n work hmem s hr hfin key res hres
  have same : ∀ i < n, ∀ j < n, res.clusterIdx.getD i 0 = res.clusterIdx.getD j 0 := by
    intro i hi j hj
    rw [g2 i hi j hj]
    have := h i hi j hj
    clear hi hj
    induction this with
    | refl => exact .refl _
    | tail _ hs ih =>
      obtain ⟨nb, hnb, rfl, rfl⟩ := hs
      exact .trans _ _ _ ih (.symm _ _ (.rel _ _ (hwork.mem_iff.mpr (List.mem_map.mpr ⟨nb, hnb, rfl⟩))))
  have h0 := g3.range 0 hn
  obtain ⟨i, hi, ei⟩ := g3.onto 0 (by omega)
  have hall : ∀ j < n, res.clusterIdx.getD j 0 = 0 := fun j hj => (same j hj i hi).trans ei
  refine ⟨?_, hall⟩
  by_contra hne
  obtain ⟨j, hj, ej⟩ := g3.onto 1 (by omega)
  rw [hall j hj] at ej
  omega

theorem Chains.Connected.cluster {u : UnitCell ℝ} {ρ : Vec3 ℝ} {Lat : Vec3 ℤ → Bool} {F : List (Vec3 ℤ)} {q : Vec3 ℤ}
    {M : ℤ} {g₁ g₂ g₃ : Vec3 ℤ} {cands : List (List (Vec3 ℤ))} (hc : Chains.Connected Lat F q M g₁ g₂ g₃ cands)
    (h : InUnits u ρ Lat F) {N : ℤ} (hN : 0 < N)
    (hx : ρ.x ^ 2 = q.x / N) (hy : ρ.y ^ 2 = q.y / N) (hz : ρ.z ^ 2 = q.z / N) {z : ℕ} {d : ℝ}
    (hs : Shell u z d (Real.sqrt (M / N))) (hb : u.basis ≠ []) {cell : Option (UnitCell ℝ)} (hu : cell = some u) :
    ClusterIs cell d (Real.sqrt (M / N)) := by
  refine ⟨u, hu, fun box points nl hn => ?_⟩
  obtain ⟨⟨n, s, hg, r, r1, r2, hhalf, hsrc⟩, hsmall⟩ := hn
  obtain ⟨t, g⟩ := generated hs.cell hs.distinct hg
  obtain ⟨hlist, hq, hbd⟩ := list_source g.system hsmall le_rfl hhalf hsrc
  have hchain := Chains.bonds_connected h hN hx hy hz (fun y y' hy hy' => hc.chain hy hy') g hhalf (by
    rintro x ⟨y, y', hadj, rfl⟩
    simp only [Chains.adj, Bool.and_eq_true, decide_eq_true_eq] at hadj
    obtain ⟨⟨⟨h1, h2⟩, h3⟩, h4⟩ := hadj
    obtain ⟨A, hA, hL⟩ := List.any_eq_true.mp h1
    obtain ⟨C, hC, hL'⟩ := List.any_eq_true.mp h2
    obtain ⟨o, hbas⟩ := h.basis
    obtain ⟨f, hf, eA⟩ := forall₂_mem_right hbas hA
    obtain ⟨f', hf', eC⟩ := forall₂_mem_right hbas hC
    obtain ⟨m, hm, e⟩ := (h.lat _).mpr ⟨_, hL, rfl⟩
    obtain ⟨m', hm', e'⟩ := (h.lat _).mpr ⟨_, hL', rfl⟩
    have hsv : SiteVector u f (units ρ (y' - y)) := by
      refine ⟨f', hf', m' - m, fun h2 => by simp [hm h2, hm' h2], ?_⟩
      rw [comb_sub eA eC, show lattice u.box (m' - m) = lattice u.box m' - lattice u.box m by
        ext <;> simp [lattice, comb] <;> ring, ← e, ← e']
      ext <;> simp [units] <;> ring
    obtain ⟨vs, -, -, hd, hmem⟩ := hs.near f hf
    have hlt : Vec3.norm (units ρ (y' - y)) < Real.sqrt (M / N) := by
      have hN' : (0 : ℝ) < N := by exact_mod_cast hN
      have hq0 : ∀ (a : ℝ) (c : ℤ), a ^ 2 = c / N → 0 ≤ c := fun a c e => by
        have : (0 : ℝ) ≤ c / N := by rw [← e]; positivity
        rw [le_div_iff₀ hN', zero_mul] at this
        exact_mod_cast this
      have := quad_nonneg ⟨hq0 _ _ hx, hq0 _ _ hy, hq0 _ _ hz⟩ (y' - y)
      rw [norm_units hx hy hz]
      refine Real.sqrt_lt_sqrt (div_nonneg (by exact_mod_cast this) hN'.le) ?_
      rw [div_lt_div_iff_of_pos_right hN']
      exact_mod_cast h4
    rw [hd _ ((hmem _).mpr ⟨hsv, fun h0 => h3 ?_, hlt⟩)]
    · exact r1
    · have h5 : y' - y = ⟨0, 0, 0⟩ := units_inj h.nonzero (h0.trans (by simp [units]))
      have e1 := congrArg Vec3.x h5
      have e2 := congrArg Vec3.y h5
      have e3 := congrArg Vec3.z h5
      simp at e1 e2 e3
      ext <;> linarith)
  have hiff : ∀ nb, nb ∈ nl.bonds ↔ IsQueryBond box points points r 0 true nb := by
    intro nb
    have := mem_allBonds g.system le_rfl hhalf hsrc nb
    rwa [show allBonds (.list nl) = nl.bonds from bondsFrom_list nl] at this
  have hch : ∀ i < points.length, ∀ j < points.length,
      Relation.ReflTransGen (fun i j => ∃ nb ∈ nl.bonds, nb.q = i ∧ nb.p = j) i j := by
    intro i hi j hj
    refine Relation.ReflTransGen.mono ?_ _ _ (hchain i j hi hj)
    rintro a b ⟨bd, h1, h2⟩
    exact ⟨bd, (hiff bd).mpr h1, h2⟩
  refine ⟨hch, oneCluster ?_ (fun b hb => ?_) hch⟩
  · exact List.length_pos_of_ne_nil (generated_ne hs.cell hb hg)
  · have h1 : b.q < points.length := by rw [← hq]; exact hlist.good.qlt b hb
    exact ⟨hlist.points b hb h1, h1⟩

/-- All chains of up to two steps. -/
def twoSteps (xs : List (Vec3 ℤ)) : List (List (Vec3 ℤ)) :=
  [] :: (xs.map fun x => [x]) ++ xs.flatMap fun x => xs.map fun y => [x, y]

theorem lat3_connected {P : Vec3 ℤ} {F : List (Vec3 ℤ)} {q : Vec3 ℤ} {M : ℤ} {cands : List (List (Vec3 ℤ))}
    (h1 : ∀ A ∈ F, ∀ C ∈ F, ∃ xs ∈ cands, Chains.walk (lat3 P) F q M C A xs = true)
    (h2 : ∀ A ∈ F, ∀ g ∈ [⟨P.x, 0, 0⟩, ⟨0, P.y, 0⟩, ⟨0, 0, P.z⟩],
      ∃ xs ∈ cands, Chains.walk (lat3 P) F q M (A + g) A xs = true) :
    Chains.Connected (lat3 P) F q M ⟨P.x, 0, 0⟩ ⟨0, P.y, 0⟩ ⟨0, 0, P.z⟩ cands := by
  refine ⟨?_, ?_, h1, h2⟩
  · intro g hg w
    simp only [List.mem_cons, List.not_mem_nil, or_false] at hg
    rcases hg with rfl | rfl | rfl <;> simp [lat3]
  · intro w hw
    simp only [lat3, decide_eq_true_eq] at hw
    obtain ⟨⟨a, ea⟩, ⟨b, eb⟩, c, ec⟩ := hw
    exact ⟨a, b, c, by ext <;> simp [ea, eb, ec, mul_comm]⟩

theorem lat2_connected {P : Vec3 ℤ} {F : List (Vec3 ℤ)} {q : Vec3 ℤ} {M : ℤ} {cands : List (List (Vec3 ℤ))}
    (h1 : ∀ A ∈ F, ∀ C ∈ F, ∃ xs ∈ cands, Chains.walk (lat2 P) F q M C A xs = true)
    (h2 : ∀ A ∈ F, ∀ g ∈ [⟨P.x, 0, 0⟩, ⟨0, P.y, 0⟩, ⟨0, 0, 0⟩],
      ∃ xs ∈ cands, Chains.walk (lat2 P) F q M (A + g) A xs = true) :
    Chains.Connected (lat2 P) F q M ⟨P.x, 0, 0⟩ ⟨0, P.y, 0⟩ ⟨0, 0, 0⟩ cands := by
  refine ⟨?_, ?_, h1, h2⟩
  · intro g hg w
    simp only [List.mem_cons, List.not_mem_nil, or_false] at hg
    rcases hg with rfl | rfl | rfl <;> simp [lat2]
  · intro w hw
    simp only [lat2, decide_eq_true_eq] at hw
    obtain ⟨⟨a, ea⟩, ⟨b, eb⟩, ec⟩ := hw
    exact ⟨a, b, 0, by ext <;> simp [ea, eb, ec, mul_comm]⟩


/-- **C106**: sc is connected by its nearest neighbors. -/
theorem C106_sc_cluster : ClusterIs UnitCell.sc 1 (Real.sqrt 2) := by
  have hs := sc_shell
  have h := (lat3_connected (P := ⟨1, 1, 1⟩) (F := [⟨0, 0, 0⟩]) (q := ⟨1, 1, 1⟩) (M := 2) (cands := twoSteps scNear)
    (by decide +kernel) (by decide +kernel)).cluster
    (inUnits_3D ⟨1, 1, 1⟩ ⟨1, 1, 1⟩ (by norm_num) (by norm_num) [⟨0, 0, 0⟩]) (N := 1) (by norm_num) (by norm_num)
    (by norm_num) (by norm_num) (z := 6) (d := 1) (by simpa using hs) (by simp) (cell := UnitCell.sc)
    (by rw [sc_cell]; simp)
  simpa using h

theorem bcc_units : InUnits ⟨Box.mk' 1 1 1 0 0 0 false, [⟨1 / 2, 1 / 2, 1 / 2⟩, ⟨0, 0, 0⟩]⟩ ⟨1 / 2, 1 / 2, 1 / 2⟩
    (lat3 ⟨2, 2, 2⟩) [⟨1, 1, 1⟩, ⟨0, 0, 0⟩] := by
  have h := inUnits_3D ⟨1 / 2, 1 / 2, 1 / 2⟩ ⟨2, 2, 2⟩ (by norm_num) (by norm_num) [⟨1, 1, 1⟩, ⟨0, 0, 0⟩]
  norm_num at h ⊢
  exact h

theorem fcc_units : InUnits ⟨Box.mk' 1 1 1 0 0 0 false,
    [⟨1 / 2, 1 / 2, 0⟩, ⟨1 / 2, 0, 1 / 2⟩, ⟨0, 1 / 2, 1 / 2⟩, ⟨0, 0, 0⟩]⟩ ⟨1 / 2, 1 / 2, 1 / 2⟩
    (lat3 ⟨2, 2, 2⟩) [⟨1, 1, 0⟩, ⟨1, 0, 1⟩, ⟨0, 1, 1⟩, ⟨0, 0, 0⟩] := by
  have h := inUnits_3D ⟨1 / 2, 1 / 2, 1 / 2⟩ ⟨2, 2, 2⟩ (by norm_num) (by norm_num)
    [⟨1, 1, 0⟩, ⟨1, 0, 1⟩, ⟨0, 1, 1⟩, ⟨0, 0, 0⟩]
  norm_num at h ⊢
  exact h

theorem Star.shell {u : UnitCell ℝ} {d d₂ : ℝ} {D : List (Vec3 ℝ)} {both : Bool} (h : Star u d d₂ D both) :
    Shell u D.length d d₂ := by
  refine ⟨h.cell, h.distinct, fun f hf => ?_⟩
  obtain ⟨vs, h1, h2, h3, h4⟩ := h.near f hf
  refine ⟨vs, h1, ?_, h2, h3⟩
  rcases h4 with h4 | ⟨-, h4⟩
  · simpa using h4.length_eq
  · simpa using h4.length_eq

/-- **C106**: bcc is connected by its nearest neighbors. -/
theorem C106_bcc_cluster : ClusterIs UnitCell.bcc (Real.sqrt 3 / 2) 1 := by
  have hs := bcc_star.shell
  have e : Real.sqrt ((4 : ℤ) / (4 : ℤ)) = 1 := by norm_num
  have h := (lat3_connected (P := ⟨2, 2, 2⟩) (F := [⟨1, 1, 1⟩, ⟨0, 0, 0⟩]) (q := ⟨1, 1, 1⟩) (M := 4)
    (cands := twoSteps bccNear) (by decide +kernel) (by decide +kernel)).cluster bcc_units (N := 4) (by norm_num)
    (by norm_num) (by norm_num) (by norm_num) (by rw [e]; exact hs) (by simp) bcc_cell
  rwa [e] at h

/-- **C106**: fcc is connected by its nearest neighbors. -/
theorem C106_fcc_cluster : ClusterIs UnitCell.fcc (Real.sqrt 2 / 2) 1 := by
  have hs := fcc_star.shell
  have e : Real.sqrt ((4 : ℤ) / (4 : ℤ)) = 1 := by norm_num
  have h := (lat3_connected (P := ⟨2, 2, 2⟩) (F := [⟨1, 1, 0⟩, ⟨1, 0, 1⟩, ⟨0, 1, 1⟩, ⟨0, 0, 0⟩]) (q := ⟨1, 1, 1⟩)
    (M := 4) (cands := twoSteps fccNear) (by decide +kernel) (by decide +kernel)).cluster fcc_units (N := 4)
    (by norm_num) (by norm_num) (by norm_num) (by norm_num) (by rw [e]; exact hs) (by simp) fcc_cell
  rwa [e] at h

/-- **C106**: hcp is connected by its nearest neighbors. -/
theorem C106_hcp_cluster : ClusterIs UnitCell.hcp 1 (Real.sqrt 2) := by
  have hs := hcp_star.shell
  have e : Real.sqrt ((24 : ℤ) / (12 : ℤ)) = Real.sqrt 2 := by norm_num
  have hc : Chains.Connected latHcp [⟨0, 2, 0⟩, ⟨1, 1, 1⟩] ⟨3, 1, 8⟩ 24 ⟨2, 0, 0⟩ ⟨-1, 3, 0⟩ ⟨0, 0, 2⟩
      (twoSteps (hcpNear ++ hcpNear.map fun x => -x)) := by
    refine ⟨?_, ?_, by decide +kernel, by decide +kernel⟩
    · intro g hg w
      simp only [List.mem_cons, List.not_mem_nil, or_false] at hg
      simp only [latHcp, decide_eq_decide]
      rcases hg with rfl | rfl | rfl
      · simp only [Vec3.add_x, Vec3.add_y, Vec3.add_z]; omega
      · simp only [Vec3.add_x, Vec3.add_y, Vec3.add_z]; omega
      · simp only [Vec3.add_x, Vec3.add_y, Vec3.add_z]; omega
    · intro w hw
      simp only [latHcp, decide_eq_true_eq] at hw
      exact ⟨(w.x + w.y / 3) / 2, w.y / 3, w.z / 2, by ext <;> simp <;> omega⟩
  have h := hc.cluster inUnits_hcp (N := 12) (by norm_num) (by norm_num)
    (by simp only [div_pow]; rw [Real.sq_sqrt (by norm_num)]; norm_num)
    (by simp only [div_pow]; rw [Real.sq_sqrt (by norm_num)]; norm_num) (by rw [e]; exact hs) (by simp) hcp_cell
  rwa [e] at h

/-- **C106**: the square crystal is connected by its nearest neighbors. -/
theorem C106_square_cluster : ClusterIs UnitCell.square 1 (Real.sqrt 2) := by
  have e : Real.sqrt ((2 : ℤ) / (1 : ℤ)) = Real.sqrt 2 := by norm_num
  have h := (lat2_connected (P := ⟨1, 1, 1⟩) (F := [⟨0, 0, 0⟩]) (q := ⟨1, 1, 1⟩) (M := 2) (cands := twoSteps scNear)
    (by decide +kernel) (by decide +kernel)).cluster square_units (N := 1) (by norm_num) (by norm_num)
    (by norm_num) (by norm_num) (by rw [e]; exact square_shell) (by simp) square_cell
  rwa [e] at h

/-- **C106**: the hexagonal crystal is connected by its nearest neighbors. -/
theorem C106_hex_cluster : ClusterIs UnitCell.hex 1 (Real.sqrt 3) := by
  have e : Real.sqrt ((12 : ℤ) / (4 : ℤ)) = Real.sqrt 3 := by norm_num
  have h := (lat2_connected (P := ⟨2, 2, 1⟩) (F := [⟨0, 0, 0⟩, ⟨1, 1, 0⟩]) (q := ⟨1, 3, 3⟩) (M := 12)
    (cands := twoSteps [⟨2, 0, 0⟩, ⟨-2, 0, 0⟩, ⟨1, 1, 0⟩, ⟨1, -1, 0⟩, ⟨-1, 1, 0⟩, ⟨-1, -1, 0⟩])
    (by decide +kernel) (by decide +kernel)).cluster hex_units (N := 4) (by norm_num) (by norm_num)
    (by rw [div_pow, Real.sq_sqrt (by norm_num)]; norm_num)
    (by rw [div_pow, Real.sq_sqrt (by norm_num)]; norm_num) (by rw [e]; exact hex_shell) (by simp) hex_cell
  rwa [e] at h


/-! ### Two dimensions -/

/-- A direction in the plane as a complex number. -/
noncomputable def flat (d : Vec3 ℝ) : ℂ := ⟨d.x, d.y⟩

theorem direction_flat {v : Vec3 ℝ} (h : (unit v).z = 0) : direction v = flat (unit v) := by
  unfold unit at h ⊢
  by_cases h0 : v = ⟨0, 0, 0⟩
  · rw [if_pos h0] at h
    norm_num at h
  · rw [if_neg h0] at h ⊢
    have hpos : 0 < Real.sqrt (Vec3.dot v v) := by
      refine Real.sqrt_pos.mpr (lt_of_le_of_ne ?_ fun e => h0 ?_)
      · simp only [Vec3.dot]
        have hx := mul_self_nonneg v.x
        have hy := mul_self_nonneg v.y
        have hz := mul_self_nonneg v.z
        linarith
      · simp only [Vec3.dot] at e
        have hx := mul_self_nonneg v.x
        have hy := mul_self_nonneg v.y
        have hz := mul_self_nonneg v.z
        ext
        · exact mul_self_eq_zero.mp (by linarith)
        · exact mul_self_eq_zero.mp (by linarith)
        · exact mul_self_eq_zero.mp (by linarith)
    have hz : v.z = 0 := by
      simp only [Vec3.smul_z] at h
      rcases mul_eq_zero.mp h with h | h
      · rw [one_div, inv_eq_zero] at h; exact absurd h hpos.ne'
      · exact h
    have e : Vec3.dot v v = v.x ^ 2 + v.y ^ 2 := by simp only [Vec3.dot, hz]; ring
    unfold direction flat
    rw [if_neg, e]
    · rw [e] at hpos
      apply Complex.ext
      · simp [Complex.div_ofReal_re]; ring
      · simp [Complex.div_ofReal_im]; ring
    · rintro ⟨h1, h2⟩
      exact h0 (by ext <;> assumption)

theorem CrystalCall.hexatic {k : ℕ} {box : Box ℝ} {points : List (Vec3 ℝ)} {nl : NList ℝ} {D : List (Vec3 ℝ)}
    {ev evAve : List (ℕ × ℕ)} {ro : List ℕ} (hc : CrystalCall k ⟨box, points, nl, ev, evAve, ro⟩ D)
    (h2 : box.is2D = true) (hD : D ≠ []) (hz : ∀ e ∈ D, e.z = 0) {value : ℂ}
    (hv : (D.map fun e => flat e ^ k).sum = D.length * value) {order : List ℕ}
    (hord : order.Perm (List.range points.length)) (weighted : Bool) :
    Hexatic.compute ⟨k, weighted⟩ box points nl order = some (List.replicate points.length (some value)) := by
  rw [C75_value _ _ h2 _ _ hc.legal.list _ hord, Option.some.injEq, List.eq_replicate_iff]
  refine ⟨by simp, fun v hv' => ?_⟩
  obtain ⟨i, hi, rfl⟩ := List.mem_map.mp hv'
  have hsame := hc.same i (List.mem_range.mp hi)
  dsimp only at hsame
  have hlen : (nl.bonds.filter fun nb => nb.q = i).length = D.length := by
    rcases hsame with h | ⟨-, h⟩
    · simpa using h.length_eq
    · simpa using h.length_eq
  have hD0 : (D.length : ℝ) ≠ 0 := by
    rw [Nat.cast_ne_zero, ne_eq, List.length_eq_zero_iff]
    exact hD
  obtain ⟨w, hw0, hb⟩ : ∃ w : ℝ, w ≠ 0 ∧ weightedBonds box points weighted nl.bonds i =
      (nl.bonds.filter fun nb => nb.q = i).map fun nb => (w, bondVector box points nb) := by
    obtain ⟨w, hw0, hwt⟩ := hc.weights
    refine ⟨if weighted then w else 1, by split_ifs <;> simp [hw0], ?_⟩
    unfold weightedBonds
    refine List.map_congr_left fun nb hnb => ?_
    obtain ⟨hmem, hq⟩ := List.mem_filter.mp hnb
    have hq := of_decide_eq_true hq
    rw [hwt nb hmem, ← hq]
    rfl
  unfold katic
  dsimp only
  rw [hb, List.map_map, List.map_map]
  have hsum : ((nl.bonds.filter fun nb => nb.q = i).map ((fun x : ℝ × Vec3 ℝ => x.1) ∘ fun nb =>
      (w, bondVector box points nb))).sum = D.length * w := by
    rw [← hlen]; simp [Function.comp_def]
  rw [hsum, if_neg (mul_ne_zero hD0 hw0)]
  congr 1
  have hzz : ∀ nb ∈ nl.bonds.filter fun nb => nb.q = i, (unit (bondVector box points nb)).z = 0 := by
    intro nb hnb
    rcases hsame with h | ⟨-, h⟩
    · exact hz _ (h.mem_iff.mp (List.mem_map.mpr ⟨nb, hnb, rfl⟩))
    · obtain ⟨e, he, e'⟩ := List.mem_map.mp (h.mem_iff.mp (List.mem_map.mpr ⟨nb, hnb, rfl⟩))
      rw [← e']
      simp [hz e he]
  have e1 : (((nl.bonds.filter fun nb => nb.q = i).map ((fun b : ℝ × Vec3 ℝ => (b.1 : ℂ) * direction b.2 ^ k) ∘ fun nb =>
      (w, bondVector box points nb))).sum) =
      w * (((nl.bonds.filter fun nb => nb.q = i).map fun nb => unit (bondVector box points nb)).map
        fun e => flat e ^ k).sum := by
    rw [List.map_map, ← List.sum_map_mul_left]
    congr 1
    refine List.map_congr_left fun nb hnb => ?_
    simp only [Function.comp_apply]
    rw [direction_flat (hzz nb hnb)]
  rw [e1]
  have e2 : (((nl.bonds.filter fun nb => nb.q = i).map fun nb => unit (bondVector box points nb)).map
        fun e => flat e ^ k).sum = (D.map fun e => flat e ^ k).sum := by
    rcases hsame with h | ⟨hev, h⟩
    · exact (h.map _).sum_eq
    · rw [(h.map _).sum_eq, List.map_map]
      congr 1
      refine List.map_congr_left fun e _ => ?_
      have : flat (-e) = -flat e := by
        apply Complex.ext <;> simp [flat]
      rw [Function.comp_apply, this, hev.neg_pow]
  rw [e2, hv]
  have : (D.length : ℂ) ≠ 0 := by exact_mod_cast hD0
  have : (w : ℂ) ≠ 0 := by exact_mod_cast hw0
  push_cast
  field_simp

theorem Star.hexatic {u : UnitCell ℝ} {d d₂ : ℝ} {D : List (Vec3 ℝ)} {both : Bool} (h : Star u d d₂ D both)
    (h2 : u.box.is2D = true) (hD : D ≠ []) (hz : ∀ e ∈ D, e.z = 0) {k : ℕ} (hk : both = true → Even k)
    {cell : Option (UnitCell ℝ)} (hu : cell = some u) {value : ℂ}
    (hv : (D.map fun e => flat e ^ k).sum = D.length * value) : HexaticIs cell d d₂ k value := by
  refine ⟨u, hu, fun box points nl hn order hord weighted => ?_⟩
  have hc := h.call hk (c := ⟨box, points, nl, (List.range points.length).map fun i => (0, i),
    (List.range points.length).map fun i => (0, i), List.range (2 * k + 1)⟩) hn
    (by simp [IsExecution, List.map_map, Function.comp_def]) (by simp [IsExecution, List.map_map, Function.comp_def])
    (List.Perm.refl _)
  obtain ⟨⟨n, s, hg, r, -, -, hhalf, hsrc⟩, -⟩ := hn
  obtain ⟨t, g⟩ := generated h.cell h.distinct hg
  exact hc.hexatic (g.dim.trans h2) hD hz hv hord weighted

theorem roots_sum {ω : ℂ} {n : ℕ} (hω : IsPrimitiveRoot ω n) (k : ℕ) :
    ((List.range n).map fun j => (ω ^ j) ^ k).sum = if n ∣ k then (n : ℂ) else 0 := by
  have e : ((List.range n).map fun j => (ω ^ j) ^ k) = (List.range n).map fun j => (ω ^ k) ^ j :=
    List.map_congr_left fun j _ => by rw [← pow_mul, ← pow_mul, mul_comm]
  rw [e, show ((List.range n).map fun j => (ω ^ k) ^ j).sum = ∑ j ∈ Finset.range n, (ω ^ k) ^ j from rfl]
  by_cases h : n ∣ k
  · rw [if_pos h, (hω.pow_eq_one_iff_dvd k).mpr h]
    simp
  · rw [if_neg h]
    have h1 : ω ^ k - 1 ≠ 0 := fun h0 => h ((hω.pow_eq_one_iff_dvd k).mp (sub_eq_zero.mp h0))
    have h2 := geom_sum_mul (ω ^ k) n
    rw [← pow_mul, mul_comm k n, pow_mul, hω.pow_eq_one, one_pow, sub_self] at h2
    exact (mul_eq_zero.mp h2).resolve_right h1

/-- The directions to the nearest neighbors in the hexagonal crystal, in integer coordinates. -/
def hexNear : List (Vec3 ℤ) := [⟨2, 0, 0⟩, ⟨1, 1, 0⟩, ⟨-1, 1, 0⟩, ⟨-2, 0, 0⟩, ⟨-1, -1, 0⟩, ⟨1, -1, 0⟩]

/-- The directions to the nearest neighbors in the square crystal. -/
def squareNear : List (Vec3 ℤ) := [⟨1, 0, 0⟩, ⟨0, 1, 0⟩, ⟨-1, 0, 0⟩, ⟨0, -1, 0⟩]

theorem hex_star : Star ⟨Box.mk' 1 (Real.sqrt 3) 0 0 0 0 true, [⟨0, 0, 0⟩, ⟨1 / 2, 1 / 2, 0⟩]⟩ 1 (Real.sqrt 3)
    (hexNear.map fun x => unit (units ⟨1 / 2, Real.sqrt 3 / 2, Real.sqrt 3 / 2⟩ x)) false := by
  have h := star_int hex_units ⟨1, 3, 3⟩ 4 4 12 3 (by norm_num) (by norm_num) (by norm_num)
    (by rw [div_pow, Real.sq_sqrt (by norm_num)]; norm_num)
    (by rw [div_pow, Real.sq_sqrt (by norm_num)]; norm_num) (by norm_num)
    (by decide +kernel) hexNear false (by simp) (by decide +kernel) (by decide +kernel)
  have e1 : Real.sqrt ((4 : ℤ) / (4 : ℤ)) = 1 := by norm_num
  have e2 : Real.sqrt ((12 : ℤ) / (4 : ℤ)) = Real.sqrt 3 := by norm_num
  rwa [e1, e2] at h

theorem square_star : Star ⟨Box.mk' 1 1 0 0 0 0 true, [⟨0, 0, 0⟩]⟩ 1 (Real.sqrt 2)
    (squareNear.map fun x => unit (units ⟨1, 1, 1⟩ x)) false := by
  have h := star_int square_units ⟨1, 1, 1⟩ 1 1 2 1 (by norm_num) (by norm_num) (by norm_num) (by norm_num)
    (by norm_num) (by norm_num) (by decide +kernel) squareNear false (by simp) (by decide +kernel) (by decide +kernel)
  have e1 : Real.sqrt ((1 : ℤ) / (1 : ℤ)) = 1 := by norm_num
  have e2 : Real.sqrt ((2 : ℤ) / (1 : ℤ)) = Real.sqrt 2 := by norm_num
  rwa [e1, e2] at h

theorem unit_of_norm {v : Vec3 ℝ} (h : Vec3.dot v v = 1) : unit v = v := by
  unfold unit
  rw [h, if_neg]
  · ext <;> simp
  · rintro rfl
    simp [Vec3.dot] at h

theorem square_atic (k : ℕ) : (∀ e ∈ squareNear.map (fun x => unit (units ⟨1, 1, 1⟩ x)), e.z = 0) ∧
    ((squareNear.map fun x => unit (units ⟨1, 1, 1⟩ x)).map fun e => flat e ^ k).sum =
      ((squareNear.map fun x => unit (units ⟨1, 1, 1⟩ x)).length : ℂ) * (if 4 ∣ k then 1 else 0) := by
  constructor
  · intro e he
    obtain ⟨x, hx, rfl⟩ := List.mem_map.mp he
    simp only [squareNear, List.mem_cons, List.not_mem_nil, or_false] at hx
    rcases hx with rfl | rfl | rfl | rfl <;> rw [unit_of_norm] <;> simp [units, Vec3.dot]
  · have hω : IsPrimitiveRoot Complex.I 4 := Complex.isPrimitiveRoot_I
    have h := roots_sum hω k
    have e : (squareNear.map fun x => unit (units ⟨1, 1, 1⟩ x)).map (fun e => flat e ^ k) =
        (List.range 4).map fun j => (Complex.I ^ j) ^ k := by
      rw [List.map_map, show List.range 4 = [0, 1, 2, 3] from rfl]
      simp only [squareNear, List.map_cons, List.map_nil, Function.comp_apply]
      congr 1
      · rw [unit_of_norm (by simp [units, Vec3.dot])]
        congr 1
        apply Complex.ext <;> simp [flat, units]
      congr 1
      · rw [unit_of_norm (by simp [units, Vec3.dot])]
        congr 1
        apply Complex.ext <;> simp [flat, units]
      congr 1
      · rw [unit_of_norm (by simp [units, Vec3.dot])]
        congr 1
        apply Complex.ext <;> simp [flat, units]
      congr 1
      · rw [unit_of_norm (by simp [units, Vec3.dot])]
        congr 1
        rw [show Complex.I ^ 3 = -Complex.I by rw [pow_succ, Complex.I_sq]; ring]
        apply Complex.ext <;> simp [flat, units]
    rw [e, h]
    simp [squareNear]

/-- **C106**: in the square crystal the k-atic order is 1 if 4 divides `k` and 0 if not. -/
theorem C106_square_order (k : ℕ) : HexaticIs UnitCell.square 1 (Real.sqrt 2) k (if 4 ∣ k then 1 else 0) :=
  square_star.hexatic (by simp [Box.mk', Box.setL]) (by simp [squareNear]) (square_atic k).1 (by simp) square_cell
    (square_atic k).2

/-- The sixth root of unity. -/
noncomputable def sixth : ℂ := ⟨1 / 2, Real.sqrt 3 / 2⟩

theorem sixth_sq : sixth ^ 2 = sixth - 1 := by
  have h3 : Real.sqrt 3 * Real.sqrt 3 = 3 := Real.mul_self_sqrt (by norm_num)
  apply Complex.ext
  · simp [sixth, pow_two]; linarith
  · simp [sixth, pow_two]; ring

theorem sixth_primitive : IsPrimitiveRoot sixth 6 := by
  have h := Complex.isPrimitiveRoot_exp 6 (by norm_num)
  convert h using 1
  rw [show 2 * (Real.pi : ℂ) * Complex.I / ((6 : ℕ) : ℂ) = ((Real.pi / 3 : ℝ) : ℂ) * Complex.I by push_cast; ring,
    Complex.exp_mul_I]
  apply Complex.ext
  · rw [← Complex.ofReal_cos, ← Complex.ofReal_sin, Real.cos_pi_div_three, Real.sin_pi_div_three]
    simp [sixth]
  · rw [← Complex.ofReal_cos, ← Complex.ofReal_sin, Real.cos_pi_div_three, Real.sin_pi_div_three]
    simp [sixth]

theorem hex_atic (k : ℕ) :
    (∀ e ∈ hexNear.map (fun x => unit (units ⟨1 / 2, Real.sqrt 3 / 2, Real.sqrt 3 / 2⟩ x)), e.z = 0) ∧
    ((hexNear.map fun x => unit (units ⟨1 / 2, Real.sqrt 3 / 2, Real.sqrt 3 / 2⟩ x)).map fun e => flat e ^ k).sum =
      ((hexNear.map fun x => unit (units ⟨1 / 2, Real.sqrt 3 / 2, Real.sqrt 3 / 2⟩ x)).length : ℂ) *
        (if 6 ∣ k then 1 else 0) := by
  have h3 : Real.sqrt 3 * Real.sqrt 3 = 3 := Real.mul_self_sqrt (by norm_num)
  have hn : ∀ x ∈ hexNear, unit (units ⟨1 / 2, Real.sqrt 3 / 2, Real.sqrt 3 / 2⟩ x) =
      units ⟨1 / 2, Real.sqrt 3 / 2, Real.sqrt 3 / 2⟩ x := by
    intro x hx
    refine unit_of_norm ?_
    simp only [hexNear, List.mem_cons, List.not_mem_nil, or_false] at hx
    rcases hx with rfl | rfl | rfl | rfl | rfl | rfl <;> simp [units, Vec3.dot] <;> linarith
  constructor
  · intro e he
    obtain ⟨x, hx, rfl⟩ := List.mem_map.mp he
    rw [hn x hx]
    simp only [hexNear, List.mem_cons, List.not_mem_nil, or_false] at hx
    rcases hx with rfl | rfl | rfl | rfl | rfl | rfl <;> simp [units]
  · have h := roots_sum sixth_primitive k
    have p2 := sixth_sq
    have p3 : sixth ^ 3 = -1 := by linear_combination (sixth + 1) * p2
    have p4 : sixth ^ 4 = -sixth := by linear_combination sixth * p3
    have p5 : sixth ^ 5 = 1 - sixth := by linear_combination sixth ^ 2 * p3 - p2
    have e : (hexNear.map fun x => unit (units ⟨1 / 2, Real.sqrt 3 / 2, Real.sqrt 3 / 2⟩ x)).map
        (fun e => flat e ^ k) = (List.range 6).map fun j => (sixth ^ j) ^ k := by
      rw [List.map_congr_left hn, List.map_map, show List.range 6 = [0, 1, 2, 3, 4, 5] from rfl]
      simp only [hexNear, List.map_cons, List.map_nil, Function.comp_apply, p2, p3, p4, p5, pow_zero, pow_one]
      congr 1
      · congr 1
        apply Complex.ext <;> simp [flat, units]
      congr 1
      · congr 1
        apply Complex.ext <;> simp [flat, units, sixth]
      congr 1
      · congr 1
        apply Complex.ext <;> simp [flat, units, sixth]
        norm_num
      congr 1
      · congr 1
        apply Complex.ext <;> simp [flat, units]
      congr 1
      · congr 1
        apply Complex.ext <;> simp [flat, units, sixth]
      congr 1
      · congr 1
        apply Complex.ext <;> simp [flat, units, sixth]
        norm_num
    rw [e, h]
    simp [hexNear]

/-- **C106**: in the hexagonal crystal the k-atic order is 1 if 6 divides `k` and 0 if not. -/
theorem C106_hex_order (k : ℕ) : HexaticIs UnitCell.hex 1 (Real.sqrt 3) k (if 6 ∣ k then 1 else 0) :=
  hex_star.hexatic (by simp [Box.mk', Box.setL]) (by simp [hexNear]) (hex_atic k).1 (by simp) hex_cell
    (hex_atic k).2

/-! ### The hypotheses can be met -/

-- an fcc crystal of 27 cells, with its nearest neighbors and a schedule
example : ∃ u, UnitCell.fcc = some u ∧ ∃ c : Steinhardt.Call,
    NearestNeighbors u (Real.sqrt 2 / 2) 1 c.box c.points c.nlist ∧ c.points.length = 108 ∧
    IsExecution c.points.length c.ev ∧ IsExecution c.points.length c.evAve ∧
    c.reduceOrder.Perm (List.range (2 * 6 + 1)) ∧ FsphOK Steinhardt.fsph 6 (sphericalHarmonic 6) := by
  obtain ⟨box, points, src, h1, h2, h4, s, found, hm, hf, -⟩ := query_exists fcc_star.shell (by simp)
    (by simp [Box.mk', Box.setL]) (n := ⟨3, 3, 3⟩) (c := 1) (r := 3 / 4) (by norm_num) (by simp [Box.mk', Box.setL])
    (by norm_num) (by norm_num) (by norm_num [Box.mk', Box.setL]) (by norm_num [Box.mk', Box.setL])
    (fun _ => by norm_num [Box.mk', Box.setL])
  obtain ⟨nl, hnl⟩ := C20_result_exists found points.length points.length false
    ((List.range points.length).map fun i => (0, i))
  have hlen : points.length = 108 := by
    have : (points.length : ℤ) = 108 := by simpa using h2
    omega
  have hex : IsExecution points.length ((List.range points.length).map fun i => (0, i)) := by
    simp [IsExecution, List.map_map, Function.comp_def]
  refine ⟨_, fcc_cell, ⟨box, points, nl, (List.range points.length).map fun i => (0, i),
    (List.range points.length).map fun i => (0, i), List.range 13⟩, ⟨⟨⟨3, 3, 3⟩, 1, h1, 3 / 4, ?_, by norm_num, h4, s,
    found, hm, hf, Or.inr ⟨false, _, nl, hex, hnl, rfl⟩⟩, ?_⟩, hlen, hex, hex, List.Perm.refl _, C101_fsph 6⟩
  · have : Real.sqrt 2 < 3 / 2 := by
      rw [Real.sqrt_lt' (by norm_num)]; norm_num
    linarith
  · dsimp only; omega

-- the same for the hexagonal crystal
example : ∃ u, UnitCell.hex = some u ∧ ∃ box points nl, NearestNeighbors u 1 (Real.sqrt 3) box points nl ∧
    points.length = 30 := by
  have h3 : (1.7 : ℝ) < Real.sqrt 3 := Real.lt_sqrt_of_sq_lt (by norm_num)
  obtain ⟨box, points, src, h1, h2, h4, s, found, hm, hf, -⟩ := query_exists hex_shell (by simp)
    (by simp [Box.mk', Box.setL]) (n := ⟨5, 3, 1⟩) (c := 1) (r := 3 / 2) (by norm_num) (by simp) (by norm_num)
    (by norm_num) (by norm_num [Box.mk', Box.setL]) (by norm_num [Box.mk', Box.setL]; linarith)
    (by simp [Box.mk', Box.setL])
  obtain ⟨nl, hnl⟩ := C20_result_exists found points.length points.length false
    ((List.range points.length).map fun i => (0, i))
  have hlen : points.length = 30 := by
    have : (points.length : ℤ) = 30 := by simpa using h2
    omega
  refine ⟨_, hex_cell, box, points, nl, ⟨⟨⟨5, 3, 1⟩, 1, h1, 3 / 2, by norm_num, by linarith, h4, s, found, hm, hf, Or.inr
    ⟨false, _, nl, ?_, hnl, rfl⟩⟩, by omega⟩, hlen⟩
  simp [IsExecution, List.map_map, Function.comp_def]

-- the values are those of the literature: `q_6` of fcc is 0.5745
example : |Real.sqrt (169 / 512) - 0.5745| < 0.0001 := by
  rw [abs_lt]
  constructor
  · have : (0.5745 : ℝ) < Real.sqrt (169 / 512) := Real.lt_sqrt_of_sq_lt (by norm_num)
    linarith
  · have : Real.sqrt (169 / 512) < 0.57455 := by
      rw [Real.sqrt_lt' (by norm_num)]; norm_num
    linarith

end

end Freud
