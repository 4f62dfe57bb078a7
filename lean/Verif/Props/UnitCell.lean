import Verif.Props.PeriodicBuffer
import Verif.Model.UnitCell

/-!
# Property C59: systems generated from a unit cell
-/

namespace Freud
open Spec PeriodicBuffer
variable {K : Type*} [Field K] [LinearOrder K] [IsStrictOrderedRing K] [FloorRing K]
set_option linter.unusedSectionVars false

/-- A box as `UnitCell` holds it: centred, with positive lengths, periodic in all directions. -/
structure Spec.GoodCell (b : Box K) : Prop where
  valid : Valid b
  pos : Positive b
  periodic : b.px = true ∧ b.py = true ∧ b.pz = true

theorem mulBox_eq (b : Box K) (c : K) (hc : 0 < c) (hp : Positive b) :
    mulBox b c = some (Box.mk' (b.L.x * c) (b.L.y * c) (b.L.z * c) b.xy b.xz b.yz b.is2D) := by
  unfold mulBox
  rw [if_pos hc]
  have h1 := (mul_pos hp.1 hc).ne'
  have h2 := (mul_pos hp.2.1 hc).ne'
  unfold pyBox
  cases h : b.is2D with
  | true => rw [if_pos rfl, if_neg (by simp only [h1, h2]; simp)]
  | false =>
    have h3 := (mul_pos (hp.2.2 h) hc).ne'
    rw [if_neg (by simp), if_neg (by simp only [h1, h2, h3]; simp)]

theorem boxFromCPP_eq {b : Box K} (hb : GoodCell b)
    (hinv : b = Box.mk' b.L.x b.L.y b.L.z b.xy b.xz b.yz b.is2D) : boxFromCPP b = some b := by
  unfold boxFromCPP pyBox
  have h1 := hb.pos.1.ne'
  have h2 := hb.pos.2.1.ne'
  have hset : (Box.mk' b.L.x b.L.y b.L.z b.xy b.xz b.yz b.is2D).setPeriodic b.px b.py b.pz = b := by
    rw [← hinv]; rfl
  cases h : b.is2D with
  | true =>
    rw [if_pos rfl, if_neg (by simp only [h1, h2]; simp)]
    rw [h] at hset
    simp [hset]
  | false =>
    have h3 := (hb.pos.2.2 h).ne'
    rw [if_neg (by simp), if_neg (by simp only [h1, h2, h3]; simp)]
    rw [h] at hset
    simp [hset]

theorem mk'_fields (Lx Ly Lz xy xz yz : K) (d : Bool) :
    (Box.mk' Lx Ly Lz xy xz yz d).L = ⟨Lx, Ly, if d then 0 else Lz⟩ ∧
    (Box.mk' Lx Ly Lz xy xz yz d).xy = xy ∧ (Box.mk' Lx Ly Lz xy xz yz d).xz = xz ∧
    (Box.mk' Lx Ly Lz xy xz yz d).yz = yz ∧ (Box.mk' Lx Ly Lz xy xz yz d).is2D = d ∧
    (Box.mk' Lx Ly Lz xy xz yz d).px = true ∧ (Box.mk' Lx Ly Lz xy xz yz d).py = true ∧
    (Box.mk' Lx Ly Lz xy xz yz d).pz = true := by
  cases d <;> simp [Box.mk', Box.setL]

theorem mk'_self (Lx Ly Lz xy xz yz : K) (d : Bool) :
    Box.mk' Lx Ly Lz xy xz yz d =
      Box.mk' (Box.mk' Lx Ly Lz xy xz yz d).L.x (Box.mk' Lx Ly Lz xy xz yz d).L.y
        (Box.mk' Lx Ly Lz xy xz yz d).L.z (Box.mk' Lx Ly Lz xy xz yz d).xy
        (Box.mk' Lx Ly Lz xy xz yz d).xz (Box.mk' Lx Ly Lz xy xz yz d).yz
        (Box.mk' Lx Ly Lz xy xz yz d).is2D := by
  cases d <;> simp [Box.mk', Box.setL]

/-- `b'` is the box `bb` scaled by `c`. -/
structure Scaled (bb b' : Box K) (c : K) : Prop where
  valid : Valid b'
  L : b'.L = ⟨c * bb.L.x, c * bb.L.y, c * bb.L.z⟩
  tilts : b'.xy = bb.xy ∧ b'.xz = bb.xz ∧ b'.yz = bb.yz
  dim : b'.is2D = bb.is2D
  periodic : b'.px = true ∧ b'.py = true ∧ b'.pz = true

theorem mulBox_scaled {bb b' : Box K} {c : K} (hv : Valid bb) (hp : Positive bb)
    (h : mulBox bb c = some b') : 0 < c ∧ Scaled bb b' c := by
  have hc : 0 < c := by
    by_contra hcon
    rw [mulBox, if_neg hcon] at h
    cases h
  refine ⟨hc, ?_⟩
  rw [mulBox_eq bb c hc hp] at h
  cases h
  obtain ⟨e1, e2, e3, e4, e5, e6, e7, e8⟩ :=
    mk'_fields (bb.L.x * c) (bb.L.y * c) (bb.L.z * c) bb.xy bb.xz bb.yz bb.is2D
  refine ⟨mk'_valid _ _ _ _ _ _ _ (mul_pos hp.1 hc).ne' (mul_pos hp.2.1 hc).ne'
    (fun h => (mul_pos (hp.2.2 h) hc).ne'), ?_, ⟨e2, e3, e4⟩, e5, e6, e7, e8⟩
  rw [e1]
  cases h : bb.is2D with
  | true => simp [hv.Lz_2D h, mul_comm]
  | false => simp [mul_comm]

theorem comb_scaled {bb b' : Box K} {c : K} (h : Scaled bb b' c) (s t u : K) :
    comb b' s t u = Vec3.smul c (comb bb s t u) := by
  obtain ⟨t1, t2, t3⟩ := h.tilts
  ext <;> simp [comb, a1, a2, a3, h.L, t1, t2, t3] <;> ring

theorem smul_inj {c : K} (hc : 0 < c) {v w : Vec3 K} (h : Vec3.smul c v = Vec3.smul c w) : v = w := by
  have hx := congrArg Vec3.x h
  have hy := congrArg Vec3.y h
  have hz := congrArg Vec3.z h
  simp only [Vec3.smul_x, Vec3.smul_y, Vec3.smul_z, mul_right_inj' hc.ne'] at hx hy hz
  ext <;> assumption

theorem smul_add' (c : K) (v w : Vec3 K) : Vec3.smul c v + Vec3.smul c w = Vec3.smul c (v + w) := by
  ext <;> simp [mul_add]

theorem inHalfOpen_scaled {bb b' : Box K} {c : K} (hc : 0 < c) (h : Scaled bb b' c) (v : Vec3 K) :
    InHalfOpen b' (Vec3.smul c v) ↔ InHalfOpen bb v := by
  have : ∀ f, HasCoords b' (Vec3.smul c v) f ↔ HasCoords bb v f := fun f => by
    unfold HasCoords
    rw [comb_scaled h, h.dim]
    exact and_congr_left' ⟨fun e => smul_inj hc e, fun e => by rw [← e]⟩
  unfold InHalfOpen
  simp only [this]

/-- The points that `wrap` produces from points that cover all positions modulo the box vectors of
the new box. -/
theorem block_exact {b bb b' : Box K} {c : K} (hbb : Valid bb) (hc : 0 < c) (hs : Scaled bb b' c)
    (sub : Vec3 ℤ → Vec3 ℤ) (hsub : ∀ m, lattice bb m = lattice b (sub m))
    (hsub2 : ∀ m, (b.is2D = true → m.z = 0) → (b.is2D = true → (sub m).z = 0))
    (hdim : bb.is2D = b.is2D) (hb : Valid b) (p t : Vec3 K) (hp : Planar b p) (ht : Planar b t)
    (blk : List (Vec3 K)) (hmem : ∀ q ∈ blk, ∃ m, IsCopy b p q m)
    (hcov : ∀ m, (b.is2D = true → m.z = 0) → ∃ q ∈ blk, ∃ s, (b.is2D = true → s.z = 0) ∧
      q = p + lattice b m + lattice bb s) (w : Vec3 K) :
    (w ∈ blk.map fun q => b'.wrap (Vec3.smul c (q + t))) ↔
      InHalfOpen b' w ∧ ∃ m, (b.is2D = true → m.z = 0) ∧ w = Vec3.smul c (p + t + lattice b m) := by
  obtain ⟨px, py, pz⟩ := hs.periodic
  have hpl' : ∀ v, Planar b v → Planar b' (Vec3.smul c v) := fun v hv h => by
    rw [hs.dim, hdim] at h
    simp [hv h]
  have hlat : ∀ s, lattice b' s = Vec3.smul c (lattice b (sub s)) := fun s => by
    rw [lattice, comb_scaled hs, ← hsub]; rfl
  rw [List.mem_map]
  constructor
  · rintro ⟨q, hq, rfl⟩
    obtain ⟨m, hm, e⟩ := hmem q hq
    have hqp : Planar b (q + t) := by
      rw [e]; exact planar_add (planar_add hp (lattice_planar hb m)) ht
    refine ⟨wrap_inHalfOpen hs.valid px py pz _ (hpl' _ hqp), ?_⟩
    rw [wrap_eq_add_lattice hs.valid _ (hpl' _ hqp)]
    set s := wrapShift b' (Vec3.smul c (q + t)) with hsdef
    have hsz : b.is2D = true → s.z = 0 := fun h => by
      have := (wrapShift_allowed b' (Vec3.smul c (q + t))).2.2
      exact this (Or.inr (by rw [hs.dim, hdim]; exact h))
    refine ⟨m + sub s, fun h => ?_, ?_⟩
    · simp [hm h, hsub2 s hsz h]
    · rw [hlat, smul_add', e, ← lattice_add]
      congr 1
      ext <;> simp <;> ring
  · rintro ⟨hin, m, hm, e⟩
    obtain ⟨q, hq, s, hsz, eq⟩ := hcov m hm
    refine ⟨q, hq, ?_⟩
    have hv : Planar b' w := by
      rw [e]; exact hpl' _ (planar_add (planar_add hp ht) (lattice_planar hb m))
    have : Vec3.smul c (q + t) = w + lattice b' s := by
      rw [e, hlat, smul_add', eq, ← hsub]
      congr 1
      ext <;> simp <;> ring
    rw [this, wrap_add_lattice hs.valid _ hv s
      (allowed_of_periodic px py pz (by rw [hs.dim, hdim]; exact hsz)),
      wrap_of_inHalfOpen hs.valid hin]

theorem block_nodup {b bb b' : Box K} {c : K} (hbb : Valid bb) (hc : 0 < c) (hs : Scaled bb b' c)
    (hper : bb.px = true ∧ bb.py = true ∧ bb.pz = true) (t : Vec3 K) (ht : Planar bb t)
    (blk : List (Vec3 K)) (hin : ∀ q ∈ blk, InHalfOpen bb q) (hn : blk.Nodup) :
    (blk.map fun q => b'.wrap (Vec3.smul c (q + t))).Nodup := by
  obtain ⟨px, py, pz⟩ := hper
  have hlat : ∀ s, lattice b' s = Vec3.smul c (lattice bb s) := fun s => by
    rw [lattice, comb_scaled hs]; rfl
  refine hn.map_on fun q hq q' hq' e => ?_
  have h1 := hin q hq
  have h2 := hin q' hq'
  have p1 := ((inHalfOpen_iff hbb q).mp h1).1
  have p2 := ((inHalfOpen_iff hbb q').mp h2).1
  have hpl' : ∀ v, Planar bb v → Planar b' (Vec3.smul c v) := fun v hv h => by
    rw [hs.dim] at h
    simp [hv h]
  rw [wrap_eq_add_lattice hs.valid _ (hpl' _ (planar_add p1 ht)),
    wrap_eq_add_lattice hs.valid _ (hpl' _ (planar_add p2 ht)), hlat, hlat, smul_add', smul_add'] at e
  have a1 := wrapShift_allowed b' (Vec3.smul c (q + t))
  have a2 := wrapShift_allowed b' (Vec3.smul c (q' + t))
  set s := wrapShift b' (Vec3.smul c (q + t))
  set s' := wrapShift b' (Vec3.smul c (q' + t))
  have e' := smul_inj hc e
  have e'' : q + lattice bb s = q' + lattice bb s' := by
    have hx := congrArg Vec3.x e'
    have hy := congrArg Vec3.y e'
    have hz := congrArg Vec3.z e'
    simp only [Vec3.add_x, Vec3.add_y, Vec3.add_z] at hx hy hz
    ext <;> simp only [Vec3.add_x, Vec3.add_y, Vec3.add_z] <;> linarith
  have key := congrArg bb.wrap e''
  rw [wrap_add_lattice hbb q p1 s (allowed_of_periodic px py pz fun h => a1.2.2 (Or.inr (by rw [hs.dim]; exact h))),
    wrap_add_lattice hbb q' p2 s' (allowed_of_periodic px py pz fun h => a2.2.2 (Or.inr (by rw [hs.dim]; exact h))),
    wrap_of_inHalfOpen hbb h1, wrap_of_inHalfOpen hbb h2] at key
  exact key

theorem makeAbsolute_planar {b : Box K} (f : Vec3 K) : Planar b (b.makeAbsolute f) := fun h => by
  simp [Box.makeAbsolute, h]

theorem shift_planar (u : UnitCell K) (n : Vec3 ℤ) : Planar u.box (u.shift n) := fun h => by
  simp [UnitCell.shift, Vec3.cmul, Box.makeAbsolute, h]

theorem compute_single {b : Box K} {buff : Vec3 K} (hn : NonNeg buff) (p : Vec3 K) :
    compute b [p] buff true true = some ⟨bufferBox b buff true,
      (copies b (bufferBox b buff true) (images b buff true) true true p).map fun w => (w, 0)⟩ := by
  unfold compute
  rw [if_neg (not_lt.mpr hn.1), if_neg (not_lt.mpr hn.2.1), if_neg (not_lt.mpr hn.2.2)]
  simp

theorem mem_copies {b : Box K} (hb : Valid b) (hp : Positive b) {buff : Vec3 K} (hn : NonNeg buff)
    {p : Vec3 K} (hpl : Planar b p) (w : Vec3 K) :
    w ∈ copies b (bufferBox b buff true) (images b buff true) true true p ↔
      (∃ n, IsCopy b p w n) ∧ InHalfOpen (bufferBox b buff true) w := by
  have h := C29_images_exact b [p] buff true _ hb hp (by simpa using hpl) (compute_single hn p) w 0
  constructor
  · intro hw
    obtain ⟨p', m, hp', h1, h2, -⟩ := h.mp (List.mem_map.mpr ⟨w, hw, rfl⟩)
    cases hp'
    exact ⟨⟨m, h1⟩, h2⟩
  · rintro ⟨⟨m, h1⟩, h2⟩
    obtain ⟨w', hw', e⟩ := List.mem_map.mp (h.mpr ⟨p, m, rfl, h1, h2, Or.inl rfl⟩)
    cases e
    exact hw'

theorem nodup_copies {b : Box K} (hb : Valid b) (hp : Positive b) {buff : Vec3 K} (hn : NonNeg buff)
    {p : Vec3 K} (hpl : Planar b p) :
    (copies b (bufferBox b buff true) (images b buff true) true true p).Nodup := by
  have h := C29_images_nodup b [p] buff true _ hb hp (by simpa using hpl) (compute_single hn p)
  exact h.of_map _

/-- What is true of a block of positions made from one basis position `f`, all positions being
translated by `t`. -/
structure Spec.IsBlock (b b' : Box K) (scale : K) (n : Vec3 ℤ) (t f : Vec3 K) (blk : List (Vec3 K)) :
    Prop where
  /-- as many positions as replicas -/
  length : (blk.length : ℤ) = n.x * n.y * n.z
  /-- no position twice -/
  nodup : blk.Nodup
  /-- exactly the scaled copies of the basis position in the new box -/
  exact : ∀ w, w ∈ blk ↔ InHalfOpen b' w ∧ ∃ m : Vec3 ℤ, (b.is2D = true → m.z = 0) ∧
    w = Vec3.smul scale (comb b (f.x - 1 / 2) (f.y - 1 / 2) (f.z - 1 / 2) + t + lattice b m)

theorem length_images {b : Box K} (n : Vec3 ℤ) (hpos : 0 < n.x ∧ 0 < n.y ∧ 0 < n.z)
    (h2 : b.is2D = true → n.z = 1) :
    ((numCopies b.is2D (⟨((n.x - 1 : ℤ) : K), ((n.y - 1 : ℤ) : K), ((n.z - 1 : ℤ) : K)⟩ : Vec3 K) true : ℕ) : ℤ) =
      n.x * n.y * n.z := by
  obtain ⟨h1, h3, h4⟩ := hpos
  unfold numCopies
  simp only [Int.ceil_intCast, if_true, Nat.sub_zero]
  rw [show 1 + (n.x - 1) = n.x by ring, show 1 + (n.y - 1) = n.y by ring,
    show 1 + (n.z - 1) = n.z by ring]
  push_cast
  rw [Int.toNat_of_nonneg h1.le, Int.toNat_of_nonneg h3.le]
  cases h : b.is2D with
  | true => simp [h2 h]
  | false => simp [Int.toNat_of_nonneg h4.le, h4.le]

/-- The two paths of `replicate`, with the box before scaling and the unscaled blocks. -/
theorem replicate_some {u : UnitCell K} (hu : GoodCell u.box) {n : Vec3 ℤ}
    (hpos : 0 < n.x ∧ 0 < n.y ∧ 0 < n.z) (h2 : u.box.is2D = true → n.z = 1) {scale : K}
    {r : Box K × List (Vec3 K)} (h : u.replicate n scale = some r) :
    0 < scale ∧ ∃ (bb : Box K) (g : Vec3 K → List (Vec3 K)) (sub : Vec3 ℤ → Vec3 ℤ),
      Valid bb ∧ Scaled bb r.1 scale ∧ bb.L = ⟨n.x * u.box.L.x, n.y * u.box.L.y, n.z * u.box.L.z⟩ ∧
      (bb.xy = u.box.xy ∧ bb.xz = u.box.xz ∧ bb.yz = u.box.yz) ∧ bb.is2D = u.box.is2D ∧
      (bb.px = true ∧ bb.py = true ∧ bb.pz = true) ∧
      r.2 = (u.basis.map u.box.makeAbsolute).flatMap g ∧
      (∀ m, lattice bb m = lattice u.box (sub m)) ∧
      (∀ m, (u.box.is2D = true → m.z = 0) → (u.box.is2D = true → (sub m).z = 0)) ∧
      ∀ p, Planar u.box p → ((g p).length : ℤ) = n.x * n.y * n.z ∧
        (∀ q ∈ g p, ∃ m, IsCopy u.box p q m) ∧
        (∀ m, (u.box.is2D = true → m.z = 0) → ∃ q ∈ g p, ∃ s : Vec3 ℤ, (u.box.is2D = true → s.z = 0) ∧
          q = p + lattice u.box m + lattice bb s) ∧
        ((∀ q ∈ g p, InHalfOpen bb q) ∧ (g p).Nodup ∨ ∃ q, g p = [q]) := by
  unfold UnitCell.replicate at h
  by_cases hn : n.x > 1 ∨ n.y > 1 ∨ n.z > 1
  · simp only [if_pos hn] at h
    split at h
    · cases h
    obtain ⟨B, hB, h⟩ := Option.bind_eq_some_iff.mp h
    obtain ⟨bb, hbb, h⟩ := Option.bind_eq_some_iff.mp h
    obtain ⟨b', hb', rfl⟩ := Option.map_eq_some_iff.mp h
    obtain ⟨hnn, hBb, hBp⟩ := compute_some hB
    set buff : Vec3 K := ⟨((n.x - 1 : ℤ) : K), ((n.y - 1 : ℤ) : K), ((n.z - 1 : ℤ) : K)⟩ with hbuff
    have hbv := bufferBox_valid hu.pos hnn true
    have hbp := bufferBox_positive hu.pos hnn true
    have hper := bufferBox_periodic u.box buff true
    have hself : bufferBox u.box buff true = Box.mk' (bufferBox u.box buff true).L.x
        (bufferBox u.box buff true).L.y (bufferBox u.box buff true).L.z (bufferBox u.box buff true).xy
        (bufferBox u.box buff true).xz (bufferBox u.box buff true).yz (bufferBox u.box buff true).is2D := by
      simp only [bufferBox, if_true]
      exact mk'_self _ _ _ _ _ _ _
    rw [hBb, boxFromCPP_eq ⟨hbv, hbp, hper⟩ hself] at hbb
    cases hbb
    obtain ⟨hc, hsc⟩ := mulBox_scaled hbv hbp hb'
    refine ⟨hc, bufferBox u.box buff true,
      copies u.box (bufferBox u.box buff true) (images u.box buff true) true true, scaled buff,
      hbv, hsc, ?_, bufferBox_tilts _ _ _, bufferBox_2D _ _ _, hper, ?_, lattice_buffer hu.valid buff,
      fun m hm h => by simp [scaled, hm h], ?_⟩
    · rw [bufferBox_L_images, hbuff]
      simp only [Int.ceil_intCast]
      rw [show 1 + (n.x - 1) = n.x by ring, show 1 + (n.y - 1) = n.y by ring,
        show 1 + (n.z - 1) = n.z by ring]
      cases h : u.box.is2D with
      | true => simp [hu.valid.Lz_2D h]
      | false => simp
    · simp only [hBp, List.map_flatMap, List.map_map, Function.comp_def, List.map_id']
      rw [← List.flatMap_map (f := Prod.fst), List.zipIdx_map_fst]
    · intro p hp
      refine ⟨?_, fun q hq => ((mem_copies hu.valid hu.pos hnn hp q).mp hq).1, ?_, Or.inl ⟨fun q hq =>
        ((mem_copies hu.valid hu.pos hnn hp q).mp hq).2, nodup_copies hu.valid hu.pos hnn hp⟩⟩
      · rw [length_copies hu.valid hnn]
        exact length_images n hpos h2
      · intro m hm
        obtain ⟨hin, s, hs, e⟩ := wrap_copy hu.valid hu.pos hnn hp m
        refine ⟨_, (mem_copies hu.valid hu.pos hnn hp _).mpr ⟨⟨_, fun h => ?_, e⟩, hin⟩, s, hs, ?_⟩
        · simp [hm h, scaled, hs h]
        · rw [e, lattice_buffer hu.valid, vec_add_assoc, lattice_add]
  · simp only [if_neg hn] at h
    obtain ⟨b', hb', rfl⟩ := Option.map_eq_some_iff.mp h
    obtain ⟨hc, hsc⟩ := mulBox_scaled hu.valid hu.pos hb'
    have n1 : n.x = 1 := by omega
    have n2 : n.y = 1 := by omega
    have n3 : n.z = 1 := by omega
    refine ⟨hc, u.box, fun p => [p], id, hu.valid, hsc, ?_, ⟨rfl, rfl, rfl⟩, rfl, hu.periodic, ?_,
      fun _ => rfl, fun m hm h => hm h, fun p hp => ⟨?_, ?_, ?_, Or.inr ⟨p, rfl⟩⟩⟩
    · rw [n1, n2, n3]; simp
    · simp
    · rw [n1, n2, n3]; simp
    · intro q hq
      rw [List.mem_singleton] at hq
      exact ⟨⟨0, 0, 0⟩, fun _ => rfl, by rw [hq]; ext <;> simp [lattice, comb]⟩
    · intro m hm
      refine ⟨p, by simp, ⟨-m.x, -m.y, -m.z⟩, fun h => by simp [hm h], ?_⟩
      rw [vec_add_assoc, lattice_add]
      ext <;> simp [lattice, comb]

theorem generate_blocks {u : UnitCell K} {n : Vec3 ℤ} {scale : K} (hu : GoodCell u.box) {b' : Box K}
    {pos : List (Vec3 K)} (h : u.generateSystem n scale none = some (b', pos)) :
    GoodCell b' ∧ b'.is2D = u.box.is2D ∧
      (b'.xy = u.box.xy ∧ b'.xz = u.box.xz ∧ b'.yz = u.box.yz) ∧
      b'.L = ⟨scale * (n.x * u.box.L.x), scale * (n.y * u.box.L.y), scale * (n.z * u.box.L.z)⟩ ∧
      ∃ blocks : List (List (Vec3 K)), pos = blocks.flatten ∧
        List.Forall₂ (IsBlock u.box b' scale n (u.shift n)) u.basis blocks := by
  unfold UnitCell.generateSystem at h
  split at h
  · cases h
  split at h
  · cases h
  rename_i h1 h2
  rw [not_not] at h1
  have h2' : u.box.is2D = true → n.z = 1 := fun h => by
    by_contra hcon
    exact h2 ⟨h, hcon⟩
  obtain ⟨r, hr, e⟩ := Option.map_eq_some_iff.mp h
  obtain ⟨hc, bb, g, sub, hbb, hsc, hL, ht, hd, hper, hpos, hsub, hsub2, hg⟩ :=
    replicate_some hu h1 h2' hr
  simp only [Prod.mk.injEq] at e
  obtain ⟨e1, e2⟩ := e
  rw [e1] at hsc e2
  have htl : b'.xy = u.box.xy ∧ b'.xz = u.box.xz ∧ b'.yz = u.box.yz := by
    obtain ⟨t1, t2, t3⟩ := hsc.tilts
    exact ⟨t1.trans ht.1, t2.trans ht.2.1, t3.trans ht.2.2⟩
  have hLL : b'.L = ⟨scale * (n.x * u.box.L.x), scale * (n.y * u.box.L.y), scale * (n.z * u.box.L.z)⟩ := by
    rw [hsc.L, hL]
  have npos : (0 : K) < n.x ∧ (0 : K) < n.y ∧ (0 : K) < n.z := by exact_mod_cast h1
  have hP : Positive b' := by
    unfold Positive
    rw [hLL, hsc.dim, hd]
    exact ⟨mul_pos hc (mul_pos npos.1 hu.pos.1), mul_pos hc (mul_pos npos.2.1 hu.pos.2.1),
      fun h => mul_pos hc (mul_pos npos.2.2 (hu.pos.2.2 h))⟩
  refine ⟨⟨hsc.valid, hP, hsc.periodic⟩, hsc.dim.trans hd, htl, hLL,
    u.basis.map fun f => (g (u.box.makeAbsolute f)).map fun q =>
      b'.wrap (Vec3.smul scale (q + u.shift n)), ?_, ?_⟩
  · rw [← e2, hpos]
    rw [← List.flatMap_def]
    simp only [List.map_flatMap, List.flatMap_map, List.map_map]
    congr 1
    funext f
    refine List.map_congr_left fun q hq => ?_
    have hap := makeAbsolute_planar (b := u.box) f
    obtain ⟨m, hm, e⟩ := (hg _ hap).2.1 q hq
    apply wrap_of_inHalfOpen hsc.valid
    apply wrap_inHalfOpen hsc.valid hsc.periodic.1 hsc.periodic.2.1 hsc.periodic.2.2
    intro h
    rw [hsc.dim, hd] at h
    have : Planar u.box (q + u.shift n) := by
      rw [e]; exact planar_add (planar_add hap (lattice_planar hu.valid m)) (shift_planar u n)
    simp [this h]
  · rw [List.forall₂_map_right_iff]
    refine List.forall₂_same.mpr fun f _ => ?_
    have hap := makeAbsolute_planar (b := u.box) f
    obtain ⟨g1, g2, g3, g4⟩ := hg _ hap
    refine ⟨by rw [List.length_map]; exact g1, ?_, fun w => ?_⟩
    · rcases g4 with g4 | ⟨q, hq⟩
      · exact block_nodup (b := u.box) hbb hc hsc hper _ (by unfold Planar; rw [hd]; exact shift_planar u n)
          _ g4.1 g4.2
      · rw [hq]; simp
    · rw [block_exact hbb hc hsc sub hsub hsub2 hd hu.valid _ _ hap (shift_planar u n) _ g2 g3,
        makeAbsolute_eq_comb hu.valid]

/-- The system consists of one block of positions for each basis position, in order; all blocks
are translated by the same vector `t`, which depends only on the cell and the numbers of replicas. The
new box has the same tilts, and lengths multiplied by scale and number of replicas. -/
theorem C59_exact (b : Box K) (n : Vec3 ℤ) (hb : GoodCell b) :
    ∃ t : Vec3 K, ∀ (basis : List (Vec3 K)) (scale : K) (b' : Box K) (pos : List (Vec3 K)),
      (⟨b, basis⟩ : UnitCell K).generateSystem n scale none = some (b', pos) →
      GoodCell b' ∧ b'.is2D = b.is2D ∧ (b'.xy = b.xy ∧ b'.xz = b.xz ∧ b'.yz = b.yz) ∧
      b'.L = ⟨scale * (n.x * b.L.x), scale * (n.y * b.L.y), scale * (n.z * b.L.z)⟩ ∧
      ∃ blocks : List (List (Vec3 K)), pos = blocks.flatten ∧
        List.Forall₂ (IsBlock b b' scale n t) basis blocks :=
  ⟨(⟨b, []⟩ : UnitCell K).shift n, fun basis _ _ _ h => generate_blocks (u := ⟨b, basis⟩) hb h⟩

/-- The number of positions. -/
theorem C59_count (u : UnitCell K) (n : Vec3 ℤ) (scale : K) (hu : GoodCell u.box) (b' : Box K)
    (pos : List (Vec3 K)) (h : u.generateSystem n scale none = some (b', pos)) :
    (pos.length : ℤ) = u.basis.length * (n.x * n.y * n.z) := by
  obtain ⟨-, -, -, -, blocks, rfl, hf⟩ := generate_blocks hu h
  clear h
  generalize u.basis = l at hf
  induction hf with
  | nil => simp
  | cons h1 _ ih =>
    rw [List.flatten_cons, List.length_append, List.length_cons]
    push_cast
    rw [ih, h1.length]
    ring

/-- When `generate_system` raises: for a number of replicas that is not positive (in 2D, not 1 in the
third direction), for a scale that is not positive, and for an empty basis that is to be
replicated. -/
theorem C59_raises_iff (u : UnitCell K) (n : Vec3 ℤ) (scale : K) (noise : Option (List (Vec3 K)))
    (hu : GoodCell u.box) :
    u.generateSystem n scale noise = none ↔
      ¬ (0 < n.x ∧ 0 < n.y ∧ 0 < n.z) ∨ (u.box.is2D = true ∧ n.z ≠ 1) ∨ scale ≤ 0 ∨
        (u.basis = [] ∧ ¬ (n.x = 1 ∧ n.y = 1 ∧ n.z = 1)) := by
  unfold UnitCell.generateSystem
  by_cases h1 : 0 < n.x ∧ 0 < n.y ∧ 0 < n.z
  swap
  · rw [if_pos h1]; simp [h1]
  rw [if_neg (not_not.mpr h1)]
  by_cases h2 : u.box.is2D = true ∧ n.z ≠ 1
  · rw [if_pos h2]; simp only [true_iff]; exact Or.inr (Or.inl h2)
  rw [if_neg h2, Option.map_eq_none_iff]
  have e : (¬ (0 < n.x ∧ 0 < n.y ∧ 0 < n.z) ∨ (u.box.is2D = true ∧ n.z ≠ 1) ∨ scale ≤ 0 ∨
      (u.basis = [] ∧ ¬ (n.x = 1 ∧ n.y = 1 ∧ n.z = 1))) ↔
      (scale ≤ 0 ∨ (u.basis = [] ∧ ¬ (n.x = 1 ∧ n.y = 1 ∧ n.z = 1))) := by
    constructor
    · rintro (h | h | h)
      · exact absurd h1 h
      · exact absurd h h2
      · exact h
    · exact fun h => Or.inr (Or.inr h)
  rw [e]
  have hmul : ∀ b : Box K, Positive b → (mulBox b scale = none ↔ scale ≤ 0) := fun b hb => by
    by_cases hc : 0 < scale
    · rw [mulBox_eq b scale hc hb]
      simp [hc]
    · rw [mulBox, if_neg hc]
      simp [not_lt.mp hc]
  unfold UnitCell.replicate
  by_cases hn : n.x > 1 ∨ n.y > 1 ∨ n.z > 1
  · rw [if_pos hn]
    have hn' : ¬ (n.x = 1 ∧ n.y = 1 ∧ n.z = 1) := by omega
    by_cases hE : u.basis = []
    · simp [hE, hn']
    · have hnn : NonNeg (⟨((n.x - 1 : ℤ) : K), ((n.y - 1 : ℤ) : K), ((n.z - 1 : ℤ) : K)⟩ : Vec3 K) := by
        refine ⟨?_, ?_, ?_⟩ <;> · simp only [Int.cast_nonneg_iff]; omega
      rw [if_neg (by simpa using hE)]
      have hbv := bufferBox_valid hu.pos hnn true
      have hbp := bufferBox_positive hu.pos hnn true
      unfold compute
      rw [if_neg (not_lt.mpr hnn.1), if_neg (not_lt.mpr hnn.2.1), if_neg (not_lt.mpr hnn.2.2)]
      simp only [Option.bind_some]
      rw [boxFromCPP_eq ⟨hbv, hbp, bufferBox_periodic _ _ _⟩ (by
        simp only [bufferBox, if_true]; exact mk'_self _ _ _ _ _ _ _)]
      rw [Option.bind_some, Option.map_eq_none_iff, hmul _ hbp]
      simp [hE]
  · rw [if_neg hn, Option.map_eq_none_iff, hmul _ hu.pos]
    have : n.x = 1 ∧ n.y = 1 ∧ n.z = 1 := by omega
    simp [this]

/-- With noise, each position is the one without noise, displaced, and wrapped into the box. -/
theorem C59_noise (u : UnitCell K) (n : Vec3 ℤ) (scale : K) (d : List (Vec3 K)) (hu : GoodCell u.box)
    (b' : Box K) (pos pos' : List (Vec3 K)) (h : u.generateSystem n scale none = some (b', pos))
    (h' : u.generateSystem n scale (some d) = some (b', pos')) (hlen : d.length = pos.length)
    (hd : ∀ v ∈ d, Planar u.box v) :
    pos'.length = pos.length ∧ (∀ w ∈ pos', InHalfOpen b' w) ∧
    ∀ i p v, pos[i]? = some p → d[i]? = some v →
      ∃ m, IsCopy b' (p + v) (pos'.getD i 0) m := by
  obtain ⟨hg, hdim, -, -, blocks, hpos, hf⟩ := generate_blocks hu h
  have hin : ∀ w ∈ pos, InHalfOpen b' w := by
    intro w hw
    rw [hpos, List.mem_flatten] at hw
    obtain ⟨blk, hblk, hw⟩ := hw
    obtain ⟨i, hi, rfl⟩ := List.mem_iff_getElem.mp hblk
    have hi' : i < u.basis.length := by rw [hf.length_eq]; exact hi
    exact (((List.forall₂_iff_get.mp hf).2 i hi' hi).exact w).mp hw |>.1
  have hp : pos' = (List.zipWith (· + ·) pos d).map b'.wrap := by
    unfold UnitCell.generateSystem at h h'
    split at h
    · cases h
    rename_i h1
    rw [if_neg h1] at h'
    split at h
    · cases h
    rename_i h2
    rw [if_neg h2] at h'
    obtain ⟨r, hr, e⟩ := Option.map_eq_some_iff.mp h
    rw [hr] at h'
    simp only [Option.map_some, Option.some.injEq, Prod.mk.injEq] at e h'
    obtain ⟨e1, e2⟩ := e
    rw [e1] at e2 h'
    rw [← h'.2, ← e2]
    congr 2
    have : (List.map (fun p => b'.wrap (Vec3.smul scale (p + u.shift n))) r.2).map b'.wrap =
        List.map (fun p => b'.wrap (Vec3.smul scale (p + u.shift n))) r.2 := by
      obtain ⟨-, bb, g, sub, hbb, hsc, -, -, hdd, -, hr2, -, -, hgg⟩ :=
        replicate_some hu (not_not.mp h1) (fun h => by
          by_contra hcon
          exact h2 ⟨h, hcon⟩) hr
      rw [e1] at hsc
      rw [List.map_map]
      refine List.map_congr_left fun q hq => ?_
      rw [hr2, List.mem_flatMap] at hq
      obtain ⟨a, ha, hq⟩ := hq
      obtain ⟨f, -, rfl⟩ := List.mem_map.mp ha
      have hap := makeAbsolute_planar (b := u.box) f
      obtain ⟨m, hm, e⟩ := (hgg _ hap).2.1 q hq
      apply wrap_of_inHalfOpen hsc.valid
      apply wrap_inHalfOpen hsc.valid hsc.periodic.1 hsc.periodic.2.1 hsc.periodic.2.2
      intro h
      rw [hsc.dim, hdd] at h
      have : Planar u.box (q + u.shift n) := by
        rw [e]; exact planar_add (planar_add hap (lattice_planar hu.valid m)) (shift_planar u n)
      simp [this h]
    exact this.symm
  have hplan : ∀ p v, p ∈ pos → v ∈ d → Planar b' (p + v) := fun p v h1 h2 => by
    have e1 := ((inHalfOpen_iff hg.valid p).mp (hin p h1)).1
    refine planar_add e1 fun h => hd v h2 (by rw [← hdim]; exact h)
  refine ⟨by rw [hp]; simp [hlen], ?_, ?_⟩
  · intro w hw
    rw [hp, List.mem_map] at hw
    obtain ⟨x, hx, rfl⟩ := hw
    obtain ⟨i, hi, rfl⟩ := List.mem_iff_getElem.mp hx
    rw [List.getElem_zipWith]
    exact wrap_inHalfOpen hg.valid hg.periodic.1 hg.periodic.2.1 hg.periodic.2.2 _
      (hplan _ _ (List.getElem_mem _) (List.getElem_mem _))
  · intro i p v h1 h2
    have hpl := hplan p v (List.mem_of_getElem? h1) (List.mem_of_getElem? h2)
    refine ⟨wrapShift b' (p + v), fun h => (wrapShift_allowed b' (p + v)).2.2 (Or.inr h), ?_⟩
    rw [List.getD_eq_getElem?_getD, hp, List.getElem?_map, List.getElem?_zipWith_eq_some.mpr
      ⟨p, v, h1, h2, rfl⟩]
    exact wrap_eq_add_lattice hg.valid _ hpl

/-- The vector `t` is a sum of half box vectors: one for each direction in which the number of replicas
is even. This needs equal parities for directions that are tilted against each other. -/
theorem shift_eq {u : UnitCell K} (hu : Valid u.box) (n : Vec3 ℤ)
    (hxy : u.box.xy = 0 ∨ n.x % 2 = n.y % 2)
    (hz : u.box.is2D = false → (u.box.xz = 0 ∨ n.x % 2 = n.z % 2) ∧ (u.box.yz = 0 ∨ n.y % 2 = n.z % 2)) :
    u.shift n = comb u.box (((n.x + 1) % 2 : ℤ) / 2) (((n.y + 1) % 2 : ℤ) / 2) (((n.z + 1) % 2 : ℤ) / 2) := by
  unfold UnitCell.shift
  rw [makeAbsolute_eq_comb hu]
  have par : ∀ a b : ℤ, a % 2 = b % 2 → (a + 1) % 2 = (b + 1) % 2 := fun a b h => by omega
  have e1 : u.box.xy * (((n.x + 1) % 2 : ℤ) : K) = u.box.xy * (((n.y + 1) % 2 : ℤ) : K) := by
    rcases hxy with h | h
    · rw [h]; ring
    · rw [par _ _ h]
  cases h2 : u.box.is2D with
  | true =>
    simp only [comb, a1, a2, a3, hu.Lz_2D h2]
    ext
    · simp [Vec3.cmul]; linear_combination u.box.L.y / 2 * e1
    · simp [Vec3.cmul]; ring
    · simp [Vec3.cmul]
  | false =>
    obtain ⟨hxz, hyz⟩ := hz h2
    have e2 : u.box.xz * (((n.x + 1) % 2 : ℤ) : K) = u.box.xz * (((n.z + 1) % 2 : ℤ) : K) := by
      rcases hxz with h | h
      · rw [h]; ring
      · rw [par _ _ h]
    have e3 : u.box.yz * (((n.y + 1) % 2 : ℤ) : K) = u.box.yz * (((n.z + 1) % 2 : ℤ) : K) := by
      rcases hyz with h | h
      · rw [h]; ring
      · rw [par _ _ h]
    simp only [comb, a1, a2, a3]
    ext
    · simp [Vec3.cmul]; linear_combination u.box.L.y / 2 * e1 + u.box.L.z / 2 * e2
    · simp [Vec3.cmul]; linear_combination u.box.L.z / 2 * e3
    · simp [Vec3.cmul]; ring

/-- Half of the number of replicas, plus one half for even numbers, is a half-integer. -/
theorem half_parity (k : ℤ) : ∃ j : ℤ, ((k : K) / 2) + (((k + 1) % 2 : ℤ) : K) / 2 = (j : K) + 1 / 2 := by
  refine ⟨k / 2, ?_⟩
  rcases Int.emod_two_eq_zero_or_one k with h | h
  · have e : (k + 1) % 2 = 1 := by omega
    have e' : ((k / 2 : ℤ) : K) * 2 = k := by exact_mod_cast (by omega : k / 2 * 2 = k)
    rw [e]
    push_cast
    linear_combination -(1 / 2) * e'
  · have e : (k + 1) % 2 = 0 := by omega
    have e' : ((k / 2 : ℤ) : K) * 2 + 1 = k := by exact_mod_cast (by omega : k / 2 * 2 + 1 = k)
    rw [e]
    push_cast
    linear_combination -(1 / 2) * e'

/-- A position made from the basis position `f` has the fractional coordinates `(f + m) / n` in the
new box, for integers `m`. Missing for the full claim: boxes in which two directions are tilted against
each other and have numbers of replicas of different parity; there it is false, see
`C59_fractional_counterexample`. -/
theorem C59_fractional_partial (u : UnitCell K) (n : Vec3 ℤ) (scale : K) (hu : GoodCell u.box)
    (b' : Box K) (pos : List (Vec3 K)) (h : u.generateSystem n scale none = some (b', pos))
    (hxy : u.box.xy = 0 ∨ n.x % 2 = n.y % 2)
    (hz : u.box.is2D = false → (u.box.xz = 0 ∨ n.x % 2 = n.z % 2) ∧ (u.box.yz = 0 ∨ n.y % 2 = n.z % 2))
    (w : Vec3 K) (hw : w ∈ pos) :
    ∃ f ∈ u.basis, ∃ m : Vec3 ℤ, HasCoords b' w
      ⟨(f.x + m.x) / n.x, (f.y + m.y) / n.y, if u.box.is2D then 0 else (f.z + m.z) / n.z⟩ := by
  have hn : 0 < n.x ∧ 0 < n.y ∧ 0 < n.z := by
    by_contra hcon
    have := (C59_raises_iff u n scale none hu).mpr (Or.inl hcon)
    rw [this] at h
    cases h
  have npos : (0 : K) < n.x ∧ (0 : K) < n.y ∧ (0 : K) < n.z := by exact_mod_cast hn
  obtain ⟨n1, n2, n3⟩ := npos
  obtain ⟨hg, hdim, ⟨t1, t2, t3⟩, hL, blocks, hpos, hf⟩ := generate_blocks hu h
  rw [hpos, List.mem_flatten] at hw
  obtain ⟨blk, hblk, hw⟩ := hw
  obtain ⟨i, hi, rfl⟩ := List.mem_iff_getElem.mp hblk
  have hi' : i < u.basis.length := by rw [hf.length_eq]; exact hi
  obtain ⟨-, m, hm, e⟩ := (((List.forall₂_iff_get.mp hf).2 i hi' hi).exact w).mp hw
  set f := u.basis.get ⟨i, hi'⟩
  rw [shift_eq hu.valid n hxy hz, lattice, comb_add, comb_add] at e
  obtain ⟨jx, ex⟩ := half_parity (K := K) n.x
  obtain ⟨jy, ey⟩ := half_parity (K := K) n.y
  obtain ⟨jz, ez⟩ := half_parity (K := K) n.z
  refine ⟨f, List.get_mem _ _, ⟨m.x + jx, m.y + jy, m.z + jz⟩, ?_, ?_⟩
  · rw [e]
    have cx : ∀ a k o j M : K, 0 < k → k / 2 + o / 2 = j + 1 / 2 →
        ((a + (M + j)) / k - 1 / 2) * k = a - 1 / 2 + o / 2 + M := by
      intro a k o j M hk h
      rw [sub_mul, div_mul_cancel₀ _ hk.ne']
      linear_combination -h
    have kx := cx f.x _ _ _ m.x n1 ex
    have ky := cx f.y _ _ _ m.y n2 ey
    have kz := cx f.z _ _ _ m.z n3 ez
    simp only [comb, a1, a2, a3, hL, t1, t2, t3, ← kx, ← ky, ← kz]
    cases h2 : u.box.is2D with
    | true =>
      ext <;> simp [hu.valid.Lz_2D h2] <;> ring
    | false =>
      ext <;> simp <;> ring
  · intro h2
    rw [hdim] at h2
    simp [h2]

/-- In a tilted cell replicated twice along the second direction only, the copies of the basis
position (0, 0, 0) have first fractional coordinates that are not integers. -/
theorem C59_fractional_counterexample :
    ∃ (u : UnitCell ℚ) (n : Vec3 ℤ) (b' : Box ℚ) (pos : List (Vec3 ℚ)), GoodCell u.box ∧
      u.basis = [⟨0, 0, 0⟩] ∧ u.generateSystem n 1 none = some (b', pos) ∧ pos ≠ [] ∧
      ∀ w ∈ pos, ¬ ∃ m : Vec3 ℤ, HasCoords b' w ⟨m.x / n.x, m.y / n.y, m.z / n.z⟩ := by
  refine ⟨⟨Box.mk' 4 4 4 (1 / 2) 0 0 false, [⟨0, 0, 0⟩]⟩, ⟨1, 2, 1⟩, Box.mk' 4 8 4 (1 / 2) 0 0 false,
    [⟨1, 0, -2⟩, ⟨-1, -4, -2⟩], ⟨?_, ?_, ?_⟩, rfl, by decide +kernel, by simp, ?_⟩
  · constructor <;> decide +kernel
  · unfold Positive; decide +kernel
  · decide +kernel
  · rintro w hw ⟨m, e, -⟩
    have ey := congrArg Vec3.y e
    have ex := congrArg Vec3.x e
    simp [comb, a1, a2, a3, Box.mk', Box.setL] at ex ey
    rw [List.mem_cons, List.mem_singleton] at hw
    rcases hw with rfl | rfl
    · have k : (m.x : ℚ) * 4 = 3 := by norm_num at ex ey; linarith
      have k' : m.x * 4 = 3 := by exact_mod_cast k
      omega
    · have k : (m.x : ℚ) * 4 = 3 := by norm_num at ex ey; linarith
      have k' : m.x * 4 = 3 := by exact_mod_cast k
      omega

/-- The hypotheses are met: a cell with two basis positions, replicated. -/
example : GoodCell (Box.mk' (4 : ℚ) 4 4 0 0 0 false) ∧
    (((⟨Box.mk' (4 : ℚ) 4 4 0 0 0 false, [⟨0, 0, 0⟩, ⟨1 / 2, 1 / 2, 1 / 2⟩]⟩ :
      UnitCell ℚ).generateSystem ⟨2, 1, 3⟩ 2 none).map fun r => r.2.length) = some 12 := by
  refine ⟨⟨by constructor <;> decide +kernel, by unfold Positive; decide +kernel, by decide +kernel⟩,
    by decide +kernel⟩

end Freud
