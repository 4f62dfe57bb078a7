import Verif.Spec.SystemForm
import Verif.Props.BoxConvert
import Verif.Props.QueryArgs
import Verif.Props.Sources

/-!
# C87: every form of a system is the same system
-/

namespace Freud
open Spec

/-! ### Points -/

theorem flatMap_entries (pts : List (Vec3 ℝ)) (i : ℕ) (p : Vec3 ℝ) (h : pts[i]? = some p) :
    (pts.flatMap fun p => [p.x, p.y, p.z]).getD (3 * i) 0 = p.x ∧
    (pts.flatMap fun p => [p.x, p.y, p.z]).getD (3 * i + 1) 0 = p.y ∧
    (pts.flatMap fun p => [p.x, p.y, p.z]).getD (3 * i + 2) 0 = p.z := by
  induction pts generalizing i with
  | nil => simp at h
  | cons c l ih =>
    cases i with
    | zero =>
      obtain rfl : c = p := by simpa using h
      simp
    | succ i =>
      have h' : l[i]? = some p := by simpa using h
      have e : ∀ k, 3 * (i + 1) + k = (3 * i + k) + 3 := fun k => by ring
      have e0 : 3 * (i + 1) = 3 * i + 3 := by ring
      rw [e, e, e0]
      simpa using ih i h'

/-- **C87**: an array with `n` rows of three entries is taken as the `n` points it lists. -/
theorem C87_points (a : Arr) (pts : List (Vec3 ℝ)) (h : Arr.Holds a pts) : pointsOf a = some pts := by
  obtain ⟨hs, hd⟩ := h
  have hc : convertArray a [none, some 3] = some a := by simp [convertArray, hs]
  rw [pointsOf, hc, Option.map_some, Option.some.injEq]
  refine List.ext_getElem? fun i => ?_
  simp only [Arr.rows, hs, List.headD_cons, List.getElem?_map]
  by_cases hi : i < pts.length
  · rw [List.getElem?_range hi, List.getElem?_eq_getElem hi]
    obtain ⟨h1, h2, h3⟩ := flatMap_entries pts i _ (List.getElem?_eq_getElem hi)
    rw [hd]
    simp only [Option.map_some, h1, h2, h3]
  · rw [List.getElem?_eq_none (by simpa using Nat.le_of_not_lt hi),
      List.getElem?_eq_none (Nat.le_of_not_lt hi)]
    rfl

/-- **C87**: arrays of any other shape raise. In particular a single point must be given as one row
to a compute class, and an empty list, which NumPy takes to be one-dimensional, raises. -/
theorem C87_points_raise_iff (a : Arr) : pointsOf a = none ↔ ∀ n, a.shape ≠ [n, 3] := by
  have hm : pointsOf a = none ↔ convertArray a [none, some 3] = none := by
    rw [pointsOf, Option.map_eq_none_iff]
  rw [hm]
  obtain ⟨s, d⟩ := a
  rcases s with _ | ⟨n, _ | ⟨m, _ | ⟨k, s⟩⟩⟩
  · simp [convertArray]
  · simp [convertArray]
  · by_cases h : m = 3
    · subst h
      simp [convertArray]
    · have h' : 3 ≠ m := fun e => h e.symm
      simp [convertArray, h, h']
  · simp [convertArray]

/-- **C87**: `query` also takes one point as a vector. -/
theorem C87_query_single_point (x y z : ℝ) :
    pointsOf (atleast2d ⟨[3], [x, y, z]⟩) = some [⟨x, y, z⟩] :=
  C87_points _ _ ⟨rfl, by simp [atleast2d]⟩

example : Arr.Holds ⟨[2, 3], [1, 2, 3, 4, 5, 6]⟩ [⟨1, 2, 3⟩, ⟨4, 5, 6⟩] := ⟨rfl, by simp⟩
example : pointsOf ⟨[3], [1, 2, 3]⟩ = none := (C87_points_raise_iff _).mpr (by simp)
example : pointsOf ⟨[0], []⟩ = none := (C87_points_raise_iff _).mpr (by simp)

/-! ### Boxes -/

/-- The box of a standard cell; in a flat cell `xz` and `yz` are arbitrary. -/
def IsBoxOf (c : PeriodCell) (b : Box ℝ) : Prop :=
  ∃ xz yz, b = Box.mk' c.v1.x c.v2.y c.v3.z (c.v2.x / c.v2.y) xz yz c.flat ∧
    (c.flat = false → xz = c.v3.x / c.v3.z ∧ yz = c.v3.y / c.v3.z)

theorem IsBoxOf.spec {c : PeriodCell} {b : Box ℝ} (hc : Standard c) (h : IsBoxOf c b) :
    Spec.Valid b ∧ cellOf b = c ∧ (FullyPeriodic b ∧ Constructed b) := by
  have hcon : Constructed b := by
    obtain ⟨xz, yz, rfl, h2⟩ := h
    refine ⟨c.v1.x, c.v2.y, c.v3.z, c.v2.x / c.v2.y, xz, yz, c.flat,
      Box.mk' c.v1.x c.v2.y c.v3.z (c.v2.x / c.v2.y) xz yz c.flat, true, true, true, ?_, rfl⟩
    have hx := hc.x.1.ne'
    have hy := hc.y.1.ne'
    have hz := hc.z
    cases hf : c.flat with
    | true => simp [pyBox, hx, hy]
    | false =>
      have hz : 0 < c.v3.z := by simpa [hf] using hz
      simp [pyBox, hx, hy, hz.ne']
  obtain ⟨⟨c1, c2, c3⟩, ⟨c4, c5, c6⟩, ⟨c7, c8, c9⟩, fl⟩ := c
  obtain ⟨⟨hx, hx1, hx2⟩, ⟨hy, hy1⟩, hz⟩ := hc
  obtain ⟨xz, yz, rfl, h2⟩ := h
  simp only at *
  subst hx1 hx2 hy1
  cases fl with
  | true =>
    obtain ⟨rfl, rfl, rfl⟩ : c7 = 0 ∧ c8 = 0 ∧ c9 = 0 := by simpa using hz
    refine ⟨⟨rfl, hx.ne', hy.ne', by simp [Box.mk', Box.setL], fun _ => rfl⟩, ?_, ⟨rfl, rfl, rfl⟩, hcon⟩
    simp [cellOf, a1, a2, a3, Box.mk', Box.setL, hy.ne']
  | false =>
    obtain ⟨rfl, rfl⟩ := h2 rfl
    have hz : 0 < c9 := by simpa using hz
    refine ⟨⟨rfl, hx.ne', hy.ne', fun _ => hz.ne', by simp [Box.mk', Box.setL]⟩, ?_, ⟨rfl, rfl, rfl⟩, hcon⟩
    simp [cellOf, a1, a2, a3, Box.mk', Box.setL, hy.ne', hz.ne']

theorem fromMatrix_upper {x a y u v w : ℝ} (hx : 0 < x) (hy : 0 < y) (dims : Option Bool) :
    fromMatrix ⟨x, 0, 0⟩ ⟨a, y, 0⟩ ⟨u, v, w⟩ dims =
      pyBox x y w (a / y) (if w ≠ 0 then u / w else 0) (if w ≠ 0 then v / w else 0)
        (dims.getD (decide (w = 0))) := by
  have s1 : Real.sqrt (x * x) = x := Real.sqrt_mul_self hx.le
  have e1 : x * a / x = a := by field_simp
  have e2 : a * a + y * y - a * a = y * y := by ring
  have s2 : Real.sqrt (y * y) = y := Real.sqrt_mul_self hy.le
  have s3 : Real.sqrt (x * y * (x * y)) = x * y := Real.sqrt_mul_self (by positivity)
  have e3 : w * (x * y) / (x * y) = w := by field_simp
  have e4 : x * u / x = u := by field_simp
  have e5 : y * v / (y * w) = v / w := mul_div_mul_left _ _ hy.ne'
  unfold fromMatrix
  simp only [Vec3.dot, Vec3.cross, mul_zero, zero_mul, add_zero, zero_add, sub_zero, zero_sub, neg_zero,
    s1, e1, e2, s2, s3, e3, e4]
  by_cases h : w = 0
  · simp [h]
  · simp [h, e5]

theorem pyBox_isBoxOf {c : PeriodCell} (hc : Standard c) {Lz xz yz : ℝ}
    (h : c.flat = false → Lz = c.v3.z ∧ xz = c.v3.x / c.v3.z ∧ yz = c.v3.y / c.v3.z) :
    ∃ b, pyBox c.v1.x c.v2.y Lz (c.v2.x / c.v2.y) xz yz c.flat = some b ∧ IsBoxOf c b := by
  obtain ⟨v1, v2, v3, fl⟩ := c
  obtain ⟨⟨hx, -, -⟩, ⟨hy, -⟩, hz⟩ := hc
  simp only at *
  cases fl with
  | true =>
    obtain rfl : v3 = ⟨0, 0, 0⟩ := by simpa using hz
    refine ⟨Box.mk' v1.x v2.y 0 (v2.x / v2.y) xz yz true, ?_, xz, yz, rfl, by simp⟩
    simp [pyBox, hx.ne', hy.ne', Box.mk', Box.setL]
  | false =>
    obtain ⟨rfl, rfl, rfl⟩ := h rfl
    have hz : 0 < v3.z := by simpa using hz
    exact ⟨_, by simp [pyBox, hx.ne', hy.ne', hz.ne'], _, _, rfl, fun _ => ⟨rfl, rfl⟩⟩

theorem ofNumbers_isBoxOf {Lx Ly Lz xy xz yz : ℝ} {flat : Bool}
    (hc : Standard (.ofNumbers Lx Ly Lz xy xz yz flat)) {Lz' xz' yz' : ℝ}
    (h : flat = false → Lz' = Lz ∧ xz' = xz ∧ yz' = yz) :
    ∃ b, pyBox Lx Ly Lz' xy xz' yz' flat = some b ∧ IsBoxOf (.ofNumbers Lx Ly Lz xy xz yz flat) b := by
  have hy : 0 < Ly := hc.y.1
  have e : xy * Ly / Ly = xy := by field_simp
  have := pyBox_isBoxOf (Lz := Lz') (xz := xz') (yz := yz') hc (fun hf => by
    have hf : flat = false := hf
    subst hf
    have hz : 0 < Lz := by simpa [PeriodCell.ofNumbers] using hc.z
    obtain ⟨rfl, rfl, rfl⟩ := h rfl
    have : Lz' ≠ 0 := hz.ne'
    refine ⟨rfl, ?_, ?_⟩ <;> simp [PeriodCell.ofNumbers, this])
  simpa only [PeriodCell.ofNumbers, e] using this

theorem matrix_isBoxOf {m : CellMat} {flat : Bool} {v3 : Vec3 ℝ} {dims : Option ℕ}
    (hc : Standard ⟨m.col 0, m.col 1, v3, flat⟩) (h3 : flat = false → v3 = m.col 2)
    (hd : dims.map (fun d => decide (d = 2)) = some flat ∨ dims = none ∧ flat = decide (m 2 2 = 0)) :
    ∃ b, fromBoxLike (.matrix m) dims = some b ∧ IsBoxOf ⟨m.col 0, m.col 1, v3, flat⟩ b := by
  obtain ⟨⟨hx, hx1, hx2⟩, ⟨hy, hy1⟩, hz⟩ := hc
  have e0 : m.col 0 = ⟨m 0 0, 0, 0⟩ := by
    simp only [CellMat.col] at hx1 hx2 ⊢; rw [hx1, hx2]
  have e1 : m.col 1 = ⟨m 0 1, m 1 1, 0⟩ := by
    simp only [CellMat.col] at hy1 ⊢; rw [hy1]
  have hf : (dims.map fun d => decide (d = 2)).getD (decide (m 2 2 = 0)) = flat := by
    rcases hd with h | ⟨rfl, rfl⟩
    · rw [h]; rfl
    · rfl
  have := pyBox_isBoxOf (c := ⟨m.col 0, m.col 1, v3, flat⟩) ⟨⟨hx, hx1, hx2⟩, ⟨hy, hy1⟩, hz⟩ (Lz := m 2 2)
    (xz := if m 2 2 ≠ 0 then m 0 2 / m 2 2 else 0) (yz := if m 2 2 ≠ 0 then m 1 2 / m 2 2 else 0)
    (fun hfl => by
      have hfl : flat = false := hfl
      obtain rfl := h3 hfl
      have : m 2 2 ≠ 0 := by
        rw [hfl] at hz
        have : 0 < m 2 2 := by simpa [CellMat.col] using hz
        exact this.ne'
      simp [CellMat.col, this])
  rw [fromBoxLike]
  rw [e0, e1, CellMat.col, fromMatrix_upper (by simpa [CellMat.col] using hx) (by simpa [CellMat.col] using hy), hf]
  rw [e0, e1] at this
  exact this

/-- **C87**: every box-like value gives the box of the cell it describes. A `freud.box.Box` is used as
it is, with its periodicity; all others give a fully periodic box. -/
theorem C87_box (x : BoxLike) (c : PeriodCell) (h : BoxLike.Describes x c) (hc : Standard c) :
    ∃ b, convertBox x none = some b ∧ Spec.Valid b ∧ cellOf b = c ∧
      ((∀ b', x ≠ .box b') → FullyPeriodic b ∧ Constructed b) ∧ (∀ b', x = .box b' → b = b') := by
  have key : (∀ b', x ≠ .box b') → ∃ b, fromBoxLike x none = some b ∧ IsBoxOf c b := by
    intro hx
    cases x with
    | box b => exact absurd rfl (hx b)
    | matrix m =>
      obtain rfl := h
      exact matrix_isBoxOf (v3 := m.col 2) (dims := none) hc (fun _ => rfl) (.inr ⟨rfl, rfl⟩)
    | attributes n =>
      obtain ⟨Lx, Ly, h1, h2, rfl⟩ := h
      obtain ⟨b, hb, hb'⟩ := ofNumbers_isBoxOf hc (fun _ => ⟨rfl, rfl, rfl⟩)
      refine ⟨b, ?_, hb'⟩
      rw [← hb]
      simp only [fromBoxLike, fromNamed, h1, h2, Option.bind_some, boxOf]
      congr 1
      cases n.dimensions with
      | none => by_cases hz : n.Lz.getD 0 = 0 <;> simp [hz]
      | some d => simp
    | dict n =>
      obtain ⟨Lx, Ly, h1, h2, rfl⟩ := h
      obtain ⟨b, hb, hb'⟩ := ofNumbers_isBoxOf hc (fun _ => ⟨rfl, rfl, rfl⟩)
      refine ⟨b, ?_, hb'⟩
      rw [← hb]
      simp only [fromBoxLike, fromNamed, h1, h2, Option.bind_some, boxOf]
      congr 1
      cases n.dimensions with
      | none => by_cases hz : n.Lz.getD 0 = 0 <;> simp [hz]
      | some d => simp
    | list l =>
      rcases h with ⟨Lx, Ly, rfl, rfl⟩ | ⟨Lx, Ly, Lz, rfl, rfl⟩ | ⟨Lx, Ly, Lz, xy, xz, yz, rfl, rfl⟩
      · obtain ⟨b, hb, hb'⟩ := ofNumbers_isBoxOf hc (fun _ => ⟨rfl, rfl, rfl⟩)
        exact ⟨b, by rw [← hb]; simp [fromBoxLike, fromList, boxOf], hb'⟩
      · obtain ⟨b, hb, hb'⟩ := ofNumbers_isBoxOf hc (fun _ => ⟨rfl, rfl, rfl⟩)
        refine ⟨b, ?_, hb'⟩
        rw [← hb]
        by_cases hz : Lz = 0 <;> simp [fromBoxLike, fromList, boxOf, hz]
      · obtain ⟨b, hb, hb'⟩ := ofNumbers_isBoxOf hc (fun _ => ⟨rfl, rfl, rfl⟩)
        refine ⟨b, ?_, hb'⟩
        rw [← hb]
        by_cases hz : Lz = 0 <;> simp [fromBoxLike, fromList, boxOf, hz]
  by_cases hx : ∃ b, x = .box b
  · obtain ⟨b, rfl⟩ := hx
    obtain ⟨hv, rfl⟩ := h
    exact ⟨b, rfl, hv, rfl, fun h => absurd rfl (h b), fun b' e => by cases e; rfl⟩
  · have hx : ∀ b', x ≠ .box b' := fun b' e => hx ⟨b', e⟩
    obtain ⟨b, hb, hb'⟩ := key hx
    obtain ⟨s1, s2, s3⟩ := hb'.spec hc
    refine ⟨b, ?_, s1, s2, fun _ => s3, fun b' e => absurd e (hx b')⟩
    cases x with
    | box b' => exact absurd rfl (hx b')
    | _ => simp [convertBox, hb]

theorem pyBox_is2D {Lx Ly Lz xy xz yz : ℝ} {fl : Bool} {b : Box ℝ}
    (h : pyBox Lx Ly Lz xy xz yz fl = some b) : b.is2D = fl := by
  unfold pyBox at h
  cases fl <;> simp only [Bool.false_eq_true, if_false, if_true] at h <;> split_ifs at h <;>
    obtain rfl := Option.some.inj h <;> rfl

/-- **C87**: a class that needs a box of `d` dimensions takes exactly the boxes with that many. -/
theorem C87_required_dimensions (x : BoxLike) (d : ℕ) (b : Box ℝ) :
    convertBox x (some d) = some b ↔
      convertBox x none = some b ∧ d = if b.is2D then 2 else 3 := by
  have e : ∀ o : Option (Box ℝ), (o.bind fun b => if (if b.is2D then 2 else 3) ≠ d then none else some b) =
      some b ↔ o = some b ∧ d = if b.is2D then 2 else 3 := by
    intro o
    cases o with
    | none => simp
    | some b' =>
      simp only [Option.bind_some, Option.some.injEq]
      constructor
      · intro h
        by_cases h1 : (if b'.is2D then 2 else 3) = d
        · rw [if_neg (not_not.mpr h1)] at h
          obtain rfl := Option.some.inj h
          exact ⟨rfl, h1.symm⟩
        · rw [if_pos h1] at h
          cases h
      · rintro ⟨rfl, h⟩
        rw [if_neg (not_not.mpr h.symm)]
  unfold convertBox
  rw [e]
  simp

/-- **C87**: the `dimensions` argument of `from_box` decides whether the box is flat. Attributes or
entries that say something else raise. -/
theorem C87_from_box_dimensions (x : BoxLike) (d : ℕ) :
    (∀ b, fromBoxLike x (some d) = some b → (b.is2D = true ↔ d = 2)) ∧
    (∀ n, x = .attributes n ∨ x = .dict n → ∀ e, n.dimensions = some e → e ≠ d →
      fromBoxLike x (some d) = none) ∧
    (∀ b, x = .box b → d ≠ (if b.is2D then 2 else 3) → fromBoxLike x (some d) = none) := by
  have hn : ∀ n b, fromNamed n (some d) = some b → (b.is2D = true ↔ d = 2) := by
    intro n b h
    unfold fromNamed at h
    obtain ⟨Lx, -, h⟩ := Option.bind_eq_some_iff.mp h
    obtain ⟨Ly, -, h⟩ := Option.bind_eq_some_iff.mp h
    simp only at h
    split_ifs at h
    rw [pyBox_is2D h]
    simp
  have hc : ∀ n e, n.dimensions = some e → e ≠ d → fromNamed n (some d) = none := by
    intro n e he hne
    unfold fromNamed
    cases n.Lx <;> cases n.Ly <;> simp [he, Ne.symm hne]
  refine ⟨fun b h => ?_, ?_, ?_⟩
  · cases x with
    | box b' => exact hn _ _ h
    | attributes n => exact hn _ _ h
    | dict n => exact hn _ _ h
    | matrix m =>
      have h : fromMatrix _ _ _ _ = some b := h
      unfold fromMatrix at h
      rw [pyBox_is2D h]
      simp
    | list l =>
      have h : fromList l (some d) = some b := h
      unfold fromList at h
      split at h
      · rw [pyBox_is2D h]; simp
      · rw [pyBox_is2D h]; simp
      · rw [pyBox_is2D h]; simp
      · cases h
  · rintro n (rfl | rfl) e he hne
    · exact hc n e he hne
    · exact hc n e he hne
  · rintro b rfl hb
    exact hc (namedOf b) (if b.is2D then 2 else 3) rfl hb.symm

/-! ### Systems -/

/-- **C87**: whatever form a system is given in, `from_system` gives the points it lists and a box with
the cell it describes, for cells in the orientation of a `freud.box.Box`. Missing: cells in other
orientations, and tilted cells of MDAnalysis, for which this is false (counterexamples below). -/
theorem C87_forms_partial (f : SystemForm) (c : PeriodCell) (pts : List (Vec3 ℝ))
    (h : SystemForm.Describes f c pts) (hc : Standard c)
    (hmd : ∀ m a, f = .mdanalysis m a → c.v2.x = 0 ∧ c.v3.x = 0 ∧ c.v3.y = 0) :
    ∃ b, fromSystem f = some (b, pts) ∧ Spec.Valid b ∧ cellOf b = c ∧
      (SystemForm.hasBox f = false → FullyPeriodic b ∧ Constructed b) := by
  have raw : ∀ x a, BoxLike.Describes x c → Arr.Holds a pts → ∃ b, rawPoints x a = some (b, pts) ∧
      Spec.Valid b ∧ cellOf b = c ∧ ((∀ b', x ≠ .box b') → FullyPeriodic b ∧ Constructed b) := by
    intro x a hx ha
    obtain ⟨b, h1, h2, h3, h4, -⟩ := C87_box x c hx hc
    exact ⟨b, by simp [rawPoints, h1, C87_points a pts ha], h2, h3, h4⟩
  have made : ∀ b a, IsBoxOf c b → Arr.Holds a pts → ∃ b', rawPoints (.box b) a = some (b', pts) ∧
      Spec.Valid b' ∧ cellOf b' = c ∧ (FullyPeriodic b' ∧ Constructed b') := by
    intro b a hb ha
    obtain ⟨s1, s2, s3⟩ := hb.spec hc
    exact ⟨b, by simp [rawPoints, convertBox, C87_points a pts ha], s1, s2, s3⟩
  cases f with
  | query b p =>
    obtain ⟨h1, rfl, rfl⟩ := h
    exact ⟨b, rfl, h1, rfl, fun h => by simp [SystemForm.hasBox] at h⟩
  | mdanalysis m a =>
    obtain ⟨rfl, ha⟩ := h
    obtain ⟨t1, t2, t3⟩ := hmd m a rfl
    obtain ⟨⟨-, x1, x2⟩, ⟨-, y1⟩, -⟩ := hc
    simp only at t1 t2 t3 x1 x2 y1
    obtain ⟨b, h1, h2, h3, h4⟩ := raw (.matrix m) a (by
      simp only [BoxLike.Describes]
      rw [t1, t2, t3, x1, x2, y1]) ha
    exact ⟨b, h1, h2, h3, fun _ => h4 fun b' e => by cases e⟩
  | snapshot l d a =>
    obtain ⟨⟨Lx, Ly, Lz, xy, xz, yz, rfl, hd, rfl⟩, ha⟩ := h
    rcases hd with rfl | ⟨rfl, hz⟩
    · obtain ⟨b, h1, h2, h3, h4⟩ := raw (.list [Lx, Ly, 0, xy, 0, 0]) a
        (.inr (.inr ⟨Lx, Ly, 0, xy, 0, 0, rfl, by simp [PeriodCell.ofNumbers]⟩)) ha
      exact ⟨b, by simpa [fromSystem] using h1, h2, h3, fun _ => h4 fun b' e => by cases e⟩
    · obtain ⟨b, h1, h2, h3, h4⟩ := raw (.list [Lx, Ly, Lz, xy, xz, yz]) a
        (.inr (.inr ⟨Lx, Ly, Lz, xy, xz, yz, rfl, by simp [hz]⟩)) ha
      exact ⟨b, by simpa [fromSystem] using h1, h2, h3, fun _ => h4 fun b' e => by cases e⟩
  | garnett x a =>
    obtain ⟨b, h1, h2, h3, h4⟩ := raw x a h.1 h.2
    refine ⟨b, h1, h2, h3, fun hb => h4 fun b' e => ?_⟩
    subst e; simp [SystemForm.hasBox] at hb
  | ovito m flat a =>
    obtain ⟨rfl, ha⟩ := h
    obtain ⟨b, hb, hb'⟩ := matrix_isBoxOf (m := m) (flat := flat) (dims := some (if flat then 2 else 3)) hc
      (fun hf => by subst hf; rfl) (.inl (by cases flat <;> simp))
    obtain ⟨b', h1, h2, h3, h4⟩ := made b a hb' ha
    exact ⟨b', by simp only [fromSystem]; rw [hb]; exact h1, h2, h3, fun _ => h4⟩
  | state n a =>
    obtain ⟨⟨Lx, Ly, Lz, xy, xz, yz, d, rfl, hd, rfl⟩, ha⟩ := h
    rcases hd with rfl | rfl
    · obtain ⟨b, hb, hb'⟩ := ofNumbers_isBoxOf hc (Lz' := 0) (xz' := 0) (yz' := 0) (by simp)
      obtain ⟨b', h1, h2, h3, h4⟩ := made b a hb' ha
      refine ⟨b', ?_, h2, h3, fun _ => h4⟩
      simp only [decide_true] at hb
      simp only [fromSystem, Option.bind_some, if_true, hb, h1]
    · obtain ⟨b, h1, h2, h3, h4⟩ := raw (.attributes ⟨some Lx, some Ly, some Lz, some xy, some xz, some yz,
        some 3⟩) a ⟨Lx, Ly, rfl, rfl, by simp⟩ ha
      exact ⟨b, by simpa [fromSystem] using h1, h2, h3, fun _ => h4 fun b' e => by cases e⟩
  | object x a =>
    obtain ⟨b, h1, h2, h3, h4⟩ := raw x a h.1 h.2
    refine ⟨b, h1, h2, h3, fun hb => h4 fun b' e => ?_⟩
    subst e; simp [SystemForm.hasBox] at hb
  | pair x a =>
    obtain ⟨b, h1, h2, h3, h4⟩ := raw x a h.1 h.2
    refine ⟨b, h1, h2, h3, fun hb => h4 fun b' e => ?_⟩
    subst e; simp [SystemForm.hasBox] at hb

theorem constructed_ext {b b' : Box ℝ} (h : Constructed b) (h' : Constructed b')
    (hc : cellOf b = cellOf b') (hf : b.is2D = false)
    (hp : (b.px, b.py, b.pz) = (b'.px, b'.py, b'.pz)) : b = b' := by
  obtain ⟨Lx, Ly, Lz, xy, xz, yz, fl, px, py, pz, ⟨-, hy, hz⟩, rfl⟩ := constructed_cases h
  obtain ⟨Lx', Ly', Lz', xy', xz', yz', fl', px', py', pz', ⟨-, hy', hz'⟩, rfl⟩ := constructed_cases h'
  obtain rfl : fl = false := hf
  obtain rfl : false = fl' := congrArg PeriodCell.flat hc
  simp only [cellOf, a1, a2, a3, Box.mk', Box.setL, Box.setPeriodic, Bool.false_eq_true, if_false, PeriodCell.mk.injEq,
    Vec3.mk.injEq, and_true] at hc
  obtain ⟨rfl, ⟨e1, rfl⟩, e2, e3, rfl⟩ := hc
  obtain rfl := mul_right_cancel₀ hy e1
  obtain rfl := mul_right_cancel₀ (hz rfl) e2
  obtain rfl := mul_right_cancel₀ (hz rfl) e3
  simp only [Box.setPeriodic, Prod.mk.injEq] at hp
  obtain ⟨rfl, rfl, rfl⟩ := hp
  rfl

/-- **C87**: two forms that describe the same system, neither of which contains a `freud.box.Box`,
give the same points and boxes with the same cell; the boxes are equal if the cell is not flat. -/
theorem C87_same_system_partial (f f' : SystemForm) (c : PeriodCell) (pts : List (Vec3 ℝ))
    (h : SystemForm.Describes f c pts) (h' : SystemForm.Describes f' c pts) (hc : Standard c)
    (hmd : c.v2.x = 0 ∧ c.v3.x = 0 ∧ c.v3.y = 0 ∨ ∀ m a, f ≠ .mdanalysis m a ∧ f' ≠ .mdanalysis m a)
    (hb : SystemForm.hasBox f = false) (hb' : SystemForm.hasBox f' = false) :
    ∃ b b', fromSystem f = some (b, pts) ∧ fromSystem f' = some (b', pts) ∧
      cellOf b = cellOf b' ∧ (b.px, b.py, b.pz) = (b'.px, b'.py, b'.pz) ∧
      (c.flat = false → b = b') := by
  obtain ⟨b, h1, -, h3, h4⟩ := C87_forms_partial f c pts h hc fun m a e =>
    hmd.resolve_right fun hn => (hn m a).1 e
  obtain ⟨b', h1', -, h3', h4'⟩ := C87_forms_partial f' c pts h' hc fun m a e =>
    hmd.resolve_right fun hn => (hn m a).2 e
  obtain ⟨⟨p1, p2, p3⟩, hk⟩ := h4 hb
  obtain ⟨⟨p1', p2', p3'⟩, hk'⟩ := h4' hb'
  have hp : (b.px, b.py, b.pz) = (b'.px, b'.py, b'.pz) := by rw [p1, p2, p3, p1', p2', p3']
  exact ⟨b, b', h1, h1', h3.trans h3'.symm, hp, fun hf =>
    constructed_ext hk hk' (h3.trans h3'.symm) (by rw [← h3] at hf; exact hf) hp⟩

/-- **C87**, what goes wrong: the vectors of a tilted MDAnalysis cell are the rows of its matrix, but
they are read from the columns. The first vector of the cell is then no period of the box. -/
theorem C87_mdanalysis_counterexample : ∃ (m : CellMat) (a : Arr) (c : PeriodCell) (pts : List (Vec3 ℝ)),
    SystemForm.Describes (.mdanalysis m a) c pts ∧ Standard c ∧
    ∃ b, fromSystem (.mdanalysis m a) = some (b, pts) ∧ ∀ n, lattice b n ≠ c.v1 := by
  refine ⟨![![3, 0, 0], ![4, 5, 0], ![0, 0, 1]], ⟨[1, 3], [0, 0, 0]⟩, _, [⟨0, 0, 0⟩],
    ⟨rfl, rfl, by simp⟩, ⟨⟨show (0 : ℝ) < 3 by norm_num, rfl, rfl⟩, ⟨show (0 : ℝ) < 5 by norm_num, rfl⟩,
      show if decide ((1 : ℝ) = 0) = true then _ else (0 : ℝ) < 1 by simp⟩,
    Box.mk' 5 3 1 (4 / 3) 0 0 false, ?_, ?_⟩
  · have hp : pointsOf ⟨[1, 3], [0, 0, 0]⟩ = some [⟨0, 0, 0⟩] := C87_points _ _ ⟨rfl, by simp⟩
    have s1 : Real.sqrt 25 = 5 := by
      rw [show (25 : ℝ) = 5 * 5 by norm_num]; exact Real.sqrt_mul_self (by norm_num)
    have s2 : Real.sqrt 9 = 3 := by
      rw [show (9 : ℝ) = 3 * 3 by norm_num]; exact Real.sqrt_mul_self (by norm_num)
    have s3 : Real.sqrt 225 = 15 := by
      rw [show (225 : ℝ) = 15 * 15 by norm_num]; exact Real.sqrt_mul_self (by norm_num)
    have hb : fromMatrix ⟨3, 4, 0⟩ ⟨0, 5, 0⟩ ⟨0, 0, 1⟩ none = some (Box.mk' 5 3 1 (4 / 3) 0 0 false) := by
      norm_num [fromMatrix, Vec3.dot, Vec3.cross, s1, s2, s3, pyBox]
    have hb' : convertBox (.matrix ![![3, 0, 0], ![4, 5, 0], ![0, 0, 1]]) none =
        some (Box.mk' 5 3 1 (4 / 3) 0 0 false) := by
      simpa [convertBox, fromBoxLike, CellMat.col] using hb
    simp only [fromSystem, rawPoints, hb', hp, Option.bind_some, Option.map_some]
  · intro n h
    have hx := congrArg Vec3.x h
    have hy := congrArg Vec3.y h
    simp [lattice, comb, a1, a2, a3, Box.mk', Box.setL] at hx hy
    have : (n.x : ℝ) * 5 = 3 := by rw [hy] at hx; simpa using hx
    have : n.x * 5 = 3 := by exact_mod_cast this
    omega

/-- **C87**, what goes wrong: a matrix whose first column is not along x is turned into the standard
orientation, but the points are not. The second vector of the cell is then no period of the box. -/
theorem C87_rotated_counterexample : ∃ (m : CellMat) (a : Arr) (c : PeriodCell) (pts : List (Vec3 ℝ)),
    SystemForm.Describes (.pair (.matrix m) a) c pts ∧
    ∃ b, fromSystem (.pair (.matrix m) a) = some (b, pts) ∧
      fromSystem (.ovito m false a) = some (b, pts) ∧ ∀ n, lattice b n ≠ c.v2 := by
  have s1 : Real.sqrt 4 = 2 := by
    rw [show (4 : ℝ) = 2 * 2 by norm_num]; exact Real.sqrt_mul_self (by norm_num)
  have hp : pointsOf ⟨[1, 3], [0, 0, 0]⟩ = some [⟨0, 0, 0⟩] := C87_points _ _ ⟨rfl, by simp⟩
  have hb : ∀ d : Option Bool, d = none ∨ d = some false →
      fromMatrix ⟨0, 2, 0⟩ ⟨-1, 0, 0⟩ ⟨0, 0, 1⟩ d = some (Box.mk' 2 1 1 0 0 0 false) := by
    rintro d (rfl | rfl) <;> norm_num [fromMatrix, Vec3.dot, Vec3.cross, s1, pyBox]
  refine ⟨![![0, -1, 0], ![2, 0, 0], ![0, 0, 1]], ⟨[1, 3], [0, 0, 0]⟩, _, [⟨0, 0, 0⟩],
    ⟨rfl, rfl, by simp⟩, Box.mk' 2 1 1 0 0 0 false, ?_, ?_, ?_⟩
  · have hb' : convertBox (.matrix ![![0, -1, 0], ![2, 0, 0], ![0, 0, 1]]) none =
        some (Box.mk' 2 1 1 0 0 0 false) := by
      simpa [convertBox, fromBoxLike, CellMat.col] using hb none (.inl rfl)
    simp only [fromSystem, rawPoints, hb', hp, Option.bind_some, Option.map_some]
  · have hb' : fromBoxLike (.matrix ![![0, -1, 0], ![2, 0, 0], ![0, 0, 1]]) (some 3) =
        some (Box.mk' 2 1 1 0 0 0 false) := by
      simpa [fromBoxLike, CellMat.col] using hb (some false) (.inr rfl)
    simp only [fromSystem, Bool.false_eq_true, if_false, hb', rawPoints, convertBox, hp, Option.bind_some,
      Option.map_some]
  · intro n h
    have hx := congrArg Vec3.x h
    simp [lattice, comb, a1, a2, a3, Box.mk', Box.setL] at hx
    have : n.x * 2 = -1 := by exact_mod_cast hx
    omega

/-! ### Calls -/

/-- **C87**: `neighbors` of a wrong type raises, and so does leaving it out for a class without a
default. A neighbor list is used as it is. -/
theorem C87_neighbors (default : Option PyArgs) (f : SystemForm) (qp : Option Arr) :
    preprocess default f qp .other = none ∧ preprocess none f qp .none = none ∧
    ∀ nl pre, preprocess default f qp (.list nl) = some pre → ∀ all, pre.Bonds all ↔ all = nl.bonds := by
  refine ⟨?_, ?_, ?_⟩
  · cases h : fromSystem f <;> simp [preprocess, resolveNeighbors, h]
  · cases h : fromSystem f <;> simp [preprocess, resolveNeighbors, h]
  · intro nl pre h all
    unfold preprocess at h
    obtain ⟨⟨b, pts⟩, -, h⟩ := Option.bind_eq_some_iff.mp h
    obtain ⟨n, hn, h⟩ := Option.bind_eq_some_iff.mp h
    obtain ⟨q, -, rfl⟩ := Option.map_eq_some_iff.mp h
    obtain rfl := Option.some.inj hn
    rfl

/-- The arguments of a call describe a ball query: a cutoff `r` and no number of neighbors. -/
structure Spec.IsBallArgs (p : PyArgs) (r : ℝ) : Prop where
  rMax : p.rMax = some (r : WithTop ℝ)
  mode : p.mode = none ∨ p.mode = some "none" ∨ p.mode = some "ball"
  number : p.numNeighbors = none
  known : p.other = []

theorem ballArgs_toArgs {p : PyArgs} {r : ℝ} (h : Spec.IsBallArgs p r) :
    ∃ a, p.toArgs = some a := by
  obtain ⟨-, h2, -, h4⟩ := h
  unfold PyArgs.toArgs
  rcases h2 with h | h | h <;> simp [h, h4, modeOf]

theorem query_ball_iff {p : PyArgs} {r : ℝ} (h : Spec.IsBallArgs p r) (hr : 0 < r) (aq : AABBQuery)
    (q : Vec3 ℝ) (i : ℕ) (out : List (Bond ℝ)) :
    aq.Query true p q i out ↔
      aq.ballSingle q i r (p.rMin.getD 0) (p.excludeII.getD false) = some out := by
  obtain ⟨a, ha⟩ := ballArgs_toArgs h
  obtain ⟨-, t2, t3, t4, t5, -, -, t8⟩ := toArgs_some ha
  rw [h.number] at t3
  rw [h.rMax] at t4
  have hne : ((r : ℝ) : WithTop ℝ) ≠ DEFAULT_R_MAX := by
    intro e
    have : r = -1 := WithTop.coe_injective e
    linarith
  have t3 : a.numNeighbors = DEFAULT_NUM_NEIGHBORS := t3
  have t4 : a.rMax = (r : WithTop ℝ) := t4
  have hmode : (inferMode a).mode = .ball := by
    have : a.mode = .none ∨ a.mode = .ball := by
      rcases h.mode with e | e | e <;> rw [e] at t2
      · exact .inl (Option.some.inj t2).symm
      · exact .inl (by simpa [modeOf] using t2.symm)
      · exact .inr (by simpa [modeOf] using t2.symm)
    rcases this with e | e <;> simp [inferMode, e, t3, t4, hne]
  obtain ⟨i1, i2, i3, i4, -⟩ := inferMode_fields a
  have hval : validateAABB aq.box aq.pts.length a = some (inferMode a) := by
    simp [validateAABB, validateQueryArgs, hmode, i1, i2, t3, t4, hne]
  unfold AABBQuery.Query
  constructor
  · rintro ⟨-, a0, a', h0, h1, h2⟩
    rw [ha] at h0
    obtain rfl := Option.some.inj h0
    rw [hval] at h1
    obtain rfl := Option.some.inj h1
    rw [hmode] at h2
    obtain ⟨r', hr', h2⟩ := h2
    rw [i2, t4] at hr'
    obtain rfl : r = r' := WithTop.coe_injective hr'
    rwa [i3, i4, t5, t8] at h2
  · intro h2
    refine ⟨by simp, a, _, ha, hval, ?_⟩
    rw [hmode]
    exact ⟨r, by rw [i2, t4], by rwa [i3, i4, t5, t8]⟩

/-- The query points of a call: those of the array that is given, or the points of the system. -/
def Spec.QueryPoints (qp : Option Arr) (pts qpts : List (Vec3 ℝ)) : Prop :=
  match qp with
  | none => qpts = pts
  | some a => Arr.Holds a qpts

theorem preprocess_ball {default : Option PyArgs} {f : SystemForm} {b : Box ℝ}
    {pts qpts : List (Vec3 ℝ)} {qp : Option Arr} {nb : Neighbors} {p : PyArgs} {r : ℝ}
    (hf : fromSystem f = some (b, pts)) (hqp : Spec.QueryPoints qp pts qpts)
    (hp : nb = .dict p ∨ nb = .none ∧ default = some p) (hball : Spec.IsBallArgs p r) :
    preprocess default f qp nb = some ⟨b, pts, qpts, .inr (setDefault p qp.isNone)⟩ := by
  have hball' : Spec.IsBallArgs (setDefault p qp.isNone) r :=
    ⟨hball.rMax, hball.mode, hball.number, hball.known⟩
  obtain ⟨a, ha⟩ := ballArgs_toArgs hball'
  have hr : resolveNeighbors default qp.isNone nb = some (.inr (setDefault p qp.isNone)) := by
    rcases hp with rfl | ⟨rfl, rfl⟩ <;> simp [resolveNeighbors, ha]
  simp only [preprocess, hf, Option.bind_some, hr]
  cases qp with
  | none =>
    obtain rfl : qpts = pts := hqp
    rfl
  | some a =>
    simp only [C87_points a qpts hqp, Option.map_some]

/-- **C87**: a compute class called with a cutoff `r` loops over the pairs of a query point and a point
with distance in `[r_min, r)`, each once. If no query points are given they are the points, and no
point is paired with itself; if they are given, the pairs with equal numbers are kept. An explicit
`exclude_ii` overrides this. The same holds for the default arguments of a class. -/
theorem C87_call_bonds (default : Option PyArgs) (f : SystemForm) (b : Box ℝ) (pts qpts : List (Vec3 ℝ))
    (qp : Option Arr) (nb : Neighbors) (p : PyArgs) (r : ℝ)
    (hf : fromSystem f = some (b, pts)) (hqp : Spec.QueryPoints qp pts qpts)
    (hp : nb = .dict p ∨ nb = .none ∧ default = some p) (hball : Spec.IsBallArgs p r)
    (hr : 0 < r) (hmin : 0 ≤ p.rMin.getD 0) (hs : PeriodicSystem b pts qpts) (hhalf : BelowHalf b r)
    (pre : Prepared) (hpre : preprocess default f qp nb = some pre) (all : List (Bond ℝ))
    (hall : pre.Bonds all) :
    (∀ bd, bd ∈ all ↔
      IsQueryBond b pts qpts r (p.rMin.getD 0) (p.excludeII.getD (decide (qp = none))) bd) ∧
    (all.map fun bd => (bd.q, bd.p)).Nodup := by
  rw [preprocess_ball hf hqp hp hball] at hpre
  obtain rfl := Option.some.inj hpre
  obtain ⟨aq, found, haq, hfound, rfl⟩ := hall
  have hball' : Spec.IsBallArgs (setDefault p qp.isNone) r :=
    ⟨hball.rMax, hball.mode, hball.number, hball.known⟩
  have he : (setDefault p qp.isNone).excludeII.getD false = p.excludeII.getD (decide (qp = none)) := by
    cases qp <;> simp [setDefault]
  refine C85_found_bonds (.raw aq) b pts qpts haq hs r _ hmin hhalf _ found fun i q hq => ?_
  have := (query_ball_iff hball' hr aq q i (found i)).mp (hfound i q hq)
  rw [he] at this
  exact this

/-- **C87**: such a call is accepted if there are points and the cutoff is positive, above `r_min` and
below half the box. -/
theorem C87_call_accepted (default : Option PyArgs) (f : SystemForm) (b : Box ℝ)
    (pts qpts : List (Vec3 ℝ)) (qp : Option Arr) (nb : Neighbors) (p : PyArgs) (r : ℝ)
    (hf : fromSystem f = some (b, pts)) (hqp : Spec.QueryPoints qp pts qpts)
    (hp : nb = .dict p ∨ nb = .none ∧ default = some p) (hball : Spec.IsBallArgs p r)
    (hr : 0 < r) (hmin : p.rMin.getD 0 < r) (hs : PeriodicSystem b pts qpts) (hhalf : BelowHalf b r)
    (hpts : pts ≠ []) :
    ∃ pre all, preprocess default f qp nb = some pre ∧ pre.Bonds all := by
  have hball' : Spec.IsBallArgs (setDefault p qp.isNone) r :=
    ⟨hball.rMax, hball.mode, hball.number, hball.known⟩
  obtain ⟨nodes, hn, -⟩ := C21_every_point_once (pts.map (flatten b))
  have haq : AABBQuery.new b pts = some ⟨b, pts, nodes⟩ := by
    unfold AABBQuery.new
    rw [if_neg hpts, if_neg, hn]
    · rfl
    · rintro ⟨h2, q, hq, hz⟩
      rw [inCell_planar hs.inBox.valid (hs.inBox.inside q hq) h2] at hz
      norm_num at hz
  have hsome : ∀ i q, ∃ out, AABBQuery.Query true ⟨b, pts, nodes⟩ (setDefault p qp.isNone) q i out := by
    intro i q
    obtain ⟨out, ho⟩ := (C22_single_raises_iff ⟨b, pts, nodes⟩ q i r (p.rMin.getD 0)
      ((setDefault p qp.isNone).excludeII.getD false)).mpr ⟨hr, hmin, hhalf⟩
    exact ⟨out, (query_ball_iff hball' hr _ q i out).mpr ho⟩
  choose g hg using hsome
  exact ⟨_, _, preprocess_ball hf hqp hp hball, ⟨b, pts, nodes⟩, fun i => g i (qpts.getD i 0), haq,
    fun i q hq => by
      have : qpts.getD i 0 = q := by rw [List.getD_eq_getElem?_getD, hq]; rfl
      simp only [this]; exact hg i q, rfl⟩

/-! ### Cases -/

/-- Two particles near opposite faces of a tilted cell. -/
noncomputable def formCell : PeriodCell := .ofNumbers 10 8 6 (1 / 2) 0 (1 / 4) false
def formPoints : List (Vec3 ℝ) := [⟨0, 0, 0⟩, ⟨1, 0, 0⟩]
noncomputable def formArr : Arr := ⟨[2, 3], [0, 0, 0, 1, 0, 0]⟩

theorem formArr_holds : Arr.Holds formArr formPoints := ⟨rfl, by simp [formArr, formPoints]⟩

theorem formCell_standard : Standard formCell :=
  ⟨⟨by norm_num [formCell, PeriodCell.ofNumbers], rfl, rfl⟩, ⟨by norm_num [formCell, PeriodCell.ofNumbers], rfl⟩,
    by norm_num [formCell, PeriodCell.ofNumbers]⟩

-- the forms of one tilted system meet the hypotheses of `C87_forms_partial` and
-- `C87_same_system_partial`
example : SystemForm.Describes (.snapshot [10, 8, 6, 1 / 2, 0, 1 / 4] 3 formArr) formCell formPoints :=
  ⟨⟨10, 8, 6, 1 / 2, 0, 1 / 4, rfl, .inr ⟨rfl, by norm_num⟩, by simp [formCell]⟩, formArr_holds⟩
example : SystemForm.Describes (.ovito ![![10, 4, 0], ![0, 8, 3 / 2], ![0, 0, 6]] false formArr) formCell
    formPoints := by
  refine ⟨?_, formArr_holds⟩
  show formCell = ⟨⟨10, 0, 0⟩, ⟨4, 8, 0⟩, ⟨0, 3 / 2, 6⟩, false⟩
  simp only [formCell, PeriodCell.ofNumbers]
  norm_num
example : SystemForm.Describes (.state ⟨some 10, some 8, some 6, some (1 / 2), some 0, some (1 / 4), some 3⟩
    formArr) formCell formPoints :=
  ⟨⟨10, 8, 6, 1 / 2, 0, 1 / 4, 3, rfl, .inr rfl, by simp [formCell]⟩, formArr_holds⟩
example : SystemForm.Describes (.object (.dict ⟨some 10, some 8, some 6, some (1 / 2), none,
    some (1 / 4), none⟩) formArr) formCell formPoints :=
  ⟨⟨10, 8, rfl, rfl, by simp [formCell]⟩, formArr_holds⟩

-- a flat snapshot, whose z-length is set to 1 by HOOMD
example : ∃ b, fromSystem (.snapshot [10, 8, 1, 0, 0, 0] 2 formArr) = some (b, formPoints) ∧
    b.is2D = true ∧ b.L.z = 0 := by
  obtain ⟨b, h1, h2, h3, -⟩ := C87_forms_partial (.snapshot [10, 8, 1, 0, 0, 0] 2 formArr)
    (.ofNumbers 10 8 1 0 0 0 true) formPoints
    ⟨⟨10, 8, 1, 0, 0, 0, rfl, .inl rfl, by simp⟩, formArr_holds⟩
    ⟨⟨by norm_num [PeriodCell.ofNumbers], rfl, rfl⟩, ⟨by norm_num [PeriodCell.ofNumbers], rfl⟩, by simp [PeriodCell.ofNumbers]⟩
    (fun m a e => by cases e)
  have hf : b.is2D = true := congrArg PeriodCell.flat h3
  exact ⟨b, h1, hf, h2.Lz_2D hf⟩

-- the hypotheses of `C87_call_bonds` and `C87_call_accepted`: the default arguments of an RDF
example : ∃ pre all, preprocess (some (spatialHistogramArgs 2)) (.pair (.list [10, 10, 10]) formArr) none
      .none = some pre ∧ pre.Bonds all ∧
    (⟨0, 1, Vec3.norm ⟨1, 0, 0⟩, 1, ⟨1, 0, 0⟩⟩ : Bond ℝ) ∈ all ∧ ∀ bd ∈ all, bd.q ≠ bd.p := by
  have hf : fromSystem (.pair (.list [10, 10, 10]) formArr) =
      some (Box.mk' 10 10 10 0 0 0 false, formPoints) := by
    simp [fromSystem, rawPoints, convertBox, fromBoxLike, fromList, boxOf, pyBox,
      C87_points _ _ formArr_holds]
  have hball : Spec.IsBallArgs (spatialHistogramArgs 2) 2 := ⟨rfl, .inr (.inr rfl), rfl, rfl⟩
  have hs : PeriodicSystem (Box.mk' 10 10 10 0 0 0 false) formPoints formPoints := by
    have hin : ∀ p ∈ formPoints, InCell (Box.mk' 10 10 10 0 0 0 false : Box ℝ) p := by
      intro p hp
      simp only [formPoints, List.mem_cons, List.not_mem_nil, or_false] at hp
      rcases hp with rfl | rfl <;> apply cube_inCell <;> norm_num [abs_le]
    exact ⟨⟨cube_valid, cube_positive, hin⟩, ⟨rfl, rfl, rfl⟩, hin⟩
  have hh : BelowHalf (Box.mk' 10 10 10 0 0 0 false : Box ℝ) 2 := cube_half (by norm_num)
  obtain ⟨pre, all, h1, h2⟩ := C87_call_accepted (some (spatialHistogramArgs 2)) _ _ _ formPoints none .none
    (spatialHistogramArgs 2) 2 hf rfl (.inr ⟨rfl, rfl⟩) hball (by norm_num)
    (by norm_num [spatialHistogramArgs]) hs hh (by simp [formPoints])
  obtain ⟨h3, -⟩ := C87_call_bonds (some (spatialHistogramArgs 2)) _ _ _ formPoints none .none
    (spatialHistogramArgs 2) 2 hf rfl (.inr ⟨rfl, rfl⟩) hball (by norm_num)
    (by norm_num [spatialHistogramArgs]) hs hh pre h1 all h2
  refine ⟨pre, all, h1, h2, (h3 _).mpr ⟨⟨0, 0, 0⟩, rfl, rfl, rfl, rfl, by simp, norm_nonneg' _, ?_,
    ⟨1, 0, 0⟩, rfl, ⟨0, 0, 0⟩, ⟨by simp, by simp, by simp⟩, ?_⟩, fun bd hbd => ?_⟩
  · rw [norm_lt_iff _ _ (by norm_num)]; norm_num [Vec3.dot]
  · rw [cube_lattice]; ext <;> simp
  · obtain ⟨q, -, -, -, -, h, -⟩ := (h3 bd).mp hbd
    exact fun e => h (by simp [spatialHistogramArgs]) e.symm

end Freud
