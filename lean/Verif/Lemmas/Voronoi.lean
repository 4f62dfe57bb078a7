import Verif.Spec.Voronoi
import Verif.Props.Registration
import Mathlib.Tactic.FieldSimp
import Mathlib.Tactic.Ring
import Mathlib.Tactic.Linarith
import Mathlib.Tactic.LinearCombination

/-!
# Lemmas on Voronoi diagrams
-/

set_option linter.unusedSectionVars false

namespace Freud
open Spec

namespace Voronoi

theorem triple_flat {A : Type*} (f : A → Vec3 ℝ) (l : List A) (k : ℕ) :
    triple (l.flatMap (fun a => comps (f a))) k = (l[k]?).map f := by
  induction l generalizing k with
  | nil => simp [triple]
  | cons a l ih =>
    cases k with
    | zero => simp [triple, comps]
    | succ k =>
      have e : ∀ j, ((a :: l).flatMap (fun a => comps (f a)))[3 * (k + 1) + j]? =
          (l.flatMap (fun a => comps (f a)))[3 * k + j]? := by
        intro j
        rw [List.flatMap_cons, List.getElem?_append_right (by simp [comps]; omega)]
        congr 1
        simp [comps]; omega
      have ih := ih k
      unfold triple at ih ⊢
      have e0 := e 0
      simp only [Nat.add_zero] at e0
      rw [e0, e 1, e 2, ih, List.getElem?_cons_succ]

theorem triple_comps (l : List (Vec3 ℝ)) (k : ℕ) : triple (l.flatMap comps) k = l[k]? := by
  have := triple_flat (fun v : Vec3 ℝ => v) l k
  rw [this, Option.map_id']

theorem maxElement_mem (f : Vec3 ℝ → ℝ) (rest : List (Vec3 ℝ)) (first : Vec3 ℝ) :
    maxElement f first rest ∈ first :: rest := by
  unfold maxElement
  induction rest generalizing first with
  | nil => simp
  | cons v rest ih =>
    rw [List.foldl_cons]
    have := ih (if f first < f v then v else first)
    rw [List.mem_cons] at this
    rcases this with h | h
    · rw [h]
      split_ifs <;> simp
    · simp [h]

/-- The vertex found is a vertex of the face. -/
theorem chooseVertex_spec (c : Cell) (normal : Vec3 ℝ) (pre post : List Ridge) (r : Ridge)
    (hr : c.ridges = pre ++ r :: post) (hne : r.verts ≠ [])
    (hv : ∀ i ∈ r.verts, ∃ v, c.verts[i]? = some v) :
    let fi := (pre.flatMap (fun r => r.verts.length :: r.verts)).length
    (raw c).faceVertices[fi]? = some r.verts.length ∧
    ∃ i ∈ r.verts, ∃ v, c.verts[i]? = some v ∧ chooseVertex (raw c) normal fi = some v := by
  intro fi
  have hfv : (raw c).faceVertices = pre.flatMap (fun r => r.verts.length :: r.verts) ++
      ((r.verts.length :: r.verts) ++ post.flatMap (fun r => r.verts.length :: r.verts)) := by
    simp only [raw, hr, List.flatMap_append, List.flatMap_cons]
  have h1 : (raw c).faceVertices[fi]? = some r.verts.length := by
    rw [hfv, List.getElem?_append_right (le_refl _), Nat.sub_self]; rfl
  have hdrop : (raw c).faceVertices.drop (fi + 1) =
      r.verts ++ post.flatMap (fun r => r.verts.length :: r.verts) := by
    rw [hfv, ← List.drop_drop, List.drop_left]; rfl
  have htake : ((raw c).faceVertices.drop (fi + 1)).take (r.verts.length - 1) =
      r.verts.take (r.verts.length - 1) := by
    rw [hdrop, List.take_append_of_le_length (by omega)]
  have hpos : r.verts.length ≠ 0 := by simpa using hne
  refine ⟨h1, ?_⟩
  have hm : (r.verts.take (r.verts.length - 1)).mapM (triple (raw c).vertices) =
      some ((r.verts.take (r.verts.length - 1)).map (fun i => c.verts.getD i ⟨0, 0, 0⟩)) := by
    apply Reg.mapM_some_of
    intro i hi
    obtain ⟨v, hv⟩ := hv i (List.mem_of_mem_take hi)
    show triple (c.verts.flatMap comps) i = _
    rw [triple_comps, hv, List.getD_eq_getElem?_getD, hv, Option.getD_some]
  unfold chooseVertex
  rw [h1, Option.bind_some, if_neg hpos, htake, hm, Option.bind_some]
  cases hcase : r.verts.take (r.verts.length - 1) with
  | nil =>
    obtain ⟨i, is, hi⟩ := List.exists_cons_of_ne_nil hne
    obtain ⟨v, hv⟩ := hv i (by rw [hi]; simp)
    refine ⟨i, by rw [hi]; simp, v, hv, ?_⟩
    simp only [List.map_nil]
    have : (raw c).faceVertices[fi + 1]? = some i := by
      have h3 : ((raw c).faceVertices.drop (fi + 1))[0]? = some i := by rw [hdrop, hi]; rfl
      rwa [List.getElem?_drop, Nat.add_zero] at h3
    rw [this, Option.bind_some]
    show triple (c.verts.flatMap comps) i = _
    rw [triple_comps, hv]
  | cons j js =>
    simp only [List.map_cons]
    have hmem := maxElement_mem (cosine (raw c).pos normal)
      (js.map (fun i => c.verts.getD i ⟨0, 0, 0⟩)) (c.verts.getD j ⟨0, 0, 0⟩)
    rw [← List.map_cons (f := fun i => c.verts.getD i ⟨0, 0, 0⟩), List.mem_map] at hmem
    obtain ⟨i, hi, e⟩ := hmem
    rw [← hcase] at hi
    have hi' := List.mem_of_mem_take hi
    obtain ⟨v, hv⟩ := hv i hi'
    refine ⟨i, hi', v, hv, ?_⟩
    rw [← e, List.getD_eq_getElem?_getD, hv, Option.getD_some]

theorem dot_norm (v : Vec3 ℝ) : Vec3.norm v ^ 2 = Vec3.dot v v := by
  unfold Vec3.norm
  rw [Real.sq_sqrt]
  simp only [Vec3.dot]
  nlinarith [sq_nonneg v.x, sq_nonneg v.y, sq_nonneg v.z]

theorem norm_nonneg' (v : Vec3 ℝ) : 0 ≤ Vec3.norm v := Real.sqrt_nonneg _

/-- The projection of a vertex of the ridge, doubled, is the vector to the image. -/
theorem project (c : Cell) (r : Ridge) (h : RidgeOK c r) (hpos : Vec3.norm (r.image - c.pos) ≠ 0)
    (v : Vec3 ℝ) (hv : Vec3.norm (v - c.pos) = Vec3.norm (v - r.image)) :
    Vec3.smul (2 * Vec3.dot (v - c.pos) r.normal) r.normal = r.image - c.pos := by
  set d := Vec3.norm (r.image - c.pos) with hd
  have ht := h.towards
  rw [← hd] at ht
  have e : Vec3.dot (v - c.pos) (v - c.pos) = Vec3.dot (v - r.image) (v - r.image) := by
    rw [← dot_norm, ← dot_norm, hv]
  have hx := congrArg Vec3.x ht
  have hy := congrArg Vec3.y ht
  have hz := congrArg Vec3.z ht
  have hu := h.unit
  simp only [Vec3.sub_x, Vec3.sub_y, Vec3.sub_z, Vec3.smul_x, Vec3.smul_y, Vec3.smul_z, Vec3.dot]
    at hx hy hz hu e
  have key : 2 * Vec3.dot (v - c.pos) r.normal = d := by
    apply mul_left_cancel₀ hpos
    simp only [Vec3.dot, Vec3.sub_x, Vec3.sub_y, Vec3.sub_z]
    have ex : r.image.x = c.pos.x + d * r.normal.x := by linarith
    have ey : r.image.y = c.pos.y + d * r.normal.y := by linarith
    have ez : r.image.z = c.pos.z + d * r.normal.z := by linarith
    rw [ex, ey, ez] at e
    linear_combination e + d ^ 2 * hu
  rw [key, ht]

theorem norm_ne_zero {c : Cell} {r : Ridge} (h : RidgeOK c r) : Vec3.norm (r.image - c.pos) ≠ 0 := by
  intro h0
  apply h.apart
  have ht := h.towards
  rw [h0] at ht
  have hx := congrArg Vec3.x ht
  have hy := congrArg Vec3.y ht
  have hz := congrArg Vec3.z ht
  simp only [Vec3.sub_x, Vec3.sub_y, Vec3.sub_z, Vec3.smul_x, Vec3.smul_y, Vec3.smul_z, zero_mul]
    at hx hy hz
  ext <;> linarith

theorem skip_iff (is2D : Bool) {c : Cell} {r : Ridge} (h : RidgeOK c r) :
    skip is2D r.normal = true ↔ Horizontal is2D r := by
  unfold skip Horizontal
  have hn : ¬ (r.normal.x = 0 ∧ r.normal.y = 0 ∧ r.normal.z = 0) := by
    rintro ⟨h1, h2, h3⟩
    have := h.unit
    simp [Vec3.dot, h1, h2, h3] at this
  simp [hn]

/-- The bonds of a list of ridges. -/
noncomputable def bondsOf (is2D : Bool) (c : Cell) (rs : List Ridge) : List (Bond ℝ) :=
  ridgeBonds is2D { c with ridges := rs }

theorem bondsOf_cons (is2D : Bool) (c : Cell) (r : Ridge) (rs : List Ridge) [Decidable (Horizontal is2D r)] :
    bondsOf is2D c (r :: rs) = (if Horizontal is2D r then [] else
      [⟨c.pid, r.neighbor, Vec3.norm (r.image - c.pos), r.area, r.image - c.pos⟩]) ++
        bondsOf is2D c rs := by
  classical
  unfold bondsOf ridgeBonds
  simp only [List.filter_cons]
  by_cases h : Horizontal is2D r
  · rw [if_neg (by simpa using h), if_pos h, List.nil_append]
  · rw [if_pos (by simpa using h), if_neg h, List.map_cons]; rfl

theorem faceLoop_spec (is2D : Bool) (c : Cell) (hc : ∀ r ∈ c.ridges, RidgeOK c r) :
    ∀ (post pre : List Ridge), c.ridges = pre ++ post →
    faceLoop is2D (raw c) pre.length (pre.flatMap (fun r => r.verts.length :: r.verts)).length
      (post.map (·.neighbor)) = some (bondsOf is2D c post) := by
  classical
  intro post
  induction post with
  | nil => intro pre _; rfl
  | cons r post ih =>
    intro pre hr
    have hok := hc r (by rw [hr]; simp)
    obtain ⟨h1, i, hi, v, hv, hch⟩ := chooseVertex_spec c r.normal pre post r hr hok.verts
      (fun i hi => (hok.bisects i hi).imp fun v hv => hv.1)
    have hn : triple (raw c).normals pre.length = some r.normal := by
      show triple (c.ridges.flatMap (fun r => comps r.normal)) pre.length = _
      rw [triple_flat (fun r : Ridge => r.normal), hr, List.getElem?_append_right (le_refl _),
        Nat.sub_self]; rfl
    have ha : (raw c).faceAreas[pre.length]? = some r.area := by
      show (c.ridges.map (·.area))[pre.length]? = _
      rw [hr, List.getElem?_map, List.getElem?_append_right (le_refl _), Nat.sub_self]; rfl
    have hrec := ih (pre ++ [r]) (by rw [hr]; simp)
    have e1 : (pre ++ [r]).length = pre.length + 1 := by simp
    have e2 : ((pre ++ [r]).flatMap (fun r => r.verts.length :: r.verts)).length =
        (pre.flatMap (fun r => r.verts.length :: r.verts)).length + (r.verts.length + 1) := by
      simp
    rw [e1, e2] at hrec
    rw [List.map_cons]
    simp only [faceLoop]
    rw [hn, Option.bind_some, h1]
    simp only [Option.bind_some]
    rw [hrec]
    have hb : faceBond (raw c) r.normal pre.length
        (pre.flatMap (fun r => r.verts.length :: r.verts)).length r.neighbor =
        some ⟨c.pid, r.neighbor, Vec3.norm (r.image - c.pos), r.area, r.image - c.pos⟩ := by
      unfold faceBond
      rw [ha, Option.bind_some, hch, Option.map_some]
      obtain ⟨v', hv', hb⟩ := hok.bisects i hi
      rw [hv, Option.some.injEq] at hv'
      subst hv'
      have := project c r hok (norm_ne_zero hok) v hb
      show some (Bond.ofVec c.pid r.neighbor r.area
        (Vec3.smul (2 * Vec3.dot (v - c.pos) r.normal) r.normal)) = _
      rw [this]; rfl
    rw [bondsOf_cons]
    by_cases hh : Horizontal is2D r
    · rw [if_pos ((skip_iff is2D hok).mpr hh), if_pos hh]; rfl
    · rw [if_neg (fun h => hh ((skip_iff is2D hok).mp h)), if_neg hh, hb]; rfl

/-- The vertices of the polytope, relative to the particle, before sorting. -/
noncomputable def kept (is2D : Bool) (c : Cell) : List (Vec3 ℝ) :=
  if is2D then (c.verts.filter (fun v => decide (0 ≤ v.z))).map (fun v => ⟨v.x, v.y, 0⟩ - c.pos)
  else c.verts.map (· - c.pos)

theorem relativeVertices_spec (is2D : Bool) (pos : Vec3 ℝ) (vs : List (Vec3 ℝ)) :
    relativeVertices is2D pos (vs.flatMap comps) = some (
      if is2D then (vs.filter (fun v => decide (0 ≤ v.z))).map (fun v => ⟨v.x, v.y, 0⟩ - pos)
      else vs.map (· - pos)) := by
  induction vs with
  | nil => cases is2D <;> rfl
  | cons v vs ih =>
    rw [List.flatMap_cons]
    simp only [comps, List.cons_append, List.nil_append, relativeVertices]
    rw [ih]
    cases is2D
    · simp
    · by_cases hz : v.z < 0
      · simp [hz, not_le.mpr hz]
      · simp [hz, not_lt.mp hz]

end Voronoi
end Freud
