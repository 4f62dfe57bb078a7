import Verif.Spec.BoxArrays
import Verif.Lemmas.BoxArrays
import Mathlib.Data.Rat.Floor
import Mathlib.Data.List.GetD

/-!
# C96: the array methods of `Box` act row by row and change nothing else
-/

namespace Freud
open Spec BoxArrays

set_option linter.unusedSectionVars false

section General
variable {K : Type*}

/-- The row `i` of the array at `d`. -/
def rowAt (mem : ℕ → K) (d i : ℕ) : Vec3 K := ⟨mem (d + 3 * i), mem (d + (3 * i + 1)), mem (d + (3 * i + 2))⟩

theorem vectors_range' (mem : ℕ → K) (n d : ℕ) :
    vectors ((List.range' d (3 * n)).map mem) = (List.range n).map (rowAt mem d) := by
  induction n generalizing d with
  | zero => rfl
  | succ n ih =>
    rw [show 3 * (n + 1) = 3 * n + 1 + 1 + 1 from by ring, List.range'_succ, List.range'_succ, List.range'_succ,
      List.range_succ_eq_map]
    simp only [List.map_cons, vectors, List.map_map]
    rw [show d + 1 + 1 + 1 = d + 3 from rfl, ih]
    congr 1
    apply List.map_congr_left
    intro i _
    simp only [rowAt, Function.comp_apply, Nat.succ_eq_add_one]
    congr 2 <;> ring

theorem contiguous_iff {a : Arr} : a.contiguous = true ↔ a.cells = List.range' a.data a.cells.length := by
  simp [Arr.contiguous, Arr.data]

theorem range'_head (d m : ℕ) : (List.range' d m) = List.range' ((List.range' d m).headD 0) m := by
  cases m with
  | zero => rfl
  | succ m => simp [List.range'_succ]

/-- What is known about the array the loops read. -/
structure Loaded (h h1 : Heap K) (vecs v : Arr) (n : ℕ) : Prop where
  shape : v.shape = [n, 3]
  cells : v.cells = List.range' v.data (3 * n)
  vals : v.cells.map h1.mem = vecs.cells.map h.mem
  kept : ∀ c < h.next, h1.mem c = h.mem c
  le : h.next ≤ h1.next
  old : ∀ c ∈ v.cells, c < h1.next
  from_ : (v.cells = vecs.cells ∧ vecs.f32 = true ∧ vecs.contiguous = true) ∨
    ((vecs.f32 = false ∨ vecs.contiguous = false) ∧ ∀ c ∈ v.cells, h.next ≤ c)
  f32 : v.f32 = true

theorem atleast2d_cells (a : Arr) : (atleast2d a).cells = a.cells ∧ (atleast2d a).f32 = a.f32 ∧
    (atleast2d a).contiguous = a.contiguous := by
  unfold atleast2d
  split <;> simp [Arr.contiguous]

theorem atleast2d_shape {a : Arr} {n : ℕ} (h : IsVectors a n) : (atleast2d a).shape = [n, 3] := by
  unfold atleast2d
  rcases h with h | ⟨h, rfl⟩ <;> simp [h]

theorem copy_spec (h : Heap K) (a : Arr) (ho : ∀ c ∈ a.cells, c < h.next) :
    (h.copy a).2.cells.map (h.copy a).1.mem = a.cells.map h.mem ∧
    (∀ c < h.next, (h.copy a).1.mem c = h.mem c) ∧ (∀ c ∈ (h.copy a).2.cells, h.next ≤ c) ∧
    (∀ c ∈ (h.copy a).2.cells, c < (h.copy a).1.next) ∧ h.next ≤ (h.copy a).1.next := by
  refine ⟨?_, fun c hc => ?_, fun c hc => ?_, fun c hc => ?_, by simp [Heap.copy]⟩
  · apply List.ext_getElem
    · simp [Heap.copy]
    · intro i h1 h2
      simp only [List.length_map] at h2
      simp [Heap.copy, h2]
  · simp only [Heap.copy]; rw [if_neg]; omega
  · simp only [Heap.copy, List.mem_range'_1] at hc; exact hc.1
  · simp only [Heap.copy, List.mem_range'_1] at hc ⊢; exact hc.2

theorem shapeOK_vectors (s : List ℕ) : shapeOK s [none, some 3] = true ↔ ∃ n, s = [n, 3] := by
  match s with
  | [] => simp [shapeOK]
  | [a] => simp [shapeOK]
  | [a, c] => simp [shapeOK]; exact eq_comm
  | a :: c :: d :: s => simp [shapeOK]

theorem shapeOK_some (s w : List ℕ) : shapeOK s (w.map some) = true ↔ s = w := by
  induction s generalizing w with
  | nil => cases w <;> simp [shapeOK]
  | cons a s ih =>
    cases w with
    | nil => simp [shapeOK]
    | cons c w =>
      have := ih w
      simp only [shapeOK, List.length_map, Bool.and_eq_true, beq_iff_eq, List.length_cons, List.map_cons,
        List.zip_cons_cons, List.all_cons, Option.isNone_some, Bool.false_or, Nat.add_right_cancel_iff,
        List.cons.injEq, Option.some.injEq] at this ⊢
      rw [← this]
      tauto

theorem convert_loaded {h : Heap K} {vecs : Arr} {n : ℕ} (hl : Live h vecs) (hs : IsVectors vecs n) :
    ∃ h1 v, convert h (atleast2d vecs) [none, some 3] true = some (h1, v) ∧ Loaded h h1 vecs v n := by
  obtain ⟨c1, c2, c3⟩ := atleast2d_cells vecs
  have hlen : vecs.cells.length = 3 * n := by
    rw [hl.size]
    rcases hs with e | ⟨e, rfl⟩ <;> simp [e, Nat.mul_comm]
  have hsh := atleast2d_shape hs
  unfold convert Heap.require
  simp only [Bool.not_true, Bool.false_and]
  rw [if_neg (by simp)]
  by_cases hr : ((atleast2d vecs).f32 && (atleast2d vecs).contiguous) = true
  · simp only [hr, if_true]
    rw [if_pos ((shapeOK_vectors _).mpr ⟨n, hsh⟩)]
    rw [Bool.and_eq_true, c2, c3] at hr
    refine ⟨_, _, rfl, hsh, ?_, by rw [c1], fun _ _ => rfl, le_rfl, by rw [c1]; exact hl.old, Or.inl ⟨c1, hr⟩,
      by rw [c2]; exact hr.1⟩
    have := contiguous_iff.mp hr.2
    rw [hlen] at this
    unfold Arr.data
    rw [c1]; exact this
  · rw [if_neg hr]
    have hsh' : (h.copy (atleast2d vecs)).2.shape = [n, 3] := hsh
    rw [if_pos ((shapeOK_vectors _).mpr ⟨n, hsh'⟩)]
    obtain ⟨d1, d2, d3, d4, d5⟩ := copy_spec h (atleast2d vecs) (by rw [c1]; exact hl.old)
    rw [Bool.and_eq_true, c2, c3, not_and_or, Bool.not_eq_true, Bool.not_eq_true] at hr
    refine ⟨_, _, rfl, hsh, ?_, by rw [← c1]; exact d1, d2, d5, d4, Or.inr ⟨hr, d3⟩, rfl⟩
    simp only [Heap.copy, Arr.data, c1, hlen]
    exact range'_head _ _

variable [Zero K]

theorem run_rows (f : ℕ → Vec3 K → Vec3 K) (mem : ℕ → K) {v o : Arr} {n : ℕ}
    (hv : v.cells = List.range' v.data (3 * n)) (ho : o.cells = List.range' o.data (3 * n))
    (hap : o.cells = v.cells ∨ ∀ c ∈ o.cells, c ∉ v.cells) {ev : List Op} (hev : Schedule 3 3 n ev) :
    vectors (o.cells.map ((rowLoop f v.data o.data).run mem ev)) =
      (vectors (v.cells.map mem)).mapIdx f ∧
    ∀ c ∉ o.cells, (rowLoop f v.data o.data).run mem ev c = mem c := by
  rcases Nat.eq_zero_or_pos n with rfl | hn
  · have e1 : o.cells = [] := by rw [ho]; rfl
    have e2 : v.cells = [] := by rw [hv]; rfl
    have e3 : ev = [] := hev.1.eq_nil
    rw [e1, e2, e3]
    exact ⟨rfl, fun _ _ => rfl⟩
  have hd : v.data = o.data ∨ v.data + 3 * n ≤ o.data ∨ o.data + 3 * n ≤ v.data := by
    rcases hap with e | h
    · left; unfold Arr.data; rw [e]
    · right
      by_contra hc
      rw [not_or, Nat.not_le, Nat.not_le] at hc
      rw [hv, ho] at h
      simp only [List.mem_range'_1] at h
      rcases Nat.le_total v.data o.data with h' | h'
      · exact h o.data ⟨le_rfl, by omega⟩ ⟨h', hc.1⟩
      · exact h v.data ⟨h', hc.2⟩ ⟨le_rfl, by omega⟩
  obtain ⟨h1, h2⟩ := rowLoop_spec f v.data o.data n mem ev hev hd
  refine ⟨?_, fun c hc => h2 c ?_⟩
  · rw [ho, hv, vectors_range', vectors_range']
    apply List.ext_getElem
    · simp
    · intro i hi hi'
      simp only [List.length_map, List.length_range] at hi
      have e0 := h1 i hi 0 (by norm_num)
      have e1 := h1 i hi 1 (by norm_num)
      have e2 := h1 i hi 2 (by norm_num)
      simp only [ofVec, List.getD_cons_zero, List.getD_cons_succ, Nat.add_zero] at e0 e1 e2
      simp only [List.getElem_map, List.getElem_range, List.getElem_mapIdx]
      unfold rowAt
      rw [e0, e1, e2]
  · rw [ho, List.mem_range'_1] at hc
    omega

theorem squeeze_row (o : Arr) (h : o.shape = [1, 3]) : (squeeze o).shape = [3] ∧ (squeeze o).cells = o.cells := by
  simp [squeeze, h]

/-- The output array of a call. -/
theorem convertOut_none (h : Heap K) (n : ℕ) :
    (h.empty [n, 3]).2.shape = [n, 3] ∧ (h.empty [n, 3]).2.cells = List.range' (h.empty [n, 3]).2.data (3 * n) ∧
    (∀ c ∈ (h.empty [n, 3]).2.cells, h.next ≤ c ∧ c < (h.empty [n, 3]).1.next) := by
  refine ⟨rfl, ?_, fun c hc => ?_⟩
  · simp only [Heap.empty, Arr.data, List.prod_cons, List.prod_nil, mul_one, Nat.mul_comm n 3]
    exact range'_head _ _
  · simp only [Heap.empty, List.mem_range'_1] at hc ⊢
    exact hc

theorem convertOut_some (h : Heap K) (o : Arr) (n : ℕ) :
    convertOut h (some o) [n, 3] = if o.shape = [n, 3] ∧ o.f32 = true ∧ o.contiguous = true ∧ o.writable = true
      then some (h, o) else none := by
  unfold convertOut convert Heap.require
  dsimp only
  by_cases h1 : (o.f32 && o.contiguous) = true
  · have h1' := h1
    rw [Bool.and_eq_true] at h1'
    rw [if_pos h1]
    by_cases h2 : o.shape = [n, 3]
    · have h3 := (shapeOK_some o.shape [n, 3]).mpr h2
      simp only [Bool.not_true, Bool.and_false, Bool.false_eq_true, if_false, h3, if_true, Option.bind_some]
      simp [h1', h2]
    · have h3 : ¬ shapeOK o.shape ([n, 3].map some) = true := fun h => h2 ((shapeOK_some o.shape [n, 3]).mp h)
      simp only [Bool.not_true, Bool.and_false, Bool.false_eq_true, if_false, Option.bind_none]
      rw [if_neg h3, if_neg fun h => h2 h.1]
      rfl
  · have h1' := h1
    rw [Bool.and_eq_true] at h1'
    rw [if_neg h1, if_pos (by rfl), if_neg fun h => h1' ⟨h.2.1, h.2.2.1⟩]
    rfl

theorem mapIdx_const {A B : Type*} (f : A → B) (l : List A) : l.mapIdx (fun _ => f) = l.map f := by
  apply List.ext_getElem <;> simp

end General

variable {K : Type*} [Field K] [LinearOrder K] [IsStrictOrderedRing K] [FloorRing K]

/-- **C96**: `make_absolute`, `make_fractional` and `wrap` without the argument `out` return a new array of
the same shape, whose rows are the results for the rows of the argument, for every order in which the
threads access the memory. Nothing else changes: neither the argument nor any other array. -/
theorem C96_new_array (m : Method) (b : Box K) (h : Heap K) (vecs : Arr) (n : ℕ) (hl : Live h vecs)
    (hs : IsVectors vecs n) (hn : n < 2 ^ 32) (ev : List Op)
    (hev : Schedule 3 3 (n % 2 ^ 32) ev) :
    ∃ h' r, BoxArrays.apply m b h vecs none ev = some (h', r) ∧ r.shape = vecs.shape ∧ Live h' r ∧ Fresh h r ∧
      vectors (values h' r) = (vectors (values h vecs)).map (m.point b) ∧ OnlyChanges [] h h' := by
  rw [Nat.mod_eq_of_lt hn] at hev
  obtain ⟨h1, v, e, hv⟩ := convert_loaded hl hs
  obtain ⟨s1, s2, s3⟩ := convertOut_none h1 n
  have hap : ∀ c ∈ (h1.empty [n, 3]).2.cells, c ∉ v.cells := fun c hc hc' =>
    absurd (hv.old c hc') (by have := (s3 c hc).1; omega)
  obtain ⟨r1, r2⟩ := run_rows (fun _ => m.point b) (h1.empty [n, 3]).1.mem hv.cells s2 (Or.inr hap) hev
  have hsz : (h1.empty [n, 3]).2.cells.length = 3 * n := by rw [s2]; simp
  have hres : ∀ r : Arr, r.cells = (h1.empty [n, 3]).2.cells → r.shape = vecs.shape →
      Live ⟨(rowLoop (fun _ => m.point b) v.data (h1.empty [n, 3]).2.data).run (h1.empty [n, 3]).1.mem ev,
        (h1.empty [n, 3]).1.next⟩ r ∧ Fresh h r := by
    intro r hc hr
    refine ⟨⟨?_, fun c h' => (s3 c (hc ▸ h')).2⟩, fun c h' => le_trans hv.le (s3 c (hc ▸ h')).1⟩
    rw [hc, hsz, hr]
    rcases hs with e' | ⟨e', rfl⟩ <;> simp [e', Nat.mul_comm]
  have hvals : vectors ((h1.empty [n, 3]).2.cells.map ((rowLoop (fun _ => m.point b) v.data
      (h1.empty [n, 3]).2.data).run (h1.empty [n, 3]).1.mem ev)) =
      (vectors (values h vecs)).map (m.point b) := by
    rw [r1, show (h1.empty [n, 3]).1.mem = h1.mem from rfl, hv.vals]
    exact mapIdx_const _ _
  have honly : OnlyChanges [] h ⟨(rowLoop (fun _ => m.point b) v.data (h1.empty [n, 3]).2.data).run
      (h1.empty [n, 3]).1.mem ev, (h1.empty [n, 3]).1.next⟩ := by
    intro c hc _
    rw [← hv.kept c hc]
    exact r2 c fun h' => absurd (s3 c h').1 (by have := hv.le; omega)
  unfold BoxArrays.apply
  rw [e, Option.bind_some, hv.shape]
  simp only [convertOut, Option.map_some]
  refine ⟨_, _, rfl, ?_⟩
  rcases hs with hs | ⟨hs, rfl⟩
  · rw [if_neg (by simp [hs])]
    exact ⟨by rw [hs]; rfl, (hres _ rfl (by rw [hs]; rfl)).1, (hres _ rfl (by rw [hs]; rfl)).2, hvals, honly⟩
  · rw [if_pos (by simp [hs])]
    obtain ⟨q1, q2⟩ := squeeze_row (h1.empty [1, 3]).2 s1
    refine ⟨by rw [hs, q1], (hres _ q2 (by rw [hs, q1])).1, (hres _ q2 (by rw [hs, q1])).2, ?_, honly⟩
    unfold values at hvals ⊢
    rw [q2]; exact hvals

/-- **C96**: with the argument `out`, they return this array (as a vector, if the argument is one), with the
same rows in it, and change no other memory. It may be the argument itself or an array that shares no memory
with it; if the argument has to be converted, any array. -/
theorem C96_output_array (m : Method) (b : Box K) (h : Heap K) (vecs o : Arr) (n : ℕ) (hl : Live h vecs)
    (hs : IsVectors vecs n) (hlo : Live h o) (ho : IsOutput o n) (hap : Apart vecs o) (ev : List Op)
    (hn : n < 2 ^ 32) (hev : Schedule 3 3 (n % 2 ^ 32) ev) :
    ∃ h' r, BoxArrays.apply m b h vecs (some o) ev = some (h', r) ∧ r.shape = vecs.shape ∧ r.cells = o.cells ∧
      vectors (values h' o) = (vectors (values h vecs)).map (m.point b) ∧ OnlyChanges o.cells h h' := by
  rw [Nat.mod_eq_of_lt hn] at hev
  obtain ⟨h1, v, e, hv⟩ := convert_loaded hl hs
  have hoc : o.cells = List.range' o.data (3 * n) := by
    have := contiguous_iff.mp ho.contiguous
    rwa [hlo.size, ho.shape, List.prod_cons, List.prod_cons, List.prod_nil, mul_one, Nat.mul_comm] at this
  have hap' : o.cells = v.cells ∨ ∀ c ∈ o.cells, c ∉ v.cells := by
    rcases hv.from_ with ⟨e1, e2, e3⟩ | ⟨-, e2⟩
    · rw [e1]
      rcases hap with h | h | h | h
      · exact Or.inl h
      · exact Or.inr h
      · rw [e2] at h; cases h
      · rw [e3] at h; cases h
    · exact Or.inr fun c hc hc' => absurd (hlo.old c hc) (by have := e2 c hc'; omega)
  obtain ⟨r1, r2⟩ := run_rows (fun _ => m.point b) h1.mem hv.cells hoc hap' hev
  unfold BoxArrays.apply
  rw [e, Option.bind_some, hv.shape, convertOut_some, if_pos ⟨ho.shape, ho.f32, ho.contiguous, ho.writable⟩]
  refine ⟨_, _, rfl, ?_, ?_, ?_, fun c hc hco => ?_⟩
  · rcases hs with hs | ⟨hs, rfl⟩
    · rw [if_neg (by simp [hs])]; rw [hs, ho.shape]
    · rw [if_pos (by simp [hs]), (squeeze_row o ho.shape).1, hs]
  · split <;> rfl
  · unfold values
    rw [r1, hv.vals, mapIdx_const]
  · rw [← hv.kept c hc]
    exact r2 c hco

/-- **C96**: what the methods accept: arrays of shape `(N, 3)` or `(3,)`, and an output array of shape
`(N, 3)`, of type `float32`, contiguous and writable. -/
theorem C96_accepted_iff (m : Method) (b : Box K) (h : Heap K) (vecs : Arr) (hl : Live h vecs) (out : Option Arr)
    (ev : List Op) :
    (∃ res, BoxArrays.apply m b h vecs out ev = some res) ↔
      ∃ n, IsVectors vecs n ∧ ∀ o, out = some o → IsOutput o n := by
  constructor
  · rintro ⟨res, hres⟩
    have hsh : ∃ n, IsVectors vecs n := by
      unfold BoxArrays.apply at hres
      obtain ⟨v, hv, -⟩ := Option.bind_eq_some_iff.mp hres
      unfold convert at hv
      rw [if_neg (by simp)] at hv
      have hk : ((h.require (atleast2d vecs)).1.2).shape = (atleast2d vecs).shape := by
        unfold Heap.require
        split <;> rfl
      rw [hk] at hv
      by_cases hok : shapeOK (atleast2d vecs).shape [none, some 3] = true
      · obtain ⟨n, hn⟩ := (shapeOK_vectors _).mp hok
        unfold atleast2d at hn
        split at hn
        · simp at hn
        · rename_i k hk'
          simp only [List.cons.injEq, and_true] at hn
          exact ⟨1, Or.inr ⟨by rw [hk', hn.2], rfl⟩⟩
        · exact ⟨n, Or.inl hn⟩
      · rw [if_neg hok] at hv; cases hv
    obtain ⟨n, hn⟩ := hsh
    refine ⟨n, hn, fun o ho => ?_⟩
    subst ho
    obtain ⟨h1, v, e, hv⟩ := convert_loaded hl hn
    unfold BoxArrays.apply at hres
    rw [e, Option.bind_some, hv.shape, convertOut_some] at hres
    by_cases hc : o.shape = [n, 3] ∧ o.f32 = true ∧ o.contiguous = true ∧ o.writable = true
    · exact ⟨hc.1, hc.2.1, hc.2.2.1, hc.2.2.2⟩
    · rw [if_neg hc] at hres; cases hres
  · rintro ⟨n, hn, ho⟩
    obtain ⟨h1, v, e, hv⟩ := convert_loaded hl hn
    unfold BoxArrays.apply
    rw [e, Option.bind_some, hv.shape]
    cases out with
    | none => exact ⟨_, rfl⟩
    | some o =>
      have := ho o rfl
      rw [convertOut_some, if_pos ⟨this.shape, this.f32, this.contiguous, this.writable⟩]
      exact ⟨_, rfl⟩

/-- **C96**: working in place gives what working on a copy gives. -/
theorem C96_in_place (m : Method) (b : Box K) (h : Heap K) (a : Arr) (n : ℕ) (hl : Live h a) (ho : IsOutput a n)
    (hn : n < 2 ^ 32)
    (ev ev' : List Op) (hev : Schedule 3 3 (n % 2 ^ 32) ev) (hev' : Schedule 3 3 (n % 2 ^ 32) ev') :
    ∃ h1 r1 h2 r2, BoxArrays.apply m b h a (some a) ev = some (h1, r1) ∧
      BoxArrays.apply m b h a none ev' = some (h2, r2) ∧ r1.cells = a.cells ∧
      vectors (values h1 a) = vectors (values h2 r2) := by
  obtain ⟨h1, r1, e1, -, c1, v1, -⟩ := C96_output_array m b h a a n hl (Or.inl ho.shape) hl ho (Or.inl rfl) ev hn hev
  obtain ⟨h2, r2, e2, -, -, -, v2, -⟩ := C96_new_array m b h a n hl (Or.inl ho.shape) hn ev' hev'
  exact ⟨h1, r1, h2, r2, e1, e2, c1, by rw [v1, v2]⟩

/-! ### `unwrap` -/

/-- A single row is used `n` times. -/
def Spec.spread {A : Type*} (n : ℕ) : List A → List A
  | [a] => List.replicate n a
  | l => l

theorem spread_of_ne {A : Type*} {n : ℕ} {l : List A} (h : l.length ≠ 1) : spread n l = l := by
  match l, h with
  | [], _ => rfl
  | [a], h => simp at h
  | a :: c :: l, _ => rfl

theorem vectors_flatMap {A K : Type*} (x y z : A → K) (l : List A) :
    vectors (l.flatMap fun i => [x i, y i, z i]) = l.map fun i => ⟨x i, y i, z i⟩ := by
  induction l with
  | nil => rfl
  | cons a l ih => simp [vectors, ih]

theorem vectors_length {K : Type*} (r : ℕ) (l : List K) (h : l.length = 3 * r) : (vectors l).length = r := by
  induction r generalizing l with
  | zero =>
    have e : l = [] := List.length_eq_zero_iff.mp (by simpa using h)
    subst e; rfl
  | succ r ih =>
    match l, h with
    | [], h => simp at h
    | [_], h => simp at h; omega
    | [_, _], h => simp at h; omega
    | a :: c :: d :: l, h =>
      simp only [vectors, List.length_cons] at h ⊢
      rw [ih l (by omega)]

theorem flatMap_cells (l : List ℕ) (r : ℕ) (h : l.length = 3 * r) :
    ((List.range r).flatMap fun i => (List.range 3).map fun j => l.getD (i * 3 + j) 0) = l := by
  induction r generalizing l with
  | zero =>
    have e : l = [] := List.length_eq_zero_iff.mp (by simpa using h)
    subst e; rfl
  | succ r ih =>
    match l, h with
    | [], h => simp at h
    | [_], h => simp at h; omega
    | [_, _], h => simp at h; omega
    | a :: c :: d :: l, h =>
      simp only [List.length_cons] at h
      have := ih l (by omega)
      rw [List.range_succ_eq_map (n := r), List.flatMap_cons, List.flatMap_map]
      have e : ∀ i, (List.range 3).map (fun j => (a :: c :: d :: l).getD (i.succ * 3 + j) 0) =
          (List.range 3).map fun j => l.getD (i * 3 + j) 0 := by
        intro i
        apply List.map_congr_left
        intro j _
        rw [show i.succ * 3 + j = i * 3 + j + 1 + 1 + 1 from by rw [Nat.succ_eq_add_one]; ring]
        simp only [List.getD_cons_succ]
      simp only [e, this]
      rfl

theorem broadcast_spec {K : Type*} {h : Heap K} {a : Arr} {r m : ℕ} (hl : Live h a) (hs : a.shape = [r, 3])
    (hm : m = r ∨ m = 1 ∨ r = 1) :
    ∃ B, broadcast a m = some B ∧ B.shape = [if r = 1 then m else r, 3] ∧ Live h B ∧
      vectors (values h B) = spread (if r = 1 then m else r) (vectors (values h a)) := by
  have hlen : a.cells.length = 3 * r := by rw [hl.size, hs]; simp [Nat.mul_comm]
  have hvl : (vectors (values h a)).length = r := vectors_length _ _ (by simp [values, hlen])
  unfold broadcast
  rw [hs]
  by_cases e : r = m
  · subst e
    refine ⟨a, by simp, by simp [hs], hl, ?_⟩
    by_cases h1 : r = 1
    · obtain ⟨v, hv⟩ := List.length_eq_one_iff.mp (hvl.trans h1)
      rw [hv, if_pos h1, h1]; rfl
    · rw [spread_of_ne (by omega)]
  · dsimp only
    rw [if_neg e, if_pos ⟨by omega, Or.inl rfl⟩]
    refine ⟨_, rfl, rfl, ?_, ?_⟩
    · by_cases h1 : r = 1
      · subst h1
        simp only [if_true]
        refine ⟨?_, fun c hc => ?_⟩
        · simp [List.length_flatMap, Nat.mul_comm]
        · simp only [List.mem_flatMap, List.mem_map, List.mem_range] at hc
          obtain ⟨i, -, j, hj, rfl⟩ := hc
          apply hl.old
          rw [List.getD_eq_getElem _ _ (by simp; omega)]
          exact List.getElem_mem _
      · simp only [if_neg h1, show (3 : ℕ) ≠ 1 from by decide, if_false]
        rw [flatMap_cells _ _ hlen]
        exact ⟨by simp [hlen, Nat.mul_comm], hl.old⟩
    · by_cases h1 : r = 1
      · subst h1
        simp only [if_true, values, show (3 : ℕ) ≠ 1 from by decide, if_false]
        match hc : a.cells, hlen with
        | [c0, c1, c2], _ =>
          have e3 : (List.range 3).map (fun j => [c0, c1, c2].getD (0 * 3 + j) 0) = [c0, c1, c2] := rfl
          simp only [e3, List.map_flatMap, List.map_cons, List.map_nil]
          rw [vectors_flatMap (fun _ => h.mem c0) (fun _ => h.mem c1) fun _ => h.mem c2]
          simp [vectors, spread]
      · simp only [if_neg h1, show (3 : ℕ) ≠ 1 from by decide, if_false, values]
        rw [flatMap_cells _ _ hlen, spread_of_ne]
        rw [← hvl] at h1; exact h1

/-- **C96**: `unwrap` moves the row `i` by the images of the row `i`, where a single vector or a single row
of images is used for all rows. It works on a copy of the positions, so that the output array may overlap
them in any way. -/
theorem C96_unwrap (b : Box K) (h : Heap K) (vecs : Arr) (n N : ℕ) (hl : Live h vecs) (hs : IsVectors vecs n)
    (imgs : List (Vec3 ℤ)) (hi : imgs.length = n ∨ imgs.length = 1 ∨ n = 1)
    (hN : N = if n = 1 then imgs.length else n) (out : Option Arr)
    (ho : ∀ o, out = some o → Live h o ∧ IsOutput o N) (ev : List Op) (hn : N < 2 ^ 32)
    (hev : Schedule 3 3 (N % 2 ^ 32) ev) :
    ∃ h' r, BoxArrays.unwrap b h vecs imgs out ev = some (h', r) ∧
      vectors (values h' r) = List.zipWith b.unwrap (spread N (vectors (values h vecs))) (spread N imgs) ∧
      match out with
      | none => Fresh h r ∧ OnlyChanges [] h h'
      | some o => r.cells = o.cells ∧ OnlyChanges o.cells h h' := by
  rw [Nat.mod_eq_of_lt hn] at hev
  obtain ⟨c1, c2, c3⟩ := atleast2d_cells vecs
  have hsh := atleast2d_shape hs
  have hla : Live h (atleast2d vecs) := by
    refine ⟨?_, by rw [c1]; exact hl.old⟩
    rw [c1, hl.size, hsh]
    rcases hs with e | ⟨e, rfl⟩ <;> simp [e]
  obtain ⟨B, eB, sB, lB, vB⟩ := broadcast_spec hla hsh hi
  rw [← hN] at sB vB
  obtain ⟨h1, v1, e1, hv1⟩ := convert_loaded lB (Or.inl sB : IsVectors B N)
  have e2 : atleast2d B = B := by unfold atleast2d; rw [sB]
  rw [e2] at e1
  obtain ⟨d1, d2, d3, d4, d5⟩ := copy_spec h1 v1 hv1.old
  have hvc : (h1.copy v1).2.cells = List.range' (h1.copy v1).2.data (3 * N) := by
    have : v1.cells.length = 3 * N := by rw [hv1.cells]; simp
    simp only [Heap.copy, Arr.data, this]
    exact range'_head _ _
  have hvs : (h1.copy v1).2.shape = [N, 3] := hv1.shape
  have hvals : vectors ((h1.copy v1).2.cells.map (h1.copy v1).1.mem) = spread N (vectors (values h vecs)) := by
    rw [d1, hv1.vals]
    have : values h (atleast2d vecs) = values h vecs := by unfold values; rw [c1]
    rw [← this, ← vB]; rfl
  have hlenv : (spread N (vectors (values h vecs))).length = N := by
    rw [← hvals]
    apply vectors_length
    rw [hvc]; simp
  have hzip : ∀ l : List (Vec3 K), l.length = N → l.mapIdx (fun i p => b.unwrap p
      (if imgs.length = 1 then imgs.getD 0 ⟨0, 0, 0⟩ else imgs.getD i ⟨0, 0, 0⟩)) =
      List.zipWith b.unwrap l (spread N imgs) := by
    intro l hlen
    by_cases hi1 : imgs.length = 1
    · obtain ⟨g, rfl⟩ := List.length_eq_one_iff.mp hi1
      apply List.ext_getElem
      · simp [spread, hlen]
      · intro i _ _; simp [spread]
    · rw [spread_of_ne hi1]
      have hN' : imgs.length = N := by rw [hN]; split <;> omega
      apply List.ext_getElem
      · simp [hlen, hN']
      · intro i hi' _
        simp only [List.length_mapIdx, hlen] at hi'
        have hi2 : i < imgs.length := by omega
        simp only [List.getElem_mapIdx, List.getElem_zipWith, if_neg hi1, List.getD_eq_getElem _ _ hi2]
  unfold BoxArrays.unwrap
  rw [eB, Option.bind_some, e1, Option.bind_some]
  dsimp only
  rw [hvs]
  cases out with
  | none =>
    obtain ⟨s1, s2, s3⟩ := convertOut_none (h1.copy v1).1 N
    have hap : ∀ c ∈ ((h1.copy v1).1.empty [N, 3]).2.cells, c ∉ (h1.copy v1).2.cells := fun c hc hc' =>
      absurd (d4 c hc') (by have := (s3 c hc).1; omega)
    obtain ⟨r1, r2⟩ := run_rows (fun i p => b.unwrap p
      (if imgs.length = 1 then imgs.getD 0 ⟨0, 0, 0⟩ else imgs.getD i ⟨0, 0, 0⟩))
      ((h1.copy v1).1.empty [N, 3]).1.mem hvc s2 (Or.inr hap) hev
    refine ⟨_, _, rfl, ?_, ?_, ?_⟩
    · rw [← hzip _ hlenv, ← hvals]
      refine Eq.trans ?_ r1
      unfold values
      congr 2
      by_cases hv1 : vecs.shape.length = 1
      · rw [if_pos hv1]; rfl
      · rw [if_neg hv1]
    · have : Fresh h ((h1.copy v1).1.empty [N, 3]).2 := fun c hc =>
        le_trans hv1.le (le_trans d5 (s3 c hc).1)
      split
      · exact this
      · exact this
    · intro c hc _
      rw [← hv1.kept c hc, ← d2 c (lt_of_lt_of_le hc hv1.le)]
      exact r2 c fun h' => absurd (s3 c h').1 (by have := hv1.le; omega)
  | some o =>
    obtain ⟨hlo, hoo⟩ := ho o rfl
    have hoc : o.cells = List.range' o.data (3 * N) := by
      have := contiguous_iff.mp hoo.contiguous
      rwa [hlo.size, hoo.shape, List.prod_cons, List.prod_cons, List.prod_nil, mul_one, Nat.mul_comm] at this
    obtain ⟨r1, r2⟩ := run_rows (fun i p => b.unwrap p
      (if imgs.length = 1 then imgs.getD 0 ⟨0, 0, 0⟩ else imgs.getD i ⟨0, 0, 0⟩))
      (h1.copy v1).1.mem hvc hoc (Or.inr fun c hc hc' => absurd (hlo.old c hc)
        (by have := d3 c hc'; have := hv1.le; omega)) hev
    rw [convertOut_some, if_pos ⟨hoo.shape, hoo.f32, hoo.contiguous, hoo.writable⟩]
    refine ⟨_, _, rfl, ?_, ?_, ?_⟩
    · rw [← hzip _ hlenv, ← hvals]
      refine Eq.trans ?_ r1
      unfold values
      congr 2
      by_cases hv1 : vecs.shape.length = 1
      · rw [if_pos hv1]; rfl
      · rw [if_neg hv1]
    · split <;> rfl
    · intro c hc hco
      rw [← hv1.kept c hc, ← d2 c (lt_of_lt_of_le hc hv1.le)]
      exact r2 c hco

/-! ### Methods that make their output themselves -/

theorem run_scalars {K : Type*} [Zero K] (l : Loop K) (hO : l.nOut = 1) (mem : ℕ → K) {o : Arr} {N : ℕ}
    (ho : o.cells = List.range' o.data N) (ha : ∀ t < N, l.addrOut t 0 = o.data + t)
    (hin : ∀ t < N, ∀ j < l.nIn, l.addrIn t j ∉ o.cells) {ev : List Op} (hev : Schedule l.nIn 1 N ev) :
    o.cells.map (l.run mem ev) = (List.range N).map (fun t => l.value mem t 0) ∧
    ∀ c ∉ o.cells, l.run mem ev c = mem c := by
  obtain ⟨h1, h2⟩ := l.run_spec N mem ev (by rw [hO]; exact hev)
    (by
      intro t ht t' ht' k hk k' hk' e
      rw [hO] at hk hk'
      obtain rfl : k = 0 := by omega
      obtain rfl : k' = 0 := by omega
      rw [ha t ht, ha t' ht'] at e
      exact ⟨by omega, rfl⟩)
    (by
      intro t ht t' ht' k hk j hj e
      rw [hO] at hk
      obtain rfl : k = 0 := by omega
      rw [ha t ht] at e
      refine absurd ?_ (hin t' ht' j hj)
      rw [← e, ho, List.mem_range'_1]
      omega)
  refine ⟨?_, fun c hc => h2 c ?_⟩
  · rw [ho]
    apply List.ext_getElem
    · simp
    · intro i hi hi'
      simp only [List.length_map, List.length_range'] at hi
      simp only [List.getElem_map, List.getElem_range'_1, List.getElem_range]
      rw [← ha i hi]
      exact h1 i hi 0 (by rw [hO]; norm_num)
  · intro t ht k hk e
    rw [hO] at hk
    obtain rfl : k = 0 := by omega
    rw [ha t ht] at e
    refine hc ?_
    rw [ho, List.mem_range'_1]
    omega

theorem empty_cells {K : Type*} (h : Heap K) (shape : List ℕ) :
    (h.empty shape).2.cells = List.range' (h.empty shape).2.data shape.prod ∧
    ∀ c ∈ (h.empty shape).2.cells, h.next ≤ c ∧ c < (h.empty shape).1.next := by
  refine ⟨range'_head _ _, fun c hc => ?_⟩
  simp only [Heap.empty, List.mem_range'_1] at hc ⊢
  exact hc

theorem Loaded.rows {K : Type*} {h h1 : Heap K} {vecs v : Arr} {n : ℕ} (hv : Loaded h h1 vecs v n) :
    vectors (values h vecs) = (List.range n).map (rowAt h1.mem v.data) := by
  unfold values
  rw [← hv.vals, hv.cells, vectors_range']

/-- **C96**: `get_images` returns a new array with the image of each row and changes nothing else. -/
theorem C96_images (b : Box K) (h : Heap K) (vecs : Arr) (n : ℕ) (hl : Live h vecs) (hs : IsVectors vecs n)
    (ev : List Op) (hn : n < 2 ^ 32) (hev : Schedule 3 3 (n % 2 ^ 32) ev) :
    ∃ h' r, BoxArrays.getImages b h vecs ev = some (h', r) ∧ r.shape = vecs.shape ∧ Fresh h r ∧
      vectors (values h' r) = (vectors (values h vecs)).map (fun p =>
        ⟨((b.getImage p).x : K), ((b.getImage p).y : K), ((b.getImage p).z : K)⟩) ∧ OnlyChanges [] h h' := by
  rw [Nat.mod_eq_of_lt hn] at hev
  obtain ⟨h1, v, e, hv⟩ := convert_loaded hl hs
  obtain ⟨s1, s2, s3⟩ := convertOut_none h1 n
  have hap : ∀ c ∈ (h1.empty [n, 3]).2.cells, c ∉ v.cells := fun c hc hc' =>
    absurd (hv.old c hc') (by have := (s3 c hc).1; omega)
  obtain ⟨r1, r2⟩ := run_rows (fun _ p => ⟨((b.getImage p).x : K), ((b.getImage p).y : K), ((b.getImage p).z : K)⟩)
    (h1.empty [n, 3]).1.mem hv.cells s2 (Or.inr hap) hev
  rw [show (h1.empty [n, 3]).1.mem = h1.mem from rfl, hv.vals, mapIdx_const] at r1
  unfold BoxArrays.getImages
  rw [e, Option.map_some]
  dsimp only
  rw [hv.shape]
  refine ⟨_, _, rfl, ?_, ?_, ?_, fun c hc _ => ?_⟩
  · rcases hs with hs | ⟨hs, rfl⟩
    · rw [if_neg (by simp [hs]), hs]; rfl
    · rw [if_pos (by simp [hs]), hs]; rfl
  · have : Fresh h (h1.empty [n, 3]).2 := fun c hc => le_trans hv.le (s3 c hc).1
    split <;> exact this
  · unfold values
    rw [← r1]
    congr 2
    by_cases h3 : vecs.shape.length = 1
    · rw [if_pos h3]; rfl
    · rw [if_neg h3]
  · rw [← hv.kept c hc]
    exact r2 c fun h' => absurd (s3 c h').1 (by have := hv.le; omega)

/-- **C96**: `contains` returns a new array that says for each row whether it is in the box, and changes
nothing else. -/
theorem C96_contains (b : Box K) (h : Heap K) (points : Arr) (n : ℕ) (hl : Live h points) (hs : IsVectors points n)
    (ev : List Op) (hn : n < 2 ^ 32) (hev : Schedule 3 1 (n % 2 ^ 32) ev) :
    ∃ h' r, BoxArrays.contains b h points ev = some (h', r) ∧ r.shape = [n] ∧ Fresh h r ∧
      values h' r = (vectors (values h points)).map (fun p => if b.contains p then 1 else 0) ∧
      OnlyChanges [] h h' := by
  rw [Nat.mod_eq_of_lt hn] at hev
  obtain ⟨h1, v, e, hv⟩ := convert_loaded hl hs
  obtain ⟨s2, s3⟩ := empty_cells h1 [n]
  rw [List.prod_singleton] at s2
  obtain ⟨r1, r2⟩ := run_scalars ⟨3, 1, fun t j => v.data + (3 * t + j), fun t _ => (h1.empty [n]).2.data + t,
      fun _ l => [if b.contains (toVec l) then 1 else 0]⟩ rfl (h1.empty [n]).1.mem s2 (fun _ _ => rfl)
    (by
      intro t ht j hj hc
      have h3 := (s3 _ hc).1
      have h4 := hv.old (v.data + (3 * t + j)) (by rw [hv.cells, List.mem_range'_1]; simp only at hj; omega)
      simp only at h3
      omega) hev
  unfold BoxArrays.contains
  rw [e, Option.map_some]
  dsimp only
  rw [hv.shape, List.headD_cons]
  refine ⟨_, _, rfl, rfl, fun c hc => le_trans hv.le (s3 c hc).1, ?_, fun c hc _ => ?_⟩
  · refine Eq.trans r1 ?_
    rw [hv.rows, List.map_map]
    rfl
  · rw [← hv.kept c hc]
    exact r2 c fun h' => absurd (s3 c h').1 (by have := hv.le; omega)

/-- The two arrays of points of the distance methods. -/
theorem convert_two {h : Heap ℝ} {q p : Arr} {n m : ℕ} (hq : Live h q) (hp : Live h p) (sq : IsVectors q n)
    (sp : IsVectors p m) : ∃ h1 v h2 w, convert h (atleast2d q) [none, some 3] true = some (h1, v) ∧
      convert h1 (atleast2d p) [none, some 3] true = some (h2, w) ∧ v.shape = [n, 3] ∧ w.shape = [m, 3] ∧
      vectors (values h q) = (List.range n).map (rowAt h2.mem v.data) ∧
      vectors (values h p) = (List.range m).map (rowAt h2.mem w.data) ∧ (∀ c < h.next, h2.mem c = h.mem c) ∧
      h.next ≤ h2.next ∧ (∀ i < n, ∀ j < 3, v.data + (3 * i + j) < h2.next) ∧
      ∀ i < m, ∀ j < 3, w.data + (3 * i + j) < h2.next := by
  obtain ⟨h1, v, e1, hv⟩ := convert_loaded hq sq
  have hp' : Live h1 p := ⟨hp.size, fun c hc => lt_of_lt_of_le (hp.old c hc) hv.le⟩
  obtain ⟨h2, w, e2, hw⟩ := convert_loaded hp' sp
  have old : ∀ i < n, ∀ j < 3, v.data + (3 * i + j) < h1.next := fun i hi j hj =>
    hv.old _ (by rw [hv.cells, List.mem_range'_1]; omega)
  refine ⟨h1, v, h2, w, e1, e2, hv.shape, hw.shape, ?_, ?_, fun c hc => ?_, le_trans hv.le hw.le,
    fun i hi j hj => lt_of_lt_of_le (old i hi j hj) hw.le,
    fun i hi j hj => hw.old _ (by rw [hw.cells, List.mem_range'_1]; omega)⟩
  · rw [hv.rows]
    apply List.map_congr_left
    intro i hi
    have hi := List.mem_range.mp hi
    unfold rowAt
    rw [hw.kept (v.data + 3 * i) (old i hi 0 (by norm_num)), hw.kept _ (old i hi 1 (by norm_num)),
      hw.kept _ (old i hi 2 (by norm_num))]
  · rw [← hw.rows]
    congr 1
    exact List.map_congr_left fun c hc => (hv.kept c (hp.old c hc)).symm
  · rw [hw.kept c (lt_of_lt_of_le hc hv.le), hv.kept c hc]

/-- **C96**: `compute_distances` of two arrays with as many rows returns a new array with the distances of
the rows, and changes nothing else. Arrays with different numbers of rows are refused, also if one of them
has one row only. -/
theorem C96_distances (b : Box ℝ) (h : Heap ℝ) (q p : Arr) (n m : ℕ) (hq : Live h q) (hp : Live h p)
    (sq : IsVectors q n) (sp : IsVectors p m) (hn : n < 2 ^ 32) (hm : m < 2 ^ 32) (ev : List Op)
    (hev : Schedule 6 1 (n % 2 ^ 32) ev) :
    (n ≠ m → BoxArrays.computeDistances b h q p ev = none) ∧
    (n = m → ∃ h' r, BoxArrays.computeDistances b h q p ev = some (h', r) ∧ r.shape = [n] ∧ Fresh h r ∧
      values h' r = List.zipWith b.computeDistance (vectors (values h q)) (vectors (values h p)) ∧
      OnlyChanges [] h h') := by
  rw [Nat.mod_eq_of_lt hn] at hev
  obtain ⟨h1, v, h2, w, e1, e2, t1, t2, v1, v2, k, le, o1, o2⟩ := convert_two hq hp sq sp
  unfold BoxArrays.computeDistances
  rw [e1, Option.bind_some]
  dsimp only
  rw [e2, Option.bind_some]
  dsimp only
  rw [rows32, rows32, t1, t2, List.headD_cons, List.headD_cons, Nat.mod_eq_of_lt hn, Nat.mod_eq_of_lt hm]
  refine ⟨fun hne => if_pos hne, fun heq => ?_⟩
  subst heq
  rw [if_neg (by simp)]
  obtain ⟨s2, s3⟩ := empty_cells h2 [n]
  rw [List.prod_singleton] at s2
  obtain ⟨r1, r2⟩ := run_scalars ⟨6, 1,
      fun t j => if j < 3 then v.data + (3 * t + j) else w.data + (3 * t + (j - 3)),
      fun t _ => (h2.empty [n]).2.data + t,
      fun _ l => [b.computeDistance (toVec (l.take 3)) (toVec (l.drop 3))]⟩ rfl (h2.empty [n]).1.mem s2
    (fun _ _ => rfl)
    (by
      intro t ht j hj hc
      have h3 := (s3 _ hc).1
      simp only at h3 hj
      by_cases h5 : j < 3
      · rw [if_pos h5] at h3; have := o1 t ht j h5; omega
      · rw [if_neg h5] at h3; have := o2 t ht (j - 3) (by omega); omega) hev
  refine ⟨_, _, rfl, rfl, fun c hc => le_trans le (s3 c hc).1, ?_, fun c hc _ => ?_⟩
  · refine Eq.trans r1 ?_
    rw [v1, v2]
    apply List.ext_getElem
    · simp
    · intro i _ _
      simp only [List.getElem_map, List.getElem_range, List.getElem_zipWith]
      rfl
  · rw [← k c hc]
    exact r2 c fun h' => absurd (s3 c h').1 (by omega)

/-- **C96**: `compute_all_distances` returns a new array whose row `i` has the distances of the query point
`i` to all points, and changes nothing else. -/
theorem C96_all_distances (b : Box ℝ) (h : Heap ℝ) (q p : Arr) (n m : ℕ) (hq : Live h q) (hp : Live h p)
    (sq : IsVectors q n) (sp : IsVectors p m) (hn : n < 2 ^ 32) (hm : m < 2 ^ 32) (ev : List Op)
    (hev : Schedule 6 1 (n % 2 ^ 32 * (m % 2 ^ 32)) ev) :
    ∃ h' r, BoxArrays.computeAllDistances b h q p ev = some (h', r) ∧ r.shape = [n, m] ∧ Fresh h r ∧
      values h' r = (vectors (values h q)).flatMap (fun x => (vectors (values h p)).map (b.computeDistance x)) ∧
      OnlyChanges [] h h' := by
  rw [Nat.mod_eq_of_lt hn, Nat.mod_eq_of_lt hm] at hev
  obtain ⟨h1, v, h2, w, e1, e2, t1, t2, v1, v2, k, le, o1, o2⟩ := convert_two hq hp sq sp
  unfold BoxArrays.computeAllDistances
  rw [e1, Option.bind_some]
  dsimp only
  rw [e2, Option.map_some]
  dsimp only
  rw [rows32, t1, t2, List.headD_cons, List.headD_cons, Nat.mod_eq_of_lt hm]
  obtain ⟨s2, s3⟩ := empty_cells h2 [n, m]
  rw [List.prod_cons, List.prod_singleton] at s2
  have hdiv : ∀ t < n * m, t / m < n ∧ t % m < m := by
    intro t ht
    have hm0 : 0 < m := Nat.pos_of_ne_zero fun h0 => by simp [h0] at ht
    exact ⟨Nat.div_lt_of_lt_mul (by rwa [Nat.mul_comm]), Nat.mod_lt _ hm0⟩
  obtain ⟨r1, r2⟩ := run_scalars ⟨6, 1,
      fun t j => if j < 3 then v.data + (3 * (t / m) + j) else w.data + (3 * (t % m) + (j - 3)),
      fun t _ => (h2.empty [n, m]).2.data + ((t / m) * m + t % m),
      fun _ l => [b.computeDistance (toVec (l.take 3)) (toVec (l.drop 3))]⟩ rfl (h2.empty [n, m]).1.mem s2
    (fun t _ => by simp only [Nat.div_add_mod'])
    (by
      intro t ht j hj hc
      have h3 := (s3 _ hc).1
      simp only at h3 hj
      by_cases h5 : j < 3
      · rw [if_pos h5] at h3; have := o1 _ (hdiv t ht).1 j h5; omega
      · rw [if_neg h5] at h3; have := o2 _ (hdiv t ht).2 (j - 3) (by omega); omega) hev
  refine ⟨_, _, rfl, rfl, fun c hc => le_trans le (s3 c hc).1, ?_, fun c hc _ => ?_⟩
  · refine Eq.trans r1 ?_
    rw [v1, v2]
    have grid : ∀ (g : ℕ → ℕ → ℝ) (n : ℕ), (List.range (n * m)).map (fun t => g (t / m) (t % m)) =
        (List.range n).flatMap fun i => (List.range m).map (g i) := by
      intro g n
      induction n with
      | zero => simp
      | succ n ih =>
        rw [Nat.succ_mul, List.range_add, List.map_append, ih, List.range_succ, List.flatMap_append,
          List.flatMap_singleton, List.map_map]
        congr 1
        apply List.map_congr_left
        intro j hj
        have hj := List.mem_range.mp hj
        have hm0 : 0 < m := by omega
        simp only [Function.comp_apply]
        rw [Nat.mul_comm n m, Nat.mul_add_div hm0, Nat.div_eq_of_lt hj, Nat.mul_add_mod, Nat.mod_eq_of_lt hj,
          Nat.add_zero]
    rw [List.flatMap_map]
    simp only [List.map_map]
    exact grid (fun i j => b.computeDistance (rowAt h2.mem v.data i) (rowAt h2.mem w.data j)) n
  · rw [← k c hc]
    exact r2 c fun h' => absurd (s3 c h').1 (by omega)

/-- **C96**: `center` raises if the number of masses is not the number of positions. -/
theorem C96_center_masses (b : Box ℝ) (h : Heap ℝ) (vecs : Arr) (n : ℕ) (hl : Live h vecs)
    (hs : vecs.shape = [n, 3]) (ms : List ℝ) (hm : ms.length ≠ n) (ev : List Op) :
    BoxArrays.center b h vecs (some ms) ev = none := by
  have e2 : atleast2d vecs = vecs := by unfold atleast2d; rw [hs]
  obtain ⟨h1, v1, e1, hv1⟩ := convert_loaded hl (Or.inl hs : IsVectors vecs n)
  rw [e2] at e1
  have hvs : (h1.copy v1).2.shape = [n, 3] := hv1.shape
  unfold BoxArrays.center
  rw [e1, Option.bind_some]
  dsimp only
  rw [hvs, List.headD_cons, Option.getD_some, if_pos hm]

/-- **C96**: `center` returns a new array with the positions relative to the center of mass and leaves its
argument as it was. -/
theorem C96_center (b : Box ℝ) (h : Heap ℝ) (vecs : Arr) (n : ℕ) (hl : Live h vecs) (hs : vecs.shape = [n, 3])
    (hn : n < 2 ^ 32) (masses : Option (List ℝ)) (hm : ∀ ms, masses = some ms → ms.length = n) (ev : List Op)
    (hev : Schedule 3 3 (n % 2 ^ 32) ev) :
    ∃ h' r, BoxArrays.center b h vecs masses ev = some (h', r) ∧ r.shape = [n, 3] ∧ Fresh h r ∧
      vectors (values h' r) = (b.center (List.zip (vectors (values h vecs))
        (masses.getD (List.replicate n 1)))).map Prod.fst ∧
      OnlyChanges [] h h' := by
  rw [Nat.mod_eq_of_lt hn] at hev
  have e2 : atleast2d vecs = vecs := by unfold atleast2d; rw [hs]
  obtain ⟨h1, v1, e1, hv1⟩ := convert_loaded hl (Or.inl hs : IsVectors vecs n)
  rw [e2] at e1
  obtain ⟨d1, d2, d3, d4, d5⟩ := copy_spec h1 v1 hv1.old
  have hvc : (h1.copy v1).2.cells = List.range' (h1.copy v1).2.data (3 * n) := by
    have : v1.cells.length = 3 * n := by rw [hv1.cells]; simp
    simp only [Heap.copy, Arr.data, this]
    exact range'_head _ _
  have hvs : (h1.copy v1).2.shape = [n, 3] := hv1.shape
  have hrows : vectors (values h vecs) = (List.range n).map (rowAt (h1.copy v1).1.mem (h1.copy v1).2.data) := by
    unfold values
    rw [← hv1.vals, ← d1, hvc, vectors_range']
  unfold BoxArrays.center
  rw [e1, Option.bind_some]
  dsimp only
  rw [rows32, hvs, List.headD_cons, Nat.mod_eq_of_lt hn]
  have hlen : (masses.getD (List.replicate n 1)).length = n := by
    cases masses with
    | none => simp
    | some ms => simpa using hm ms rfl
  generalize masses.getD (List.replicate n 1) = ms at hlen
  rw [if_neg (by simp [hlen])]
  have hzip : ((List.range n).map fun i => ((⟨(h1.copy v1).1.mem ((h1.copy v1).2.data + 3 * i),
      (h1.copy v1).1.mem ((h1.copy v1).2.data + (3 * i + 1)),
      (h1.copy v1).1.mem ((h1.copy v1).2.data + (3 * i + 2))⟩ : Vec3 ℝ), ms.getD i 0)) =
      List.zip (vectors (values h vecs)) ms := by
    rw [hrows]
    apply List.ext_getElem
    · simp [hlen]
    · intro i hi _
      simp only [List.length_map, List.length_range] at hi
      simp only [List.getElem_map, List.getElem_range, List.getElem_zip]
      rw [List.getD_eq_getElem _ _ (by omega)]
      rfl
  rw [hzip]
  obtain ⟨r1, r2⟩ := run_rows (fun _ p => b.wrap (p - b.centerOfMass (List.zip (vectors (values h vecs)) ms)))
    (h1.copy v1).1.mem hvc hvc (Or.inl rfl) hev
  refine ⟨_, _, rfl, hvs, fun c hc => le_trans hv1.le (d3 c hc), ?_, fun c hc _ => ?_⟩
  · refine Eq.trans r1 ?_
    rw [mapIdx_const, d1, hv1.vals]
    unfold Box.center
    rw [List.map_map]
    have hl1 : (vectors (values h vecs)).length = n := by rw [hrows]; simp
    apply List.ext_getElem
    · simp only [List.length_map, List.length_zip, hl1, hlen, Nat.min_self]
      exact hl1
    · intro i _ _
      simp only [List.getElem_map, Function.comp_apply, List.getElem_zip]
      rfl
  · rw [← hv1.kept c hc, ← d2 c (lt_of_lt_of_le hc hv1.le)]
    exact r2 c fun h' => absurd (d3 c h') (by have := hv1.le; omega)

/-! ### Limits -/

/-- The cube of side 2. -/
def cubeTwo : Box ℚ := Box.mk' 2 2 2 0 0 0 false

/-- Three points in nine cells of memory, the first of them outside of the cube. -/
def nine : Heap ℚ := ⟨fun c => if c = 0 then 3 / 2 else if c = 3 then 1 / 4 else 0, 9⟩

/-- The first two points, and the last two: views of the same array. -/
def firstTwo : Arr := ⟨[2, 3], true, [0, 1, 2, 3, 4, 5], true⟩
def lastTwo : Arr := ⟨[2, 3], true, [3, 4, 5, 6, 7, 8], true⟩

/-- The iterations one after the other, and the second one first. -/
def inOrder : List Op := ops 3 3 2
def backwards : List Op := (List.range 3).map (Op.read 1) ++ (List.range 3).map (Op.write 1) ++
  (List.range 3).map (Op.read 0) ++ (List.range 3).map (Op.write 0)

/-- **C96** (limit): an output array that overlaps the argument is accepted, and the result then depends on
the order of the iterations: the second row of the result is the wrapped second row if the second iteration
is the first, and the wrapped first row if the iterations follow each other. -/
theorem C96_overlap_counterexample : Live nine firstTwo ∧ IsVectors firstTwo 2 ∧ Live nine lastTwo ∧
    IsOutput lastTwo 2 ∧ Schedule 3 3 2 inOrder ∧ Schedule 3 3 2 backwards ∧
    vectors (values nine firstTwo) = [⟨3 / 2, 0, 0⟩, ⟨1 / 4, 0, 0⟩] ∧
    (∃ h' r, BoxArrays.apply .wrap cubeTwo nine firstTwo (some lastTwo) inOrder = some (h', r) ∧
      vectors (values h' r) = [⟨-1 / 2, 0, 0⟩, ⟨-1 / 2, 0, 0⟩]) ∧
    ∃ h' r, BoxArrays.apply .wrap cubeTwo nine firstTwo (some lastTwo) backwards = some (h', r) ∧
      vectors (values h' r) = [⟨-1 / 2, 0, 0⟩, ⟨1 / 4, 0, 0⟩] := by
  refine ⟨⟨rfl, by decide⟩, Or.inl rfl, ⟨rfl, by decide⟩, ⟨rfl, rfl, by decide, rfl⟩, schedule_seq 3 3 2,
    ⟨?_, ?_⟩, by decide +kernel, ⟨_, _, rfl, by decide +kernel⟩, _, _, rfl, by decide +kernel⟩
  · decide
  · intro t ht j hj k hk
    have : t = 0 ∨ t = 1 := by omega
    rcases this with rfl | rfl
    · exact ⟨(List.range 3).map (Op.read 1) ++ (List.range 3).map (Op.write 1) ++ (List.range 3).map (Op.read 0),
        (List.range 3).map (Op.write 0), rfl, by simp [hj], by simp [hk]⟩
    · exact ⟨(List.range 3).map (Op.read 1), (List.range 3).map (Op.write 1) ++
        ((List.range 3).map (Op.read 0) ++ (List.range 3).map (Op.write 0)), rfl, by simp [hj], by simp [hk]⟩

-- `C96_new_array`, `C96_in_place` and `C96_output_array` applied to them
example : ∃ h' r, BoxArrays.apply .wrap cubeTwo nine firstTwo none inOrder = some (h', r) ∧ r.cells ≠ firstTwo.cells ∧
    vectors (values h' r) = [⟨-1 / 2, 0, 0⟩, ⟨1 / 4, 0, 0⟩] := by
  obtain ⟨h', r, e, -, -, hf, hv, -⟩ := C96_new_array .wrap cubeTwo nine firstTwo 2 ⟨rfl, by decide⟩ (Or.inl rfl)
    (by norm_num) inOrder (schedule_seq 3 3 2)
  refine ⟨h', r, e, fun hc => ?_, by rw [hv]; decide +kernel⟩
  have := hf 0 (by rw [hc]; decide)
  simp [nine] at this

example : ∃ h' r, BoxArrays.apply .wrap cubeTwo nine firstTwo (some firstTwo) backwards = some (h', r) ∧
    vectors (values h' firstTwo) = [⟨-1 / 2, 0, 0⟩, ⟨1 / 4, 0, 0⟩] := by
  obtain ⟨-, -, -, -, -, hb, -⟩ := C96_overlap_counterexample
  obtain ⟨h', r, e, -, -, hv, -⟩ := C96_output_array .wrap cubeTwo nine firstTwo firstTwo 2 ⟨rfl, by decide⟩
    (Or.inl rfl) ⟨rfl, by decide⟩ ⟨rfl, rfl, by decide, rfl⟩ (Or.inl rfl) backwards
    (by norm_num) hb
  exact ⟨h', r, e, by rw [hv]; decide +kernel⟩

-- `C96_unwrap` applied to them, with one row of images and an output array that overlaps
example : ∃ h' r, BoxArrays.unwrap cubeTwo nine firstTwo [⟨1, 0, 0⟩] (some lastTwo) inOrder = some (h', r) ∧
    vectors (values h' r) = [⟨7 / 2, 0, 0⟩, ⟨9 / 4, 0, 0⟩] := by
  obtain ⟨h', r, e, hv, -⟩ := C96_unwrap cubeTwo nine firstTwo 2 2 ⟨rfl, by decide⟩ (Or.inl rfl) [⟨1, 0, 0⟩]
    (Or.inr (Or.inl rfl)) rfl (some lastTwo)
    (fun o ho => by cases ho; exact ⟨⟨rfl, by decide⟩, rfl, rfl, by decide, rfl⟩) inOrder (by norm_num) (schedule_seq 3 3 2)
  exact ⟨h', r, e, by rw [hv]; decide +kernel⟩

-- `C96_images` and `C96_contains` applied to them, and to a single vector
example : ∃ h' r, BoxArrays.getImages cubeTwo nine ⟨[3], false, [0, 2, 1], false⟩ (ops 3 3 1) = some (h', r) ∧
    r.shape = [3] ∧ vectors (values h' r) = [⟨1, 0, 0⟩] := by
  obtain ⟨h', r, e, hs, -, hv, -⟩ := C96_images cubeTwo nine ⟨[3], false, [0, 2, 1], false⟩ 1 ⟨rfl, by decide⟩
    (Or.inr ⟨rfl, rfl⟩) _ (by norm_num) (schedule_seq 3 3 1)
  exact ⟨h', r, e, hs, by rw [hv]; decide +kernel⟩

example : ∃ h' r, BoxArrays.contains cubeTwo nine firstTwo (ops 3 1 2) = some (h', r) ∧ values h' r = [0, 1] := by
  obtain ⟨h', r, e, -, -, hv, -⟩ := C96_contains cubeTwo nine firstTwo 2 ⟨rfl, by decide⟩ (Or.inl rfl) _
    (by norm_num) (schedule_seq 3 1 2)
  exact ⟨h', r, e, by rw [hv]; decide +kernel⟩

/-- The same memory with real numbers. -/
noncomputable def nineReal : Heap ℝ := ⟨fun c => if c = 0 then 3 / 2 else if c = 3 then 1 / 4 else 0, 9⟩

-- the hypotheses of `C96_distances`, `C96_all_distances` and `C96_center`
example (b : Box ℝ) : (∃ h' r, BoxArrays.computeDistances b nineReal firstTwo lastTwo (ops 6 1 2) = some (h', r) ∧
      values h' r = [b.computeDistance ⟨3 / 2, 0, 0⟩ ⟨1 / 4, 0, 0⟩, b.computeDistance ⟨1 / 4, 0, 0⟩ ⟨0, 0, 0⟩]) ∧
    (∃ h' r, BoxArrays.computeAllDistances b nineReal firstTwo lastTwo (ops 6 1 (2 * 2)) = some (h', r) ∧
      values h' r = [b.computeDistance ⟨3 / 2, 0, 0⟩ ⟨1 / 4, 0, 0⟩, b.computeDistance ⟨3 / 2, 0, 0⟩ ⟨0, 0, 0⟩,
        b.computeDistance ⟨1 / 4, 0, 0⟩ ⟨1 / 4, 0, 0⟩, b.computeDistance ⟨1 / 4, 0, 0⟩ ⟨0, 0, 0⟩]) ∧
    ∃ h' r, BoxArrays.center b nineReal firstTwo none (ops 3 3 2) = some (h', r) ∧ Fresh nineReal r := by
  have l1 : Live nineReal firstTwo := ⟨rfl, by simp [firstTwo, nineReal]⟩
  have l2 : Live nineReal lastTwo := ⟨rfl, by simp [lastTwo, nineReal]⟩
  have v1 : vectors (values nineReal firstTwo) = [⟨3 / 2, 0, 0⟩, ⟨1 / 4, 0, 0⟩] := by
    simp [values, firstTwo, nineReal, vectors]
  have v2 : vectors (values nineReal lastTwo) = [⟨1 / 4, 0, 0⟩, ⟨0, 0, 0⟩] := by
    simp [values, lastTwo, nineReal, vectors]
  refine ⟨?_, ?_, ?_⟩
  · obtain ⟨h', r, e, -, -, hv, -⟩ := (C96_distances b nineReal firstTwo lastTwo 2 2 l1 l2 (Or.inl rfl) (Or.inl rfl)
      (by norm_num) (by norm_num) _ (schedule_seq 6 1 2)).2 rfl
    exact ⟨h', r, e, by rw [hv, v1, v2]; rfl⟩
  · obtain ⟨h', r, e, -, -, hv, -⟩ := C96_all_distances b nineReal firstTwo lastTwo 2 2 l1 l2 (Or.inl rfl)
      (Or.inl rfl) (by norm_num) (by norm_num) _ (schedule_seq 6 1 (2 * 2))
    exact ⟨h', r, e, by rw [hv, v1, v2]; rfl⟩
  · obtain ⟨h', r, e, -, hf, -⟩ := C96_center b nineReal firstTwo 2 l1 rfl (by norm_num) none (by simp) _
      (schedule_seq 3 3 2)
    exact ⟨h', r, e, hf⟩

/-- **C96** (limit): the documentation of `out` allows the shape `(3,)`; it is refused, for a single vector
too. -/
theorem C96_flat_output_counterexample (m : Method) (b : Box K) (h : Heap K) (vecs o : Arr) (hl : Live h vecs)
    (ho : o.shape = [3]) (ev : List Op) : BoxArrays.apply m b h vecs (some o) ev = none := by
  rw [Option.eq_none_iff_forall_ne_some]
  intro res hres
  obtain ⟨n, -, h2⟩ := (C96_accepted_iff m b h vecs hl (some o) ev).mp ⟨res, hres⟩
  have := (h2 o rfl).shape
  rw [ho] at this
  simp at this

end Freud
