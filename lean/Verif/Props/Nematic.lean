import Verif.Lemmas.Nematic
import Verif.Spec.Nematic

/-!
# C43: the nematic order parameter
-/

namespace Freud
open Spec
namespace Nematic

/-- The loop of a call runs every particle once and `reduceInto` visits every cell once. -/
def LegalCall (c : Call) : Prop :=
  IsExecution c.orientations.length c.ev ∧ c.order.Perm (List.range 9)

/-- The results a user reads: particle tensor and nematic tensor. -/
structure Tensors (os : List (Vec3 ℝ)) (s : State) : Prop where
  n : s.n = os.length
  shape : ∃ pt, s.particle = some pt ∧ pt.shape = [os.length, 3, 3] ∧
    pt.data.length = 9 * os.length ∧
    ∀ i o, os[i]? = some o → ∀ a < 3, ∀ b < 3,
      pt.data.getD (9 * i + 3 * a + b) 0 = nematicQ o a b
  tshape : s.tensor.shape = [3, 3] ∧ s.tensor.data.length = 9
  mean : ∀ a < 3, ∀ b < 3, s.tensor.data.getD (3 * a + b) 0 = meanOver os (fun o => nematicQ o a b)

theorem qab_eq (o : Vec3 ℝ) (ho : Vec3.dot o o ≠ 0) (a b : ℕ) (ha : a < 3) (hb : b < 3) :
    (qab o).getD (3 * a + b) 0 = nematicQ o a b := by
  have hpos : 0 ≤ Vec3.dot o o := by
    unfold Vec3.dot; nlinarith [mul_self_nonneg o.x, mul_self_nonneg o.y, mul_self_nonneg o.z]
  have hs : Real.sqrt (Vec3.dot o o) * Real.sqrt (Vec3.dot o o) = Vec3.dot o o :=
    Real.mul_self_sqrt hpos
  have hr : (1 / Real.sqrt (Vec3.dot o o)) * (1 / Real.sqrt (Vec3.dot o o)) = 1 / Vec3.dot o o := by
    rw [div_mul_div_comm, hs, one_mul]
  have key : ∀ x y : ℝ, 1.5 * (1 / Real.sqrt (Vec3.dot o o) * x) * (1 / Real.sqrt (Vec3.dot o o) * y) =
      3 * (x * y) / Vec3.dot o o / 2 := by
    intro x y
    have : 1.5 * (1 / Real.sqrt (Vec3.dot o o) * x) * (1 / Real.sqrt (Vec3.dot o o) * y) =
        1.5 * (x * y) * ((1 / Real.sqrt (Vec3.dot o o)) * (1 / Real.sqrt (Vec3.dot o o))) := by ring
    rw [this, hr]; ring
  interval_cases a <;> interval_cases b <;>
    simp only [qab, normalize, Vec3.smul_x, Vec3.smul_y, Vec3.smul_z, nematicQ, coord, key,
      Nat.mul_zero, Nat.mul_one, Nat.zero_add, Nat.add_zero, List.getD_cons_zero,
      List.getD_cons_succ, if_true] <;> norm_num [List.getD_cons_succ, List.getD_cons_zero] <;> ring

/-- One compute, from any state whose storage has the right sizes. -/
theorem compute_spec (solve : Solver) (s : State) (hs : StorageOK [3, 3] s.locals) (c : Call)
    (hc : LegalCall c) (h0 : ∀ o ∈ c.orientations, Vec3.dot o o ≠ 0) :
    ∃ s', compute solve s c = some s' ∧ StorageOK [3, 3] s'.locals ∧ Tensors c.orientations s' ∧
      s'.order = (diagonalize solve s'.tensor.data).1.getD 2 0 ∧
      s'.director = ⟨(diagonalize solve s'.tensor.data).2.getD 6 0,
        (diagonalize solve s'.tensor.data).2.getD 7 0,
        (diagonalize solve s'.tensor.data).2.getD 8 0⟩ := by
  obtain ⟨hev, hord⟩ := hc
  have hlt : ∀ e ∈ c.ev, e.2 < c.orientations.length := fun e he =>
    List.mem_range.mp (hev.subset (List.mem_map_of_mem he))
  obtain ⟨pt, e1, s1, l1, v1⟩ := particle_fold c.orientations.length
    (fun i => qab (c.orientations.getD i ⟨0, 0, 0⟩)) (fun _ => rfl) c.ev hlt
    (MArray.mk' [c.orientations.length, 3, 3]) (by simp [MArray.mk']; omega)
  obtain ⟨t, r, e2, hSO, e3, hrs, hrd⟩ := storage_after_reset [3, 3] c.orientations.length
    (fun i => (qab (c.orientations.getD i ⟨0, 0, 0⟩)).zipIdx.map (fun p => (p.2, p.1)))
    (by
      intro i _ p hp
      simp only [qab, List.zipIdx_cons, List.zipIdx_nil, List.map_cons, List.map_nil, List.mem_cons,
        List.not_mem_nil, or_false] at hp
      rcases hp with rfl | rfl | rfl | rfl | rfl | rfl | rfl | rfl | rfl <;> simp)
    s.locals hs c.ev hev c.order (by simpa using hord)
  refine ⟨_, by
    unfold compute
    simp only [e1, Option.bind_some, e2, e3, Option.map_some]; rfl, hSO,
    ⟨rfl, ⟨pt, rfl, by rw [s1]; rfl, l1, ?_⟩, ⟨hrs, by simp [hrd]⟩, ?_⟩, rfl, rfl⟩
  · intro i o hi a ha b hb
    have hil : i < c.orientations.length := (List.getElem?_eq_some_iff.mp hi).1
    have hm : i ∈ c.ev.map (·.2) := hev.symm.subset (List.mem_range.mpr hil)
    have := v1 i (3 * a + b) (by omega)
    rw [if_pos hm] at this
    rw [show 9 * i + 3 * a + b = 9 * i + (3 * a + b) by omega, this]
    have ho : c.orientations.getD i ⟨0, 0, 0⟩ = o := by
      rw [List.getD_eq_getElem?_getD, hi]; rfl
    rw [ho]
    exact qab_eq o (h0 o (List.mem_of_getElem? hi)) a b ha hb
  · intro a ha b hb
    have hk : 3 * a + b < 9 := by omega
    show (r.data.map _).getD (3 * a + b) 0 = _
    rw [hrd, List.getD_eq_getElem?_getD, List.getElem?_map, List.getElem?_map,
      List.getElem?_range (by simpa using hk)]
    simp only [Option.map_some, Option.getD_some]
    rw [cellTotal_qab _ _ (fun _ => rfl) _ hk]
    unfold meanOver
    rw [mul_one_div]
    congr 2
    apply List.ext_getElem
    · simp
    · intro i h1 h2
      simp only [List.length_map, List.length_range] at h1
      simp only [List.getElem_map, List.getElem_range]
      have ho : c.orientations.getD i ⟨0, 0, 0⟩ = c.orientations[i] := by
        rw [List.getD_eq_getElem?_getD, List.getElem?_eq_getElem h1, Option.getD_some]
      rw [ho]
      exact qab_eq _ (h0 _ (List.getElem_mem h1)) a b ha hb

theorem run_ok (solve : Solver) (h : List Call)
    (hh : ∀ c ∈ h, LegalCall c ∧ ∀ o ∈ c.orientations, Vec3.dot o o ≠ 0) (s : State)
    (hs : StorageOK [3, 3] s.locals) :
    ∃ s', h.foldlM (compute solve) s = some s' ∧ StorageOK [3, 3] s'.locals := by
  induction h generalizing s with
  | nil => exact ⟨s, rfl, hs⟩
  | cons c h ih =>
    obtain ⟨s1, e1, h1, -⟩ := compute_spec solve s hs c (hh c List.mem_cons_self).1
      (hh c List.mem_cons_self).2
    obtain ⟨s2, e2, h2⟩ := ih (fun c hc => hh c (List.mem_cons_of_mem _ hc)) s1 h1
    exact ⟨s2, by rw [List.foldlM_cons, e1]; exact e2, h2⟩

/-- A history of earlier calls, then one more call. -/
theorem run_last (solve : Solver) (h : List Call) (c : Call)
    (hh : ∀ c' ∈ h ++ [c], LegalCall c' ∧ ∀ o ∈ c'.orientations, Vec3.dot o o ≠ 0) :
    ∃ s', run solve (h ++ [c]) = some s' ∧ Tensors c.orientations s' ∧
      s'.order = (diagonalize solve s'.tensor.data).1.getD 2 0 ∧
      s'.director = ⟨(diagonalize solve s'.tensor.data).2.getD 6 0,
        (diagonalize solve s'.tensor.data).2.getD 7 0,
        (diagonalize solve s'.tensor.data).2.getD 8 0⟩ := by
  obtain ⟨s1, e1, h1⟩ := run_ok solve h (fun c' hc => hh c' (by simp [hc])) new
    ⟨rfl, by simp [new]⟩
  have hc := hh c (by simp)
  obtain ⟨s2, e2, -, h2⟩ := compute_spec solve s1 h1 c hc.1 hc.2
  refine ⟨s2, ?_, h2⟩
  unfold run
  rw [List.foldlM_append, e1]
  simp [e2]

end Nematic

/-- **C43** (tensors): after any history of computes on non-zero orientations, whatever the threads
did, entry `(i, a, b)` of the particle tensor is `(3 u_a u_b - δ_ab)/2` of the orientation of
particle `i` in the last call, and the nematic tensor is the mean of the particle tensors. -/
theorem C43_tensors (solve : Nematic.Solver) (h : List Nematic.Call) (c : Nematic.Call)
    (hh : ∀ c' ∈ h ++ [c], Nematic.LegalCall c' ∧ ∀ o ∈ c'.orientations, Vec3.dot o o ≠ 0) :
    ∃ s, Nematic.run solve (h ++ [c]) = some s ∧ Nematic.Tensors c.orientations s := by
  obtain ⟨s, e, ht, -⟩ := Nematic.run_last solve h c hh
  exact ⟨s, e, ht⟩

namespace Nematic

theorem nematicQ_symm (o : Vec3 ℝ) (a b : ℕ) : nematicQ o a b = nematicQ o b a := by
  unfold nematicQ
  rw [mul_comm (coord o a)]
  simp only [eq_comm]

theorem nematicQ_trace (o : Vec3 ℝ) (ho : Vec3.dot o o ≠ 0) :
    nematicQ o 0 0 + nematicQ o 1 1 + nematicQ o 2 2 = 0 := by
  have : Vec3.dot o o / Vec3.dot o o = 1 := div_self ho
  simp only [nematicQ, coord, if_true]
  have e : 3 * (o.x * o.x) / Vec3.dot o o + 3 * (o.y * o.y) / Vec3.dot o o +
      3 * (o.z * o.z) / Vec3.dot o o = 3 * (Vec3.dot o o / Vec3.dot o o) := by
    unfold Vec3.dot; ring
  linarith

theorem meanOver_add (os : List (Vec3 ℝ)) (f g : Vec3 ℝ → ℝ) :
    meanOver os f + meanOver os g = meanOver os (fun o => f o + g o) := by
  unfold meanOver
  rw [← add_div, List.sum_map_add]

theorem meanOver_const_mul (os : List (Vec3 ℝ)) (f : Vec3 ℝ → ℝ) (k : ℝ) :
    k * meanOver os f = meanOver os (fun o => k * f o) := by
  unfold meanOver
  rw [List.sum_map_mul_left, mul_div_assoc]

theorem meanOver_congr (os : List (Vec3 ℝ)) (f g : Vec3 ℝ → ℝ) (h : ∀ o ∈ os, f o = g o) :
    meanOver os f = meanOver os g := by
  unfold meanOver
  rw [List.map_congr_left h]

theorem meanOver_zero (os : List (Vec3 ℝ)) : meanOver os (fun _ => 0) = 0 := by
  simp [meanOver]

theorem meanOver_le (os : List (Vec3 ℝ)) (hos : os ≠ []) (f : Vec3 ℝ → ℝ) (k : ℝ)
    (h : ∀ o ∈ os, f o ≤ k) : meanOver os f ≤ k := by
  unfold meanOver
  have hp : (0 : ℝ) < os.length := by
    exact_mod_cast List.length_pos_iff.mpr hos
  rw [div_le_iff₀ hp]
  have := List.sum_le_card_nsmul (os.map f) k (by
    intro x hx
    obtain ⟨o, ho, rfl⟩ := List.mem_map.mp hx
    exact h o ho)
  simpa [mul_comm] using this

theorem meanOver_eq_iff (os : List (Vec3 ℝ)) (hos : os ≠ []) (f : Vec3 ℝ → ℝ) (k : ℝ)
    (h : ∀ o ∈ os, f o ≤ k) : meanOver os f = k ↔ ∀ o ∈ os, f o = k := by
  constructor
  · intro he
    have hp : (0 : ℝ) < os.length := by exact_mod_cast List.length_pos_iff.mpr hos
    unfold meanOver at he
    rw [div_eq_iff hp.ne'] at he
    have key : ∀ l : List (Vec3 ℝ), (∀ o ∈ l, f o ≤ k) → (l.map f).sum = k * l.length →
        ∀ o ∈ l, f o = k := by
      intro l
      induction l with
      | nil => simp
      | cons a l ih =>
        intro hl hs
        have h1 := List.sum_le_card_nsmul (l.map f) k (by
          intro x hx
          obtain ⟨o, ho, rfl⟩ := List.mem_map.mp hx
          exact hl o (List.mem_cons_of_mem _ ho))
        simp only [List.length_map, nsmul_eq_mul] at h1
        simp only [List.map_cons, List.sum_cons, List.length_cons, Nat.cast_add, Nat.cast_one] at hs
        have h2 := hl a List.mem_cons_self
        have h3 : f a = k := by linarith
        intro o ho
        rcases List.mem_cons.mp ho with rfl | ho
        · exact h3
        · exact ih (fun o ho => hl o (List.mem_cons_of_mem _ ho)) (by rw [h3] at hs; linarith) o ho
    exact key os h he
  · intro he
    have hp : (0 : ℝ) < os.length := by exact_mod_cast List.length_pos_iff.mpr hos
    rw [meanOver_congr os f (fun _ => k) he]
    unfold meanOver
    simp
    field_simp

end Nematic

/-- **C43** (symmetric and traceless): the particle tensor of every particle and the nematic tensor
are symmetric and have zero trace. -/
theorem C43_symmetric_traceless (solve : Nematic.Solver) (h : List Nematic.Call) (c : Nematic.Call)
    (hh : ∀ c' ∈ h ++ [c], Nematic.LegalCall c' ∧ ∀ o ∈ c'.orientations, Vec3.dot o o ≠ 0) :
    ∃ s pt, Nematic.run solve (h ++ [c]) = some s ∧ s.particle = some pt ∧
      (∀ i < c.orientations.length,
        (∀ a < 3, ∀ b < 3, pt.data.getD (9 * i + 3 * a + b) 0 = pt.data.getD (9 * i + 3 * b + a) 0) ∧
        pt.data.getD (9 * i) 0 + pt.data.getD (9 * i + 4) 0 + pt.data.getD (9 * i + 8) 0 = 0) ∧
      (∀ a < 3, ∀ b < 3, s.tensor.data.getD (3 * a + b) 0 = s.tensor.data.getD (3 * b + a) 0) ∧
      s.tensor.data.getD 0 0 + s.tensor.data.getD 4 0 + s.tensor.data.getD 8 0 = 0 := by
  obtain ⟨s, e, ht, -⟩ := Nematic.run_last solve h c hh
  obtain ⟨pt, hpt, -, -, hv⟩ := ht.shape
  have h0 := (hh c (by simp)).2
  refine ⟨s, pt, e, hpt, fun i hi => ⟨fun a ha b hb => ?_, ?_⟩, fun a ha b hb => ?_, ?_⟩
  · rw [hv i _ (List.getElem?_eq_getElem hi) a ha b hb,
      hv i _ (List.getElem?_eq_getElem hi) b hb a ha, Nematic.nematicQ_symm]
  · have e0 := hv i _ (List.getElem?_eq_getElem hi) 0 (by omega) 0 (by omega)
    have e1 := hv i _ (List.getElem?_eq_getElem hi) 1 (by omega) 1 (by omega)
    have e2 := hv i _ (List.getElem?_eq_getElem hi) 2 (by omega) 2 (by omega)
    simp only [Nat.mul_zero, Nat.mul_one, Nat.add_zero, Nat.add_assoc, Nat.reduceMul,
      Nat.reduceAdd] at e0 e1 e2
    rw [e0, e1, e2]
    exact Nematic.nematicQ_trace _ (h0 _ (List.getElem_mem hi))
  · rw [ht.mean a ha b hb, ht.mean b hb a ha]
    simp only [Nematic.nematicQ_symm]
  · have e0 := ht.mean 0 (by omega) 0 (by omega)
    have e1 := ht.mean 1 (by omega) 1 (by omega)
    have e2 := ht.mean 2 (by omega) 2 (by omega)
    simp only [Nat.mul_zero, Nat.mul_one, Nat.add_zero, Nat.reduceMul, Nat.reduceAdd] at e0 e1 e2
    rw [e0, e1, e2, Nematic.meanOver_add, Nematic.meanOver_add,
      Nematic.meanOver_congr _ _ (fun _ => 0) (fun o ho => Nematic.nematicQ_trace o (h0 o ho)),
      Nematic.meanOver_zero]

/-- **C43** (flipping and rescaling): multiplying every orientation by its own non-zero factor, with
any other schedule and after any other history, gives the same particle tensors, nematic tensor,
order parameter and director. -/
theorem C43_flip_rescale (solve : Nematic.Solver) (h h' : List Nematic.Call) (c c' : Nematic.Call)
    (hh : ∀ d ∈ h ++ [c], Nematic.LegalCall d ∧ ∀ o ∈ d.orientations, Vec3.dot o o ≠ 0)
    (hh' : ∀ d ∈ h' ++ [c'], Nematic.LegalCall d ∧ ∀ o ∈ d.orientations, Vec3.dot o o ≠ 0)
    (k : ℕ → ℝ) (hk : ∀ i, k i ≠ 0)
    (hscale : c'.orientations = c.orientations.mapIdx (fun i o => Vec3.smul (k i) o)) :
    ∃ s s', Nematic.run solve (h ++ [c]) = some s ∧ Nematic.run solve (h' ++ [c']) = some s' ∧
      (s.particle.map (·.data)) = (s'.particle.map (·.data)) ∧ s.tensor = s'.tensor ∧
      s.order = s'.order ∧ s.director = s'.director := by
  obtain ⟨s, e, ht, ho, hd⟩ := Nematic.run_last solve h c hh
  obtain ⟨s', e', ht', ho', hd'⟩ := Nematic.run_last solve h' c' hh'
  have hQ : ∀ (o : Vec3 ℝ) (t : ℝ), t ≠ 0 → ∀ a b, nematicQ (Vec3.smul t o) a b = nematicQ o a b := by
    intro o t htz a b
    have hc : ∀ a, coord (Vec3.smul t o) a = t * coord o a := by
      intro a
      rcases a with _ | _ | a <;> rfl
    unfold nematicQ
    rw [hc, hc]
    have e1 : Vec3.dot (Vec3.smul t o) (Vec3.smul t o) = (t * t) * Vec3.dot o o := by
      simp only [Vec3.dot, Vec3.smul_x, Vec3.smul_y, Vec3.smul_z]; ring
    rw [e1, show 3 * (t * coord o a * (t * coord o b)) = (t * t) * (3 * (coord o a * coord o b)) by ring,
      mul_div_mul_left _ _ (mul_ne_zero htz htz)]
  obtain ⟨pt, hpt, -, hl, hv⟩ := ht.shape
  obtain ⟨pt', hpt', -, hl', hv'⟩ := ht'.shape
  have hlen : c'.orientations.length = c.orientations.length := by rw [hscale]; simp
  have htens : s.tensor = s'.tensor := by
    have hd : s.tensor.data = s'.tensor.data := by
      apply List.ext_getElem
      · rw [ht.tshape.2, ht'.tshape.2]
      · intro m h1 h2
        have hm : m < 9 := by rw [← ht.tshape.2]; exact h1
        have a1 := ht.mean (m / 3) (by omega) (m % 3) (by omega)
        have a2 := ht'.mean (m / 3) (by omega) (m % 3) (by omega)
        rw [Nat.div_add_mod, List.getD_eq_getElem?_getD, List.getElem?_eq_getElem h1,
          Option.getD_some] at a1
        rw [Nat.div_add_mod, List.getD_eq_getElem?_getD, List.getElem?_eq_getElem h2,
          Option.getD_some] at a2
        rw [a1, a2]
        unfold meanOver
        rw [hlen]
        congr 2
        apply List.ext_getElem
        · simp [hlen]
        · intro i i1 i2
          simp only [List.getElem_map, hscale, List.getElem_mapIdx, hQ _ _ (hk i)]
    have hsh : s.tensor.shape = s'.tensor.shape := by rw [ht.tshape.1, ht'.tshape.1]
    cases hs1 : s.tensor; cases hs2 : s'.tensor
    rw [hs1, hs2] at hd hsh
    simp only at hd hsh
    rw [hd, hsh]
  refine ⟨s, s', e, e', ?_, htens, ?_, ?_⟩
  · rw [hpt, hpt']
    simp only [Option.map_some, Option.some.injEq]
    apply List.ext_getElem
    · rw [hl, hl', hlen]
    · intro m h1 h2
      have hi : m / 9 < c.orientations.length := by omega
      have hi' : m / 9 < c'.orientations.length := by omega
      have em : 9 * (m / 9) + 3 * (m % 9 / 3) + m % 9 % 3 = m := by omega
      have a1 := hv (m / 9) _ (List.getElem?_eq_getElem hi) (m % 9 / 3) (by omega) (m % 9 % 3) (by omega)
      have a2 := hv' (m / 9) _ (List.getElem?_eq_getElem hi') (m % 9 / 3) (by omega) (m % 9 % 3) (by omega)
      rw [em, List.getD_eq_getElem?_getD, List.getElem?_eq_getElem h1, Option.getD_some] at a1
      rw [em, List.getD_eq_getElem?_getD, List.getElem?_eq_getElem h2, Option.getD_some] at a2
      rw [a1, a2]
      simp only [hscale, List.getElem_mapIdx, hQ _ _ (hk _)]
  · rw [ho, ho', htens]
  · rw [hd, hd', htens]

/-- **C43** (order independence): permuting the particles, with any other schedule and after any
other history, changes neither the nematic tensor nor the order parameter nor the director. -/
theorem C43_permutation (solve : Nematic.Solver) (h h' : List Nematic.Call) (c c' : Nematic.Call)
    (hh : ∀ d ∈ h ++ [c], Nematic.LegalCall d ∧ ∀ o ∈ d.orientations, Vec3.dot o o ≠ 0)
    (hh' : ∀ d ∈ h' ++ [c'], Nematic.LegalCall d ∧ ∀ o ∈ d.orientations, Vec3.dot o o ≠ 0)
    (hperm : c'.orientations.Perm c.orientations) :
    ∃ s s', Nematic.run solve (h ++ [c]) = some s ∧ Nematic.run solve (h' ++ [c']) = some s' ∧
      s.tensor = s'.tensor ∧ s.order = s'.order ∧ s.director = s'.director := by
  obtain ⟨s, e, ht, ho, hd⟩ := Nematic.run_last solve h c hh
  obtain ⟨s', e', ht', ho', hd'⟩ := Nematic.run_last solve h' c' hh'
  have htens : s.tensor = s'.tensor := by
    have hd : s.tensor.data = s'.tensor.data := by
      apply List.ext_getElem
      · rw [ht.tshape.2, ht'.tshape.2]
      · intro m h1 h2
        have hm : m < 9 := by rw [← ht.tshape.2]; exact h1
        have a1 := ht.mean (m / 3) (by omega) (m % 3) (by omega)
        have a2 := ht'.mean (m / 3) (by omega) (m % 3) (by omega)
        rw [Nat.div_add_mod, List.getD_eq_getElem?_getD, List.getElem?_eq_getElem h1,
          Option.getD_some] at a1
        rw [Nat.div_add_mod, List.getD_eq_getElem?_getD, List.getElem?_eq_getElem h2,
          Option.getD_some] at a2
        rw [a1, a2]
        unfold meanOver
        rw [hperm.length_eq, (hperm.map _).sum_eq]
    have hsh : s.tensor.shape = s'.tensor.shape := by rw [ht.tshape.1, ht'.tshape.1]
    cases hs1 : s.tensor; cases hs2 : s'.tensor
    rw [hs1, hs2] at hd hsh
    simp only at hd hsh
    rw [hd, hsh]
  exact ⟨s, s', e, e', htens, by rw [ho, ho', htens], by rw [hd, hd', htens]⟩

namespace Nematic

/-- Orthonormal triples are complete: every vector has squared length the sum of its squared
components. -/
theorem parseval (v : ℕ → Vec3 ℝ)
    (ho : ∀ i < 3, ∀ j < 3, Vec3.dot (v i) (v j) = if i = j then 1 else 0) (d : Vec3 ℝ) :
    (Vec3.dot d (v 0)) ^ 2 + (Vec3.dot d (v 1)) ^ 2 + (Vec3.dot d (v 2)) ^ 2 = Vec3.dot d d ∧
    ∀ a < 3, coord d a = Vec3.dot d (v 0) * coord (v 0) a + Vec3.dot d (v 1) * coord (v 1) a +
      Vec3.dot d (v 2) * coord (v 2) a := by
  let M : Matrix (Fin 3) (Fin 3) ℝ := fun i a => coord (v i) a
  have h1 : M * M.transpose = 1 := by
    ext i j
    rw [Matrix.mul_apply, Fin.sum_univ_three, Matrix.one_apply]
    have := ho i i.isLt j j.isLt
    simp only [Vec3.dot] at this
    simp only [Matrix.transpose_apply, M]
    show (v i).x * (v j).x + (v i).y * (v j).y + (v i).z * (v j).z = _
    rw [this]
    simp only [Fin.ext_iff]
  have h2 : M.transpose * M = 1 := mul_eq_one_comm.mp h1
  have e : ∀ a b : Fin 3, coord (v 0) a * coord (v 0) b + coord (v 1) a * coord (v 1) b +
      coord (v 2) a * coord (v 2) b = if a = b then 1 else 0 := by
    intro a b
    have := congrFun (congrFun h2 a) b
    rw [Matrix.mul_apply, Fin.sum_univ_three, Matrix.one_apply] at this
    exact this
  have e00 := e 0 0
  have e01 := e 0 1
  have e02 := e 0 2
  have e11 := e 1 1
  have e12 := e 1 2
  have e22 := e 2 2
  simp only [coord, Fin.isValue, Fin.val_zero, Fin.val_one, Fin.val_two, if_true] at e00 e01 e02 e11 e12 e22
  rw [if_neg (by decide)] at e01 e02 e12
  constructor
  · simp only [Vec3.dot]
    linear_combination d.x * d.x * e00 + d.y * d.y * e11 + d.z * d.z * e22 +
      2 * d.x * d.y * e01 + 2 * d.x * d.z * e02 + 2 * d.y * d.z * e12
  · intro a ha
    simp only [Vec3.dot]
    interval_cases a
    · simp only [coord]
      linear_combination -d.x * e00 - d.y * e01 - d.z * e02
    · simp only [coord]
      linear_combination -d.x * e01 - d.y * e11 - d.z * e12
    · simp only [coord]
      linear_combination -d.x * e02 - d.y * e12 - d.z * e22

/-- The quadratic form of a matrix. -/
def quad (m : ℕ → ℕ → ℝ) (d : Vec3 ℝ) : ℝ :=
  d.x * (m 0 0 * d.x + m 0 1 * d.y + m 0 2 * d.z) +
  d.y * (m 1 0 * d.x + m 1 1 * d.y + m 1 2 * d.z) +
  d.z * (m 2 0 * d.x + m 2 1 * d.y + m 2 2 * d.z)

theorem quad_decomposition (m : ℕ → ℕ → ℝ) (vals : ℕ → ℝ) (vecs : ℕ → Vec3 ℝ)
    (h : Decomposition m vals vecs) (d : Vec3 ℝ) :
    quad m d = vals 0 * (Vec3.dot d (vecs 0)) ^ 2 + vals 1 * (Vec3.dot d (vecs 1)) ^ 2 +
      vals 2 * (Vec3.dot d (vecs 2)) ^ 2 := by
  obtain ⟨-, hp⟩ := parseval vecs h.orthonormal d
  have p0 := hp 0 (by omega)
  have p1 := hp 1 (by omega)
  have p2 := hp 2 (by omega)
  simp only [coord] at p0 p1 p2
  have row : ∀ r < 3, m r 0 * d.x + m r 1 * d.y + m r 2 * d.z =
      Vec3.dot d (vecs 0) * (vals 0 * coord (vecs 0) r) + Vec3.dot d (vecs 1) * (vals 1 * coord (vecs 1) r) +
      Vec3.dot d (vecs 2) * (vals 2 * coord (vecs 2) r) := by
    intro r hr
    rw [← h.eigen 0 (by omega) r hr, ← h.eigen 1 (by omega) r hr, ← h.eigen 2 (by omega) r hr]
    linear_combination m r 0 * p0 + m r 1 * p1 + m r 2 * p2
  unfold quad
  rw [row 0 (by omega), row 1 (by omega), row 2 (by omega)]
  simp only [coord, Vec3.dot]
  ring

theorem quad_mean (os : List (Vec3 ℝ)) (d : Vec3 ℝ) (hd : Vec3.dot d d = 1) :
    quad (fun r c => meanOver os (fun o => nematicQ o c r)) d = meanOver os (fun o => P2 o d) := by
  rw [meanOver_congr os (fun o => P2 o d) (fun o =>
    d.x * d.x * nematicQ o 0 0 + d.x * d.y * nematicQ o 1 0 + d.x * d.z * nematicQ o 2 0 +
    d.y * d.x * nematicQ o 0 1 + d.y * d.y * nematicQ o 1 1 + d.y * d.z * nematicQ o 2 1 +
    d.z * d.x * nematicQ o 0 2 + d.z * d.y * nematicQ o 1 2 + d.z * d.z * nematicQ o 2 2)]
  · rw [← meanOver_add, ← meanOver_add, ← meanOver_add, ← meanOver_add, ← meanOver_add,
      ← meanOver_add, ← meanOver_add, ← meanOver_add]
    simp only [← meanOver_const_mul]
    unfold quad
    ring
  · intro o _
    have : d.x * d.x + d.y * d.y + d.z * d.z = 1 := hd
    simp only [nematicQ, coord, P2, if_true, Nat.one_ne_zero, if_false, OfNat.ofNat_ne_zero,
      OfNat.ofNat_ne_one, zero_ne_one, Nat.reduceEqDiff]
    simp only [div_eq_mul_inv]
    unfold Vec3.dot
    norm_num
    linear_combination (1 / 2 : ℝ) * this

theorem P2_le_one (o d : Vec3 ℝ) (hd : Vec3.dot d d = 1) (ho : Vec3.dot o o ≠ 0) :
    P2 o d ≤ 1 ∧ (P2 o d = 1 ↔ o = Vec3.smul (Vec3.dot o d) d) := by
  have hpos : 0 < Vec3.dot o o := by
    apply lt_of_le_of_ne _ ho.symm
    unfold Vec3.dot; nlinarith [mul_self_nonneg o.x, mul_self_nonneg o.y, mul_self_nonneg o.z]
  have lag : Vec3.dot o o - (Vec3.dot o d) ^ 2 = (o.x - Vec3.dot o d * d.x) ^ 2 +
      (o.y - Vec3.dot o d * d.y) ^ 2 + (o.z - Vec3.dot o d * d.z) ^ 2 := by
    unfold Vec3.dot at hd ⊢
    linear_combination (-(o.x * d.x + o.y * d.y + o.z * d.z) ^ 2) * hd
  have hle : (Vec3.dot o d) ^ 2 / Vec3.dot o o ≤ 1 := by
    rw [div_le_one hpos]
    nlinarith [sq_nonneg (o.x - Vec3.dot o d * d.x), sq_nonneg (o.y - Vec3.dot o d * d.y),
      sq_nonneg (o.z - Vec3.dot o d * d.z)]
  have eP : P2 o d = (3 * ((Vec3.dot o d) ^ 2 / Vec3.dot o o) - 1) / 2 := by
    unfold P2; ring
  refine ⟨by rw [eP]; linarith, ?_⟩
  constructor
  · intro h
    have h1 : (Vec3.dot o d) ^ 2 / Vec3.dot o o = 1 := by rw [eP] at h; linarith
    rw [div_eq_one_iff_eq ho] at h1
    have hz : (o.x - Vec3.dot o d * d.x) ^ 2 + (o.y - Vec3.dot o d * d.y) ^ 2 +
        (o.z - Vec3.dot o d * d.z) ^ 2 = 0 := by rw [← lag, h1]; ring
    have hx := sq_nonneg (o.x - Vec3.dot o d * d.x)
    have hy := sq_nonneg (o.y - Vec3.dot o d * d.y)
    have hzz := sq_nonneg (o.z - Vec3.dot o d * d.z)
    ext
    · have := pow_eq_zero_iff (two_ne_zero) |>.mp (show (o.x - Vec3.dot o d * d.x) ^ 2 = 0 by linarith)
      rw [Vec3.smul_x]; linarith
    · have := pow_eq_zero_iff (two_ne_zero) |>.mp (show (o.y - Vec3.dot o d * d.y) ^ 2 = 0 by linarith)
      rw [Vec3.smul_y]; linarith
    · have := pow_eq_zero_iff (two_ne_zero) |>.mp (show (o.z - Vec3.dot o d * d.z) ^ 2 = 0 by linarith)
      rw [Vec3.smul_z]; linarith
  · intro h
    have hx := congrArg Vec3.x h
    have hy := congrArg Vec3.y h
    have hz := congrArg Vec3.z h
    rw [Vec3.smul_x] at hx
    rw [Vec3.smul_y] at hy
    rw [Vec3.smul_z] at hz
    have : Vec3.dot o o - (Vec3.dot o d) ^ 2 = 0 := by
      rw [lag, ← hx, ← hy, ← hz]; ring
    have h1 : (Vec3.dot o d) ^ 2 / Vec3.dot o o = 1 := by
      rw [div_eq_one_iff_eq ho]; linarith
    rw [eP, h1]; norm_num

end Nematic

/-- **C43** (order parameter and director): for an eigenvalue solver that does its job, the director
is a unit vector, the order parameter is the mean over all particles of the second Legendre
polynomial of the cosine of the angle to the director, no other unit vector gives a larger mean,
the order parameter lies between 0 and 1, and it is 1 exactly when all orientations are parallel or
antiparallel to the director. -/
theorem C43_order_parameter (solve : Nematic.Solver) (hsolve : SolverOK solve)
    (h : List Nematic.Call) (c : Nematic.Call)
    (hh : ∀ c' ∈ h ++ [c], Nematic.LegalCall c' ∧ ∀ o ∈ c'.orientations, Vec3.dot o o ≠ 0)
    (hne : c.orientations ≠ []) :
    ∃ s, Nematic.run solve (h ++ [c]) = some s ∧
      Vec3.dot s.director s.director = 1 ∧
      s.order = meanOver c.orientations (fun o => P2 o s.director) ∧
      (∀ d, Vec3.dot d d = 1 → meanOver c.orientations (fun o => P2 o d) ≤ s.order) ∧
      0 ≤ s.order ∧ s.order ≤ 1 ∧
      (s.order = 1 ↔ ∀ o ∈ c.orientations, ∃ t, o = Vec3.smul t s.director) := by
  obtain ⟨s, e, ht, ho, hd⟩ := Nematic.run_last solve h c hh
  have h0 := (hh c (by simp)).2
  have hm : ∀ r < 3, ∀ k < 3, s.tensor.data.getD (3 * k + r) 0 =
      meanOver c.orientations (fun o => nematicQ o k r) := fun r hr k hk => ht.mean k hk r hr
  obtain ⟨vals, vecs, hs, hdec⟩ := hsolve (fun r k => s.tensor.data.getD (3 * k + r) 0) (by
    intro r hr k hk
    show s.tensor.data.getD (3 * k + r) 0 = s.tensor.data.getD (3 * r + k) 0
    rw [hm r hr k hk, hm k hk r hr]
    simp only [Nematic.nematicQ_symm])
  have hdiag : Nematic.diagonalize solve s.tensor.data = ((List.range 3).map vals,
      (List.range 9).map (fun k => Nematic.comp (vecs (k / 3)) (k % 3))) := by
    unfold Nematic.diagonalize
    rw [hs]
  have horder : s.order = vals 2 := by rw [ho, hdiag]; rfl
  have hdir : s.director = vecs 2 := by rw [hd, hdiag]; rfl
  have hunit : Vec3.dot s.director s.director = 1 := by
    rw [hdir]; exact hdec.orthonormal 2 (by omega) 2 (by omega)
  have hq : ∀ d, Vec3.dot d d = 1 → meanOver c.orientations (fun o => P2 o d) =
      vals 0 * (Vec3.dot d (vecs 0)) ^ 2 + vals 1 * (Vec3.dot d (vecs 1)) ^ 2 +
      vals 2 * (Vec3.dot d (vecs 2)) ^ 2 := by
    intro d hd1
    rw [← Nematic.quad_decomposition _ vals vecs hdec d, ← Nematic.quad_mean c.orientations d hd1]
    unfold Nematic.quad
    simp only [hm 0 (by omega) 0 (by omega), hm 0 (by omega) 1 (by omega), hm 0 (by omega) 2 (by omega),
      hm 1 (by omega) 0 (by omega), hm 1 (by omega) 1 (by omega), hm 1 (by omega) 2 (by omega),
      hm 2 (by omega) 0 (by omega), hm 2 (by omega) 1 (by omega), hm 2 (by omega) 2 (by omega)]
  have hmean : s.order = meanOver c.orientations (fun o => P2 o s.director) := by
    rw [hq _ hunit, hdir, horder, hdec.orthonormal 2 (by omega) 0 (by omega),
      hdec.orthonormal 2 (by omega) 1 (by omega), hdec.orthonormal 2 (by omega) 2 (by omega)]
    norm_num
  have hmax : ∀ d, Vec3.dot d d = 1 → meanOver c.orientations (fun o => P2 o d) ≤ s.order := by
    intro d hd1
    rw [hq d hd1, horder]
    obtain ⟨hp, -⟩ := Nematic.parseval vecs hdec.orthonormal d
    rw [hd1] at hp
    have a0 := hdec.ascending.1
    have a1 := hdec.ascending.2
    have h3 : vals 2 * ((Vec3.dot d (vecs 0)) ^ 2 + (Vec3.dot d (vecs 1)) ^ 2 +
        (Vec3.dot d (vecs 2)) ^ 2) = vals 2 := by rw [hp, mul_one]
    nlinarith [mul_nonneg (sub_nonneg.mpr (a0.trans a1)) (sq_nonneg (Vec3.dot d (vecs 0))),
      mul_nonneg (sub_nonneg.mpr a1) (sq_nonneg (Vec3.dot d (vecs 1)))]
  refine ⟨s, e, hunit, hmean, hmax, ?_, ?_, ?_⟩
  · have x := hmax ⟨1, 0, 0⟩ (by norm_num [Vec3.dot])
    have y := hmax ⟨0, 1, 0⟩ (by norm_num [Vec3.dot])
    have z := hmax ⟨0, 0, 1⟩ (by norm_num [Vec3.dot])
    have hs : meanOver c.orientations (fun o => P2 o ⟨1, 0, 0⟩) +
        meanOver c.orientations (fun o => P2 o ⟨0, 1, 0⟩) +
        meanOver c.orientations (fun o => P2 o ⟨0, 0, 1⟩) = 0 := by
      rw [Nematic.meanOver_add, Nematic.meanOver_add]
      refine (Nematic.meanOver_congr _ _ (fun _ => 0) ?_).trans (Nematic.meanOver_zero _)
      intro o ho
      have := Nematic.nematicQ_trace o (h0 o ho)
      simp only [nematicQ, coord, if_true] at this
      refine Eq.trans ?_ this
      simp only [P2, Vec3.dot]
      ring
    linarith
  · rw [hmean]
    exact Nematic.meanOver_le _ hne _ _ (fun o ho => (Nematic.P2_le_one o _ hunit (h0 o ho)).1)
  · rw [hmean, Nematic.meanOver_eq_iff _ hne _ _
      (fun o ho => (Nematic.P2_le_one o _ hunit (h0 o ho)).1)]
    constructor
    · intro hA o ho
      exact ⟨_, (Nematic.P2_le_one o _ hunit (h0 o ho)).2.mp (hA o ho)⟩
    · intro hA o ho
      obtain ⟨t, et⟩ := hA o ho
      apply (Nematic.P2_le_one o _ hunit (h0 o ho)).2.mpr
      have : Vec3.dot o s.director = t := by
        rw [et]
        have : Vec3.dot (Vec3.smul t s.director) s.director = t * Vec3.dot s.director s.director := by
          simp only [Vec3.dot, Vec3.smul_x, Vec3.smul_y, Vec3.smul_z]; ring
        rw [this, hunit, mul_one]
      rw [this]
      exact et

/-- **C43** (perfect order): orientations that are all multiples of one vector give order 1. -/
theorem C43_aligned (solve : Nematic.Solver) (hsolve : SolverOK solve)
    (h : List Nematic.Call) (c : Nematic.Call)
    (hh : ∀ c' ∈ h ++ [c], Nematic.LegalCall c' ∧ ∀ o ∈ c'.orientations, Vec3.dot o o ≠ 0)
    (hne : c.orientations ≠ []) (d : Vec3 ℝ)
    (hd : ∀ o ∈ c.orientations, ∃ t, o = Vec3.smul t d) :
    ∃ s, Nematic.run solve (h ++ [c]) = some s ∧ s.order = 1 := by
  obtain ⟨s, e, hu, hm, hmax, -, h1, -⟩ := C43_order_parameter solve hsolve h c hh hne
  refine ⟨s, e, le_antisymm h1 ?_⟩
  have h0 := (hh c (by simp)).2
  obtain ⟨o, ho⟩ := List.exists_mem_of_ne_nil _ hne
  have hdd : 0 < Vec3.dot d d := by
    obtain ⟨t, et⟩ := hd o ho
    have hz := h0 o ho
    apply lt_of_le_of_ne
    · unfold Vec3.dot; nlinarith [mul_self_nonneg d.x, mul_self_nonneg d.y, mul_self_nonneg d.z]
    · intro hdz
      apply hz
      have : Vec3.dot o o = t * t * Vec3.dot d d := by
        rw [et]; simp only [Vec3.dot, Vec3.smul_x, Vec3.smul_y, Vec3.smul_z]; ring
      rw [this, ← hdz, mul_zero]
  have hsq : Real.sqrt (Vec3.dot d d) * Real.sqrt (Vec3.dot d d) = Vec3.dot d d :=
    Real.mul_self_sqrt hdd.le
  have hsp : 0 < Real.sqrt (Vec3.dot d d) := Real.sqrt_pos.mpr hdd
  have hu1 : Vec3.dot (Vec3.smul (1 / Real.sqrt (Vec3.dot d d)) d)
      (Vec3.smul (1 / Real.sqrt (Vec3.dot d d)) d) = 1 := by
    have : Vec3.dot (Vec3.smul (1 / Real.sqrt (Vec3.dot d d)) d)
      (Vec3.smul (1 / Real.sqrt (Vec3.dot d d)) d) =
      Vec3.dot d d / (Real.sqrt (Vec3.dot d d) * Real.sqrt (Vec3.dot d d)) := by
      simp only [Vec3.dot, Vec3.smul_x, Vec3.smul_y, Vec3.smul_z]; ring
    rw [this, hsq, div_self hdd.ne']
  have := hmax _ hu1
  rwa [(Nematic.meanOver_eq_iff _ hne _ 1
    (fun o ho => (Nematic.P2_le_one o _ hu1 (h0 o ho)).1)).mpr] at this
  intro o ho
  apply (Nematic.P2_le_one o _ hu1 (h0 o ho)).2.mpr
  obtain ⟨t, et⟩ := hd o ho
  have e1 : Vec3.dot o (Vec3.smul (1 / Real.sqrt (Vec3.dot d d)) d) = t * Real.sqrt (Vec3.dot d d) := by
    have : Vec3.dot o (Vec3.smul (1 / Real.sqrt (Vec3.dot d d)) d) =
        t * (Vec3.dot d d / Real.sqrt (Vec3.dot d d)) := by
      rw [et]; simp only [Vec3.dot, Vec3.smul_x, Vec3.smul_y, Vec3.smul_z]; ring
    rw [this]
    congr 1
    rw [div_eq_iff hsp.ne', hsq]
  rw [e1, et]
  ext <;> simp only [Vec3.smul_x, Vec3.smul_y, Vec3.smul_z] <;> field_simp

/-- **C43** (solver failure): when the solver fails, the order parameter is 0 and the director is
the `z` axis. -/
theorem C43_solver_failure (solve : Nematic.Solver) (hfail : ∀ m, solve m = none)
    (h : List Nematic.Call) (c : Nematic.Call)
    (hh : ∀ c' ∈ h ++ [c], Nematic.LegalCall c' ∧ ∀ o ∈ c'.orientations, Vec3.dot o o ≠ 0) :
    ∃ s, Nematic.run solve (h ++ [c]) = some s ∧ s.order = 0 ∧ s.director = ⟨0, 0, 1⟩ := by
  obtain ⟨s, e, -, ho, hd⟩ := Nematic.run_last solve h c hh
  have : Nematic.diagonalize solve s.tensor.data = ([0, 0, 0], [1, 0, 0, 0, 1, 0, 0, 0, 1]) := by
    unfold Nematic.diagonalize
    rw [hfail]
  exact ⟨s, e, by rw [ho, this]; rfl, by rw [hd, this]; rfl⟩

/-- The assumption on the solver can be met: the spectral theorem gives a decomposition of every
symmetric matrix. -/
theorem Nematic.exists_solver : ∃ solve : Nematic.Solver, SolverOK solve := by
  classical
  have key : ∀ m : ℕ → ℕ → ℝ, (∀ r < 3, ∀ c < 3, m r c = m c r) →
      ∃ p : (ℕ → ℝ) × (ℕ → Vec3 ℝ), Decomposition m p.1 p.2 := by
    intro m hm
    let A : Matrix (Fin 3) (Fin 3) ℝ := fun r c => m r c
    have hA : A.IsHermitian := by
      ext r c
      simp only [Matrix.conjTranspose_apply, star_trivial]
      exact hm c c.isLt r r.isLt
    let σ := Tuple.sort hA.eigenvalues
    have hσ : Monotone (hA.eigenvalues ∘ σ) := Tuple.monotone_sort _
    let vec : Fin 3 → Vec3 ℝ := fun i => ⟨hA.eigenvectorBasis (σ i) 0, hA.eigenvectorBasis (σ i) 1,
      hA.eigenvectorBasis (σ i) 2⟩
    have hc : ∀ (i r : Fin 3), coord (vec i) r = hA.eigenvectorBasis (σ i) r := by
      intro i r
      fin_cases r <;> rfl
    refine ⟨(fun i => hA.eigenvalues (σ (Fin.ofNat 3 i)), fun i => vec (Fin.ofNat 3 i)),
      ⟨hσ (by decide), hσ (by decide)⟩, ?_, ?_⟩
    · intro i hi j hj
      have := orthonormal_iff_ite.mp hA.eigenvectorBasis.orthonormal (σ (Fin.ofNat 3 j)) (σ (Fin.ofNat 3 i))
      rw [EuclideanSpace.inner_eq_star_dotProduct] at this
      simp only [dotProduct, Fin.sum_univ_three, Pi.star_apply, star_trivial] at this
      show (vec _).x * (vec _).x + (vec _).y * (vec _).y + (vec _).z * (vec _).z = _
      rw [show (if i = j then (1 : ℝ) else 0) =
        if σ (Fin.ofNat 3 j) = σ (Fin.ofNat 3 i) then 1 else 0 by
          simp only [σ.injective.eq_iff, Fin.ext_iff, Fin.ofNat, Nat.mod_eq_of_lt hi,
            Nat.mod_eq_of_lt hj]
          simp only [eq_comm]]
      exact this
    · intro i hi r hr
      have := congrFun (hA.mulVec_eigenvectorBasis (σ (Fin.ofNat 3 i))) ⟨r, hr⟩
      simp only [Matrix.mulVec, dotProduct, Fin.sum_univ_three, Pi.smul_apply, smul_eq_mul] at this
      have h2 := hc (Fin.ofNat 3 i) ⟨r, hr⟩
      show _ = hA.eigenvalues (σ (Fin.ofNat 3 i)) * coord (vec (Fin.ofNat 3 i)) r
      rw [h2]
      exact this
  refine ⟨fun m => if h : ∀ r < 3, ∀ c < 3, m r c = m c r then some (key m h).choose else none, ?_⟩
  intro m hm
  refine ⟨_, _, dif_pos hm, (key m hm).choose_spec⟩

/-- A call with three particles on two threads, after another call with one particle. -/
example : ∀ c' ∈ ([⟨[⟨0, 0, 5⟩], [(3, 0)], List.range 9⟩] : List Nematic.Call) ++
      [⟨[⟨1, 0, 0⟩, ⟨1, 2, 0⟩, ⟨0, -3, 1⟩], [(1, 2), (0, 0), (1, 1)], (List.range 9).reverse⟩],
    Nematic.LegalCall c' ∧ ∀ o ∈ c'.orientations, Vec3.dot o o ≠ 0 := by
  intro c' hc
  simp only [List.cons_append, List.nil_append, List.mem_cons, List.not_mem_nil, or_false] at hc
  rcases hc with rfl | rfl
  · refine ⟨⟨by unfold IsExecution; decide, by decide⟩, ?_⟩
    simp [Vec3.dot]
  · refine ⟨⟨by unfold IsExecution; decide, by decide⟩, ?_⟩
    simp only [List.mem_cons, List.not_mem_nil, or_false]
    rintro o (rfl | rfl | rfl) <;> norm_num [Vec3.dot]

/-- Aligned orientations of different lengths and signs for `C43_aligned`. -/
example : ∀ o ∈ ([⟨1, 2, 3⟩, ⟨-2, -4, -6⟩] : List (Vec3 ℝ)), ∃ t, o = Vec3.smul t ⟨1, 2, 3⟩ := by
  simp only [List.mem_cons, List.not_mem_nil, or_false]
  rintro o (rfl | rfl)
  · exact ⟨1, by ext <;> norm_num⟩
  · exact ⟨-2, by ext <;> norm_num⟩

end Freud
