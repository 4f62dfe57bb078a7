import Verif.Model.BoxArrays
import Mathlib.Tactic.Ring
import Mathlib.Tactic.Linarith
import Mathlib.Data.List.Nodup
import Mathlib.Data.List.Range

/-!
# Lemmas about parallel loops over shared memory
-/

namespace Freud
namespace BoxArrays

variable {K : Type*}

theorem mem_ops {nIn nOut n : ℕ} {o : Op} : o ∈ ops nIn nOut n ↔
    (∃ t < n, ∃ j < nIn, o = .read t j) ∨ ∃ t < n, ∃ j < nOut, o = .write t j := by
  unfold ops
  simp only [List.mem_flatMap, List.mem_range, List.mem_append, List.mem_map]
  constructor
  · rintro ⟨t, ht, ⟨j, hj, rfl⟩ | ⟨j, hj, rfl⟩⟩
    · exact Or.inl ⟨t, ht, j, hj, rfl⟩
    · exact Or.inr ⟨t, ht, j, hj, rfl⟩
  · rintro (⟨t, ht, j, hj, rfl⟩ | ⟨t, ht, j, hj, rfl⟩)
    · exact ⟨t, ht, Or.inl ⟨j, hj, rfl⟩⟩
    · exact ⟨t, ht, Or.inr ⟨j, hj, rfl⟩⟩

theorem nodup_ops (nIn nOut n : ℕ) : (ops nIn nOut n).Nodup := by
  unfold ops
  rw [List.nodup_flatMap]
  refine ⟨fun t _ => ?_, ?_⟩
  · rw [List.nodup_append]
    refine ⟨List.nodup_range.map fun a b h => by injection h, List.nodup_range.map fun a b h => by injection h, ?_⟩
    intro a ha b hb
    simp only [List.mem_map] at ha hb
    obtain ⟨j, -, rfl⟩ := ha
    obtain ⟨k, -, rfl⟩ := hb
    simp
  · refine List.nodup_range.imp fun {s t} hst => ?_
    intro o h1 h2
    simp only [List.mem_append, List.mem_map] at h1 h2
    obtain ⟨j, -, rfl⟩ | ⟨j, -, rfl⟩ := h1 <;> obtain ⟨k, -, h⟩ | ⟨k, -, h⟩ := h2 <;> cases h <;> exact hst rfl

theorem Schedule.nodup {nIn nOut n : ℕ} {ev : List Op} (h : Schedule nIn nOut n ev) : ev.Nodup :=
  h.1.nodup_iff.mpr (nodup_ops _ _ _)

/-- If the next access writes, the inputs of the iteration have been read. -/
theorem Schedule.read_done {nIn nOut n : ℕ} {ev : List Op} (h : Schedule nIn nOut n ev) {pre post : List Op} {t k : ℕ}
    (e : ev = pre ++ .write t k :: post) {j : ℕ} (hj : j < nIn) : .read t j ∈ pre := by
  have hw : Op.write t k ∈ ops nIn nOut n := h.1.subset (by rw [e]; simp)
  obtain ⟨_, _, _, _, hh⟩ | ⟨t', ht, k', hk, hh⟩ := mem_ops.mp hw
  · cases hh
  cases hh
  obtain ⟨l1, l2, e2, h1, h2⟩ := h.2 t ht j hj k hk
  have hnd := h.nodup
  rw [e] at hnd e2
  rcases List.append_eq_append_iff.mp e2 with ⟨m, e3, e4⟩ | ⟨m, e3, e4⟩
  · -- l1 = pre ++ m
    cases m with
    | nil => rw [e3] at h1; simpa using h1
    | cons x m =>
      rw [List.cons_append, List.cons.injEq] at e4
      exfalso
      rw [e4.2, List.nodup_append] at hnd
      have := (List.nodup_cons.mp hnd.2.1).1
      exact this (by simp [h2])
  · rw [e3]; simp [h1]

/-- If the next access reads, the iteration has not written. -/
theorem Schedule.not_written {nIn nOut n : ℕ} {ev : List Op} (h : Schedule nIn nOut n ev) {pre post : List Op}
    {t j : ℕ} (e : ev = pre ++ .read t j :: post) (k : ℕ) : .write t k ∉ pre := by
  intro hp
  obtain ⟨p1, p2, rfl⟩ := List.append_of_mem hp
  have hr : Op.read t j ∈ ops nIn nOut n := h.1.subset (by rw [e]; simp)
  obtain ⟨t', ht, j', hj, hh⟩ | ⟨_, _, _, _, hh⟩ := mem_ops.mp hr
  · cases hh
    have := h.read_done (pre := p1) (post := p2 ++ .read t j :: post) (t := t) (k := k) (by rw [e]; simp) hj
    have hnd := h.nodup
    rw [e, List.append_assoc, List.nodup_append] at hnd
    exact hnd.2.2 _ this _ (by simp) rfl
  · cases hh

variable [Zero K]

/-- What an iteration writes, if it reads the memory as it was before the loop. -/
def Loop.value (l : Loop K) (mem : ℕ → K) (t k : ℕ) : K :=
  (l.body t ((List.range l.nIn).map fun j => mem (l.addrIn t j))).getD k 0

/-- The result of a loop whose iterations write to different places, and write no input of another
iteration: it does not depend on the order of the accesses. -/
theorem Loop.run_spec (l : Loop K) (n : ℕ) (mem : ℕ → K) (ev : List Op) (hev : Schedule l.nIn l.nOut n ev)
    (hout : ∀ t < n, ∀ t' < n, ∀ k < l.nOut, ∀ k' < l.nOut, l.addrOut t k = l.addrOut t' k' → t = t' ∧ k = k')
    (hin : ∀ t < n, ∀ t' < n, ∀ k < l.nOut, ∀ j < l.nIn, l.addrOut t k = l.addrIn t' j → t = t') :
    (∀ t < n, ∀ k < l.nOut, l.run mem ev (l.addrOut t k) = l.value mem t k) ∧
    ∀ c, (∀ t < n, ∀ k < l.nOut, c ≠ l.addrOut t k) → l.run mem ev c = mem c := by
  have bw : ∀ {t k}, Op.write t k ∈ ev → t < n ∧ k < l.nOut := by
    intro t k h
    obtain ⟨_, _, _, _, hh⟩ | ⟨t', ht, k', hk, hh⟩ := mem_ops.mp (hev.1.subset h)
    · cases hh
    · cases hh; exact ⟨ht, hk⟩
  have br : ∀ {t k}, Op.read t k ∈ ev → t < n ∧ k < l.nIn := by
    intro t k h
    obtain ⟨t', ht, k', hk, hh⟩ | ⟨_, _, _, _, hh⟩ := mem_ops.mp (hev.1.subset h)
    · cases hh; exact ⟨ht, hk⟩
    · cases hh
  have key : ∀ pre post, ev = pre ++ post → ∀ s, s = pre.foldl l.step ⟨mem, fun _ _ => 0⟩ →
      (∀ t k, Op.write t k ∈ pre → s.mem (l.addrOut t k) = l.value mem t k) ∧
      (∀ c, (∀ t k, Op.write t k ∈ pre → c ≠ l.addrOut t k) → s.mem c = mem c) ∧
      ∀ t j, Op.read t j ∈ pre → s.loc t j = mem (l.addrIn t j) := by
    intro pre
    induction pre using List.reverseRecOn with
    | nil => intro post _ s hs; subst hs; simp
    | append_singleton pre o ih =>
      intro post e s hs
      rw [List.append_assoc, List.singleton_append] at e
      rw [List.foldl_append] at hs
      obtain ⟨i1, i2, i3⟩ := ih (o :: post) e _ rfl
      generalize pre.foldl l.step ⟨mem, fun _ _ => 0⟩ = s0 at hs i1 i2 i3
      subst hs
      cases o with
      | read t j =>
        have hr := br (t := t) (k := j) (by rw [e]; simp)
        have hm : s0.mem (l.addrIn t j) = mem (l.addrIn t j) := by
          apply i2
          intro t' k' hw heq
          have hb := bw (t := t') (k := k') (by rw [e]; simp [hw])
          have := hin t' hb.1 t hr.1 k' hb.2 j hr.2 heq.symm
          subst this
          exact hev.not_written e k' hw
        refine ⟨fun t' k' hw => i1 t' k' (by simpa using hw), fun c hc => i2 c fun t' k' hw => hc t' k' (by simp [hw]),
          fun t' j' hr' => ?_⟩
        simp only [List.foldl_cons, List.foldl_nil, Loop.step]
        split
        · rename_i h; rw [h.1, h.2]; exact hm
        · rename_i h
          simp only [List.mem_append, List.mem_singleton, Op.read.injEq] at hr'
          exact i3 t' j' (hr'.resolve_right h)
      | write t k =>
        have hw := bw (t := t) (k := k) (by rw [e]; simp)
        have hloc : (List.range l.nIn).map (s0.loc t) = (List.range l.nIn).map fun j => mem (l.addrIn t j) := by
          apply List.map_congr_left
          intro j hj
          exact i3 t j (hev.read_done e (List.mem_range.mp hj))
        refine ⟨fun t' k' hw' => ?_, fun c hc => ?_, fun t' j' hr' => i3 t' j' (by simpa using hr')⟩
        · simp only [List.foldl_cons, List.foldl_nil, Loop.step]
          split
          · rename_i h
            have hb : t' < n ∧ k' < l.nOut := bw (by
              rw [e]
              simp only [List.mem_append, List.mem_singleton] at hw'
              rcases hw' with h | h <;> simp [h])
            obtain ⟨rfl, rfl⟩ := hout t' hb.1 t hw.1 k' hb.2 k hw.2 h
            rw [hloc]; rfl
          · rename_i h
            simp only [List.mem_append, List.mem_singleton, Op.write.injEq] at hw'
            rcases hw' with h' | ⟨rfl, rfl⟩
            · exact i1 t' k' h'
            · exact absurd rfl h
        · simp only [List.foldl_cons, List.foldl_nil, Loop.step]
          rw [if_neg (hc t k (by simp))]
          exact i2 c fun t' k' h => hc t' k' (by simp [h])
  obtain ⟨h1, h2, -⟩ := key ev [] (by simp) _ rfl
  refine ⟨fun t ht k hk => h1 t k (hev.1.symm.subset (mem_ops.mpr (Or.inr ⟨t, ht, k, hk, rfl⟩))), fun c hc =>
    h2 c fun t k hw => hc t (bw hw).1 k (bw hw).2⟩

/-- The iterations one after the other. -/
theorem schedule_seq (nIn nOut n : ℕ) : Schedule nIn nOut n (ops nIn nOut n) := by
  refine ⟨List.Perm.refl _, fun t ht j hj k hk => ?_⟩
  obtain ⟨d, rfl⟩ : ∃ d, n = t + (d + 1) := ⟨n - t - 1, by omega⟩
  unfold ops
  rw [List.range_add, List.flatMap_append, List.range_succ_eq_map, List.map_cons, List.flatMap_cons, Nat.add_zero]
  generalize List.flatMap _ (List.range t) = A
  generalize List.flatMap _ (List.map (fun x => t + x) (List.map Nat.succ (List.range d))) = B
  exact ⟨A ++ (List.range nIn).map (Op.read t), (List.range nOut).map (Op.write t) ++ B,
    by simp only [List.append_assoc], by simp [hj], by simp [hk]⟩

/-! ### Rows -/

theorem div_of_row {t t' j j' : ℕ} (hj : j < 3) (hj' : j' < 3) (h : 3 * t + j = 3 * t' + j') : t = t' ∧ j = j' := by
  omega

/-- The loop over rows, reading and writing the same array or different ones. -/
theorem rowLoop_spec (f : ℕ → Vec3 K → Vec3 K) (v o n : ℕ) (mem : ℕ → K) (ev : List Op) (hev : Schedule 3 3 n ev)
    (h : v = o ∨ v + 3 * n ≤ o ∨ o + 3 * n ≤ v) :
    (∀ t < n, ∀ k < 3, (rowLoop f v o).run mem ev (o + (3 * t + k)) =
      (ofVec (f t ⟨mem (v + 3 * t), mem (v + (3 * t + 1)), mem (v + (3 * t + 2))⟩)).getD k 0) ∧
    ∀ c, c < o ∨ o + 3 * n ≤ c → (rowLoop f v o).run mem ev c = mem c := by
  obtain ⟨h1, h2⟩ := (rowLoop f v o).run_spec n mem ev hev
    (by intro t ht t' ht' k hk k' hk' e; simp only [rowLoop] at e hk hk'; omega)
    (by intro t ht t' ht' k hk k' hk' e; simp only [rowLoop] at e hk hk'; omega)
  refine ⟨fun t ht k hk => ?_, fun c hc => h2 c ?_⟩
  · have := h1 t ht k hk
    rw [show (rowLoop f v o).addrOut t k = o + (3 * t + k) from rfl] at this
    rw [this]
    rfl
  · intro t ht k hk e
    simp only [rowLoop] at e hk
    omega

end BoxArrays
end Freud
