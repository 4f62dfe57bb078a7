import Verif.Props.Schedule

/-!
# Reusing a thread storage after `reset`, and writing rows of a shared array
-/

namespace Freud
open Spec

section storage
variable {T : Type*} [AddCommMonoid T]

/-- The arrays of a thread storage have the right size. -/
def Spec.StorageOK (shape : List ℕ) (t : TLS (MArray T)) : Prop :=
  t.exemplar = MArray.mk' shape ∧ ∀ p ∈ t.locals, p.2.data.length = shape.prod

theorem mk_getD (shape : List ℕ) (c : ℕ) : (MArray.mk' shape : MArray T).data.getD c 0 = 0 := by
  simp [MArray.mk', List.getD_eq_getElem?_getD, List.getElem?_replicate]; split_ifs <;> rfl

theorem reset_getD (a : MArray T) (c : ℕ) : a.reset.data.getD c 0 = 0 := by
  simp [MArray.reset, List.getD_eq_getElem?_getD, List.getElem?_replicate]; split_ifs <;> rfl

/-- `C12_thread_storage` for a storage that has been used before and is reset first. -/
theorem storage_after_reset (shape : List ℕ) (n : ℕ) (cells : ℕ → List (ℕ × T))
    (hcells : ∀ i < n, ∀ p ∈ cells i, p.1 < shape.prod)
    (t0 : TLS (MArray T)) (ht0 : StorageOK shape t0)
    (ev : List (ℕ × ℕ)) (hev : IsExecution n ev)
    (order : List ℕ) (hord : order.Perm (List.range shape.prod)) :
    ∃ t r, (t0.resetWith MArray.reset).parallelFor (fun i a => addCells (cells i) a) ev = some t ∧
      StorageOK shape t ∧
      storageReduceInto t order (MArray.mk' shape) = some r ∧
      r.shape = shape ∧ r.data = (List.range shape.prod).map (cellTotal n cells) := by
  have hok : ∀ e ∈ ev, e.2 < n := by
    intro e he
    have : e.2 ∈ ev.map (·.2) := List.mem_map_of_mem he
    exact List.mem_range.mp (hev.subset this)
  obtain ⟨t, e1, hex, hP, hnil, hv⟩ := parallelFor_spec
    (P := fun a : MArray T => a.data.length = shape.prod)
    (val := fun a c => a.data.getD c 0)
    (d := fun i c => (((cells i).filter (fun p => p.1 = c)).map (·.2)).sum)
    (body := fun i a => addCells (cells i) a) (ok := fun i => i < n)
    (fun i s hi hs => by
      obtain ⟨a', e, -, hl, hv⟩ := addCells_spec (cells i) shape.prod (hcells i hi) s hs
      exact ⟨a', e, hl, hv⟩)
    (t0.resetWith MArray.reset)
    (by
      show t0.exemplar.data.length = _
      rw [ht0.1]; simp [MArray.mk'])
    (fun c => by
      show t0.exemplar.data.getD c 0 = 0
      rw [ht0.1]; exact mk_getD _ _)
    (by
      intro p hp
      obtain ⟨q, hq, rfl⟩ := List.mem_map.mp hp
      simpa [MArray.reset] using ht0.2 q hq) ev hok
  have h0 : ∀ c, (((t0.resetWith MArray.reset).locals).map (fun p => p.2.data.getD c 0)).sum = 0 := by
    intro c
    apply List.sum_eq_zero
    intro x hx
    obtain ⟨p, hp, rfl⟩ := List.mem_map.mp hx
    obtain ⟨q, hq, rfl⟩ := List.mem_map.mp hp
    exact reset_getD _ _
  have htot : ∀ c, (t.locals.map (fun p => p.2.data.getD c 0)).sum = cellTotal n cells c := by
    intro c
    rw [hv, h0, zero_add]
    unfold cellTotal
    rw [sum_flatMap_filter]
    have : (ev.map (fun e => (((cells e.2).filter (fun p => p.1 = c)).map (·.2)).sum)).Perm
        ((List.range n).map (fun i => (((cells i).filter (fun p => p.1 = c)).map (·.2)).sum)) := by
      have := hev.map (fun i => (((cells i).filter (fun p => p.1 = c)).map (·.2)).sum)
      rw [List.map_map] at this
      exact this
    exact this.sum_eq
  have ext : ∀ r : MArray T, r.data.length = shape.prod →
      (∀ c < shape.prod, r.data.getD c 0 = cellTotal n cells c) →
      r.data = (List.range shape.prod).map (cellTotal n cells) := by
    intro r hl h
    apply List.ext_getElem
    · simp [hl]
    · intro c h1 h2
      have := h c (by omega)
      rw [List.getD_eq_getElem?_getD, List.getElem?_eq_getElem h1] at this
      simpa using this
  have hSO : StorageOK shape t := ⟨hex.trans ht0.1, hP⟩
  by_cases hl : t.locals = []
  · refine ⟨t, (MArray.mk' shape : MArray T).reset, e1, hSO, by simp [storageReduceInto, hl], rfl, ?_⟩
    apply ext _ (by simp [MArray.reset, MArray.mk'])
    intro c _
    rw [← htot c, hl, reset_getD]
    rfl
  · obtain ⟨r, e2, hs, hlen, hr⟩ := reduceCells_spec (t.locals.map (·.2)) order shape.prod
      (fun i hi => List.mem_range.mp (hord.subset hi))
      (hord.nodup_iff.mpr List.nodup_range)
      (by intro l hl; obtain ⟨p, hp, rfl⟩ := List.mem_map.mp hl; exact hP p hp)
      (MArray.mk' shape) (by simp [MArray.mk'])
    refine ⟨t, r, e1, hSO, by simp [storageReduceInto, hl, e2], by rw [hs]; rfl, ?_⟩
    apply ext r hlen
    intro c hc
    rw [hr c, mk_getD, zero_add, if_pos (hord.symm.subset (List.mem_range.mpr hc)), List.map_map]
    exact htot c

end storage

section rows
variable {T : Type*} [Zero T]

/-- Writing consecutive cells. -/
theorem writeCells_spec (q : List T) (base k0 : ℕ) (a : MArray T)
    (h : base + k0 + q.length ≤ a.data.length) :
    ∃ a', (q.zipIdx k0).foldlM (fun a p => a.set? (base + p.2) p.1) a = some a' ∧
      a'.shape = a.shape ∧ a'.data.length = a.data.length ∧
      ∀ c, a'.data.getD c 0 =
        if base + k0 ≤ c ∧ c < base + k0 + q.length then q.getD (c - base - k0) 0
        else a.data.getD c 0 := by
  induction q generalizing k0 a with
  | nil =>
    refine ⟨a, rfl, rfl, rfl, fun c => ?_⟩
    rw [if_neg (by simp only [List.length_nil]; omega)]
  | cons x xs ih =>
    simp only [List.length_cons] at h
    rw [List.zipIdx_cons, List.foldlM_cons]
    have e1 : a.set? (base + k0) x = some { a with data := a.data.set (base + k0) x } := by
      unfold MArray.set? MArray.size
      rw [if_neg (by omega)]
    obtain ⟨a', e2, hs, hl, hv⟩ := ih (k0 + 1) { a with data := a.data.set (base + k0) x }
      (by simp; omega)
    refine ⟨a', by simp [e1, e2], hs, by simpa using hl, fun c => ?_⟩
    rw [hv c]
    simp only [List.length_cons]
    by_cases hc : c = base + k0
    · subst hc
      rw [if_neg (by omega), if_pos (by omega)]
      rw [List.getD_eq_getElem?_getD, List.getElem?_set_self (by omega)]
      have : base + k0 - base - k0 = 0 := by omega
      rw [this]; rfl
    · have e3 : (a.data.set (base + k0) x).getD c 0 = a.data.getD c 0 := by
        rw [List.getD_eq_getElem?_getD, List.getElem?_set_ne (by omega), ← List.getD_eq_getElem?_getD]
      by_cases h2 : base + (k0 + 1) ≤ c ∧ c < base + (k0 + 1) + xs.length
      · rw [if_pos h2, if_pos (by omega)]
        have : c - base - k0 = (c - base - (k0 + 1)) + 1 := by omega
        rw [this, List.getD_cons_succ]
      · rw [if_neg h2, if_neg (by omega)]
        exact e3

end rows
end Freud
