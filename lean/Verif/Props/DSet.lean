import Verif.Lemmas.DSetTerm
import Mathlib.Order.WellFounded
import Mathlib.Data.Prod.Lex

/-!
# Property C32: clusters are connected components under every interleaving
-/

namespace Freud
open DSet

/-- Two points are connected by a chain of bonds. -/
def Spec.Connected (bonds : List (ℕ × ℕ)) : ℕ → ℕ → Prop :=
  Relation.EqvGen (fun x y => (x, y) ∈ bonds)

open Spec

theorem connOK (bonds : List (ℕ × ℕ)) : ConnOK (Connected bonds) :=
  ⟨fun x => .refl x, fun _ _ h => .symm _ _ h, fun _ _ _ h h' => .trans _ _ _ h h'⟩

namespace DSet

/-- The invariant of the parallel loop. -/
structure SInv (bonds : List (ℕ × ℕ)) (n : ℕ) (s : DState) : Prop where
  size : s.mem.size = n
  mem : MInv (Connected bonds) s.mem
  out : OutOK s.mem
  todo : ∀ t ∈ s.threads, ∀ e ∈ t.todo, e ∈ bonds
  cur : ∀ t ∈ s.threads, ∀ a b p, t.cur = some (a, b, p) → (a, b) ∈ bonds ∧ LInv s.mem a b p
  done : ∀ a b, (a, b) ∈ bonds → FE s.mem a b ∨
    ∃ t ∈ s.threads, (a, b) ∈ t.todo ∨ ∃ p, t.cur = some (a, b, p)

theorem sinv_init (n : ℕ) (work : List (List (ℕ × ℕ))) :
    SInv work.flatten n (init n work) := by
  refine ⟨rfl, ⟨fun x hx => hx, fun x _ => .inl rfl, fun x _ => .refl x⟩, fun x _ => rfl, ?_, ?_, ?_⟩
  · intro t ht e he
    simp only [init, List.mem_map] at ht
    obtain ⟨w, hw, rfl⟩ := ht
    exact List.mem_flatten.mpr ⟨w, hw, he⟩
  · intro t ht a b p hp
    simp only [init, List.mem_map] at ht
    obtain ⟨w, hw, rfl⟩ := ht
    simp at hp
  · intro a b hab
    obtain ⟨w, hw, he⟩ := List.mem_flatten.mp hab
    exact .inr ⟨⟨w, none⟩, List.mem_map.mpr ⟨w, hw, rfl⟩, .inl he⟩

/-- A thread that is not finished can always make a step, and the step keeps the invariant. -/
theorem tstep_spec {bonds : List (ℕ × ℕ)} {n : ℕ} (hb : ∀ e ∈ bonds, e.1 < n ∧ e.2 < n)
    {s : DState} (hs : SInv bonds n s) {i : ℕ} {t : Thr} (hi : s.threads[i]? = some t)
    (hnf : ¬ t.finished) (sp : Bool) :
    ∃ m' t', tstep sp s.mem t = some (m', t') ∧ SInv bonds n ⟨m', s.threads.set i t'⟩ := by
  have htm : t ∈ s.threads := List.mem_of_getElem? hi
  have hlt : i < s.threads.length := (List.getElem?_eq_some_iff.mp hi).1
  have hself : ∀ t', t' ∈ s.threads.set i t' := fun t' => List.mem_set hlt t'
  -- threads other than number `i` are still there
  have hkeep : ∀ t' t0, t0 ∈ s.threads → t0 = t ∨ t0 ∈ s.threads.set i t' := by
    intro t' t0 h0
    obtain ⟨j, hj, hj0⟩ := List.mem_iff_getElem.mp h0
    by_cases hji : j = i
    · left
      subst hji
      rw [List.getElem?_eq_getElem hj, Option.some.injEq] at hi
      exact hj0.symm.trans hi
    · right
      have : (s.threads.set i t')[j]? = some t0 := by
        rw [List.getElem?_set_ne (Ne.symm hji), List.getElem?_eq_getElem hj, hj0]
      exact List.mem_of_getElem? this
  cases hcur : t.cur with
  | none =>
    cases htodo : t.todo with
    | nil => exact absurd ⟨htodo, hcur⟩ hnf
    | cons e rest =>
      obtain ⟨a, b⟩ := e
      have hab : (a, b) ∈ bonds := hs.todo t htm _ (by rw [htodo]; exact List.mem_cons_self)
      refine ⟨s.mem, ⟨rest, some (a, b, .find (.f0 a) (.same1 b))⟩, by simp only [tstep, hcur, htodo],
        hs.size, hs.mem, hs.out, ?_, ?_, ?_⟩
      · intro u hu e he
        rcases List.mem_or_eq_of_mem_set hu with h | rfl
        · exact hs.todo u h e he
        · exact hs.todo t htm e (by rw [htodo]; exact List.mem_cons_of_mem _ he)
      · intro u hu x y p hp
        rcases List.mem_or_eq_of_mem_set hu with h | rfl
        · exact hs.cur u h x y p hp
        · simp only [Option.some.injEq, Prod.mk.injEq] at hp
          obtain ⟨rfl, rfl, rfl⟩ := hp
          have ha := hs.size ▸ (hb _ hab).1
          have hbb := hs.size ▸ (hb _ hab).2
          exact ⟨hab, trivial, ha, hbb, .inl ⟨hs.mem.refl ha, hs.mem.refl hbb⟩⟩
      · intro x y hxy
        rcases hs.done x y hxy with h | ⟨u, hu, h⟩
        · exact .inl h
        · right
          rcases hkeep ⟨rest, some (a, b, .find (.f0 a) (.same1 b))⟩ u hu with rfl | hu'
          · rcases h with h | ⟨p, h⟩
            · rw [htodo] at h
              rcases List.mem_cons.mp h with h | h
              · simp only [Prod.mk.injEq] at h
                obtain ⟨rfl, rfl⟩ := h
                exact ⟨_, hself _, .inr ⟨_, rfl⟩⟩
              · exact ⟨_, hself _, .inl h⟩
            · rw [hcur] at h; simp at h
          · exact ⟨u, hu', h⟩
  | some c =>
    obtain ⟨a, b, p⟩ := c
    obtain ⟨hab, hl⟩ := hs.cur t htm a b p hcur
    have ha : a < s.mem.size := by rw [hs.size]; exact (hb _ hab).1
    have hbb : b < s.mem.size := by rw [hs.size]; exact (hb _ hab).2
    obtain ⟨m', p', e, hm', ho', hev, hp'⟩ :=
      stepPc_spec (connOK bonds) sp hs.out hs.mem ha hbb (.rel _ _ hab) p hl
    refine ⟨m', ⟨t.todo, p'.map (fun p => (a, b, p))⟩, by simp only [tstep, hcur, e, Option.map_some],
      hev.size.trans hs.size, hm', ho', ?_, ?_, ?_⟩
    · intro u hu e he
      rcases List.mem_or_eq_of_mem_set hu with h | rfl
      · exact hs.todo u h e he
      · exact hs.todo t htm e he
    · intro u hu x y q hq
      rcases List.mem_or_eq_of_mem_set hu with h | rfl
      · exact ⟨(hs.cur u h x y q hq).1, (hs.cur u h x y q hq).2.mono hev⟩
      · cases p' with
        | none => simp at hq
        | some r =>
          simp only [Option.map_some, Option.some.injEq, Prod.mk.injEq] at hq
          obtain ⟨rfl, rfl, rfl⟩ := hq
          exact ⟨hab, hp'⟩
    · intro x y hxy
      rcases hs.done x y hxy with h | ⟨u, hu, h⟩
      · exact .inl (hev.fe _ _ h)
      · rcases hkeep ⟨t.todo, p'.map (fun p => (a, b, p))⟩ u hu with rfl | hu'
        · rcases h with h | ⟨q, h⟩
          · exact .inr ⟨_, hself _, .inl h⟩
          · rw [hcur] at h
            simp only [Option.some.injEq, Prod.mk.injEq] at h
            obtain ⟨rfl, rfl, rfl⟩ := h
            cases p' with
            | none => exact .inl hp'
            | some r => exact .inr ⟨_, hself _, .inr ⟨r, rfl⟩⟩
        · exact .inr ⟨u, hu', h⟩

theorem not_finished_of_tstep {sp : Bool} {m : DMem} {t : Thr} {r : DMem × Thr}
    (h : tstep sp m t = some r) : ¬ t.finished := by
  rintro ⟨h1, h2⟩
  simp [tstep, h1, h2] at h

theorem sinv_step {bonds : List (ℕ × ℕ)} {n : ℕ} (hb : ∀ e ∈ bonds, e.1 < n ∧ e.2 < n)
    {s s' : DState} (hs : SInv bonds n s) (h : Step s s') : SInv bonds n s' := by
  obtain ⟨i, t, sp, m', t', hi, ht, rfl⟩ := h
  obtain ⟨m2, t2, e, h2⟩ := tstep_spec hb hs hi (not_finished_of_tstep ht) sp
  rw [e] at ht
  simp only [Option.some.injEq, Prod.mk.injEq] at ht
  obtain ⟨rfl, rfl⟩ := ht
  exact h2

theorem sinv_reachable {n : ℕ} {work : List (List (ℕ × ℕ))}
    (hb : ∀ e ∈ work.flatten, e.1 < n ∧ e.2 < n) {s : DState} (h : Reachable n work s) :
    SInv work.flatten n s := by
  induction h with
  | refl => exact sinv_init n work
  | tail _ hst ih => exact sinv_step hb ih hst

/-- Sequential `find` ends within the number of elements above, returns the root, and changes no
root. -/
theorem findSeq_spec {Conn : ℕ → ℕ → Prop} (hC : ConnOK Conn) (fuel : ℕ) {m : DMem}
    (ho : OutOK m) (hm : MInv Conn m) {x : ℕ} (hx : x < m.size) (hf : above m x < fuel) :
    ∃ m' r, findSeq fuel m x = some (m', r) ∧ RootOf m x r ∧ r < m.size ∧ MInv Conn m' ∧
      OutOK m' ∧ m'.size = m.size ∧ ∀ y s, RootOf m y s → RootOf m' y s := by
  induction fuel generalizing m x with
  | zero => omega
  | succ fuel ih =>
    by_cases he : (m.cell x).parent = x
    · exact ⟨m, x, by simp [findSeq, load_some hx, he], .here he, hx, hm, ho, rfl, fun _ _ h => h⟩
    · have hp := hm.lt x hx
      have hk := (hm.key x hx).resolve_left he
      have hpp := hm.lt _ hp
      have hfe : FE m (m.cell (m.cell x).parent).parent x := (hm.parent hp).trans (hm.parent hx)
      by_cases hg : (m.cell (m.cell x).parent).parent = (m.cell x).parent
      · have hab := above_lt hk hp
        obtain ⟨m', r, e, h1, h2, h3, h4, h5, h6⟩ := ih ho hm hp (by omega)
        refine ⟨m', r, ?_, .up he h1, h2, h3, h4, h5, h6⟩
        simp only [findSeq, load_some hx, Option.bind_some, if_neg he, load_some hp]
        rw [if_neg (not_not.mpr hg), hg]
        exact e
      · have hk2 : keyLt m x (m.cell (m.cell x).parent).parent :=
          hk.trans ((hm.key _ hp).resolve_left hg)
        obtain ⟨hm1, ho1, hev⟩ := halve_spec hC.symm hC.refl hC.trans ho hm hx he hpp hk2 hfe
        have hroots : ∀ y s, RootOf m y s →
            RootOf (m.store x ⟨(m.cell x).rank, (m.cell (m.cell x).parent).parent⟩) y s := by
          intro y s hy
          by_cases hyn : y < m.size
          · exact rootOf_halve hm hx he hpp hk2 hfe hyn hy
          · have := rootOf_out ho (not_lt.mp hyn) hy
            subst this
            refine .here ?_
            rw [store_cell, if_neg (by rintro rfl; exact hyn hx)]
            exact ho _ (not_lt.mp hyn)
        have hab : above (m.store x ⟨(m.cell x).rank, (m.cell (m.cell x).parent).parent⟩)
            (m.cell (m.cell x).parent).parent < fuel := by
          have h1 := above_lt hk2 hpp
          have hsame : Same m (m.store x ⟨(m.cell x).rank, (m.cell (m.cell x).parent).parent⟩) := by
            refine ⟨rfl, fun y => ?_, fun y => ?_⟩
            · rw [store_cell]; split_ifs with hy
              · rw [hy]
              · rfl
            · unfold IsRoot
              rw [store_cell]; split_ifs with hy
              · subst hy; exact ⟨fun h => absurd h hk2.ne, fun h => absurd h he⟩
              · rfl
          rw [hsame.above]; omega
        obtain ⟨m', r, e, h1, h2, h3, h4, h5, h6⟩ := ih ho1 hm1 (x := (m.cell (m.cell x).parent).parent)
          hpp hab
        obtain ⟨s, hs1, hs2⟩ := hfe
        have hrs := (hroots _ _ hs1).unique h1
        subst hrs
        refine ⟨m', s, ?_, hs2, h2, h3, h4, h5, fun y t hy => h6 y t (hroots y t hy)⟩
        simp only [findSeq, load_some hx, Option.bind_some, if_neg he, load_some hp]
        rw [if_pos hg]
        exact e

/-- The measure of a state. -/
noncomputable def measure (s : DState) : ℕ ×ₗ ℕ ×ₗ ℕ :=
  toLex (numRoots s.mem, toLex
    ((s.threads.map (fun t => 2 * t.todo.length + (if t.cur.isSome then 1 else 0))).sum,
      (s.threads.map (fun t => (t.cur.elim 0 (fun c => lm s.mem c.2.2)))).sum))

theorem sum_set_lt {α : Type*} (l : List α) (f : α → ℕ) (i : ℕ) (t t' : α) (hi : l[i]? = some t)
    (h : f t' < f t) : ((l.set i t').map f).sum < (l.map f).sum := by
  induction l generalizing i with
  | nil => simp at hi
  | cons x xs ih =>
    cases i with
    | zero =>
      simp only [List.getElem?_cons_zero, Option.some.injEq] at hi
      subst hi
      simp only [List.set_cons_zero, List.map_cons, List.sum_cons]
      omega
    | succ i =>
      simp only [List.getElem?_cons_succ] at hi
      have := ih i hi
      simp only [List.set_cons_succ, List.map_cons, List.sum_cons]
      omega

theorem sum_set_eq {α : Type*} (l : List α) (f : α → ℕ) (i : ℕ) (t t' : α) (hi : l[i]? = some t)
    (h : f t' = f t) : ((l.set i t').map f).sum = (l.map f).sum := by
  induction l generalizing i with
  | nil => simp at hi
  | cons x xs ih =>
    cases i with
    | zero =>
      simp only [List.getElem?_cons_zero, Option.some.injEq] at hi
      subst hi
      simp only [List.set_cons_zero, List.map_cons, List.sum_cons]
      omega
    | succ i =>
      simp only [List.getElem?_cons_succ] at hi
      have := ih i hi
      simp only [List.set_cons_succ, List.map_cons, List.sum_cons]
      omega

theorem measure_step {bonds : List (ℕ × ℕ)} {n : ℕ} {s s' : DState} (hs : SInv bonds n s)
    (h : Step s s') : measure s' < measure s := by
  obtain ⟨i, t, sp, m', t', hi, ht, rfl⟩ := h
  have htm : t ∈ s.threads := List.mem_of_getElem? hi
  unfold measure
  rw [Prod.Lex.toLex_lt_toLex]
  cases hcur : t.cur with
  | none =>
    cases htodo : t.todo with
    | nil => simp [tstep, hcur, htodo] at ht
    | cons e rest =>
      simp only [tstep, hcur, htodo, Option.some.injEq, Prod.mk.injEq] at ht
      obtain ⟨rfl, rfl⟩ := ht
      refine .inr ⟨rfl, ?_⟩
      rw [Prod.Lex.toLex_lt_toLex]
      refine .inl (sum_set_lt _ _ i t _ hi ?_)
      simp [hcur, htodo]
      omega
  | some c =>
    obtain ⟨a, b, p⟩ := c
    obtain ⟨-, hl⟩ := hs.cur t htm a b p hcur
    simp only [tstep, hcur, Option.map_eq_some_iff] at ht
    obtain ⟨⟨m2, p'⟩, e, h2⟩ := ht
    simp only [Prod.mk.injEq] at h2
    obtain ⟨rfl, rfl⟩ := h2
    rcases stepPc_measure sp p hl e with h | ⟨rfl, h⟩ | ⟨q, rfl, hsame, h⟩
    · exact .inl h
    · refine .inr ⟨h, ?_⟩
      rw [Prod.Lex.toLex_lt_toLex]
      refine .inl (sum_set_lt _ _ i t _ hi ?_)
      simp [hcur]
    · refine .inr ⟨hsame.numRoots, ?_⟩
      rw [Prod.Lex.toLex_lt_toLex]
      refine .inr ⟨sum_set_eq _ _ i t _ hi (by simp [hcur]), ?_⟩
      simp only [hsame.lm] at h ⊢
      refine sum_set_lt _ _ i t _ hi ?_
      simpa [hcur] using h

end DSet

/-! ### C32 -/

/-- **C32**: after every interleaving of the atomic operations of any number of threads, once all
threads have finished, the representatives that `find` returns for two points are equal exactly
when the points are connected by a chain of bonds. -/
theorem C32_components (n : ℕ) (work : List (List (ℕ × ℕ)))
    (hb : ∀ e ∈ work.flatten, e.1 < n ∧ e.2 < n) (s : DState) (hr : Reachable n work s)
    (hfin : ∀ t ∈ s.threads, t.finished) (x y : ℕ) (hx : x < n) (hy : y < n) :
    ∃ mx my rx ry, findSeq (n + 1) s.mem x = some (mx, rx) ∧ findSeq (n + 1) s.mem y = some (my, ry) ∧
      (rx = ry ↔ Connected work.flatten x y) := by
  have hs := sinv_reachable hb hr
  have hx' : x < s.mem.size := by rw [hs.size]; exact hx
  have hy' : y < s.mem.size := by rw [hs.size]; exact hy
  have hC := connOK work.flatten
  obtain ⟨mx, rx, ex, hrx, -⟩ := findSeq_spec hC (n + 1) hs.out hs.mem hx'
    (by have := above_le s.mem x; rw [hs.size] at this; omega)
  obtain ⟨my, ry, ey, hry, -⟩ := findSeq_spec hC (n + 1) hs.out hs.mem hy'
    (by have := above_le s.mem y; rw [hs.size] at this; omega)
  refine ⟨mx, my, rx, ry, ex, ey, fun h => ?_, fun h => ?_⟩
  · subst h
    exact FE.conn hC hs.mem hx' hy' ⟨rx, hrx, hry⟩
  · have key : ∀ a b, Connected work.flatten a b → a = b ∨ FE s.mem a b := by
      intro a b hab
      induction hab with
      | rel a b hab =>
        rcases hs.done a b hab with h | ⟨t, ht, h⟩
        · exact .inr h
        · obtain ⟨h1, h2⟩ := hfin t ht
          rw [h1, h2] at h
          simp at h
      | refl a => exact .inl rfl
      | symm a b _ ih => exact ih.imp Eq.symm FE.symm
      | trans a b c _ _ ih1 ih2 =>
        rcases ih1 with rfl | h1
        · exact ih2
        · rcases ih2 with rfl | h2
          · exact .inr h1
          · exact .inr (h1.trans h2)
    rcases key x y h with rfl | ⟨r, h1, h2⟩
    · exact hrx.unique hry
    · exact (hrx.unique h1).trans (h2.unique hry)

/-- **C32**: in every reachable state, a thread that has something to do can make its next step
(it is never blocked and never leaves the array), even when weak compare-and-swaps fail. -/
theorem C32_never_blocked (n : ℕ) (work : List (List (ℕ × ℕ)))
    (hb : ∀ e ∈ work.flatten, e.1 < n ∧ e.2 < n) (s : DState) (hr : Reachable n work s)
    (i : ℕ) (t : Thr) (hi : s.threads[i]? = some t) (hnf : ¬ t.finished) (spurious : Bool) :
    ∃ m' t', tstep spurious s.mem t = some (m', t') := by
  obtain ⟨m', t', e, -⟩ := tstep_spec hb (sinv_reachable hb hr) hi hnf spurious
  exact ⟨m', t', e⟩

/-- **C32**: there is no infinite execution, whatever the interleaving. -/
theorem C32_terminates (n : ℕ) (work : List (List (ℕ × ℕ)))
    (hb : ∀ e ∈ work.flatten, e.1 < n ∧ e.2 < n) :
    ¬ ∃ f : ℕ → DState, f 0 = init n work ∧ ∀ k, Step (f k) (f (k + 1)) := by
  rintro ⟨f, h0, hf⟩
  have hreach : ∀ k, Reachable n work (f k) := by
    intro k
    induction k with
    | zero => rw [h0]; exact .refl
    | succ k ih => exact .tail ih (hf k)
  have hlt : ∀ k, measure (f (k + 1)) < measure (f k) := fun k =>
    measure_step (sinv_reachable hb (hreach k)) (hf k)
  have hno : ∀ a : ℕ ×ₗ ℕ ×ₗ ℕ, ∀ k, measure (f k) ≠ a := by
    intro a
    induction a using WellFoundedLT.induction with
    | _ a ih => rintro k rfl; exact ih _ (hlt k) (k + 1) rfl
  exact hno _ 0 rfl

/-- **C32**: from every reachable state the loop can finish, so the final states that
`C32_components` speaks of exist for all bonds and all assignments to threads. -/
theorem C32_finishes (n : ℕ) (work : List (List (ℕ × ℕ)))
    (hb : ∀ e ∈ work.flatten, e.1 < n ∧ e.2 < n) (s : DState) (hr : Reachable n work s) :
    ∃ s', Relation.ReflTransGen Step s s' ∧ ∀ t ∈ s'.threads, t.finished := by
  generalize ha : measure s = a
  induction a using WellFoundedLT.induction generalizing s with
  | _ a ih =>
    by_cases hfin : ∀ t ∈ s.threads, t.finished
    · exact ⟨s, .refl, hfin⟩
    · push Not at hfin
      obtain ⟨t, ht, hnf⟩ := hfin
      obtain ⟨i, hi⟩ := List.mem_iff_getElem?.mp ht
      obtain ⟨m', t', e⟩ := C32_never_blocked n work hb s hr i t hi hnf false
      have hst : Step s ⟨m', s.threads.set i t'⟩ := ⟨i, t, false, m', t', hi, e, rfl⟩
      obtain ⟨s', h1, h2⟩ := ih _ (ha ▸ measure_step (sinv_reachable hb hr) hst) _ (hr.tail hst) rfl
      exact ⟨s', .head hst h1, h2⟩

/-- **C32**: during an execution the trees never join points that are not connected by bonds, and
a bond that no thread is working on any more, or has still to do, has both ends in one tree. -/
theorem C32_connected_when_done (n : ℕ) (work : List (List (ℕ × ℕ)))
    (hb : ∀ e ∈ work.flatten, e.1 < n ∧ e.2 < n) (s : DState) (hr : Reachable n work s)
    (a b : ℕ) (hab : (a, b) ∈ work.flatten)
    (hdone : ∀ t ∈ s.threads, (a, b) ∉ t.todo ∧ ∀ p, t.cur ≠ some (a, b, p)) :
    ∃ ma mb r, findSeq (n + 1) s.mem a = some (ma, r) ∧ findSeq (n + 1) s.mem b = some (mb, r) := by
  have hs := sinv_reachable hb hr
  have hC := connOK work.flatten
  have ha' : a < s.mem.size := by rw [hs.size]; exact (hb _ hab).1
  have hb' : b < s.mem.size := by rw [hs.size]; exact (hb _ hab).2
  obtain ⟨ma, ra, ea, hra, -⟩ := findSeq_spec hC (n + 1) hs.out hs.mem ha'
    (by have := above_le s.mem a; rw [hs.size] at this; omega)
  obtain ⟨mb, rb, eb, hrb, -⟩ := findSeq_spec hC (n + 1) hs.out hs.mem hb'
    (by have := above_le s.mem b; rw [hs.size] at this; omega)
  rcases hs.done a b hab with ⟨r, h1, h2⟩ | ⟨t, ht, h⟩
  · have e1 := hra.unique h1
    have e2 := hrb.unique h2
    subst e1; subst e2
    exact ⟨ma, mb, _, ea, eb⟩
  · rcases h with h | ⟨p, h⟩
    · exact absurd h (hdone t ht).1
    · exact absurd h ((hdone t ht).2 p)

-- two threads with interleaved bonds; 0, 1, 2 are connected, 3 and 4 are apart
example : (∀ e ∈ [[(0, 1), (3, 3)], [(2, 1)]].flatten, e.1 < 5 ∧ e.2 < 5) ∧
    Connected [[(0, 1), (3, 3)], [(2, 1)]].flatten 0 2 := by
  refine ⟨by decide, .trans _ 1 _ (.rel _ _ (by decide)) (.symm _ _ (.rel _ _ (by decide)))⟩

end Freud
