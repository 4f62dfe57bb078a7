import Verif.Model.Schedule
import Verif.Props.Histogram
import Mathlib.Algebra.BigOperators.Group.List.Basic
import Mathlib.Data.List.Perm.Basic

/-!
# Properties C12, C13: thread schedules and accumulation histories
-/

set_option linter.unusedSectionVars false

namespace Freud
open Spec

section arrays
variable {T : Type*} [AddCommMonoid T]

/-- Adding `w` at cell `i` of an array of `m` cells. -/
theorem addAt_spec (a : MArray T) (i : ℕ) (w : T) (hi : i < a.data.length) :
    ∃ a', ((a.get? i).bind (fun y => a.set? i (y + w))) = some a' ∧ a'.shape = a.shape ∧
      a'.data.length = a.data.length ∧
      ∀ c, a'.data.getD c 0 = a.data.getD c 0 + if c = i then w else 0 := by
  refine ⟨{ a with data := a.data.set i (a.data.getD i 0 + w) }, ?_, rfl, by simp, fun c => ?_⟩
  · have h1 : a.get? i = some (a.data.getD i 0) := by
      unfold MArray.get? MArray.size
      rw [if_neg (by omega), List.getElem?_eq_getElem hi]
      simp [List.getD_eq_getElem?_getD, hi]
    rw [h1]
    simp only [Option.bind_some]
    unfold MArray.set? MArray.size
    rw [if_neg (by omega)]
  · simp only [List.getD_eq_getElem?_getD, List.getElem?_set]
    by_cases hc : c = i
    · subst hc; simp [hi]
    · rw [if_neg (by omega)]; simp [hc]

theorem addLocals_spec (locals : List (MArray T)) (i : ℕ) (m : ℕ) (hi : i < m)
    (hl : ∀ l ∈ locals, l.data.length = m) (r : MArray T) (hr : r.data.length = m) :
    ∃ r', addLocals locals i r = some r' ∧ r'.shape = r.shape ∧ r'.data.length = m ∧
      ∀ c, r'.data.getD c 0 = r.data.getD c 0 +
        if c = i then (locals.map (fun l => l.data.getD i 0)).sum else 0 := by
  induction locals generalizing r with
  | nil => exact ⟨r, rfl, rfl, hr, fun c => by simp⟩
  | cons l ls ih =>
    have hll : l.data.length = m := hl l List.mem_cons_self
    have h1 : l.get? i = some (l.data.getD i 0) := by
      unfold MArray.get? MArray.size
      rw [if_neg (by omega), List.getElem?_eq_getElem (by omega)]
      simp [List.getD_eq_getElem?_getD, hll, hi]
    obtain ⟨r1, e1, s1, d1, v1⟩ := addAt_spec r i (l.data.getD i 0) (by omega)
    obtain ⟨r2, e2, s2, d2, v2⟩ := ih (fun l h => hl l (List.mem_cons_of_mem _ h)) r1 (by omega)
    refine ⟨r2, ?_, s2.trans s1, d2, fun c => ?_⟩
    · unfold addLocals at e2 ⊢
      simp only [List.foldlM_cons, h1, Option.bind_some, e1, Option.bind_eq_bind]
      exact e2
    · rw [v2, v1]
      by_cases hc : c = i
      · simp [hc, add_assoc]
      · simp [hc]

theorem reduceCells_spec (locals : List (MArray T)) (order : List ℕ) (m : ℕ)
    (hord : ∀ i ∈ order, i < m) (hnd : order.Nodup)
    (hl : ∀ l ∈ locals, l.data.length = m) (r : MArray T) (hr : r.data.length = m) :
    ∃ r', reduceCells locals order r = some r' ∧ r'.shape = r.shape ∧ r'.data.length = m ∧
      ∀ c, r'.data.getD c 0 = r.data.getD c 0 +
        if c ∈ order then (locals.map (fun l => l.data.getD c 0)).sum else 0 := by
  induction order generalizing r with
  | nil => exact ⟨r, rfl, rfl, hr, fun c => by simp⟩
  | cons i is ih =>
    obtain ⟨r1, e1, s1, d1, v1⟩ := addLocals_spec locals i m (hord i List.mem_cons_self) hl r hr
    obtain ⟨r2, e2, s2, d2, v2⟩ := ih (fun i h => hord i (List.mem_cons_of_mem _ h))
      (List.nodup_cons.mp hnd).2 r1 d1
    refine ⟨r2, ?_, s2.trans s1, d2, fun c => ?_⟩
    · unfold reduceCells at e2 ⊢
      simp only [List.foldlM_cons, e1, Option.bind_eq_bind, Option.bind_some]
      exact e2
    · rw [v2, v1]
      have hni := (List.nodup_cons.mp hnd).1
      by_cases hc : c = i
      · subst hc; simp [hni]
      · simp [hc]

theorem addCells_spec (cells : List (ℕ × T)) (m : ℕ) (hc : ∀ c ∈ cells, c.1 < m) (a : MArray T)
    (ha : a.data.length = m) :
    ∃ a', addCells cells a = some a' ∧ a'.shape = a.shape ∧ a'.data.length = m ∧
      ∀ c, a'.data.getD c 0 = a.data.getD c 0 +
        ((cells.filter (fun p => p.1 = c)).map (·.2)).sum := by
  induction cells generalizing a with
  | nil => exact ⟨a, rfl, rfl, ha, fun c => by simp⟩
  | cons p ps ih =>
    obtain ⟨a1, e1, s1, d1, v1⟩ := addAt_spec a p.1 p.2 (by
      have := hc p List.mem_cons_self; omega)
    obtain ⟨a2, e2, s2, d2, v2⟩ := ih (fun p h => hc p (List.mem_cons_of_mem _ h)) a1 (by omega)
    refine ⟨a2, ?_, s2.trans s1, d2, fun c => ?_⟩
    · unfold addCells at e2 ⊢
      simp only [List.foldlM_cons, e1, Option.bind_eq_bind, Option.bind_some]
      exact e2
    · rw [v2, v1]
      by_cases h : p.1 = c
      · simp [h, List.filter_cons, add_assoc]
      · simp [h, List.filter_cons, Ne.symm h]

/-- The general invariant of thread-local accumulation. `val` observes a local value as a
function of a cell, `P` is an invariant of local values, and the body adds `d i` to the value
it is given. After any execution, the sum over the locals is the sum over the iterations. -/
theorem parallelFor_spec {σ C : Type*} (P : σ → Prop) (val : σ → C → T) (d : ℕ → C → T)
    (body : ℕ → σ → Option σ) (ok : ℕ → Prop)
    (hbody : ∀ i s, ok i → P s → ∃ s', body i s = some s' ∧ P s' ∧ ∀ c, val s' c = val s c + d i c)
    (t : TLS σ) (hex : P t.exemplar) (hex0 : ∀ c, val t.exemplar c = 0)
    (hP : ∀ p ∈ t.locals, P p.2) (ev : List (ℕ × ℕ)) (hok : ∀ e ∈ ev, ok e.2) :
    ∃ t', t.parallelFor body ev = some t' ∧ t'.exemplar = t.exemplar ∧ (∀ p ∈ t'.locals, P p.2) ∧
      (t'.locals = [] → ev = []) ∧
      ∀ c, (t'.locals.map (fun p => val p.2 c)).sum =
        (t.locals.map (fun p => val p.2 c)).sum + (ev.map (fun e => d e.2 c)).sum := by
  have hupd : ∀ (tid i : ℕ), ok i → ∀ (ls : List (ℕ × σ)), (∀ p ∈ ls, P p.2) →
      ∃ ls', TLS.upd t.exemplar (body i) tid ls = some ls' ∧ (∀ p ∈ ls', P p.2) ∧ ls' ≠ [] ∧
        ∀ c, (ls'.map (fun p => val p.2 c)).sum = (ls.map (fun p => val p.2 c)).sum + d i c := by
    intro tid i hi ls
    induction ls with
    | nil =>
      intro _
      obtain ⟨s', e, hp, hv⟩ := hbody i t.exemplar hi hex
      refine ⟨[(tid, s')], by simp [TLS.upd, e], by simpa using hp, by simp, fun c => ?_⟩
      simp [hv, hex0]
    | cons q qs ih =>
      intro hq
      obtain ⟨t0, s0⟩ := q
      unfold TLS.upd
      by_cases h : t0 = tid
      · obtain ⟨s', e, hp, hv⟩ := hbody i s0 hi (hq _ List.mem_cons_self)
        refine ⟨(t0, s') :: qs, by simp [h, e], ?_, by simp, fun c => ?_⟩
        · intro p hpm
          rcases List.mem_cons.mp hpm with rfl | hpm
          · exact hp
          · exact hq p (List.mem_cons_of_mem _ hpm)
        · simp only [List.map_cons, List.sum_cons, hv]
          abel
      · obtain ⟨ls', e, hp, -, hv⟩ := ih (fun p h => hq p (List.mem_cons_of_mem _ h))
        refine ⟨(t0, s0) :: ls', by simp [h, e], ?_, by simp, fun c => ?_⟩
        · intro p hpm
          rcases List.mem_cons.mp hpm with rfl | hpm
          · exact hq _ List.mem_cons_self
          · exact hp p hpm
        · simp only [List.map_cons, List.sum_cons, hv]
          abel
  have key : ∀ (ev : List (ℕ × ℕ)) (u : TLS σ), u.exemplar = t.exemplar → (∀ p ∈ u.locals, P p.2) →
      (∀ e ∈ ev, ok e.2) →
      ∃ t', u.parallelFor body ev = some t' ∧ t'.exemplar = t.exemplar ∧ (∀ p ∈ t'.locals, P p.2) ∧
      (t'.locals = [] → ev = [] ∧ u.locals = []) ∧
      ∀ c, (t'.locals.map (fun p => val p.2 c)).sum =
        (u.locals.map (fun p => val p.2 c)).sum + (ev.map (fun e => d e.2 c)).sum := by
    intro ev
    induction ev with
    | nil => intro u he hp _; exact ⟨u, rfl, he, hp, fun h => ⟨rfl, h⟩, fun c => by simp⟩
    | cons e es ih =>
      intro u he hp hok
      obtain ⟨ls', e1, hp1, hne1, hv1⟩ := hupd e.1 e.2 (hok e List.mem_cons_self) u.locals hp
      obtain ⟨t', e2, he2, hp2, hne2, hv2⟩ := ih { u with locals := ls' } he hp1
        (fun e h => hok e (List.mem_cons_of_mem _ h))
      refine ⟨t', ?_, he2, hp2, fun h => absurd (hne2 h).2 hne1, fun c => ?_⟩
      · unfold TLS.parallelFor at e2 ⊢
        have : TLS.step body u e = some { u with locals := ls' } := by
          simp [TLS.step, he, e1]
        simp only [List.foldlM_cons, this, Option.bind_eq_bind, Option.bind_some]
        exact e2
      · rw [hv2]
        simp only [hv1, List.map_cons, List.sum_cons]
        abel
  obtain ⟨t', h1, h2, h3, h4, h5⟩ := key ev t rfl hP hok
  exact ⟨t', h1, h2, h3, fun h => (h4 h).1, h5⟩

/-- The sum of all weights that a loop over `0..n-1` adds to cell `c`. -/
def Spec.cellTotal (n : ℕ) (cells : ℕ → List (ℕ × T)) (c : ℕ) : T :=
  ((((List.range n).flatMap cells).filter (fun p => p.1 = c)).map (·.2)).sum

theorem sum_flatMap_filter {α : Type*} (l : List ℕ) (f : ℕ → List (α × T)) (q : α × T → Bool) :
    (((l.flatMap f).filter q).map (·.2)).sum =
      (l.map (fun i => (((f i).filter q).map (·.2)).sum)).sum := by
  induction l with
  | nil => simp
  | cons a as ih => simp [List.flatMap_cons, List.filter_append, ih]

/-- **C12** (thread storage): a parallel loop over `0..n-1` whose iteration `i` adds the given
weights to cells of its thread's array, followed by the reduction into a zeroed array, gives in
every cell the sequential sum, for every execution of the loop and every order in which the
cells are reduced. -/
theorem C12_thread_storage (shape : List ℕ) (n : ℕ) (cells : ℕ → List (ℕ × T))
    (hcells : ∀ i < n, ∀ p ∈ cells i, p.1 < shape.prod)
    (ev : List (ℕ × ℕ)) (hev : IsExecution n ev)
    (order : List ℕ) (hord : order.Perm (List.range shape.prod)) :
    ∃ t r, (⟨MArray.mk' shape, []⟩ : TLS (MArray T)).parallelFor
        (fun i a => addCells (cells i) a) ev = some t ∧
      storageReduceInto t order (MArray.mk' shape) = some r ∧
      r.shape = shape ∧ r.data = (List.range shape.prod).map (cellTotal n cells) := by
  have hok : ∀ e ∈ ev, e.2 < n := by
    intro e he
    have : e.2 ∈ ev.map (·.2) := List.mem_map_of_mem he
    exact List.mem_range.mp (hev.subset this)
  obtain ⟨t, e1, -, hP, hnil, hv⟩ := parallelFor_spec
    (P := fun a : MArray T => a.data.length = shape.prod)
    (val := fun a c => a.data.getD c 0)
    (d := fun i c => (((cells i).filter (fun p => p.1 = c)).map (·.2)).sum)
    (body := fun i a => addCells (cells i) a) (ok := fun i => i < n)
    (fun i s hi hs => by
      obtain ⟨a', e, -, hl, hv⟩ := addCells_spec (cells i) shape.prod (hcells i hi) s hs
      exact ⟨a', e, hl, hv⟩)
    (⟨MArray.mk' shape, []⟩ : TLS (MArray T)) (by simp [MArray.mk'])
    (fun c => by simp [MArray.mk', List.getD_eq_getElem?_getD, List.getElem?_replicate]; split_ifs <;> rfl)
    (by simp) ev hok
  have htot : ∀ c, (t.locals.map (fun p => p.2.data.getD c 0)).sum = cellTotal n cells c := by
    intro c
    rw [hv]
    simp only [List.map_nil, List.sum_nil, zero_add]
    unfold cellTotal
    rw [sum_flatMap_filter]
    have : (ev.map (fun e => (((cells e.2).filter (fun p => p.1 = c)).map (·.2)).sum)).Perm
        ((List.range n).map (fun i => (((cells i).filter (fun p => p.1 = c)).map (·.2)).sum)) := by
      have := hev.map (fun i => (((cells i).filter (fun p => p.1 = c)).map (·.2)).sum)
      rw [List.map_map] at this
      exact this
    exact this.sum_eq
  have hmk0 : ∀ c, (MArray.mk' shape : MArray T).data.getD c 0 = 0 := by
    intro c
    simp [MArray.mk', List.getD_eq_getElem?_getD, List.getElem?_replicate]; split_ifs <;> rfl
  have ext : ∀ r : MArray T, r.data.length = shape.prod →
      (∀ c < shape.prod, r.data.getD c 0 = cellTotal n cells c) →
      r.data = (List.range shape.prod).map (cellTotal n cells) := by
    intro r hl h
    apply List.ext_getElem
    · simp [hl]
    · intro c h1 h2
      have := h c (by omega)
      rw [List.getD_eq_getElem?_getD, List.getElem?_eq_getElem h1] at this
      simpa using this
  by_cases hl : t.locals = []
  · refine ⟨t, (MArray.mk' shape : MArray T).reset, e1, by simp [storageReduceInto, hl], rfl, ?_⟩
    apply ext _ (by simp [MArray.reset, MArray.mk'])
    intro c _
    rw [← htot c, hl]
    simp [MArray.reset, MArray.mk', List.getD_eq_getElem?_getD, List.getElem?_replicate]
    split_ifs <;> rfl
  · obtain ⟨r, e2, hs, hlen, hr⟩ := reduceCells_spec (t.locals.map (·.2)) order shape.prod
      (fun i hi => List.mem_range.mp (hord.subset hi))
      (hord.nodup_iff.mpr List.nodup_range)
      (by intro l hl; obtain ⟨p, hp, rfl⟩ := List.mem_map.mp hl; exact hP p hp)
      (MArray.mk' shape) (by simp [MArray.mk'])
    refine ⟨t, r, e1, by simp [storageReduceInto, hl, e2], by rw [hs]; rfl, ?_⟩
    apply ext r hlen
    intro c hc
    rw [hr c, hmk0, zero_add, if_pos (hord.symm.subset (List.mem_range.mpr hc)), List.map_map]
    exact htot c

-- two threads, blocks processed out of order
example : IsExecution 4 [(1, 2), (0, 0), (1, 3), (0, 1)] ∧
    [2, 0, 1].Perm (List.range ([3] : List ℕ).prod) := by
  constructor
  · unfold IsExecution; decide
  · decide

/-- **C12**: the reduction of a thread storage adds to what the result holds, so the zeroed
result above is needed: reducing into a non-zero array does not give the sum of the locals. -/
theorem C12_storage_needs_zero_counterexample :
    storageReduceInto (⟨MArray.mk' [1], [(0, ⟨[1], [5]⟩)]⟩ : TLS (MArray ℕ)) [0] ⟨[1], [7]⟩ =
      some ⟨[1], [12]⟩ := by decide

end arrays

/-! ### Histograms -/

section hist
variable {K : Type*} [Field K] [LinearOrder K] [IsStrictOrderedRing K] [FloorRing K]
variable {T : Type*} [AddCommMonoid T]

theorem addAll_spec (axes : List (RegularAxis K)) (samples : List (List K × T))
    (h : Histogram K T) (hh : HistOK h) (he : h.axes = axes)
    (hd : ∀ s ∈ samples, s.1.length = axes.length) :
    ∃ h', h.addAll samples = some h' ∧ HistOK h' ∧ h'.axes = axes ∧
      ∀ idx, ValidIndex idx (axes.map (·.nbins)) → ∀ x, h.counts.at? idx = some x →
        h'.counts.at? idx = some (x + weightIn axes idx samples) := by
  classical
  induction samples generalizing h with
  | nil => exact ⟨h, rfl, hh, he, fun idx _ x hx => by simp [weightIn, hx]⟩
  | cons s ss ih =>
    obtain ⟨h1, e1, hh1, he1, hc1⟩ := add_spec h hh s.1 s.2 (by
      rw [he]; exact hd s List.mem_cons_self)
    obtain ⟨h2, e2, hh2, he2, hc2⟩ := ih h1 hh1 (he1.trans he)
      (fun s hs => hd s (List.mem_cons_of_mem _ hs))
    refine ⟨h2, ?_, hh2, he2, fun idx hidx x hx => ?_⟩
    · unfold Histogram.addAll at e2 ⊢
      simp only [List.foldlM_cons, e1, Option.bind_eq_bind, Option.bind_some]
      exact e2
    · rw [hc2 idx hidx _ (hc1 idx (by rw [he]; exact hidx) x hx), he]
      congr 1
      unfold weightIn
      by_cases hin : InBins axes idx s.1
      · simp [hin, List.filter_cons, add_assoc]
      · simp [hin, List.filter_cons]

/-- The value at a multi-index in range. -/
theorem at?_eq_getD {h : Histogram K T} (hh : HistOK h) {idx : List ℕ}
    (hi : ValidIndex idx (h.axes.map (·.nbins))) :
    h.counts.at? idx = some (h.counts.data.getD (rowMajor idx (h.axes.map (·.nbins))) 0) ∧
    rowMajor idx (h.axes.map (·.nbins)) < (h.axes.map (·.nbins)).prod := by
  have hb := (C09_index_bijection (h.axes.map (·.nbins))).1 idx hi
  have hlen : h.counts.data.length = (h.axes.map (·.nbins)).prod := by
    rw [← hh.shape]; exact hh.wf
  have hlt : rowMajor idx (h.axes.map (·.nbins)) < (h.axes.map (·.nbins)).prod := by
    rw [← hb.1]; exact hb.2.1
  refine ⟨?_, hlt⟩
  unfold MArray.at? MArray.get? MArray.size
  rw [hh.shape, hb.1, if_neg (by omega), List.getElem?_eq_getElem (by omega)]
  simp [List.getD_eq_getElem?_getD, hlen, hlt]

theorem weightIn_append (axes : List (RegularAxis K)) (idx : List ℕ) (l l' : List (List K × T)) :
    weightIn axes idx (l ++ l') = weightIn axes idx l + weightIn axes idx l' := by
  simp [weightIn, List.filter_append]

theorem weightIn_flatMap (axes : List (RegularAxis K)) (idx : List ℕ) (l : List ℕ)
    (f : ℕ → List (List K × T)) :
    weightIn axes idx (l.flatMap f) = (l.map (fun i => weightIn axes idx (f i))).sum := by
  induction l with
  | nil => simp [weightIn]
  | cons a as ih => rw [List.flatMap_cons, weightIn_append, ih]; simp

/-- The state of a set of thread-local histograms that has seen the given samples. -/
structure HistLocals (axes : List (RegularAxis K)) (t : TLS (Histogram K T))
    (samples : List (List K × T)) : Prop where
  ex : t.exemplar = Histogram.mk' axes
  ok : ∀ p ∈ t.locals, HistOK p.2 ∧ p.2.axes = axes
  sum : ∀ idx, ValidIndex idx (axes.map (·.nbins)) →
    (t.locals.map (fun p => p.2.counts.data.getD (rowMajor idx (axes.map (·.nbins))) 0)).sum =
      weightIn axes idx samples

theorem histLocals_step (axes : List (RegularAxis K)) (hax : ∀ a ∈ axes, AxisOK a)
    (hs : (axes.map (·.nbins)).prod ≤ OVERFLOW_BIN) (t : TLS (Histogram K T))
    (old : List (List K × T)) (ht : HistLocals axes t old)
    (n : ℕ) (f : ℕ → List (List K × T)) (hd : ∀ i < n, ∀ s ∈ f i, s.1.length = axes.length)
    (ev : List (ℕ × ℕ)) (hev : IsExecution n ev) :
    ∃ t', t.parallelFor (fun i h => h.addAll (f i)) ev = some t' ∧
      HistLocals axes t' (old ++ (List.range n).flatMap f) := by
  have hok : ∀ e ∈ ev, e.2 < n := by
    intro e he
    have : e.2 ∈ ev.map (·.2) := List.mem_map_of_mem he
    exact List.mem_range.mp (hev.subset this)
  have hmk : HistOK (Histogram.mk' (T := T) axes) := histOK_mk' axes hax hs
  obtain ⟨t', e1, hex, hP, -, hv⟩ := parallelFor_spec (T := T)
    (C := {idx : List ℕ // ValidIndex idx (axes.map (·.nbins))})
    (P := fun h : Histogram K T => HistOK h ∧ h.axes = axes)
    (val := fun h c => h.counts.data.getD (rowMajor c.1 (axes.map (·.nbins))) 0)
    (d := fun i c => weightIn axes c.1 (f i))
    (body := fun i h => h.addAll (f i)) (ok := fun i => i < n)
    (fun i s hi hs => by
      obtain ⟨h', e, hh, ha, hv⟩ := addAll_spec axes (f i) s hs.1 hs.2 (hd i hi)
      refine ⟨h', e, ⟨hh, ha⟩, fun c => ?_⟩
      have h0 := (at?_eq_getD hs.1 (idx := c.1) (by rw [hs.2]; exact c.2)).1
      have h1 := (at?_eq_getD hh (idx := c.1) (by rw [ha]; exact c.2)).1
      have h2 := hv c.1 c.2 _ h0
      rw [h1] at h2
      rw [ha, hs.2] at h2
      exact Option.some.inj h2)
    t (by rw [ht.ex]; exact ⟨hmk, rfl⟩)
    (fun c => by
      rw [ht.ex]
      have h0 := (at?_eq_getD hmk (idx := c.1) c.2).1
      have h1 := (C09_new_array (α := T) (axes.map (·.nbins))).2 c.1 c.2
      have : (Histogram.mk' (T := T) axes).counts.at? c.1 = some 0 := h1
      rw [this] at h0
      exact (Option.some.inj h0).symm)
    ht.ok ev hok
  refine ⟨t', e1, ⟨hex.trans ht.ex, hP, fun idx hidx => ?_⟩⟩
  rw [hv ⟨idx, hidx⟩, ht.sum idx hidx, weightIn_append, weightIn_flatMap]
  congr 1
  have := (hev.map (fun i => weightIn axes idx (f i))).sum_eq
  rw [List.map_map] at this
  exact this

theorem histReduce_spec (axes : List (RegularAxis K)) (t : TLS (Histogram K T))
    (samples : List (List K × T)) (ht : HistLocals axes t samples)
    (order : List ℕ) (hord : order.Perm (List.range (axes.map (·.nbins)).prod))
    (r : MArray T) (hr : r.shape = axes.map (·.nbins)) (hwf : WellFormed r) :
    ∃ r', histReduceInto t order r = some r' ∧ r'.shape = axes.map (·.nbins) ∧ WellFormed r' ∧
      ∀ idx, ValidIndex idx (axes.map (·.nbins)) →
        r'.at? idx = some (weightIn axes idx samples) := by
  have hlen : r.data.length = (axes.map (·.nbins)).prod := by rw [← hr]; exact hwf
  obtain ⟨r', e, hs, hl, hv⟩ := reduceCells_spec (t.locals.map (·.2.counts)) order
    (axes.map (·.nbins)).prod (fun i hi => List.mem_range.mp (hord.subset hi))
    (hord.nodup_iff.mpr List.nodup_range)
    (by
      intro l hl
      obtain ⟨p, hp, rfl⟩ := List.mem_map.mp hl
      have := (ht.ok p hp).1.wf
      unfold WellFormed at this
      rw [(ht.ok p hp).1.shape, (ht.ok p hp).2] at this
      exact this)
    r.reset (by simp [MArray.reset, hlen])
  have hs' : r'.shape = axes.map (·.nbins) := hs.trans hr
  refine ⟨r', e, hs', by unfold WellFormed; rw [hl, hs'], fun idx hidx => ?_⟩
  have hb := (C09_index_bijection (axes.map (·.nbins))).1 idx hidx
  have hlt : rowMajor idx (axes.map (·.nbins)) < (axes.map (·.nbins)).prod := by
    rw [← hb.1]; exact hb.2.1
  have hval := hv (rowMajor idx (axes.map (·.nbins)))
  rw [if_pos (hord.symm.subset (List.mem_range.mpr hlt)), List.map_map] at hval
  have hz : r.reset.data.getD (rowMajor idx (axes.map (·.nbins))) 0 = 0 := by
    simp [MArray.reset, List.getD_eq_getElem?_getD, List.getElem?_replicate]
    split_ifs <;> rfl
  rw [hz, zero_add] at hval
  have hsum := ht.sum idx hidx
  unfold MArray.at? MArray.get? MArray.size
  rw [hs', hb.1, if_neg (by omega), List.getElem?_eq_getElem (by omega)]
  rw [List.getD_eq_getElem?_getD, List.getElem?_eq_getElem (by omega)] at hval
  simp only [Option.getD_some] at hval
  rw [hval, ← hsum]
  rfl

/-- **C12** (histograms): for every execution of the parallel loop over the query points and
every order in which cells are reduced, filling thread-local histograms and reducing them gives,
in every bin, the total weight of the samples that fall in the bin -- what the sequential
program gives (`C11_counts_exact`) -- whatever the result array held before. -/
theorem C12_histogram (axes : List (RegularAxis K)) (hax : ∀ a ∈ axes, AxisOK a)
    (hs : (axes.map (·.nbins)).prod ≤ OVERFLOW_BIN)
    (n : ℕ) (f : ℕ → List (List K × T)) (hd : ∀ i < n, ∀ s ∈ f i, s.1.length = axes.length)
    (ev : List (ℕ × ℕ)) (hev : IsExecution n ev)
    (order : List ℕ) (hord : order.Perm (List.range (axes.map (·.nbins)).prod))
    (result : MArray T) (hr : result.shape = axes.map (·.nbins)) (hwf : WellFormed result) :
    ∃ t r, (⟨Histogram.mk' axes, []⟩ : TLS (Histogram K T)).parallelFor
        (fun i h => h.addAll (f i)) ev = some t ∧
      histReduceInto t order result = some r ∧
      ∀ idx, ValidIndex idx (axes.map (·.nbins)) →
        r.at? idx = some (weightIn axes idx ((List.range n).flatMap f)) := by
  obtain ⟨t, e, ht⟩ := histLocals_step axes hax hs ⟨Histogram.mk' axes, []⟩ []
    ⟨rfl, by simp, by intro idx _; simp [weightIn]⟩ n f hd ev hev
  obtain ⟨r, e2, -, -, hv⟩ := histReduce_spec axes t _ ht order hord result hr hwf
  exact ⟨t, r, e, e2, by simpa using hv⟩

/-- **C12**: the result is literally the one of the sequential program, and so the same for any
two executions. -/
theorem C12_equals_sequential (axes : List (RegularAxis K)) (hax : ∀ a ∈ axes, AxisOK a)
    (hs : (axes.map (·.nbins)).prod ≤ OVERFLOW_BIN)
    (n : ℕ) (f : ℕ → List (List K × T)) (hd : ∀ i < n, ∀ s ∈ f i, s.1.length = axes.length)
    (ev : List (ℕ × ℕ)) (hev : IsExecution n ev)
    (order : List ℕ) (hord : order.Perm (List.range (axes.map (·.nbins)).prod)) :
    ∃ t r h, (⟨Histogram.mk' axes, []⟩ : TLS (Histogram K T)).parallelFor
        (fun i h => h.addAll (f i)) ev = some t ∧
      histReduceInto t order (MArray.mk' (axes.map (·.nbins))) = some r ∧
      (Histogram.mk' axes).addAll ((List.range n).flatMap f) = some h ∧
      ∀ idx, ValidIndex idx (axes.map (·.nbins)) → r.at? idx = h.counts.at? idx := by
  obtain ⟨t, r, e1, e2, hv⟩ := C12_histogram axes hax hs n f hd ev hev order hord
    (MArray.mk' (axes.map (·.nbins))) rfl (C09_new_array _).1
  obtain ⟨h, e3, hw⟩ := C11_counts_exact axes hax hs ((List.range n).flatMap f) (by
    intro s hs
    obtain ⟨i, hi, hsi⟩ := List.mem_flatMap.mp hs
    exact hd i (List.mem_range.mp hi) s hsi)
  exact ⟨t, r, h, e1, e2, e3, fun idx hidx => by rw [hv idx hidx, hw idx hidx]⟩

/-! ### C13 -/

/-- The samples of the frames computed since the last reset. -/
def Spec.samplesSince : List (BHC.Op K T) → List (List K × T) → List (List K × T)
  | [], acc => acc
  | .reset :: os, _ => Spec.samplesSince os []
  | .frame n f _ :: os, acc => Spec.samplesSince os (acc ++ (List.range n).flatMap f)
  | .read _ :: os, acc => Spec.samplesSince os acc

/-- The number of frames computed since the last reset. -/
def Spec.framesSince : List (BHC.Op K T) → ℕ → ℕ
  | [], k => k
  | .reset :: os, _ => Spec.framesSince os 0
  | .frame _ _ _ :: os, k => Spec.framesSince os (k + 1)
  | .read _ :: os, k => Spec.framesSince os k

/-- What a user can do: frames are executed by some schedule and have samples of the right
dimension, reductions process every cell once. -/
def Spec.Legal (axes : List (RegularAxis K)) : BHC.Op K T → Prop
  | .reset => True
  | .frame n f ev => IsExecution n ev ∧ ∀ i < n, ∀ s ∈ f i, s.1.length = axes.length
  | .read order => order.Perm (List.range (axes.map (·.nbins)).prod)

/-- The invariant of a compute object. -/
structure BHCInv (axes : List (RegularAxis K)) (s : BHC K T) (samples : List (List K × T))
    (frames : ℕ) : Prop where
  hax : s.histogram.axes = axes
  hok : HistOK s.histogram
  loc : HistLocals axes s.locals samples
  cnt : s.frameCounter = frames
  red : s.needReduce = false → ∀ idx, ValidIndex idx (axes.map (·.nbins)) →
    s.histogram.counts.at? idx = some (weightIn axes idx samples)

theorem bhc_new_inv (axes : List (RegularAxis K)) (hax : ∀ a ∈ axes, AxisOK a)
    (hs : (axes.map (·.nbins)).prod ≤ OVERFLOW_BIN) :
    BHCInv axes (BHC.new axes : BHC K T) [] 0 :=
  ⟨rfl, histOK_mk' axes hax hs, ⟨rfl, by simp [BHC.new], by intro idx _; simp [BHC.new, weightIn]⟩,
    rfl, by simp [BHC.new]⟩

theorem bhc_step_inv (axes : List (RegularAxis K)) (hax : ∀ a ∈ axes, AxisOK a)
    (hs : (axes.map (·.nbins)).prod ≤ OVERFLOW_BIN) (s : BHC K T) (samples : List (List K × T))
    (frames : ℕ) (hinv : BHCInv axes s samples frames) (o : BHC.Op K T) (ho : Legal axes o) :
    ∃ s' out, s.step o = some (s', out) ∧
      BHCInv axes s' (samplesSince [o] samples) (framesSince [o] frames) ∧
      (∀ c, out = some c → ∀ idx, ValidIndex idx (axes.map (·.nbins)) →
        c.at? idx = some (weightIn axes idx samples)) := by
  cases o with
  | reset =>
    refine ⟨s.reset, none, rfl, ⟨hinv.hax, ?_, ⟨?_, ?_, ?_⟩, rfl, by simp [BHC.reset]⟩, by simp⟩
    · exact histOK_mk' _ (by rw [hinv.hax]; exact hax) (by rw [hinv.hax]; exact hs)
    · exact hinv.loc.ex
    · intro p hp
      simp only [BHC.reset, TLS.resetWith, List.mem_map] at hp
      obtain ⟨q, hq, rfl⟩ := hp
      obtain ⟨h1, h2⟩ := hinv.loc.ok q hq
      refine ⟨⟨h1.axes, h1.shape, ?_, h1.small⟩, h2⟩
      have := h1.wf
      unfold WellFormed at this ⊢
      simp [Histogram.reset, MArray.reset, this]
    · intro idx _
      simp only [BHC.reset, TLS.resetWith, List.map_map]
      rw [List.sum_eq_zero]
      · simp [samplesSince, weightIn]
      · intro x hx
        obtain ⟨q, -, rfl⟩ := List.mem_map.mp hx
        simp [Histogram.reset, MArray.reset, List.getD_eq_getElem?_getD, List.getElem?_replicate]
        split_ifs <;> rfl
  | frame n f ev =>
    obtain ⟨t', e, ht⟩ := histLocals_step axes hax hs s.locals samples hinv.loc n f ho.2 ev ho.1
    refine ⟨{ s with locals := t', frameCounter := s.frameCounter + 1, needReduce := true }, none,
      by simp [BHC.step, BHC.accumulate, e], ⟨hinv.hax, hinv.hok, ht, ?_, by simp⟩, by simp⟩
    simp [framesSince, hinv.cnt]
  | read order =>
    cases hr : s.needReduce with
    | false =>
      refine ⟨s, some s.histogram.counts, by simp [BHC.step, BHC.getBinCounts, hr], hinv, ?_⟩
      intro c hc idx hidx
      cases hc
      exact hinv.red hr idx hidx
    | true =>
      obtain ⟨r', e, hsh, hwf, hv⟩ := histReduce_spec axes s.locals samples hinv.loc order ho
        s.histogram.counts (by rw [hinv.hok.shape, hinv.hax]) hinv.hok.wf
      refine ⟨{ s with histogram := { s.histogram with counts := r' }, needReduce := false },
        some r', by simp [BHC.step, BHC.getBinCounts, hr, e],
        ⟨hinv.hax, ⟨hinv.hok.axes, by rw [hsh]; exact congrArg _ hinv.hax.symm, hwf, hinv.hok.small⟩,
          hinv.loc, hinv.cnt, fun _ => hv⟩, ?_⟩
      intro c hc idx hidx
      cases hc
      exact hv idx hidx

theorem bhc_run_inv (axes : List (RegularAxis K)) (hax : ∀ a ∈ axes, AxisOK a)
    (hs : (axes.map (·.nbins)).prod ≤ OVERFLOW_BIN) (os : List (BHC.Op K T)) :
    ∀ (s : BHC K T) (samples : List (List K × T)) (frames : ℕ),
      BHCInv axes s samples frames → (∀ o ∈ os, Legal axes o) →
      ∃ s', s.run os = some s' ∧ BHCInv axes s' (samplesSince os samples) (framesSince os frames) := by
  induction os with
  | nil => intro s samples frames h _; exact ⟨s, rfl, h⟩
  | cons o os ih =>
    intro s samples frames h hl
    obtain ⟨s1, out, e1, h1, -⟩ := bhc_step_inv axes hax hs s samples frames h o (hl o List.mem_cons_self)
    obtain ⟨s2, e2, h2⟩ := ih s1 _ _ h1 (fun o h => hl o (List.mem_cons_of_mem _ h))
    refine ⟨s2, by simp [BHC.run, e1, e2], ?_⟩
    cases o <;> exact h2

/-- **C13**: for every history of resets, frames (each under any thread schedule) and reads on a
new object, no operation raises, the frame counter is the number of frames since the last reset,
and a read at the end returns in every bin the total weight of the samples of the frames since
the last reset. Earlier reads do not count. -/
theorem C13_counts_since_reset (axes : List (RegularAxis K)) (hax : ∀ a ∈ axes, AxisOK a)
    (hs : (axes.map (·.nbins)).prod ≤ OVERFLOW_BIN) (history : List (BHC.Op K T))
    (hl : ∀ o ∈ history, Legal axes o) (order : List ℕ)
    (hord : order.Perm (List.range (axes.map (·.nbins)).prod)) :
    ∃ s s' counts, (BHC.new axes).run history = some s ∧
      s.frameCounter = framesSince history 0 ∧
      s.getBinCounts order = some (s', counts) ∧
      ∀ idx, ValidIndex idx (axes.map (·.nbins)) →
        counts.at? idx = some (weightIn axes idx (samplesSince history [])) := by
  obtain ⟨s, e, h⟩ := bhc_run_inv axes hax hs history (BHC.new axes) [] 0
    (bhc_new_inv axes hax hs) hl
  obtain ⟨s', out, e2, h2, hv⟩ := bhc_step_inv axes hax hs s _ _ h (.read order) hord
  simp only [BHC.step, Option.map_eq_some_iff] at e2
  obtain ⟨⟨s1, c⟩, e3, e4⟩ := e2
  cases e4
  exact ⟨s, s1, c, e, h.cnt, e3, hv c rfl⟩

theorem samplesSince_reads (history : List (BHC.Op K T)) (acc : List (List K × T)) :
    samplesSince history acc =
      samplesSince (history.filter (fun o => match o with | .read _ => false | _ => true)) acc := by
  induction history generalizing acc with
  | nil => rfl
  | cons o os ih => cases o <;> simp [samplesSince, ih]

/-- **C13**: reading a property any number of times, at any points, changes nothing: the counts
read after a history are those read after the same history without its reads. -/
theorem C13_reads_ignored (axes : List (RegularAxis K)) (hax : ∀ a ∈ axes, AxisOK a)
    (hs : (axes.map (·.nbins)).prod ≤ OVERFLOW_BIN) (history : List (BHC.Op K T))
    (hl : ∀ o ∈ history, Legal axes o) (order : List ℕ)
    (hord : order.Perm (List.range (axes.map (·.nbins)).prod)) :
    ∃ s s' c t t' c', (BHC.new axes).run history = some s ∧
      (BHC.new axes).run (history.filter (fun o => match o with | .read _ => false | _ => true)) =
        some t ∧
      s.getBinCounts order = some (s', c) ∧ t.getBinCounts order = some (t', c') ∧
      ∀ idx, ValidIndex idx (axes.map (·.nbins)) → c.at? idx = c'.at? idx := by
  obtain ⟨s, s', c, h1, -, h2, h3⟩ := C13_counts_since_reset axes hax hs history hl order hord
  obtain ⟨t, t', c', g1, -, g2, g3⟩ := C13_counts_since_reset axes hax hs
    (history.filter (fun o => match o with | .read _ => false | _ => true))
    (fun o ho => hl o (List.mem_of_mem_filter ho)) order hord
  exact ⟨s, s', c, t, t', c', h1, g1, h2, g2, fun idx hi => by
    rw [h3 idx hi, g3 idx hi, ← samplesSince_reads]⟩

/-- **C13**: reading twice in a row returns the same array and leaves the object unchanged. -/
theorem C13_read_idempotent (s s1 : BHC K T) (order order' : List ℕ) (c : MArray T)
    (h : s.getBinCounts order = some (s1, c)) : s1.getBinCounts order' = some (s1, c) := by
  unfold BHC.getBinCounts at h
  split_ifs at h with hr
  · simp only [Option.map_eq_some_iff] at h
    obtain ⟨c', -, e⟩ := h
    cases e
    simp [BHC.getBinCounts]
  · cases h
    simp [BHC.getBinCounts, hr]

theorem samplesSince_reset (history : List (BHC.Op K T)) (n : ℕ) (f : ℕ → List (List K × T))
    (ev : List (ℕ × ℕ)) (acc : List (List K × T)) (k : ℕ) :
    samplesSince (history ++ [.reset, .frame n f ev]) acc = (List.range n).flatMap f ∧
    framesSince (history ++ [.reset, .frame n f ev]) k = 1 := by
  induction history generalizing acc k with
  | nil => simp [samplesSince, framesSince]
  | cons o os ih => cases o <;> simpa [samplesSince, framesSince] using ih _ _

/-- **C13**: `compute(reset=True)` forgets everything before it: whatever the history, the counts
read after it are those of its own frame, and the frame counter is 1. -/
theorem C13_reset_forgets (axes : List (RegularAxis K)) (hax : ∀ a ∈ axes, AxisOK a)
    (hs : (axes.map (·.nbins)).prod ≤ OVERFLOW_BIN) (history : List (BHC.Op K T))
    (hl : ∀ o ∈ history, Legal axes o)
    (n : ℕ) (f : ℕ → List (List K × T)) (ev : List (ℕ × ℕ)) (hf : Legal axes (.frame n f ev))
    (order : List ℕ) (hord : order.Perm (List.range (axes.map (·.nbins)).prod)) :
    ∃ s s' c, (BHC.new axes).run (history ++ [.reset, .frame n f ev]) = some s ∧
      s.frameCounter = 1 ∧ s.getBinCounts order = some (s', c) ∧
      ∀ idx, ValidIndex idx (axes.map (·.nbins)) →
        c.at? idx = some (weightIn axes idx ((List.range n).flatMap f)) := by
  obtain ⟨s, s', c, h1, h2, h3, h4⟩ := C13_counts_since_reset axes hax hs
    (history ++ [.reset, .frame n f ev]) (by
      intro o ho
      rcases List.mem_append.mp ho with h | h
      · exact hl o h
      · simp only [List.mem_cons, List.not_mem_nil, or_false] at h
        rcases h with rfl | rfl
        · trivial
        · exact hf) order hord
  obtain ⟨e1, e2⟩ := samplesSince_reset history n f ev [] 0
  exact ⟨s, s', c, h1, h2.trans e2, h3, fun idx hi => by rw [h4 idx hi, e1]⟩

-- two frames on different schedules with a read in between, on a one-bin axis
example : let axes : List (RegularAxis ℚ) := [⟨1, 0, 1⟩]
    let f : ℕ → List (List ℚ × ℕ) := fun _ => [([1 / 2], 1)]
    (∀ a ∈ axes, AxisOK a) ∧
    ∀ o ∈ ([.frame 2 f [(0, 0), (1, 1)], .read [0], .frame 2 f [(3, 1), (3, 0)]] :
      List (BHC.Op ℚ ℕ)), Legal axes o := by
  refine ⟨?_, ?_⟩
  · intro a ha
    simp only [List.mem_cons, List.not_mem_nil, or_false] at ha
    subst ha
    exact ⟨by decide, by decide, by decide⟩
  · intro o ho
    simp only [List.mem_cons, List.not_mem_nil, or_false] at ho
    rcases ho with rfl | rfl | rfl
    · exact ⟨by unfold IsExecution; decide, by simp⟩
    · simp only [Legal]; decide
    · exact ⟨by unfold IsExecution; decide, by simp⟩

end hist
end Freud
