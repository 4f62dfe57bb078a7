import Verif.Spec.SavedArrays
import Verif.Lemmas.HistCompute
import Verif.Props.NeighborListStore
import Mathlib.Data.Rat.Floor

/-!
# Property C63: arrays a user keeps do not change behind their back
-/

set_option linter.unusedSectionVars false

namespace Freud
open Spec ArrayStore
variable {K : Type*} [Field K] [LinearOrder K] [IsStrictOrderedRing K] [FloorRing K]
variable {C F R : Type*}

/-- The invariant: every object has its own cell, which holds its arrays. -/
structure ArraysOK (s : ArrayStore K C F R) : Prop where
  mem : ∀ (i : ℕ) (o : HistCompute K C F R) (a : ℕ), s.objs[i]? = some (some (o, a)) → s.memory[a]? = some (contents o)
  sep : ∀ (i j : ℕ) (o o' : HistCompute K C F R) (a : ℕ), s.objs[i]? = some (some (o, a)) → s.objs[j]? = some (some (o', a)) → i = j

theorem step_contents {fill : C → F → ℕ → List ℕ → R} {zero : R} {o o' : HistCompute K C F R}
    {op : HistCompute.Op K C F} (h : o.step fill zero op = some o') (h1 : op ≠ .reset)
    (h2 : ∀ x, op ≠ .read x) : contents o' = contents o := by
  cases op with
  | reset => exact absurd rfl h1
  | read x => exact absurd rfl (h2 x)
  | setCfg c => cases h; rfl
  | frame info n f ev =>
    simp only [HistCompute.step, Option.map_eq_some_iff] at h
    obtain ⟨b, hb, rfl⟩ := h
    simp only [BHC.accumulate, Option.map_eq_some_iff] at hb
    obtain ⟨l, -, rfl⟩ := hb
    rfl

theorem getElem?_set_some {α : Type*} {l : List α} {i j : ℕ} {x y : α}
    (h : (l.set i x)[j]? = some y) : (j = i ∧ y = x) ∨ (j ≠ i ∧ l[j]? = some y) := by
  rw [List.getElem?_set] at h
  split_ifs at h with h1 h2
  · exact Or.inl ⟨h1.symm, by cases h; rfl⟩
  · exact Or.inr ⟨fun e => h1 e.symm, h⟩

theorem getElem?_append_new {α : Type*} {l : List α} {x : α} {j : ℕ} {y : α}
    (h : (l ++ [x])[j]? = some y) : (j = l.length ∧ y = x) ∨ l[j]? = some y := by
  rw [List.getElem?_append] at h
  split_ifs at h with h1
  · exact Or.inr h
  · obtain ⟨h2, h3⟩ := List.getElem?_eq_some_iff.mp h
    simp only [List.length_singleton] at h2
    refine Or.inl ⟨by omega, ?_⟩
    have : j - l.length = 0 := by omega
    simp only [this, List.getElem_cons_zero] at h3
    exact h3.symm

theorem arrays_step {fill : C → F → ℕ → List ℕ → R} {zero : R} {s s' : ArrayStore K C F R}
    (hs : ArraysOK s) {op : ArrayStore.Op K C F} (h : s.step fill zero op = some s') :
    ArraysOK s' := by
  have hlt : ∀ (i : ℕ) (o : HistCompute K C F R) (a : ℕ), s.objs[i]? = some (some (o, a)) → a < s.memory.length := fun i o a h =>
    (List.getElem?_eq_some_iff.mp (hs.mem i o a h)).1
  cases op with
  | make axes cfg info =>
    cases h
    refine ⟨fun i o a hi => ?_, fun i j o o' a hi hj => ?_⟩
    · rcases getElem?_append_new hi with ⟨-, e⟩ | e
      · cases e
        simp [ArrayStore.make]
      · have := hlt i o a e
        simp only [ArrayStore.make]
        rw [List.getElem?_append_left this]
        exact hs.mem i o a e
    · rcases getElem?_append_new hi with ⟨h1, e⟩ | e <;> rcases getElem?_append_new hj with ⟨h2, e'⟩ | e'
      · rw [h1, h2]
      · cases e
        exact absurd (hlt j o' _ e') (lt_irrefl _)
      · cases e'
        exact absurd (hlt i o _ e) (lt_irrefl _)
      · exact hs.sep i j o o' a e e'
  | delete k =>
    simp only [ArrayStore.step, Option.map_eq_some_iff] at h
    obtain ⟨p, hp, rfl⟩ := h
    refine ⟨fun i o a hi => ?_, fun i j o o' a hi hj => ?_⟩
    · rcases getElem?_set_some hi with ⟨-, e⟩ | ⟨-, e⟩
      · cases e
      · exact hs.mem i o a e
    · rcases getElem?_set_some hi with ⟨-, e⟩ | ⟨-, e⟩
      · cases e
      rcases getElem?_set_some hj with ⟨-, e'⟩ | ⟨-, e'⟩
      · cases e'
      exact hs.sep i j o o' a e e'
  | use k op =>
    simp only [ArrayStore.step, Option.bind_eq_some_iff] at h
    obtain ⟨⟨o, a⟩, hp, h⟩ := h
    have hk : s.objs[k]? = some (some (o, a)) := by
      cases e : s.objs[k]? with
      | none => rw [e] at hp; cases hp
      | some x => rw [e] at hp; exact congrArg some hp
    simp only [ArrayStore.use, Option.map_eq_some_iff] at h
    obtain ⟨o1, ho, rfl⟩ := h
    have other : ∀ (m : List (List ℕ × R)) (b : ℕ), m[b]? = some (contents o1) →
        (∀ (i : ℕ) (o' : HistCompute K C F R) (a' : ℕ), i ≠ k → s.objs[i]? = some (some (o', a')) → m[a']? = s.memory[a']? ∧ a' ≠ b) →
        ArraysOK ⟨m, s.objs.set k (some (o1, b))⟩ := by
      intro m b hb hm
      refine ⟨fun i o' a' hi => ?_, fun i j o' o'' a' hi hj => ?_⟩
      · rcases getElem?_set_some hi with ⟨-, e⟩ | ⟨hne, e⟩
        · cases e; exact hb
        · exact (hm i o' a' hne e).1.trans (hs.mem i o' a' e)
      · rcases getElem?_set_some hi with ⟨h1, e⟩ | ⟨h1, e⟩ <;>
          rcases getElem?_set_some hj with ⟨h2, e'⟩ | ⟨h2, e'⟩
        · rw [h1, h2]
        · cases e; exact absurd rfl (hm j o'' _ h2 e').2
        · cases e'; exact absurd rfl (hm i o' _ h1 e).2
        · exact hs.sep i j o' o'' a' e e'
    have keep : op ≠ .reset → (∀ x, op ≠ .read x) →
        ArraysOK ⟨s.memory, s.objs.set k (some (o1, a))⟩ := fun h1 h2 =>
      other _ _ (by rw [step_contents ho h1 h2]; exact hs.mem k o a hk)
        fun i o' a' hne hi => ⟨rfl, fun e => hne (hs.sep i k o' o a (e ▸ hi) hk)⟩
    cases op with
    | reset =>
      refine other _ _ (by simp) fun i o' a' hne hi => ?_
      have := hlt i o' a' hi
      exact ⟨List.getElem?_append_left this, this.ne⟩
    | read x =>
      refine other _ _ (by rw [List.getElem?_set_self (hlt k o a hk)]) fun i o' a' hne hi => ?_
      have h1 : a' ≠ a := fun e => hne (hs.sep i k o' o a (e ▸ hi) hk)
      exact ⟨List.getElem?_set_ne h1.symm, h1⟩
    | frame info n f ev => exact keep (by simp) (by simp)
    | setCfg c => exact keep (by simp) (by simp)

theorem arrays_run {fill : C → F → ℕ → List ℕ → R} {zero : R} {s s' : ArrayStore K C F R}
    (hs : ArraysOK s) {h : List (ArrayStore.Op K C F)} (hr : s.run fill zero h = some s') :
    ArraysOK s' := by
  induction h generalizing s with
  | nil => cases hr; exact hs
  | cons op os ih =>
    simp only [ArrayStore.run, Option.bind_eq_some_iff] at hr
    obtain ⟨s1, h1, h2⟩ := hr
    exact ih (arrays_step hs h1) h2

theorem arrays_empty : ArraysOK (ArrayStore.empty : ArrayStore K C F R) :=
  ⟨by simp [ArrayStore.empty], by simp [ArrayStore.empty]⟩

/-- A step either is the operation on object `i` or leaves it where it was. -/
theorem step_other {fill : C → F → ℕ → List ℕ → R} {zero : R} {s s' : ArrayStore K C F R}
    (hs : ArraysOK s) {op : ArrayStore.Op K C F} (h : s.step fill zero op = some s') {i : ℕ}
    {o : HistCompute K C F R} {a : ℕ} (hi : s.objs[i]? = some (some (o, a)))
    (hop : ∀ x, op ≠ .use i x) (hd : op ≠ .delete i) : s'.objs[i]? = some (some (o, a)) := by
  cases op with
  | make axes cfg info =>
    cases h
    simp only [ArrayStore.make]
    rw [List.getElem?_append_left (List.getElem?_eq_some_iff.mp hi).1]
    exact hi
  | delete k =>
    simp only [ArrayStore.step, Option.map_eq_some_iff] at h
    obtain ⟨p, hp, rfl⟩ := h
    have : k ≠ i := fun e => hd (e ▸ rfl)
    simpa [List.getElem?_set_ne this] using hi
  | use k op =>
    have hk : k ≠ i := fun e => hop op (e ▸ rfl)
    simp only [ArrayStore.step, Option.bind_eq_some_iff] at h
    obtain ⟨⟨o', a'⟩, hp, h⟩ := h
    simp only [ArrayStore.use, Option.map_eq_some_iff] at h
    obtain ⟨o1, ho, rfl⟩ := h
    cases op <;> simpa [List.getElem?_set_ne hk] using hi

theorem step_self {fill : C → F → ℕ → List ℕ → R} {zero : R} {s s' : ArrayStore K C F R} {i : ℕ}
    {x : HistCompute.Op K C F} (h : s.step fill zero (.use i x) = some s')
    {o : HistCompute K C F R} {a : ℕ} (hi : s.objs[i]? = some (some (o, a))) :
    ∃ o' a', o.step fill zero x = some o' ∧ s'.objs[i]? = some (some (o', a')) ∧
      (x ≠ .reset → a' = a) := by
  have hlt := (List.getElem?_eq_some_iff.mp hi).1
  simp only [ArrayStore.step, hi, Option.join_some, Option.bind_some, ArrayStore.use,
    Option.map_eq_some_iff] at h
  obtain ⟨o1, ho, rfl⟩ := h
  cases x with
  | reset => exact ⟨o1, s.memory.length, ho, by simp [List.getElem?_set_self hlt], by simp⟩
  | _ => exact ⟨o1, a, ho, by simp [List.getElem?_set_self hlt], fun _ => rfl⟩

/-- A cell no object points to is never written. -/
theorem orphan_step {fill : C → F → ℕ → List ℕ → R} {zero : R} {s s' : ArrayStore K C F R}
    {op : ArrayStore.Op K C F} (h : s.step fill zero op = some s') {a : ℕ} (ha : a < s.memory.length)
    (hn : ∀ (i : ℕ) (o : HistCompute K C F R), s.objs[i]? ≠ some (some (o, a))) :
    s'.memory[a]? = s.memory[a]? ∧ a < s'.memory.length ∧ ∀ (i : ℕ) (o : HistCompute K C F R), s'.objs[i]? ≠ some (some (o, a)) := by
  cases op with
  | make axes cfg info =>
    cases h
    refine ⟨List.getElem?_append_left ha, by simp [ArrayStore.make]; omega, fun i o hi => ?_⟩
    rcases getElem?_append_new hi with ⟨-, e⟩ | e
    · cases e; exact lt_irrefl _ ha
    · exact hn i o e
  | delete k =>
    simp only [ArrayStore.step, Option.map_eq_some_iff] at h
    obtain ⟨p, hp, rfl⟩ := h
    refine ⟨rfl, ha, fun i o hi => ?_⟩
    rcases getElem?_set_some hi with ⟨-, e⟩ | ⟨-, e⟩
    · cases e
    · exact hn i o e
  | use k op =>
    simp only [ArrayStore.step, Option.bind_eq_some_iff] at h
    obtain ⟨⟨o, b⟩, hp, h⟩ := h
    have hk : s.objs[k]? = some (some (o, b)) := by
      cases e : s.objs[k]? with
      | none => rw [e] at hp; cases hp
      | some x => rw [e] at hp; exact congrArg some hp
    have hb : b ≠ a := fun e => hn k o (e ▸ hk)
    simp only [ArrayStore.use, Option.map_eq_some_iff] at h
    obtain ⟨o1, ho, rfl⟩ := h
    have key : ∀ c, c ≠ a → ∀ (i : ℕ) (o' : HistCompute K C F R), (s.objs.set k (some (o1, c)))[i]? ≠ some (some (o', a)) := by
      intro c hc i o' hi
      rcases getElem?_set_some hi with ⟨-, e⟩ | ⟨-, e⟩
      · cases e; exact hc rfl
      · exact hn i o' e
    cases op with
    | reset => exact ⟨List.getElem?_append_left ha, by simp; omega, key _ ha.ne'⟩
    | read x => exact ⟨List.getElem?_set_ne hb, by simpa using ha, key _ hb⟩
    | frame info n f ev => exact ⟨rfl, ha, key _ hb⟩
    | setCfg c => exact ⟨rfl, ha, key _ hb⟩

theorem orphan_run {fill : C → F → ℕ → List ℕ → R} {zero : R} {s s' : ArrayStore K C F R}
    {h : List (ArrayStore.Op K C F)} (hr : s.run fill zero h = some s') {a : ℕ}
    (ha : a < s.memory.length) (hn : ∀ (i : ℕ) (o : HistCompute K C F R), s.objs[i]? ≠ some (some (o, a))) :
    s'.memory[a]? = s.memory[a]? := by
  induction h generalizing s with
  | nil => cases hr; rfl
  | cons op os ih =>
    simp only [ArrayStore.run, Option.bind_eq_some_iff] at hr
    obtain ⟨s1, h1, h2⟩ := hr
    obtain ⟨e, ha', hn'⟩ := orphan_step h1 ha hn
    rw [ih h2 ha' hn', e]

theorem saved_run {fill : C → F → ℕ → List ℕ → R} {zero : R} {s s' : ArrayStore K C F R}
    (hs : ArraysOK s) {h : List (ArrayStore.Op K C F)} (hr : s.run fill zero h = some s') {i : ℕ}
    {o : HistCompute K C F R} {a : ℕ} (hi : s.objs[i]? = some (some (o, a))) :
    ∃ o', o.run fill zero (opsUntilReset i h) = some o' ∧ s'.memory[a]? = some (contents o') := by
  induction h generalizing s o with
  | nil => cases hr; exact ⟨o, rfl, hs.mem i o a hi⟩
  | cons op os ih =>
    simp only [ArrayStore.run, Option.bind_eq_some_iff] at hr
    obtain ⟨s1, h1, h2⟩ := hr
    have hs1 := arrays_step hs h1
    have hlt := (List.getElem?_eq_some_iff.mp (hs.mem i o a hi)).1
    -- the cell is given up by this step
    have gone : s1.memory[a]? = s.memory[a]? → a < s1.memory.length →
        (∀ (j : ℕ) (o' : HistCompute K C F R), s1.objs[j]? ≠ some (some (o', a))) → s'.memory[a]? = some (contents o) := by
      intro h3 h4 h5
      rw [orphan_run h2 h4 h5, h3]
      exact hs.mem i o a hi
    cases op with
    | make axes cfg info =>
      exact ih hs1 h2 (step_other hs h1 hi (by simp) (by simp))
    | delete k =>
      by_cases hk : k = i
      · subst hk
        simp only [opsUntilReset, if_true]
        refine ⟨o, rfl, ?_⟩
        simp only [ArrayStore.step, Option.map_eq_some_iff] at h1
        obtain ⟨p, hp, rfl⟩ := h1
        refine gone rfl hlt fun j o' hj => ?_
        rcases getElem?_set_some hj with ⟨-, e⟩ | ⟨hne, e⟩
        · cases e
        · exact hne (hs.sep j k o' o a e hi)
      · simp only [opsUntilReset, if_neg hk]
        exact ih hs1 h2 (step_other hs h1 hi (by simp) (by simp [hk]))
    | use k x =>
      by_cases hk : k = i
      · subst hk
        obtain ⟨o1, a1, e1, e2, e3⟩ := step_self h1 hi
        by_cases hx : x = .reset
        · subst hx
          simp only [opsUntilReset, if_true]
          refine ⟨o, rfl, ?_⟩
          simp only [ArrayStore.step, hi, Option.join_some, Option.bind_some, ArrayStore.use,
            Option.map_eq_some_iff] at h1
          obtain ⟨o2, -, rfl⟩ := h1
          refine gone (List.getElem?_append_left hlt) (by simp; omega) fun j o' hj => ?_
          rcases getElem?_set_some hj with ⟨-, e⟩ | ⟨hne, e⟩
          · cases e; exact lt_irrefl _ hlt
          · exact hne (hs.sep j k o' o a e hi)
        · have ha := e3 hx
          subst ha
          obtain ⟨o', r1, r2⟩ := ih hs1 h2 e2
          refine ⟨o', ?_, r2⟩
          cases x with
          | reset => exact absurd rfl hx
          | _ => simp only [opsUntilReset, if_true, HistCompute.run, e1, Option.bind_some]; exact r1
      · have h3 := step_other hs h1 hi (by intro y e; cases e; exact hk rfl) (by simp)
        obtain ⟨o', r1, r2⟩ := ih hs1 h2 h3
        refine ⟨o', ?_, r2⟩
        cases x <;> simpa only [opsUntilReset, if_neg hk] using r1

/-- **C63**: what an array holds that a user got from object `i`, after anything was done with this
and other objects: the results of the object at the last read before its next reset or deletion.
Other objects have no influence, and neither has anything after that reset or deletion. -/
theorem C63_saved_array (fill : C → F → ℕ → List ℕ → R) (zero : R) (before after : List (ArrayStore.Op K C F))
    (s s' : ArrayStore K C F R) (hs : ArrayStore.empty.run fill zero before = some s)
    (hs' : s.run fill zero after = some s') (i : ℕ) (o : HistCompute K C F R) (a : ℕ)
    (hi : s.objs[i]? = some (some (o, a))) :
    s.memory[a]? = some (contents o) ∧
    ∃ o', o.run fill zero (opsUntilReset i after) = some o' ∧ s'.memory[a]? = some (contents o') :=
  ⟨(arrays_run arrays_empty hs).mem i o a hi, saved_run (arrays_run arrays_empty hs) hs' hi⟩

theorem run_contents_noRead {fill : C → F → ℕ → List ℕ → R} {zero : R} {o o' : HistCompute K C F R}
    {l : List (HistCompute.Op K C F)} (h : o.run fill zero l = some o') (hr : NoRead l)
    (hn : HistCompute.Op.reset ∉ l) : contents o' = contents o := by
  induction l generalizing o with
  | nil => cases h; rfl
  | cons op os ih =>
    simp only [HistCompute.run, Option.bind_eq_some_iff] at h
    obtain ⟨o1, h1, h2⟩ := h
    rw [ih h2 (fun x hx => hr x (List.mem_cons_of_mem _ hx)) (fun hx => hn (List.mem_cons_of_mem _ hx))]
    exact step_contents h1 (fun e => hn (e ▸ List.mem_cons_self))
      (fun x e => hr x (e ▸ List.mem_cons_self))

theorem opsUntilReset_noReset (i : ℕ) (h : List (ArrayStore.Op K C F)) :
    HistCompute.Op.reset ∉ opsUntilReset i h := by
  induction h with
  | nil => simp [opsUntilReset]
  | cons op os ih =>
    cases op with
    | make axes cfg info => exact ih
    | delete j => simp only [opsUntilReset]; split_ifs <;> simp [ih]
    | use j x => cases x <;> simp only [opsUntilReset] <;> split_ifs <;> simp [ih]

/-- **C63**: results a user kept do not change as long as the object is reset (or deleted) before its
results are read again, whatever else happens: `compute` with `reset=True`, or another object. -/
theorem C63_saved_results_stay (fill : C → F → ℕ → List ℕ → R) (zero : R)
    (before after : List (ArrayStore.Op K C F)) (s s' : ArrayStore K C F R)
    (hs : ArrayStore.empty.run fill zero before = some s) (hs' : s.run fill zero after = some s')
    (i : ℕ) (o : HistCompute K C F R) (a : ℕ) (hi : s.objs[i]? = some (some (o, a)))
    (hr : NoRead (opsUntilReset i after)) : s'.memory[a]? = s.memory[a]? := by
  obtain ⟨h1, o', h2, h3⟩ := C63_saved_array fill zero before after s s' hs hs' i o a hi
  rw [h3, h1, run_contents_noRead h2 hr (opsUntilReset_noReset i after)]

theorem store_run_append {fill : C → F → ℕ → List ℕ → R} {zero : R} {s s' : ArrayStore K C F R}
    {l l' : List (ArrayStore.Op K C F)} (h : s.run fill zero (l ++ l') = some s') :
    ∃ s1, s.run fill zero l = some s1 ∧ s1.run fill zero l' = some s' := by
  induction l generalizing s with
  | nil => exact ⟨s, rfl, h⟩
  | cons op os ih =>
    simp only [List.cons_append, ArrayStore.run, Option.bind_eq_some_iff] at h
    obtain ⟨s1, h1, h2⟩ := h
    obtain ⟨s2, h3, h4⟩ := ih h2
    exact ⟨s2, by simp [ArrayStore.run, h1, h3], h4⟩

theorem run_contents_noFrame {fill : C → F → ℕ → List ℕ → R} {zero : R} {o o' : HistCompute K C F R}
    {l : List (HistCompute.Op K C F)} (h : o.run fill zero l = some o') (hf : NoFrame l)
    (hn : HistCompute.Op.reset ∉ l) (hc : o.bhc.needReduce = false) : contents o' = contents o := by
  induction l generalizing o with
  | nil => cases h; rfl
  | cons op os ih =>
    simp only [HistCompute.run, Option.bind_eq_some_iff] at h
    obtain ⟨o1, h1, h2⟩ := h
    have ih' := fun hc' => ih h2 (fun a b c d hx => hf a b c d (List.mem_cons_of_mem _ hx))
      (fun hx => hn (List.mem_cons_of_mem _ hx)) hc'
    cases op with
    | reset => exact absurd List.mem_cons_self hn
    | frame info n f ev => exact absurd List.mem_cons_self (hf info n f ev)
    | setCfg c => cases h1; exact ih' hc
    | read x =>
      simp only [HistCompute.step, HistCompute.refresh, hc, Bool.false_eq_true, if_false,
        Option.some.injEq] at h1
      subst h1
      exact ih' hc

theorem refresh_clean {fill : C → F → ℕ → List ℕ → R} {o o' : HistCompute K C F R} {order : List ℕ}
    (h : o.refresh fill order = some o') : o'.bhc.needReduce = false := by
  unfold HistCompute.refresh at h
  split_ifs at h with hc
  · simp only [BHC.getBinCounts, hc, if_true, Option.map_map, Option.map_eq_some_iff] at h
    obtain ⟨c, -, rfl⟩ := h
    rfl
  · cases h
    exact Bool.eq_false_iff.mpr hc

/-- **C63**: reading the results again, or changing the configuration, does not change them
either, if no frame was added. -/
theorem C63_reads_do_not_change (fill : C → F → ℕ → List ℕ → R) (zero : R)
    (before after : List (ArrayStore.Op K C F)) (s s' : ArrayStore K C F R) (i : ℕ) (order : List ℕ)
    (hs : ArrayStore.empty.run fill zero (before ++ [.use i (.read order)]) = some s)
    (hs' : s.run fill zero after = some s')
    (o : HistCompute K C F R) (a : ℕ) (hi : s.objs[i]? = some (some (o, a)))
    (hr : NoFrame (opsUntilReset i after)) : s'.memory[a]? = s.memory[a]? := by
  obtain ⟨h1, o', h2, h3⟩ := C63_saved_array fill zero _ after s s' hs hs' i o a hi
  obtain ⟨s1, h4, h5⟩ := store_run_append hs
  simp only [ArrayStore.run, Option.bind_eq_some_iff] at h5
  obtain ⟨s2, h5, h6⟩ := h5
  cases h6
  have hclean : o.bhc.needReduce = false := by
    have h7 := h5
    simp only [ArrayStore.step, Option.bind_eq_some_iff] at h7
    obtain ⟨⟨o1, a1⟩, hp, -⟩ := h7
    have hk : s1.objs[i]? = some (some (o1, a1)) := by
      cases e : s1.objs[i]? with
      | none => rw [e] at hp; cases hp
      | some x => rw [e] at hp; exact congrArg some hp
    obtain ⟨o2, a2, e1, e2, -⟩ := step_self h5 hk
    rw [hi] at e2
    cases e2
    exact refresh_clean e1
  rw [h3, h1, run_contents_noFrame h2 hr (opsUntilReset_noReset i after) hclean]

/-- **C63**: objects do not influence each other: what object `i` becomes depends on the operations
on it only. -/
theorem C63_objects_independent (fill : C → F → ℕ → List ℕ → R) (zero : R)
    (before after : List (ArrayStore.Op K C F)) (s s' : ArrayStore K C F R)
    (hs : ArrayStore.empty.run fill zero before = some s) (hs' : s.run fill zero after = some s')
    (i : ℕ) (o : HistCompute K C F R) (a : ℕ) (hi : s.objs[i]? = some (some (o, a)))
    (hd : .delete i ∉ after) :
    ∃ o' a', o.run fill zero (opsOn i after) = some o' ∧ s'.objs[i]? = some (some (o', a')) ∧
      s'.memory[a']? = some (contents o') := by
  have hok := arrays_run arrays_empty hs
  clear hs
  induction after generalizing s o a with
  | nil => cases hs'; exact ⟨o, a, rfl, hi, hok.mem i o a hi⟩
  | cons op os ih =>
    simp only [ArrayStore.run, Option.bind_eq_some_iff] at hs'
    obtain ⟨s1, h1, h2⟩ := hs'
    have hs1 := arrays_step hok h1
    have hd' : ArrayStore.Op.delete i ∉ os := fun hx => hd (List.mem_cons_of_mem _ hx)
    cases op with
    | make axes cfg info =>
      exact ih s1 h2 o a (step_other hok h1 hi (by simp) (by simp)) hd' hs1
    | delete k =>
      have hk : k ≠ i := fun e => hd (e ▸ List.mem_cons_self)
      exact ih s1 h2 o a (step_other hok h1 hi (by simp) (by simp [hk])) hd' hs1
    | use k x =>
      by_cases hk : k = i
      · subst hk
        obtain ⟨o1, a1, e1, e2, -⟩ := step_self h1 hi
        obtain ⟨o', a', r1, r2⟩ := ih s1 h2 o1 a1 e2 hd' hs1
        exact ⟨o', a', by simpa only [opsOn, if_true, HistCompute.run, e1, Option.bind_some] using r1, r2⟩
      · obtain ⟨o', a', r1, r2⟩ := ih s1 h2 o a
          (step_other hok h1 hi (by intro y e; cases e; exact hk rfl) (by simp)) hd' hs1
        exact ⟨o', a', by simpa only [opsOn, if_neg hk] using r1, r2⟩

/-! ### A concrete case, and what is not protected -/

/-- Two objects with one bin; the result is the number of counts per frame. -/
def twoObjects : List (ArrayStore.Op ℚ Unit Unit) :=
  [.make [⟨1, 0, 1⟩] () (), .make [⟨1, 0, 1⟩] () (),
   .use 0 (.frame () 1 (fun _ => [[1 / 2]]) [(0, 0)]), .use 0 (.read [0])]

/-- Counts divided by the number of frames. -/
def perFrame (_ : Unit) (_ : Unit) (n : ℕ) (counts : List ℕ) : List ℚ :=
  counts.map fun c => (c : ℚ) / n

/-- The memory after a history. -/
def memoryAfter (h : List (ArrayStore.Op ℚ Unit Unit)) : Option (List (List ℕ × List ℚ)) :=
  ((ArrayStore.empty : ArrayStore ℚ Unit Unit (List ℚ)).run perFrame [0] h).map (·.memory)

-- the first object was read; then it is reset and used with three points, and the second one is used
example : memoryAfter twoObjects = some [([1], [1]), ([0], [0])] ∧
    memoryAfter (twoObjects ++ [.use 0 .reset,
      .use 0 (.frame () 3 (fun _ => [[1 / 2]]) [(1, 0), (0, 1), (0, 2)]), .use 0 (.read [0]),
      .use 1 (.frame () 1 (fun _ => [[1 / 4], [1 / 2]]) [(0, 0)]), .use 1 (.read [0]), .delete 0]) =
      some [([1], [1]), ([2], [2]), ([3], [3])] := by decide +kernel

/-- **C63**, what is not protected: after `compute` with `reset=False`, a look at the results changes
the arrays obtained before. -/
theorem C63_no_reset_counterexample :
    ∃ (before after : List (ArrayStore.Op ℚ Unit Unit)) (m m' : List (List ℕ × List ℚ)),
      memoryAfter before = some m ∧ memoryAfter (before ++ after) = some m' ∧
      m[0]? ≠ m'[0]? ∧ after.length = 2 :=
  ⟨twoObjects, [.use 0 (.frame () 3 (fun _ => [[1 / 2]]) [(1, 0), (0, 1), (0, 2)]), .use 0 (.read [0])],
    [([1], [1]), ([0], [0])], [([4], [2]), ([0], [0])], by decide +kernel⟩

/-! ### Neighbor lists -/

section lists
variable {K : Type*} [Field K] [LinearOrder K] [IsStrictOrderedRing K]

theorem put_sep {s : NLStore K} (hs : SeparateArrays s) (i : ℕ) (h : List (Bond K)) (o : NLObj)
    (ho : o.addr = s.heap.length) : SeparateArrays ⟨s.heap ++ [h], s.objs.set i o⟩ := by
  refine ⟨fun x hx => ?_, ?_⟩
  · simp only [List.length_append, List.length_singleton]
    rcases List.mem_or_eq_of_mem_set hx with h | rfl
    · have := hs.addr x h; omega
    · omega
  · rw [List.pairwise_iff_getElem]
    intro j k hj hk hjk
    simp only [List.getElem_set]
    have hp := List.pairwise_iff_getElem.mp hs.distinct j k (by simpa using hj) (by simpa using hk) hjk
    have h1 := hs.addr _ (List.getElem_mem (l := s.objs) (by simpa using hj))
    have h2 := hs.addr _ (List.getElem_mem (l := s.objs) (by simpa using hk))
    split_ifs with e1 e2 e2
    · omega
    · rw [ho]; exact h2.ne'
    · rw [ho]; exact h1.ne
    · exact hp

theorem putNew_sep {s : NLStore K} (hs : SeparateArrays s) (i : ℕ) (n : NList K) :
    SeparateArrays (s.putNew i n) := put_sep hs i _ _ rfl

theorem sameAddr_sep {s : NLStore K} (hs : SeparateArrays s) {h : List (List (Bond K))}
    (hh : h.length = s.heap.length) {i : ℕ} {o o' : NLObj} (hi : s.objs[i]? = some o)
    (ho : o'.addr = o.addr) : SeparateArrays ⟨h, s.objs.set i o'⟩ := by
  have hm := List.mem_of_getElem? hi
  refine ⟨fun x hx => ?_, ?_⟩
  · rw [hh]
    rcases List.mem_or_eq_of_mem_set hx with h | rfl
    · exact hs.addr x h
    · rw [ho]; exact hs.addr o hm
  · rw [List.pairwise_iff_getElem]
    intro j k hj hk hjk
    have hp := List.pairwise_iff_getElem.mp hs.distinct j k (by simpa using hj) (by simpa using hk) hjk
    simp only [List.getElem_set]
    obtain ⟨hi1, hi2⟩ := List.getElem?_eq_some_iff.mp hi
    split_ifs with e1 e2 e2
    · omega
    · subst e1; rw [ho, ← hi2]; exact hp
    · subst e2; rw [ho, ← hi2]; exact hp
    · exact hp

/-- The effect of a step on the arrays that were there: only a sort writes, into the arrays of the
list it is applied to; no list comes to point to old arrays. -/
theorem list_step {s s' : NLStore K} (hs : SeparateArrays s) {op : ListOp K}
    (h : s.listStep op = some s') : SeparateArrays s' ∧ s.heap.length ≤ s'.heap.length ∧
      (∀ a, a < s.heap.length → (∀ i d out, op = .list (.sort i d out) →
        ∀ o, s.objs[i]? = some o → o.addr ≠ a) → s'.heap[a]? = s.heap[a]?) ∧
      (∀ (i : ℕ) o', s'.objs[i]? = some o' → s.heap.length ≤ o'.addr ∨
        ∃ o, s.objs[i]? = some o ∧ o.addr = o'.addr) := by
  have hput : ∀ i (n : NList K), SeparateArrays (s.putNew i n) ∧
      s.heap.length ≤ (s.putNew i n).heap.length ∧
      (∀ a, a < s.heap.length → (s.putNew i n).heap[a]? = s.heap[a]?) ∧
      (∀ (k : ℕ) o', (s.putNew i n).objs[k]? = some o' → s.heap.length ≤ o'.addr ∨
        ∃ o, s.objs[k]? = some o ∧ o.addr = o'.addr) := by
    intro i n
    refine ⟨putNew_sep hs i n, by simp [NLStore.putNew], fun a ha => List.getElem?_append_left ha,
      fun k o' hk => ?_⟩
    rcases getElem?_set_some hk with ⟨-, rfl⟩ | ⟨-, e⟩
    · exact Or.inl le_rfl
    · exact Or.inr ⟨o', e, rfl⟩
  have hread : ∀ (i : ℕ) (o o' : NLObj), s.objs[i]? = some o → o'.addr = o.addr →
      SeparateArrays (⟨s.heap, s.objs.set i o'⟩ : NLStore K) ∧
      (∀ (k : ℕ) p, (s.objs.set i o')[k]? = some p → s.heap.length ≤ p.addr ∨
        ∃ o, s.objs[k]? = some o ∧ o.addr = p.addr) := by
    intro i o o' hi ho
    refine ⟨sameAddr_sep hs rfl hi ho, fun k p hk => ?_⟩
    rcases getElem?_set_some hk with ⟨rfl, rfl⟩ | ⟨-, e⟩
    · exact Or.inr ⟨o, hi, ho.symm⟩
    · exact Or.inr ⟨p, e, rfl⟩
  have hra : ∀ (i : ℕ) (o : NLObj) (f : NList K → List ℕ) (p : NLStore K × NLStore.Out),
      s.objs[i]? = some o → s.readAt i o f = some p → SeparateArrays p.1 ∧ p.1.heap = s.heap ∧
      (∀ (k : ℕ) o', p.1.objs[k]? = some o' → s.heap.length ≤ o'.addr ∨
        ∃ o, s.objs[k]? = some o ∧ o.addr = o'.addr) := by
    intro i o f p hi hp
    simp only [NLStore.readAt, Option.map_eq_some_iff] at hp
    obtain ⟨n, -, rfl⟩ := hp
    obtain ⟨h1, h2⟩ := hread i o ⟨o.numQueryPoints, o.numPoints, o.addr, n.segUpdated, n.counts,
      n.segments⟩ hi rfl
    exact ⟨h1, rfl, h2⟩
  cases op with
  | voronoi i n =>
    simp only [NLStore.listStep, Option.map_eq_some_iff] at h
    obtain ⟨o, ho, rfl⟩ := h
    obtain ⟨h1, h2, h3, h4⟩ := hput i n
    exact ⟨h1, h2, fun a ha _ => h3 a ha, h4⟩
  | list op =>
    simp only [NLStore.listStep, Option.map_eq_some_iff] at h
    obtain ⟨⟨s1, out⟩, h, rfl⟩ := h
    cases op with
    | filter i mask =>
      simp only [NLStore.step, Option.bind_eq_some_iff, NLStore.filterAt, Option.map_eq_some_iff,
        Prod.mk.injEq] at h
      obtain ⟨o, ho, p, hp, rfl, -⟩ := h
      obtain ⟨h1, h2, h3, h4⟩ := hput i p.1
      exact ⟨h1, h2, fun a ha _ => h3 a ha, h4⟩
    | filterR i rMax rMin =>
      simp only [NLStore.step, Option.bind_eq_some_iff] at h
      obtain ⟨o, ho, h⟩ := h
      split at h
      · cases h
        exact ⟨hs, le_rfl, fun a _ _ => rfl, fun k o' hk => Or.inr ⟨o', hk, rfl⟩⟩
      · cases h
        obtain ⟨h1, h2, h3, h4⟩ := hput i _
        exact ⟨h1, h2, fun a ha _ => h3 a ha, h4⟩
    | sort i d out' =>
      simp only [NLStore.step, Option.map_eq_some_iff, Prod.mk.injEq] at h
      obtain ⟨o, ho, rfl, -⟩ := h
      refine ⟨⟨fun x hx => by simpa using hs.addr x hx, hs.distinct⟩, by simp, fun a ha hx => ?_,
        fun k o' hk => Or.inr ⟨o', hk, rfl⟩⟩
      exact List.getElem?_set_ne (hx i d out' rfl o ho)
    | copyInto dst src =>
      simp only [NLStore.step, Option.bind_eq_some_iff, Option.map_eq_some_iff, Prod.mk.injEq] at h
      obtain ⟨o, ho, o2, ho2, rfl, -⟩ := h
      refine ⟨put_sep hs dst _ _ rfl, by simp [NLStore.copyObj], fun a ha _ =>
        List.getElem?_append_left ha, fun k o' hk => ?_⟩
      rcases getElem?_set_some hk with ⟨-, rfl⟩ | ⟨-, e⟩
      · exact Or.inl le_rfl
      · exact Or.inr ⟨o', e, rfl⟩
    | newCopy src =>
      simp only [NLStore.step, Option.map_eq_some_iff, Prod.mk.injEq] at h
      obtain ⟨o, ho, rfl, -⟩ := h
      refine ⟨⟨fun x hx => ?_, ?_⟩, by simp [NLStore.copyObj], fun a ha _ =>
        List.getElem?_append_left ha, fun k o' hk => ?_⟩
      · simp only [NLStore.copyObj, List.mem_append, List.mem_singleton, List.length_append,
          List.length_singleton] at hx ⊢
        rcases hx with hx | rfl
        · have := hs.addr x hx; omega
        · exact Nat.lt_succ_self _
      · simp only [NLStore.copyObj, List.pairwise_append]
        refine ⟨hs.distinct, by simp, fun x hx y hy => ?_⟩
        rw [List.mem_singleton] at hy
        subst hy
        exact (hs.addr x hx).ne
      · rcases getElem?_append_new hk with ⟨-, rfl⟩ | e
        · exact Or.inl le_rfl
        · exact Or.inr ⟨o', e, rfl⟩
    | segments i =>
      simp only [NLStore.step, Option.bind_eq_some_iff] at h
      obtain ⟨o, ho, h⟩ := h
      obtain ⟨h1, h2, h3⟩ := hra i o _ _ ho h
      exact ⟨h1, h2 ▸ le_rfl, fun a _ _ => by rw [h2], h3⟩
    | counts i =>
      simp only [NLStore.step, Option.bind_eq_some_iff] at h
      obtain ⟨o, ho, h⟩ := h
      obtain ⟨h1, h2, h3⟩ := hra i o _ _ ho h
      exact ⟨h1, h2 ▸ le_rfl, fun a _ _ => by rw [h2], h3⟩

theorem list_orphan {s s' : NLStore K} (hs : SeparateArrays s) {h : List (ListOp K)}
    (hr : s.listRun h = some s') {a : ℕ} (ha : a < s.heap.length)
    (hn : ∀ (i : ℕ) o, s.objs[i]? = some o → o.addr ≠ a) : s'.heap[a]? = s.heap[a]? := by
  induction h generalizing s with
  | nil => cases hr; rfl
  | cons op os ih =>
    simp only [NLStore.listRun, Option.bind_eq_some_iff] at hr
    obtain ⟨s1, h1, h2⟩ := hr
    obtain ⟨e1, e2, e3, e4⟩ := list_step hs h1
    rw [ih e1 h2 (by omega) (fun i o hi e => ?_), e3 a ha (fun i d out _ => hn i)]
    rcases e4 i o hi with h | ⟨o', h, h'⟩
    · omega
    · exact hn i o' h (h'.trans e)

/-- **C63**: the bond arrays a user got from a list do not change, unless the list is sorted before
it gets new arrays: not by filters, copies, reads, a new Voronoi computation, or anything done with
other lists. -/
theorem C63_bond_arrays_stay (s s' : NLStore K) (hs : SeparateArrays s) (after : List (ListOp K))
    (hr : s.listRun after = some s') (i : ℕ) (o : NLObj) (hi : s.objs[i]? = some o)
    (hns : NotSortedInPlace i after) : s'.heap[o.addr]? = s.heap[o.addr]? := by
  induction after generalizing s o with
  | nil => cases hr; rfl
  | cons op os ih =>
    simp only [NLStore.listRun, Option.bind_eq_some_iff] at hr
    obtain ⟨s1, h1, h2⟩ := hr
    obtain ⟨e1, e2, e3, e4⟩ := list_step hs h1
    have hm := List.mem_of_getElem? hi
    have ha := hs.addr o hm
    have uniq : ∀ (j : ℕ) o', s.objs[j]? = some o' → o'.addr = o.addr → j = i := by
      intro j o' hj e
      by_contra hne
      obtain ⟨g1, g2⟩ := List.getElem?_eq_some_iff.mp hi
      obtain ⟨g3, g4⟩ := List.getElem?_eq_some_iff.mp hj
      rcases Nat.lt_or_gt_of_ne hne with hlt | hlt
      · exact List.pairwise_iff_getElem.mp hs.distinct j i g3 g1 hlt (by rw [g2, g4, e])
      · exact List.pairwise_iff_getElem.mp hs.distinct i j g1 g3 hlt (by rw [g2, g4, e])
    have hkeep : (∀ d out, op ≠ .list (.sort i d out)) → s1.heap[o.addr]? = s.heap[o.addr]? := by
      intro hx
      refine e3 _ ha fun j d out he o' ho' e => ?_
      obtain rfl := uniq j o' ho' e
      exact hx d out he
    have hsort : ∀ d out, op ≠ .list (.sort i d out) := by
      rintro d out rfl
      exact hns.1 rfl
    by_cases hA : ∃ o1, s1.objs[i]? = some o1 ∧ o1.addr = o.addr
    · obtain ⟨o1, g1, g2⟩ := hA
      have hnew : ∀ j (n : NList K), j = i → s1 = s.putNew j n → False := by
        rintro j n rfl rfl
        simp only [NLStore.putNew, List.getElem?_set_self (List.getElem?_eq_some_iff.mp hi).1,
          Option.some.injEq] at g1
        rw [← g1] at g2
        exact absurd g2 ha.ne'
      have hos : NotSortedInPlace i os := by
        cases op with
        | voronoi j n =>
          simp only [NLStore.listStep, Option.map_eq_some_iff] at h1
          obtain ⟨-, -, rfl⟩ := h1
          rcases hns with h | h
          · exact absurd rfl (hnew j n h)
          · exact h
        | list op =>
          cases op with
          | filter j mask =>
            simp only [NLStore.listStep, NLStore.step, Option.map_eq_some_iff, Option.bind_eq_some_iff,
              NLStore.filterAt] at h1
            obtain ⟨_, ⟨-, -, p, -, rfl⟩, rfl⟩ := h1
            rcases hns with h | h
            · exact absurd rfl (hnew j p.1 h)
            · exact h
          | copyInto j src =>
            rcases hns with rfl | h
            · simp only [NLStore.listStep, NLStore.step, Option.map_eq_some_iff, Option.bind_eq_some_iff]
                at h1
              obtain ⟨_, ⟨o3, -, _, -, rfl⟩, rfl⟩ := h1
              simp only [NLStore.copyObj, List.getElem?_set_self (List.getElem?_eq_some_iff.mp hi).1,
                Option.some.injEq] at g1
              rw [← g1] at g2
              exact absurd g2 ha.ne'
            · exact h
          | sort j d out => exact hns.2
          | _ => exact hns
      have := ih s1 e1 h2 o1 g1 hos
      rw [g2] at this
      exact this.trans (hkeep hsort)
    · rw [list_orphan e1 h2 (by omega) fun k o' hk e => ?_, hkeep hsort]
      rcases e4 k o' hk with h | ⟨o2, h, h'⟩
      · omega
      · obtain rfl := uniq k o2 h (h'.trans e)
        exact hA ⟨o', hk, e⟩

/-! A concrete case, and what is not protected: two lists, the second a `Voronoi` object's. -/

/-- Two lists with two bonds and one. -/
def twoLists : NLStore ℚ :=
  ⟨[[⟨0, 0, 2, 1, ⟨2, 0, 0⟩⟩, ⟨0, 1, 1, 1, ⟨1, 0, 0⟩⟩], [⟨0, 1, 1, 1, ⟨1, 0, 0⟩⟩]],
   [⟨2, 2, 0, false, [], []⟩, ⟨2, 2, 1, false, [], []⟩]⟩

example : SeparateArrays twoLists := ⟨by simp [twoLists], by simp [twoLists]⟩

-- filter, then sort: the arrays obtained before the filter are as they were
example : NotSortedInPlace (K := ℚ) 0 [.list (.filter 0 [true, true]),
      .list (.sort 0 true [⟨0, 1, 1, 1, ⟨1, 0, 0⟩⟩, ⟨0, 0, 2, 1, ⟨2, 0, 0⟩⟩]),
      .voronoi 1 ⟨2, 2, [⟨1, 0, 3, 1, ⟨3, 0, 0⟩⟩], false, [], []⟩] ∧
    (twoLists.listRun [.list (.filter 0 [true, true]),
      .list (.sort 0 true [⟨0, 1, 1, 1, ⟨1, 0, 0⟩⟩, ⟨0, 0, 2, 1, ⟨2, 0, 0⟩⟩]),
      .voronoi 1 ⟨2, 2, [⟨1, 0, 3, 1, ⟨3, 0, 0⟩⟩], false, [], []⟩]).map (·.heap.map (·.map (·.p))) =
      some [[0, 1], [1], [1, 0], [0]] := ⟨Or.inl rfl, by decide +kernel⟩

/-- **C63**, what is not protected: sorting a list rearranges the arrays obtained from it before. -/
theorem C63_sort_counterexample : ∃ (s s' : NLStore ℚ) (o : NLObj) (out : List (Bond ℚ)),
    SeparateArrays s ∧ s.objs[0]? = some o ∧ Bond.SortedBy (Bond.less true) (s.view o).bonds out ∧
    s.listRun [.list (.sort 0 true out)] = some s' ∧ s'.heap[o.addr]? ≠ s.heap[o.addr]? := by
  refine ⟨twoLists, ⟨[[⟨0, 1, 1, 1, ⟨1, 0, 0⟩⟩, ⟨0, 0, 2, 1, ⟨2, 0, 0⟩⟩], [⟨0, 1, 1, 1, ⟨1, 0, 0⟩⟩]],
    twoLists.objs⟩, ⟨2, 2, 0, false, [], []⟩, [⟨0, 1, 1, 1, ⟨1, 0, 0⟩⟩, ⟨0, 0, 2, 1, ⟨2, 0, 0⟩⟩],
    ⟨by simp [twoLists], by simp [twoLists]⟩, rfl, ⟨List.Perm.swap _ _ _, by decide +kernel⟩, rfl,
    by decide +kernel⟩

/-- **C63**, what is not protected: the list obtained from a `Voronoi` object shows other bonds after
the next `compute` (the arrays obtained from it do not change). -/
theorem C63_voronoi_list_counterexample : ∃ (s s' : NLStore ℚ) (o : NLObj) (n : NList ℚ),
    SeparateArrays s ∧ s.objs[1]? = some o ∧ s.listRun [.voronoi 1 n] = some s' ∧
    s'.viewAt 1 ≠ s.viewAt 1 ∧ s'.heap[o.addr]? = s.heap[o.addr]? := by
  refine ⟨twoLists, _, ⟨2, 2, 1, false, [], []⟩, ⟨2, 2, [⟨1, 0, 3, 1, ⟨3, 0, 0⟩⟩], false, [], []⟩,
    ⟨by simp [twoLists], by simp [twoLists]⟩, rfl, rfl, fun e => ?_, by decide +kernel⟩
  have h := congrArg (Option.map (·.bonds)) e
  revert h
  decide +kernel

end lists

end Freud
