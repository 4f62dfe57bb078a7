import Verif.Model.BiMap

/-!
# C51: BiMap is a bijection
-/

namespace Freud
namespace BiMap
variable {T U : Type*} [DecidableEq T] [DecidableEq U]

/-- The invariant: both sets hold the addresses of the container, all of them are on the heap, and
no left or right value occurs twice. -/
structure Inv (m : BiMap T U) : Prop where
  a : m.setA = m.container
  b : m.setB = m.container
  valid : ∀ p ∈ m.container, p < m.heap.length
  left : (m.pairs.map (·.1)).Nodup
  right : (m.pairs.map (·.2)).Nodup

theorem pairs_mem (m : BiMap T U) (x : T × U) : x ∈ m.pairs ↔ ∃ p ∈ m.container, m.heap[p]? = some x := by
  simp [pairs]

theorem findA_isSome (m : BiMap T U) (h : Inv m) (a : T) :
    (m.findA a).isSome ↔ ∃ b, (a, b) ∈ m.pairs := by
  unfold findA
  rw [List.find?_isSome, h.a]
  constructor
  · rintro ⟨p, hp, hd⟩
    obtain ⟨x, hx, rfl⟩ := Option.map_eq_some_iff.mp (of_decide_eq_true hd)
    exact ⟨x.2, (pairs_mem m _).mpr ⟨p, hp, hx⟩⟩
  · rintro ⟨b, hb⟩
    obtain ⟨p, hp, hx⟩ := (pairs_mem m _).mp hb
    exact ⟨p, hp, by simp [hx]⟩

theorem findB_isSome (m : BiMap T U) (h : Inv m) (b : U) :
    (m.findB b).isSome ↔ ∃ a, (a, b) ∈ m.pairs := by
  unfold findB
  rw [List.find?_isSome, h.b]
  constructor
  · rintro ⟨p, hp, hd⟩
    obtain ⟨x, hx, rfl⟩ := Option.map_eq_some_iff.mp (of_decide_eq_true hd)
    exact ⟨x.1, (pairs_mem m _).mpr ⟨p, hp, hx⟩⟩
  · rintro ⟨a, ha⟩
    obtain ⟨p, hp, hx⟩ := (pairs_mem m _).mp ha
    exact ⟨p, hp, by simp [hx]⟩

theorem filterMap_heap (l : List ℕ) (heap : List (T × U)) (x : T × U) (h : ∀ p ∈ l, p < heap.length) :
    l.filterMap (fun p => (heap ++ [x])[p]?) = l.filterMap (fun p => heap[p]?) := by
  apply List.filterMap_congr
  intro p hp
  rw [List.getElem?_append_left (h p hp)]

theorem emplace_spec (m : BiMap T U) (h : Inv m) (a : T) (b : U) :
    Inv (m.emplace a b).1 ∧
    ((m.emplace a b).2 = true ↔ (∀ b', (a, b') ∉ m.pairs) ∧ ∀ a', (a', b) ∉ m.pairs) ∧
    (m.emplace a b).1.pairs = if (m.emplace a b).2 then m.pairs ++ [(a, b)] else m.pairs := by
  unfold emplace
  by_cases hc : (m.findA a).isSome ∨ (m.findB b).isSome
  · simp only [if_pos hc]
    have hp : (⟨m.heap ++ [(a, b)], m.container, m.setA, m.setB⟩ : BiMap T U).pairs = m.pairs :=
      filterMap_heap _ _ _ h.valid
    refine ⟨⟨h.a, h.b, fun p hp => ?_, by rw [hp]; exact h.left, by rw [hp]; exact h.right⟩, ?_, ?_⟩
    · have := h.valid p hp
      simp only [List.length_append]; omega
    · simp only [Bool.false_eq_true, false_iff, not_and]
      intro h1 h2
      rcases hc with hc | hc
      · obtain ⟨b', hb⟩ := (findA_isSome m h a).mp hc
        exact h1 b' hb
      · obtain ⟨a', ha⟩ := (findB_isSome m h b).mp hc
        exact h2 a' ha
    · simpa using hp
  · simp only [if_neg hc]
    push Not at hc
    have h1 : ∀ b', (a, b') ∉ m.pairs := fun b' hb =>
      hc.1 ((findA_isSome m h a).mpr ⟨b', hb⟩)
    have h2 : ∀ a', (a', b) ∉ m.pairs := fun a' ha =>
      hc.2 ((findB_isSome m h b).mpr ⟨a', ha⟩)
    have hp : (⟨m.heap ++ [(a, b)], m.container ++ [m.heap.length], m.setA ++ [m.heap.length],
        m.setB ++ [m.heap.length]⟩ : BiMap T U).pairs = m.pairs ++ [(a, b)] := by
      unfold pairs
      rw [List.filterMap_append, filterMap_heap _ _ _ h.valid]
      simp
    refine ⟨⟨by simp [h.a], by simp [h.b], fun p hp => ?_, ?_, ?_⟩, ?_, ?_⟩
    · simp only [List.mem_append, List.mem_singleton] at hp
      simp only [List.length_append, List.length_singleton]
      rcases hp with hp | hp
      · have := h.valid p hp; omega
      · omega
    · rw [hp, List.map_append, List.nodup_append]
      refine ⟨h.left, by simp, ?_⟩
      intro x hx y hy
      simp only [List.map_cons, List.map_nil, List.mem_singleton] at hy
      subst hy
      rintro rfl
      obtain ⟨z, hz, rfl⟩ := List.mem_map.mp hx
      exact h1 z.2 hz
    · rw [hp, List.map_append, List.nodup_append]
      refine ⟨h.right, by simp, ?_⟩
      intro x hx y hy
      simp only [List.map_cons, List.map_nil, List.mem_singleton] at hy
      subst hy
      rintro rfl
      obtain ⟨z, hz, rfl⟩ := List.mem_map.mp hx
      exact h2 z.1 hz
    · simp only [true_iff]; exact ⟨h1, h2⟩
    · simpa using hp

theorem inv_new : Inv (new : BiMap T U) :=
  ⟨rfl, rfl, by simp [new], by simp [new, pairs], by simp [new, pairs]⟩

theorem copy_spec (m : BiMap T U) (h : Inv m) : Inv m.copy ∧ m.copy.pairs = m.pairs := by
  have key : ∀ (l done : List (T × U)) (c : BiMap T U), Inv c → c.pairs = done →
      ((done ++ l).map (·.1)).Nodup → ((done ++ l).map (·.2)).Nodup →
      Inv (l.foldl (fun c p => (c.emplace p.1 p.2).1) c) ∧
        (l.foldl (fun c p => (c.emplace p.1 p.2).1) c).pairs = done ++ l := by
    intro l
    induction l with
    | nil => intro done c hc hd _ _; exact ⟨hc, by simpa using hd⟩
    | cons x l ih =>
      intro done c hc hd h1 h2
      obtain ⟨g1, g2, g3⟩ := emplace_spec c hc x.1 x.2
      have ht : (c.emplace x.1 x.2).2 = true := by
        rw [g2, hd]
        rw [List.map_append, List.map_cons] at h1 h2
        constructor
        · intro b' hb
          exact (List.nodup_append.mp h1).2.2 x.1 (List.mem_map.mpr ⟨_, hb, rfl⟩) x.1
            List.mem_cons_self rfl
        · intro a' ha
          exact (List.nodup_append.mp h2).2.2 x.2 (List.mem_map.mpr ⟨_, ha, rfl⟩) x.2
            List.mem_cons_self rfl
      rw [ht, if_pos rfl, hd] at g3
      have := ih (done ++ [(x.1, x.2)]) (c.emplace x.1 x.2).1 g1 g3
        (by simpa using h1) (by simpa using h2)
      simpa using this
  have := key m.pairs [] new inv_new (by simp [new, pairs]) (by simpa using h.left)
    (by simpa using h.right)
  simpa [copy] using this

theorem run_inv (ops : List (Op T U)) : Inv (run ops) := by
  have key : ∀ (ops : List (Op T U)) (m : BiMap T U), Inv m → Inv (ops.foldl step m) := by
    intro ops
    induction ops with
    | nil => intro m h; exact h
    | cons o ops ih =>
      intro m h
      apply ih
      cases o with
      | emplace a b => exact (emplace_spec m h a b).1
      | clear => exact ⟨rfl, rfl, by simp [step, clear], by simp [step, clear, pairs], by simp [step, clear, pairs]⟩
      | copy => exact (copy_spec m h).1
  exact key ops new inv_new

theorem leftAt_spec (m : BiMap T U) (h : Inv m) (a : T) (b : U) :
    m.leftAt a = some b ↔ (a, b) ∈ m.pairs := by
  constructor
  · intro he
    unfold leftAt at he
    obtain ⟨p, hp, hq⟩ := Option.bind_eq_some_iff.mp he
    obtain ⟨x, hx, rfl⟩ := Option.map_eq_some_iff.mp hq
    have h1 := List.find?_some hp
    have h2 := List.mem_of_find?_eq_some hp
    rw [h.a] at h2
    obtain ⟨y, hy, rfl⟩ := Option.map_eq_some_iff.mp (of_decide_eq_true h1)
    rw [hx] at hy
    cases hy
    exact (pairs_mem m _).mpr ⟨p, h2, hx⟩
  · intro hm
    have hs := (findA_isSome m h a).mpr ⟨b, hm⟩
    obtain ⟨p, hp⟩ := Option.isSome_iff_exists.mp hs
    unfold leftAt
    rw [hp]
    have h1 := List.find?_some hp
    have h2 := List.mem_of_find?_eq_some hp
    rw [h.a] at h2
    obtain ⟨y, hy, e⟩ := Option.map_eq_some_iff.mp (of_decide_eq_true h1)
    have hym : y ∈ m.pairs := (pairs_mem m _).mpr ⟨p, h2, hy⟩
    have : y = (a, b) := List.inj_on_of_nodup_map h.left hym hm e
    simp [hy, this]

theorem rightAt_spec (m : BiMap T U) (h : Inv m) (a : T) (b : U) :
    m.rightAt b = some a ↔ (a, b) ∈ m.pairs := by
  constructor
  · intro he
    unfold rightAt at he
    obtain ⟨p, hp, hq⟩ := Option.bind_eq_some_iff.mp he
    obtain ⟨x, hx, rfl⟩ := Option.map_eq_some_iff.mp hq
    have h1 := List.find?_some hp
    have h2 := List.mem_of_find?_eq_some hp
    rw [h.b] at h2
    obtain ⟨y, hy, rfl⟩ := Option.map_eq_some_iff.mp (of_decide_eq_true h1)
    rw [hx] at hy
    cases hy
    exact (pairs_mem m _).mpr ⟨p, h2, hx⟩
  · intro hm
    have hs := (findB_isSome m h b).mpr ⟨a, hm⟩
    obtain ⟨p, hp⟩ := Option.isSome_iff_exists.mp hs
    unfold rightAt
    rw [hp]
    have h1 := List.find?_some hp
    have h2 := List.mem_of_find?_eq_some hp
    rw [h.b] at h2
    obtain ⟨y, hy, e⟩ := Option.map_eq_some_iff.mp (of_decide_eq_true h1)
    have hym : y ∈ m.pairs := (pairs_mem m _).mpr ⟨p, h2, hy⟩
    have : y = (a, b) := List.inj_on_of_nodup_map h.right hym hm e
    simp [hy, this]

theorem asMap_spec (m : BiMap T U) (h : Inv m) (a : T) (b : U) :
    m.asMap a = some b ↔ (a, b) ∈ m.pairs := by
  have key : ∀ (l : List (T × U)) (f : T → Option U), (l.map (·.1)).Nodup → ∀ (a : T) (b : U),
      (l.foldl (fun (f : T → Option U) p => Function.update f p.1 (some p.2)) f) a = some b ↔
        (a, b) ∈ l ∨ (a ∉ l.map (·.1) ∧ f a = some b) := by
    intro l
    induction l with
    | nil => intro f _ a b; simp
    | cons x l ih =>
      intro f hn a b
      rw [List.map_cons, List.nodup_cons] at hn
      rw [List.foldl_cons, ih _ hn.2]
      by_cases hx : a = x.1
      · subst hx
        simp only [Function.update_self, List.mem_cons, List.map_cons]
        constructor
        · rintro (h | ⟨-, h⟩)
          · exact Or.inl (Or.inr h)
          · left; left
            cases h; rfl
        · rintro ((h | h) | ⟨h, -⟩)
          · right
            exact ⟨hn.1, by rw [← h]⟩
          · exact Or.inl h
          · exact absurd (Or.inl trivial) h
      · rw [Function.update_of_ne hx]
        simp only [List.mem_cons, List.map_cons, hx, false_or]
        constructor
        · rintro (h | h)
          · exact Or.inl (Or.inr h)
          · exact Or.inr h
        · rintro ((h | h) | h)
          · exact absurd (by rw [← h]) hx
          · exact Or.inl h
          · exact Or.inr h
  rw [asMap, key _ _ h.left]
  simp

end BiMap

variable {T U : Type*} [DecidableEq T] [DecidableEq U]

/-- What a history of operations should leave: an `emplace` is kept unless one of its values is
already there, `clear` forgets everything, a copy holds the same pairs. -/
def Spec.bimapPairs (ops : List (BiMap.Op T U)) : List (T × U) :=
  ops.foldl (fun l o => match o with
    | .emplace a b => if a ∈ l.map (·.1) ∨ b ∈ l.map (·.2) then l else l ++ [(a, b)]
    | .clear => []
    | .copy => l) []

open Spec

/-- The size is the number of pairs. -/
theorem BiMap.size_pairs {A B : Type*} [DecidableEq A] [DecidableEq B] (m : BiMap A B) (h : BiMap.Inv m) : m.size = m.pairs.length := by
  unfold BiMap.size BiMap.pairs
  have key : ∀ l : List ℕ, (∀ p ∈ l, p < m.heap.length) →
      l.length = (l.filterMap (fun p => m.heap[p]?)).length := by
    intro l
    induction l with
    | nil => intro _; rfl
    | cons p l ih =>
      intro h
      rw [List.filterMap_cons, List.getElem?_eq_getElem (h p List.mem_cons_self)]
      simp [← ih (fun p hp => h p (List.mem_cons_of_mem _ hp))]
  exact key _ h.valid

/-- **C51**: after any history of `emplace`, `clear` and copies, the map holds exactly the pairs that
were accepted since the last `clear`, no left and no right value occurs twice, and the size is the
number of pairs. -/
theorem C51_bijection (ops : List (BiMap.Op T U)) :
    (BiMap.run ops).pairs = bimapPairs ops ∧
    ((BiMap.run ops).pairs.map (·.1)).Nodup ∧ ((BiMap.run ops).pairs.map (·.2)).Nodup ∧
    (BiMap.run ops).size = (bimapPairs ops).length := by
  have hI := BiMap.run_inv ops
  have hp : (BiMap.run ops).pairs = bimapPairs ops := by
    have key : ∀ (ops : List (BiMap.Op T U)) (m : BiMap T U) (l : List (T × U)), BiMap.Inv m →
        m.pairs = l → (ops.foldl BiMap.step m).pairs = ops.foldl (fun l o => match o with
          | .emplace a b => if a ∈ l.map (·.1) ∨ b ∈ l.map (·.2) then l else l ++ [(a, b)]
          | .clear => []
          | .copy => l) l := by
      intro ops
      induction ops with
      | nil => intro m l _ h; exact h
      | cons o ops ih =>
        intro m l hm hl
        rw [List.foldl_cons, List.foldl_cons]
        cases o with
        | emplace a b =>
          obtain ⟨g1, g2, g3⟩ := BiMap.emplace_spec m hm a b
          apply ih _ _ g1
          show (m.emplace a b).1.pairs = _
          rw [g3, hl]
          by_cases hc : a ∈ l.map (·.1) ∨ b ∈ l.map (·.2)
          · simp only [if_pos hc]
            rw [if_neg]
            intro ht
            obtain ⟨h1, h2⟩ := g2.mp ht
            rw [hl] at h1 h2
            rcases hc with hc | hc
            · obtain ⟨x, hx, rfl⟩ := List.mem_map.mp hc; exact h1 x.2 hx
            · obtain ⟨x, hx, rfl⟩ := List.mem_map.mp hc; exact h2 x.1 hx
          · simp only [if_neg hc]
            rw [if_pos]
            push Not at hc
            apply g2.mpr
            rw [hl]
            exact ⟨fun b' hb => hc.1 (List.mem_map.mpr ⟨_, hb, rfl⟩),
              fun a' ha => hc.2 (List.mem_map.mpr ⟨_, ha, rfl⟩)⟩
        | clear =>
          refine ih _ _ ⟨rfl, rfl, by simp [BiMap.step, BiMap.clear], by simp [BiMap.step, BiMap.clear, BiMap.pairs], by simp [BiMap.step, BiMap.clear, BiMap.pairs]⟩ ?_
          simp [BiMap.step, BiMap.clear, BiMap.pairs]
        | copy =>
          obtain ⟨g1, g2⟩ := BiMap.copy_spec m hm
          exact ih _ _ g1 (g2.trans hl)
    exact key ops BiMap.new [] BiMap.inv_new (by simp [BiMap.new, BiMap.pairs])
  refine ⟨hp, hI.left, hI.right, ?_⟩
  rw [← hp]
  exact BiMap.size_pairs _ hI

/-- **C51** (refused insertions): `emplace` returns true exactly when neither value is present; then
the pair is appended; otherwise nothing changes. -/
theorem C51_emplace (ops : List (BiMap.Op T U)) (a : T) (b : U) :
    (((BiMap.run ops).emplace a b).2 = true ↔
      a ∉ (bimapPairs ops).map (·.1) ∧ b ∉ (bimapPairs ops).map (·.2)) ∧
    (((BiMap.run ops).emplace a b).2 = true →
      ((BiMap.run ops).emplace a b).1.pairs = bimapPairs ops ++ [(a, b)]) ∧
    (((BiMap.run ops).emplace a b).2 = false →
      ((BiMap.run ops).emplace a b).1.pairs = bimapPairs ops) := by
  have hp := (C51_bijection ops).1
  obtain ⟨-, g2, g3⟩ := BiMap.emplace_spec _ (BiMap.run_inv ops) a b
  rw [hp] at g2 g3
  refine ⟨?_, fun h => by rw [g3, h]; rfl, fun h => by rw [g3, h]; rfl⟩
  rw [g2]
  simp [List.mem_map]

/-- **C51** (lookups agree): the left lookup of `a` gives `b` exactly when the right lookup of `b`
gives `a`, exactly when the pair was accepted; `asMap` agrees with the left lookup. -/
theorem C51_lookups (ops : List (BiMap.Op T U)) (a : T) (b : U) :
    ((BiMap.run ops).leftAt a = some b ↔ (a, b) ∈ bimapPairs ops) ∧
    ((BiMap.run ops).rightAt b = some a ↔ (a, b) ∈ bimapPairs ops) ∧
    (BiMap.run ops).asMap a = (BiMap.run ops).leftAt a := by
  have hI := BiMap.run_inv ops
  have hp := (C51_bijection ops).1
  refine ⟨by rw [BiMap.leftAt_spec _ hI, hp], by rw [BiMap.rightAt_spec _ hI, hp], ?_⟩
  apply Option.ext
  intro b
  rw [BiMap.leftAt_spec _ hI, BiMap.asMap_spec _ hI]

/-- **C51** (indexing): `left[a]` on a present key changes nothing and refers to its pair. -/
theorem C51_index_present [Inhabited U] (ops : List (BiMap.Op T U)) (a : T) (b : U)
    (h : (a, b) ∈ bimapPairs ops) :
    ((BiMap.run ops).leftIndex a).1 = BiMap.run ops ∧
    (((BiMap.run ops).leftIndex a).2.bind (fun p => (BiMap.run ops).heap[p]?)) = some (a, b) := by
  have hI := BiMap.run_inv ops
  have hm : (a, b) ∈ (BiMap.run ops).pairs := by rw [(C51_bijection ops).1]; exact h
  have hs := (BiMap.findA_isSome _ hI a).mpr ⟨b, hm⟩
  unfold BiMap.leftIndex
  simp only [if_pos hs, true_and]
  obtain ⟨p, hp⟩ := Option.isSome_iff_exists.mp hs
  have hl := (BiMap.leftAt_spec _ hI a b).mpr hm
  unfold BiMap.leftAt at hl
  rw [hp] at hl ⊢
  simp only [Option.bind_some] at hl ⊢
  obtain ⟨x, hx, rfl⟩ := Option.map_eq_some_iff.mp hl
  have h0 := List.find?_some hp
  have h1 := of_decide_eq_true h0
  rw [hx] at h1
  simp only [Option.map_some, Option.some.injEq] at h1
  rw [hx, ← h1]

/-- **C51** fails for indexing with an absent key when the default value is already used on the right:
the insertion is refused and the code dereferences `end()`. -/
theorem C51_index_absent_counterexample :
    ((BiMap.run [BiMap.Op.emplace 5 0]).leftIndex 7 : BiMap ℕ ℕ × Option ℕ).2 = none := by
  decide +kernel

/-- **C51** fails for writes through `left[a]`, the use shown in the header: after `left[1] = 20` the
right value 20 occurs twice. -/
theorem C51_assignment_counterexample :
    ((BiMap.run [BiMap.Op.emplace 1 10, .emplace 2 20] : BiMap ℕ ℕ).leftAssign 1 20).map BiMap.pairs =
      some [(1, 20), (2, 20)] := by
  decide +kernel

/-- A history with a refused pair, a copy and a clear. -/
example : bimapPairs ([.emplace 9 9, .clear, .emplace 1 10, .emplace 1 11, .emplace 2 10, .copy,
    .emplace 3 12] : List (BiMap.Op ℕ ℕ)) = [(1, 10), (3, 12)] := by decide +kernel

end Freud
