import Verif.Model.CellQuery

/-!
# The counting sort of `CellQuery`

The buffer lists the cells one after the other, and the particles of a cell before its ghosts.
-/

namespace Freud
namespace CellQuery

/-- The number of elements in the first `c` groups. -/
def before {α : Type*} (f : ℕ → List α) : ℕ → ℕ
  | 0 => 0
  | c + 1 => before f c + (f c).length

theorem before_mono {α : Type*} (f : ℕ → List α) {c d : ℕ} (h : c ≤ d) : before f c ≤ before f d := by
  induction d with
  | zero => rw [Nat.le_zero.mp h]
  | succ d ih =>
    rcases Nat.lt_or_ge d c with h' | h'
    · obtain rfl : c = d + 1 := by omega
      exact Nat.le_refl _
    · exact (ih h').trans (Nat.le_add_right _ _)

theorem length_flatMap_range {α : Type*} (f : ℕ → List α) (n : ℕ) :
    ((List.range n).flatMap f).length = before f n := by
  induction n with
  | zero => rfl
  | succ n ih => simp [List.range_succ, ih, before]

/-- A list whose groups are in the right places is the concatenation of the groups. -/
theorem eq_flatMap_range {α : Type*} (f : ℕ → List α) (n : ℕ) (buf : List α)
    (hl : buf.length = before f n)
    (h : ∀ c < n, ∀ k < (f c).length, buf[before f c + k]? = (f c)[k]?) :
    buf = (List.range n).flatMap f := by
  induction n generalizing buf with
  | zero => simpa [before] using hl
  | succ n ih =>
    rw [List.range_succ, List.flatMap_append, ← List.take_append_drop (before f n) buf]
    congr 1
    · apply ih
      · rw [List.length_take, hl]; simp [before]
      · intro c hc k hk
        have h1 : before f c + k < before f n := by
          have := before_mono f (show c + 1 ≤ n by omega)
          simp only [before] at this
          omega
        rw [List.getElem?_take, if_pos h1]
        exact h c (by omega) k hk
    · simp only [List.flatMap_cons, List.flatMap_nil, List.append_nil]
      apply List.ext_getElem?
      intro k
      rw [List.getElem?_drop]
      by_cases hk : k < (f n).length
      · exact h n (by omega) k hk
      · rw [List.getElem?_eq_none (by rw [hl]; simp only [before]; omega),
          List.getElem?_eq_none (by omega)]

/-- The part of the concatenation for the groups `s` to `e`. -/
theorem slice_flatMap {α : Type*} (f : ℕ → List α) (n s e : ℕ) (hse : s ≤ e) (hen : e < n) :
    (((List.range n).flatMap f).drop (before f s)).take (before f e + (f e).length - before f s) =
      (List.range' s (e + 1 - s)).flatMap f := by
  have h1 : List.range n = List.range s ++ (List.range' s (e + 1 - s) ++
      List.range' (e + 1) (n - (e + 1))) := by
    rw [List.range_eq_range', List.range_eq_range']
    have e1 : List.range' s (e + 1 - s) ++ List.range' (e + 1) (n - (e + 1)) =
        List.range' s (n - s) := by
      have := List.range'_append (s := s) (m := e + 1 - s) (n := n - (e + 1)) (step := 1)
      rw [show s + 1 * (e + 1 - s) = e + 1 by omega] at this
      rw [this]; congr 1; omega
    rw [e1]
    have := List.range'_append (s := 0) (m := s) (n := n - s) (step := 1)
    rw [show 0 + 1 * s = s by omega] at this
    rw [this]; congr 1; omega
  have h2 : before f e + (f e).length - before f s =
      ((List.range' s (e + 1 - s)).flatMap f).length := by
    have h3 : List.range (e + 1) = List.range s ++ List.range' s (e + 1 - s) := by
      rw [List.range_eq_range', List.range_eq_range']
      have := List.range'_append (s := 0) (m := s) (n := e + 1 - s) (step := 1)
      rw [show 0 + 1 * s = s by omega] at this
      rw [this]; congr 1; omega
    have h4 := congrArg List.length (congrArg (List.flatMap f) h3)
    rw [List.flatMap_append, List.length_append, length_flatMap_range, length_flatMap_range] at h4
    simp only [before] at h4
    omega
  rw [h1, List.flatMap_append, List.flatMap_append, ← length_flatMap_range f s, List.drop_left',
    length_flatMap_range, h2, List.take_left']
  · rfl
  · rfl

/-! ### Counts and starts -/

theorem tally_foldl (cells : List ℕ) (l : List ℕ) :
    (cells.foldl (fun l c => l.modify c (· + 1)) l).length = l.length ∧
    ∀ c < l.length, (cells.foldl (fun l c => l.modify c (· + 1)) l).getD c 0 =
      l.getD c 0 + cells.count c := by
  induction cells generalizing l with
  | nil => simp
  | cons a cells ih =>
    obtain ⟨h1, h2⟩ := ih (l.modify a (· + 1))
    rw [List.foldl_cons]
    refine ⟨by rw [h1, List.length_modify], fun c hc => ?_⟩
    rw [h2 c (by rw [List.length_modify]; exact hc), List.count_cons]
    have : (l.modify a (· + 1)).getD c 0 = l.getD c 0 + if a = c then 1 else 0 := by
      rw [List.getD_eq_getElem?_getD, List.getElem?_modify, List.getD_eq_getElem?_getD,
        List.getElem?_eq_getElem hc]
      split <;> simp
    rw [this]
    simp only [beq_iff_eq]
    omega

theorem tally_length (n : ℕ) (cells : List ℕ) : (tally n cells).length = n := by
  rw [tally, (tally_foldl _ _).1, List.length_replicate]

theorem tally_getD (n : ℕ) (cells : List ℕ) (c : ℕ) (hc : c < n) :
    (tally n cells).getD c 0 = cells.count c := by
  rw [tally, (tally_foldl _ _).2 c (by rw [List.length_replicate]; exact hc),
    List.getD_eq_getElem?_getD, List.getElem?_replicate, if_pos hc]
  simp

theorem prefixSum_getD {α : Type*} (f : ℕ → List α) (l : List ℕ) (o s : ℕ)
    (hl : ∀ k < l.length, l.getD k 0 = (f (s + k)).length) (k : ℕ) (hk : k < l.length) :
    (prefixSum o l).getD k 0 + before f s = o + before f (s + k) := by
  induction l generalizing o s k with
  | nil => simp at hk
  | cons a l ih =>
    cases k with
    | zero => simp [prefixSum]
    | succ k =>
      have h0 := hl 0 (by simp)
      simp only [List.getD_cons_zero, Nat.add_zero] at h0
      have := ih (o + a) (s + 1) (fun k hk => by
        have := hl (k + 1) (by simp only [List.length_cons]; omega)
        rw [List.getD_cons_succ] at this
        rw [this]; congr 2; omega) k (by simpa using hk)
      rw [prefixSum, List.getD_cons_succ]
      rw [show s + (k + 1) = s + 1 + k by omega]
      simp only [before] at this
      omega

/-! ### Placing -/

/-- The particles of `m` in cell `c`, in order. -/
def reals (m : List (ℕ × Tagged)) (c : ℕ) : List Tagged :=
  (m.filter fun e => decide (e.1 = c ∧ 0 ≤ e.2.idx)).map Prod.snd

/-- The ghosts of `m` in cell `c`, in order. -/
def ghosts (m : List (ℕ × Tagged)) (c : ℕ) : List Tagged :=
  (m.filter fun e => decide (e.1 = c ∧ e.2.idx < 0)).map Prod.snd

/-- Everything in cell `c`. -/
def cellList (m : List (ℕ × Tagged)) (c : ℕ) : List Tagged := reals m c ++ ghosts m c

theorem reals_append (a b : List (ℕ × Tagged)) (c : ℕ) : reals (a ++ b) c = reals a c ++ reals b c := by
  simp [reals]

theorem ghosts_append (a b : List (ℕ × Tagged)) (c : ℕ) :
    ghosts (a ++ b) c = ghosts a c ++ ghosts b c := by simp [ghosts]

theorem count_reals (m : List (ℕ × Tagged)) (c : ℕ) :
    ((m.filter fun e => decide (0 ≤ e.2.idx)).map Prod.fst).count c = (reals m c).length := by
  induction m with
  | nil => rfl
  | cons e m ih =>
    rw [← List.singleton_append (l := m), reals_append, List.filter_append, List.map_append,
      List.count_append, List.length_append, ih]
    congr 1
    by_cases h1 : 0 ≤ e.2.idx <;> by_cases h2 : e.1 = c <;> simp [reals, h1, h2]

theorem count_all (m : List (ℕ × Tagged)) (c : ℕ) :
    (m.map Prod.fst).count c = (cellList m c).length := by
  induction m with
  | nil => rfl
  | cons e m ih =>
    rw [← List.singleton_append (l := m), cellList, reals_append, ghosts_append, List.map_append,
      List.count_append, ih, cellList]
    simp only [List.length_append]
    have : (List.map Prod.fst [e]).count c = (reals [e] c).length + (ghosts [e] c).length := by
      by_cases h1 : 0 ≤ e.2.idx
      · by_cases h2 : e.1 = c
        · have h3 : ¬ e.2.idx < 0 := by omega
          simp [reals, ghosts, h1, h2, h3]
        · simp [reals, ghosts, h2]
      · have h3 : e.2.idx < 0 := by omega
        by_cases h2 : e.1 = c
        · simp [reals, ghosts, h1, h2, h3]
        · simp [reals, ghosts, h2]
    omega

/-- The state of the loop after the entries `pre`. -/
structure Placed (n total : ℕ) (m pre : List (ℕ × Tagged)) (s : Placing) : Prop where
  len : s.buf.length = total
  real : s.real.length = n ∧ ∀ c < n, s.real.getD c 0 = (reals pre c).length
  ghost : s.ghost.length = n ∧ ∀ c < n, s.ghost.getD c 0 = (ghosts pre c).length
  rbuf : ∀ c < n, ∀ k < (reals pre c).length,
    s.buf[before (cellList m) c + k]? = some ((reals pre c)[k]?)
  gbuf : ∀ c < n, ∀ k < (ghosts pre c).length,
    s.buf[before (cellList m) c + (reals m c).length + k]? = some ((ghosts pre c)[k]?)

theorem reals_single_real (e : ℕ × Tagged) (h : 0 ≤ e.2.idx) (c : ℕ) :
    reals [e] c = (if e.1 = c then [e.2] else []) ∧ ghosts [e] c = [] := by
  by_cases h2 : e.1 = c <;> simp [reals, ghosts, h2, h]

theorem reals_single_ghost (e : ℕ × Tagged) (h : e.2.idx < 0) (c : ℕ) :
    ghosts [e] c = (if e.1 = c then [e.2] else []) ∧ reals [e] c = [] := by
  by_cases h2 : e.1 = c <;> simp [reals, ghosts, h2, h]

theorem getD_modify (l : List ℕ) (a c : ℕ) (hc : c < l.length) :
    (l.modify a (· + 1)).getD c 0 = l.getD c 0 + if a = c then 1 else 0 := by
  rw [List.getD_eq_getElem?_getD, List.getElem?_modify, List.getD_eq_getElem?_getD,
    List.getElem?_eq_getElem hc]
  split <;> simp

theorem before_lt_of_lt (m : List (ℕ × Tagged)) {c d : ℕ} (h : c < d) :
    before (cellList m) c + (reals m c).length + (ghosts m c).length ≤ before (cellList m) d := by
  have := before_mono (cellList m) (show c + 1 ≤ d by omega)
  simp only [before, cellList, List.length_append] at this ⊢
  omega

theorem placed_step (n total : ℕ) (m pre : List (ℕ × Tagged)) (s : Placing) (e : ℕ × Tagged)
    (rest : List (ℕ × Tagged)) (hm : m = pre ++ e :: rest) (he : e.1 < n)
    (ht : before (cellList m) n = total) (starts countsReal : List ℕ)
    (hst : ∀ c < n, starts.getD c 0 = before (cellList m) c)
    (hcr : ∀ c < n, countsReal.getD c 0 = (reals m c).length) (h : Placed n total m pre s) :
    Placed n total m (pre ++ [e]) (place starts countsReal s e) := by
  have hr : ∀ c, (reals pre c).length + (reals [e] c).length ≤ (reals m c).length := by
    intro c
    rw [hm, ← List.singleton_append (l := rest), reals_append, reals_append]
    simp only [List.length_append]; omega
  have hg : ∀ c, (ghosts pre c).length + (ghosts [e] c).length ≤ (ghosts m c).length := by
    intro c
    rw [hm, ← List.singleton_append (l := rest), ghosts_append, ghosts_append]
    simp only [List.length_append]; omega
  have hbt := before_lt_of_lt m he
  obtain ⟨hl, ⟨rl, rv⟩, ⟨gl, gv⟩, rb, gb⟩ := h
  unfold place
  by_cases hi : e.2.idx < 0
  · rw [if_pos hi, hst _ he, hcr _ he, gv _ he]
    have hsing := reals_single_ghost e hi
    have hr' := hr e.1
    have hg' := hg e.1
    rw [(hsing e.1).1, if_pos rfl] at hg'
    simp only [List.length_singleton] at hg'
    refine ⟨by simp [hl], ⟨rl, fun c hc => ?_⟩, ⟨by simp [gl], fun c hc => ?_⟩, fun c hc k hk => ?_,
      fun c hc k hk => ?_⟩
    · rw [reals_append, (hsing c).2, List.append_nil]; exact rv c hc
    · rw [getD_modify _ _ _ (by rw [gl]; exact hc), gv c hc, ghosts_append, (hsing c).1,
        List.length_append]
      split <;> rfl
    · rw [reals_append, (hsing c).2, List.append_nil] at hk ⊢
      have := rb c hc k hk
      rw [List.getElem?_set_ne, this]
      have hrc := hr c
      rcases Nat.lt_trichotomy c e.1 with h | h | h
      · have := before_lt_of_lt m h; omega
      · subst h; omega
      · have := before_lt_of_lt m h; omega
    · rw [ghosts_append, (hsing c).1] at hk ⊢
      by_cases hc' : e.1 = c
      · rw [if_pos hc'] at hk ⊢
        subst hc'
        simp only [List.length_append, List.length_singleton] at hk
        by_cases hk' : k = (ghosts pre e.1).length
        · subst hk'
          rw [List.getElem?_set_self (by omega)]
          simp
        · rw [List.getElem?_set_ne (by omega), gb _ hc k (by omega),
            List.getElem?_append_left (by omega)]
      · rw [if_neg hc', List.append_nil] at hk ⊢
        rw [List.getElem?_set_ne, gb c hc k hk]
        have hgc := hg c
        rcases Nat.lt_trichotomy c e.1 with h | h | h
        · have := before_lt_of_lt m h; omega
        · omega
        · have := before_lt_of_lt m h; omega
  · rw [if_neg hi, hst _ he, rv _ he]
    have hsing := reals_single_real e (by omega)
    have hr' := hr e.1
    have hg' := hg e.1
    rw [(hsing e.1).1, if_pos rfl] at hr'
    simp only [List.length_singleton] at hr'
    refine ⟨by simp [hl], ⟨by simp [rl], fun c hc => ?_⟩, ⟨gl, fun c hc => ?_⟩, fun c hc k hk => ?_,
      fun c hc k hk => ?_⟩
    · rw [getD_modify _ _ _ (by rw [rl]; exact hc), rv c hc, reals_append, (hsing c).1,
        List.length_append]
      split <;> rfl
    · rw [ghosts_append, (hsing c).2, List.append_nil]; exact gv c hc
    · rw [reals_append, (hsing c).1] at hk ⊢
      by_cases hc' : e.1 = c
      · rw [if_pos hc'] at hk ⊢
        subst hc'
        simp only [List.length_append, List.length_singleton] at hk
        by_cases hk' : k = (reals pre e.1).length
        · subst hk'
          rw [List.getElem?_set_self (by omega)]
          simp
        · rw [List.getElem?_set_ne (by omega), rb _ hc k (by omega),
            List.getElem?_append_left (by omega)]
      · rw [if_neg hc', List.append_nil] at hk ⊢
        rw [List.getElem?_set_ne, rb c hc k hk]
        have hgc := hr c
        rcases Nat.lt_trichotomy c e.1 with h | h | h
        · have := before_lt_of_lt m h; omega
        · omega
        · have := before_lt_of_lt m h; omega
    · rw [ghosts_append, (hsing c).2, List.append_nil] at hk ⊢
      rw [List.getElem?_set_ne, gb c hc k hk]
      have hrc := hg c
      rcases Nat.lt_trichotomy c e.1 with h | h | h
      · have := before_lt_of_lt m h; omega
      · subst h; omega
      · have := before_lt_of_lt m h; omega

theorem placed_all (n total : ℕ) (m pre rest : List (ℕ × Tagged)) (hm : m = pre ++ rest)
    (hlt : ∀ e ∈ m, e.1 < n) (ht : before (cellList m) n = total) (starts countsReal : List ℕ)
    (hst : ∀ c < n, starts.getD c 0 = before (cellList m) c)
    (hcr : ∀ c < n, countsReal.getD c 0 = (reals m c).length) (s : Placing)
    (h : Placed n total m pre s) :
    Placed n total m m (rest.foldl (place starts countsReal) s) := by
  induction rest generalizing pre s with
  | nil => rw [List.append_nil] at hm; rw [← hm] at h; exact h
  | cons e rest ih =>
    rw [List.foldl_cons]
    apply ih (pre ++ [e]) (by rw [hm]; simp)
    exact placed_step n total m pre s e rest hm (hlt e (by rw [hm]; simp)) ht starts countsReal hst
      hcr h

theorem before_total (n : ℕ) (m : List (ℕ × Tagged)) (hlt : ∀ e ∈ m, e.1 < n) :
    before (cellList m) n = m.length := by
  have h0 : ∀ c, before (cellList ([] : List (ℕ × Tagged))) c = 0 := by
    intro c; induction c with
    | zero => rfl
    | succ c ih => simp [before, ih, cellList, reals, ghosts]
  have key : ∀ (e : ℕ × Tagged) (m : List (ℕ × Tagged)) c, before (cellList (e :: m)) c =
      before (cellList m) c + if e.1 < c then 1 else 0 := by
    intro e m c
    induction c with
    | zero => simp [before]
    | succ c ih =>
      simp only [before, ih]
      rw [← count_all (e :: m) c, ← count_all m c, List.map_cons, List.count_cons]
      simp only [beq_iff_eq]
      split_ifs <;> omega
  induction m with
  | nil => exact h0 n
  | cons e m ih =>
    rw [key, ih (fun x hx => hlt x (by simp [hx])), if_pos (hlt e (by simp))]
    rfl

/-- The buffer after the counting sort. -/
theorem placeAll_eq (n : ℕ) (m : List (ℕ × Tagged)) (hlt : ∀ e ∈ m, e.1 < n)
    (starts countsReal : List ℕ) (hst : ∀ c < n, starts.getD c 0 = before (cellList m) c)
    (hcr : ∀ c < n, countsReal.getD c 0 = (reals m c).length) (d : Tagged) :
    (placeAll n m.length starts countsReal m).map (fun t => t.getD d) =
      (List.range n).flatMap (cellList m) := by
  have ht := before_total n m hlt
  have h := placed_all n m.length m [] m rfl hlt ht starts countsReal hst hcr
    ⟨List.replicate m.length none, List.replicate n 0, List.replicate n 0⟩
    ⟨by simp, ⟨by simp, fun c hc => by simp [reals, hc]⟩, ⟨by simp, fun c hc => by simp [ghosts, hc]⟩,
      fun c _ k hk => by simp [reals] at hk, fun c _ k hk => by simp [ghosts] at hk⟩
  obtain ⟨hl, -, -, rb, gb⟩ := h
  apply eq_flatMap_range
  · rw [List.length_map, placeAll, hl, ht]
  · intro c hc k hk
    rw [List.getElem?_map, placeAll]
    by_cases hk' : k < (reals m c).length
    · rw [rb c hc k hk', cellList, List.getElem?_append_left hk', Option.map_some,
        List.getElem?_eq_getElem hk', Option.getD_some]
    · simp only [cellList, List.length_append] at hk
      obtain ⟨j, rfl⟩ : ∃ j, k = (reals m c).length + j := ⟨k - (reals m c).length, by omega⟩
      rw [← Nat.add_assoc, gb c hc j (by omega), cellList, List.getElem?_append_right (by omega),
        Option.map_some, Nat.add_sub_cancel_left, List.getElem?_eq_getElem (by omega),
        Option.getD_some]

end CellQuery
end Freud
