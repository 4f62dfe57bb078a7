import Verif.Model.Cluster
import Verif.Props.DSet
import Mathlib.Data.List.Perm.Basic
import Mathlib.Data.Finset.Card

/-!
# Properties C32 (end to end) and C33: cluster labels
-/

namespace Freud
open DSet Cluster Spec

/-- The number of points with label `c`. -/
def Spec.clusterSize (n : ℕ) (lab : ℕ → ℕ) (c : ℕ) : ℕ :=
  ((List.range n).filter (fun i => lab i = c)).length

/-- Canonical numbering: labels are exactly `0..num-1`; a cluster with a smaller label is larger,
or equally large with a smaller smallest point index. -/
structure Spec.Canonical (n num : ℕ) (lab : ℕ → ℕ) : Prop where
  range : ∀ i < n, lab i < num
  onto : ∀ c < num, ∃ i < n, lab i = c
  order : ∀ c d, c < d → d < num → clusterSize n lab d < clusterSize n lab c ∨
    (clusterSize n lab d = clusterSize n lab c ∧ ∃ i < n, lab i = c ∧ ∀ j < n, lab j = d → i < j)

namespace Cluster

/-- The invariant of the first pass after `i` points; `ρ` gives the representatives. -/
structure P1Inv (Conn : ℕ → ℕ → Prop) (n : ℕ) (ρ : ℕ → ℕ) (i : ℕ) (s : Pass1) : Prop where
  size : s.mem.size = n
  mem : MInv Conn s.mem
  out : OutOK s.mem
  root : ∀ x < n, RootOf s.mem x (ρ x)
  lenL : s.label.length = n
  lenC : s.count.length = n
  lenM : s.minId.length = n
  num : s.num ≤ i
  seen : ∀ j < i, s.label.getD (ρ j) 0 < s.num
  unseen : ∀ r < n, (∀ j < i, ρ j ≠ r) → s.label.getD r 0 = n
  inj : ∀ j < i, ∀ k < i, s.label.getD (ρ j) 0 = s.label.getD (ρ k) 0 → ρ j = ρ k
  first : ∀ c < s.num, ∃ j < i, s.label.getD (ρ j) 0 = c ∧ s.minId.getD c 0 = j ∧
    ∀ k < i, s.label.getD (ρ k) 0 = c → j ≤ k
  count : ∀ c < n, s.count.getD c 0 =
    if c < s.num then ((List.range i).filter (fun k => s.label.getD (ρ k) 0 = c)).length else 0

theorem getD_set_self {α : Type*} {l : List α} {i : ℕ} (h : i < l.length) (v d : α) :
    (l.set i v).getD i d = v := by
  simp [List.getD_eq_getElem?_getD, h]

theorem getD_set_ne {α : Type*} {l : List α} {i j : ℕ} (h : i ≠ j) (v d : α) :
    (l.set i v).getD j d = l.getD j d := by
  simp [List.getD_eq_getElem?_getD, List.getElem?_set_ne h]

theorem getD_replicate_lt {α : Type*} {n i : ℕ} (h : i < n) (v d : α) :
    (List.replicate n v).getD i d = v := by
  simp [List.getD_eq_getElem?_getD, h]

theorem filter_range_succ (p : ℕ → Prop) [DecidablePred p] (i : ℕ) :
    (List.range (i + 1)).filter (fun k => decide (p k)) =
      (List.range i).filter (fun k => decide (p k)) ++ if p i then [i] else [] := by
  rw [List.range_succ, List.filter_append]
  by_cases h : p i <;> simp [h]

theorem pass1_step {Conn : ℕ → ℕ → Prop} (hC : ConnOK Conn) {n : ℕ} {ρ : ℕ → ℕ}
    (hρ : ∀ x < n, ρ x < n) {i : ℕ} (hi : i < n) {s : Pass1} (h : P1Inv Conn n ρ i s) :
    ∃ s', Pass1.step n s i = some s' ∧ P1Inv Conn n ρ (i + 1) s' := by
  obtain ⟨m', r, e, hr, hrn, hm', ho', hsz, hroots⟩ := findSeq_spec hC (n + 1) h.out h.mem
    (x := i) (by rw [h.size]; exact hi) (by have := above_le s.mem i; rw [h.size] at this; omega)
  have hri : r = ρ i := hr.unique (h.root i hi)
  subst hri
  have hrn : ρ i < n := hρ i hi
  refine ⟨_, by rw [Pass1.step, e, Option.map_some], ?_⟩
  simp only
  have hroot' : ∀ x < n, RootOf m' x (ρ x) := fun x hx => hroots x _ (h.root x hx)
  have hnum : s.num < n := lt_of_le_of_lt h.num hi
  by_cases hnew : s.label.getD (ρ i) 0 = n
  · -- a new cluster
    have hfresh : ∀ j < i, ρ j ≠ ρ i := by
      intro j hj he
      have := h.seen j hj
      rw [he] at this
      omega
    have hsee : Pass1.see n { s with mem := m' } (ρ i) i =
        ⟨m', s.label.set (ρ i) s.num, s.count, s.minId.set s.num i, s.num + 1⟩ := by
      simp only [Pass1.see]; rw [if_pos hnew]
    rw [hsee]
    have hl : (s.label.set (ρ i) s.num).getD (ρ i) 0 = s.num := getD_set_self (by rw [h.lenL]; exact hrn) _ _
    have hlo : ∀ j < i, (s.label.set (ρ i) s.num).getD (ρ j) 0 = s.label.getD (ρ j) 0 :=
      fun j hj => getD_set_ne (Ne.symm (hfresh j hj)) _ _
    simp only [Pass1.tally, hl]
    refine ⟨hsz.trans h.size, hm', ho', hroot', by simpa using h.lenL, by simpa using h.lenC,
      by simpa using h.lenM, by simp only; have := h.num; omega, ?_, ?_, ?_, ?_, ?_⟩
    · intro j hj
      simp only
      rcases Nat.lt_succ_iff_lt_or_eq.mp hj with hj | rfl
      · rw [hlo j hj]; have := h.seen j hj; omega
      · rw [hl]; omega
    · intro r hr hne
      simp only
      rw [getD_set_ne (hne i (by omega)) _ _]
      exact h.unseen r hr (fun j hj => hne j (by omega))
    · intro j hj k hk he
      simp only at he
      rcases Nat.lt_succ_iff_lt_or_eq.mp hj with hj | rfl <;>
        rcases Nat.lt_succ_iff_lt_or_eq.mp hk with hk | rfl
      · rw [hlo j hj, hlo k hk] at he; exact h.inj j hj k hk he
      · rw [hlo j hj, hl] at he; have := h.seen j hj; omega
      · rw [hl, hlo k hk] at he; have := h.seen k hk; omega
      · rfl
    · intro c hc
      simp only at hc ⊢
      rcases Nat.lt_succ_iff_lt_or_eq.mp hc with hc | rfl
      · obtain ⟨j, hj, h1, h2, h3⟩ := h.first c hc
        refine ⟨j, by omega, by rw [hlo j hj]; exact h1, by rw [getD_set_ne (by omega)]; exact h2, ?_⟩
        intro k hk hlk
        rcases Nat.lt_succ_iff_lt_or_eq.mp hk with hk | rfl
        · rw [hlo k hk] at hlk; exact h3 k hk hlk
        · omega
      · refine ⟨i, by omega, hl, getD_set_self (by rw [h.lenM]; exact hnum) _ _, ?_⟩
        intro k hk hlk
        rcases Nat.lt_succ_iff_lt_or_eq.mp hk with hk | rfl
        · rw [hlo k hk] at hlk; have := h.seen k hk; omega
        · exact le_refl _
    · intro c hc
      simp only
      have hfilter : ∀ c, c ≠ s.num → (List.range (i + 1)).filter (fun k => decide
          ((s.label.set (ρ i) s.num).getD (ρ k) 0 = c)) = (List.range i).filter (fun k => decide
          (s.label.getD (ρ k) 0 = c)) := by
        intro c hc
        rw [filter_range_succ (fun k => (s.label.set (ρ i) s.num).getD (ρ k) 0 = c),
          if_neg (by rw [hl]; exact Ne.symm hc)]
        rw [List.append_nil]
        apply List.filter_congr
        intro k hk
        rw [hlo k (List.mem_range.mp hk)]
      by_cases hcn : c = s.num
      · subst hcn
        rw [getD_set_self (by rw [h.lenC]; exact hc), if_pos (by omega)]
        have h0 := h.count s.num hc
        rw [if_neg (by omega)] at h0
        rw [h0, filter_range_succ (fun k => (s.label.set (ρ i) s.num).getD (ρ k) 0 = s.num),
          if_pos hl]
        rw [List.filter_eq_nil_iff.mpr]
        · simp
        · intro k hk
          have := h.seen k (List.mem_range.mp hk)
          rw [decide_eq_true_eq, hlo k (List.mem_range.mp hk)]
          omega
      · rw [getD_set_ne (Ne.symm hcn), h.count c hc, hfilter c hcn]
        by_cases hlt : c < s.num
        · rw [if_pos hlt, if_pos (by omega)]
        · rw [if_neg hlt, if_neg (by omega)]
  · -- a known cluster
    have hsee : Pass1.see n { s with mem := m' } (ρ i) i = { s with mem := m' } := by
      simp only [Pass1.see]; rw [if_neg hnew]
    rw [hsee]
    have hseen : ∃ j < i, ρ j = ρ i := by
      by_contra hc
      push Not at hc
      exact hnew (h.unseen _ hrn hc)
    obtain ⟨j0, hj0, hj0e⟩ := hseen
    have hlt : s.label.getD (ρ i) 0 < s.num := by rw [← hj0e]; exact h.seen j0 hj0
    simp only [Pass1.tally]
    refine ⟨hsz.trans h.size, hm', ho', hroot', h.lenL, by simpa using h.lenC, h.lenM,
      by have := h.num; simp only; omega, ?_, ?_, ?_, ?_, ?_⟩
    · intro j hj
      rcases Nat.lt_succ_iff_lt_or_eq.mp hj with hj | rfl
      · exact h.seen j hj
      · exact hlt
    · intro r hr hne
      exact h.unseen r hr (fun j hj => hne j (by omega))
    · intro j hj k hk he
      simp only at he
      rcases Nat.lt_succ_iff_lt_or_eq.mp hj with hj | rfl <;>
        rcases Nat.lt_succ_iff_lt_or_eq.mp hk with hk | rfl
      · exact h.inj j hj k hk he
      · rw [← hj0e] at he ⊢; exact h.inj j hj j0 hj0 he
      · rw [← hj0e] at he ⊢; exact h.inj j0 hj0 k hk he
      · rfl
    · intro c hc
      obtain ⟨j, hj, h1, h2, h3⟩ := h.first c hc
      refine ⟨j, by omega, h1, h2, ?_⟩
      intro k hk hlk
      simp only at hlk
      rcases Nat.lt_succ_iff_lt_or_eq.mp hk with hk | rfl
      · exact h3 k hk hlk
      · omega
    · intro c hc
      simp only
      rw [filter_range_succ (fun k => s.label.getD (ρ k) 0 = c)]
      by_cases hcl : s.label.getD (ρ i) 0 = c
      · rw [if_pos hcl]
        rw [hcl] at hlt ⊢
        rw [getD_set_self (by rw [h.lenC]; exact hc), if_pos hlt, h.count c hc, if_pos hlt,
          List.length_append, List.length_singleton]
      · rw [getD_set_ne hcl, h.count c hc, if_neg hcl, List.append_nil]

theorem pass1_spec {Conn : ℕ → ℕ → Prop} (hC : ConnOK Conn) {n : ℕ} {ρ : ℕ → ℕ} {m : DMem}
    (hsz : m.size = n) (hm : MInv Conn m) (ho : OutOK m) (hρ : ∀ x < n, ρ x < n)
    (hr : ∀ x < n, RootOf m x (ρ x)) : ∃ p, pass1 n m = some p ∧ P1Inv Conn n ρ n p := by
  have key : ∀ i ≤ n, ∃ p, (List.range i).foldlM (Pass1.step n) (Pass1.new m n) = some p ∧
      P1Inv Conn n ρ i p := by
    intro i
    induction i with
    | zero =>
      intro _
      refine ⟨Pass1.new m n, rfl, hsz, hm, ho, hr, by simp [Pass1.new], by simp [Pass1.new],
        by simp [Pass1.new], le_refl _, ?_, ?_, ?_, ?_, ?_⟩
      · intro j hj; omega
      · intro r hr _; exact getD_replicate_lt hr _ _
      · intro j hj; omega
      · intro c hc; simp [Pass1.new] at hc
      · intro c hc
        rw [if_neg (by simp [Pass1.new])]
        exact getD_replicate_lt hc _ _
    | succ i ih =>
      intro hi
      obtain ⟨p, e, hp⟩ := ih (by omega)
      obtain ⟨p', e', hp'⟩ := pass1_step hC hρ (by omega) hp
      refine ⟨p', ?_, hp'⟩
      rw [List.range_succ, List.foldlM_append, e]
      simp [e']
  exact key n (le_refl n)

theorem foldl_set_spec (L : List (ℕ × ℕ)) (hnd : (L.map (·.1)).Nodup) (acc : List ℕ)
    (hb : ∀ p ∈ L, p.1 < acc.length) :
    (∀ p ∈ L, (L.foldl (fun inv p => inv.set p.1 p.2) acc).getD p.1 0 = p.2) ∧
    ∀ v, v ∉ L.map (·.1) → (L.foldl (fun inv p => inv.set p.1 p.2) acc).getD v 0 = acc.getD v 0 := by
  induction L generalizing acc with
  | nil => simp
  | cons q L ih =>
    rw [List.map_cons, List.nodup_cons] at hnd
    obtain ⟨h1, h2⟩ := ih hnd.2 (acc.set q.1 q.2)
      (fun p hp => by simpa using hb p (List.mem_cons_of_mem _ hp))
    refine ⟨fun p hp => ?_, fun v hv => ?_⟩
    · rw [List.foldl_cons]
      rcases List.mem_cons.mp hp with rfl | hp
      · rw [h2 _ hnd.1, getD_set_self (hb p List.mem_cons_self)]
      · exact h1 p hp
    · rw [List.map_cons, List.mem_cons, not_or] at hv
      rw [List.foldl_cons, h2 v hv.2, getD_set_ne (Ne.symm hv.1)]

theorem invert_spec {num : ℕ} {idx : List ℕ} (hp : idx.Perm (List.range num)) (k : ℕ)
    (hk : k < num) : ∃ hk' : k < idx.length, (invert idx).getD idx[k] 0 = k := by
  have hlen : idx.length = num := by rw [hp.length_eq, List.length_range]
  have hk' : k < idx.length := by omega
  refine ⟨hk', ?_⟩
  have hmap : idx.zipIdx.map (·.1) = idx := by simp [List.zipIdx_map_fst]
  have := (foldl_set_spec idx.zipIdx (by rw [hmap]; exact hp.nodup_iff.mpr List.nodup_range)
    (List.replicate idx.length 0) (by
      intro p hpm
      have : p.1 ∈ idx := by rw [← hmap]; exact List.mem_map_of_mem hpm
      have := hp.subset this
      rw [List.mem_range] at this
      simp; omega)).1 (idx[k], k) (by
        rw [List.mem_iff_getElem?]
        exact ⟨k, by simp [List.getElem?_zipIdx, hk']⟩)
  exact this

/-- The second pass: labels and keys. -/
theorem pass2_spec {Conn : ℕ → ℕ → Prop} (hC : ConnOK Conn) {n : ℕ} {ρ : ℕ → ℕ} {p : Pass1}
    (hp : P1Inv Conn n ρ n p) (idx : List ℕ) (key : ℕ → ℕ)
    (hlt : ∀ i < n, (invert idx).getD (p.label.getD (ρ i) 0) 0 < p.num) :
    ∃ q, pass2 n p idx key = some q ∧ q.clusterIdx.length = n ∧
      (∀ i < n, q.clusterIdx.getD i 0 = (invert idx).getD (p.label.getD (ρ i) 0) 0) ∧
      q.keys.length = p.num ∧
      ∀ c < p.num, q.keys.getD c [] = ((List.range n).filter (fun i =>
        (invert idx).getD (p.label.getD (ρ i) 0) 0 = c)).map key := by
  have main : ∀ i ≤ n, ∃ q, (List.range i).foldlM (Pass2.step n p.label (invert idx) key)
      ⟨p.mem, List.replicate n 0, List.replicate p.num []⟩ = some q ∧
      (q.mem.size = n ∧ MInv Conn q.mem ∧ OutOK q.mem ∧ ∀ x < n, RootOf q.mem x (ρ x)) ∧
      q.clusterIdx.length = n ∧
      (∀ j < i, q.clusterIdx.getD j 0 = (invert idx).getD (p.label.getD (ρ j) 0) 0) ∧
      q.keys.length = p.num ∧
      ∀ c < p.num, q.keys.getD c [] = ((List.range i).filter (fun j =>
        (invert idx).getD (p.label.getD (ρ j) 0) 0 = c)).map key := by
    intro i
    induction i with
    | zero =>
      intro _
      refine ⟨_, rfl, ⟨hp.size, hp.mem, hp.out, hp.root⟩, by simp, by simp, by simp, ?_⟩
      intro c hc
      simp only [List.range_zero, List.filter_nil, List.map_nil]
      exact getD_replicate_lt hc _ _
    | succ i ih =>
      intro hi
      obtain ⟨q, e, ⟨hs, hm, ho, hr⟩, hlen, hidx, hkl, hkeys⟩ := ih (by omega)
      obtain ⟨m', r, e', hr', hrn, hm', ho', hsz, hroots⟩ := findSeq_spec hC (n + 1) ho hm
        (x := i) (by rw [hs]; omega) (by have := above_le q.mem i; rw [hs] at this; omega)
      have hri : r = ρ i := hr'.unique (hr i (by omega))
      subst hri
      refine ⟨_, by rw [List.range_succ, List.foldlM_append, e]; simp only [Option.bind_eq_bind,
        Option.bind_some, List.foldlM_cons, List.foldlM_nil, Pass2.step, e', Option.map_some]; rfl,
        ⟨hsz.trans hs, hm', ho', fun x hx => hroots x _ (hr x hx)⟩, by simpa using hlen, ?_,
        by simpa using hkl, ?_⟩
      · intro j hj
        simp only
        rcases Nat.lt_succ_iff_lt_or_eq.mp hj with hj | rfl
        · rw [getD_set_ne (by omega)]; exact hidx j hj
        · rw [getD_set_self (by omega)]
      · intro c hc
        simp only
        rw [filter_range_succ (fun j => (invert idx).getD (p.label.getD (ρ j) 0) 0 = c),
          List.map_append]
        by_cases hcl : (invert idx).getD (p.label.getD (ρ i) 0) 0 = c
        · rw [if_pos hcl, hcl, getD_set_self (by omega), hkeys c hc, List.map_singleton]
        · rw [getD_set_ne hcl, hkeys c hc, if_neg hcl, List.map_nil, List.append_nil]
  obtain ⟨q, e, -, h1, h2, h3, h4⟩ := main n (le_refl n)
  exact ⟨q, e, h1, h2, h3, h4⟩

theorem less_spec (count minId : List ℕ) (a b : ℕ) : less count minId a b = false ↔
    count.getD a 0 < count.getD b 0 ∨
      (count.getD a 0 = count.getD b 0 ∧ minId.getD b 0 ≤ minId.getD a 0) := by
  unfold less
  by_cases h : count.getD a 0 = count.getD b 0
  · rw [if_neg (not_not.mpr h), decide_eq_false_iff_not]; omega
  · rw [if_pos h, decide_eq_false_iff_not]; omega

/-- Everything after the parallel loop. -/
theorem finish_spec {Conn : ℕ → ℕ → Prop} (hC : ConnOK Conn) {n : ℕ} {ρ : ℕ → ℕ} {m : DMem}
    (hsz : m.size = n) (hm : MInv Conn m) (ho : OutOK m) (hρ : ∀ x < n, ρ x < n)
    (hr : ∀ x < n, RootOf m x (ρ x)) (key : ℕ → ℕ) (res : Result) (hres : Finish n m key res) :
    res.clusterIdx.length = n ∧ res.keys.length = res.num ∧
      (∀ x < n, ∀ y < n, res.clusterIdx.getD x 0 = res.clusterIdx.getD y 0 ↔ ρ x = ρ y) ∧
      Canonical n res.num (fun i => res.clusterIdx.getD i 0) ∧
      ∀ c < res.num, res.keys.getD c [] =
        ((List.range n).filter (fun i => res.clusterIdx.getD i 0 = c)).map key := by
  obtain ⟨p, idx, q, e1, ⟨hperm, hsort⟩, e2, rfl⟩ := hres
  obtain ⟨p', e1', hp⟩ := pass1_spec hC hsz hm ho hρ hr
  rw [e1] at e1'
  cases e1'
  have hlen : idx.length = p.num := by rw [hperm.length_eq, List.length_range]
  -- position of an old label in the sorted list
  have hpos : ∀ l < p.num, ∃ k, ∃ hk : k < idx.length, idx[k] = l ∧ (invert idx).getD l 0 = k := by
    intro l hl
    have : l ∈ idx := hperm.symm.subset (List.mem_range.mpr hl)
    obtain ⟨k, hk, hkl⟩ := List.mem_iff_getElem.mp this
    obtain ⟨hk', hinv⟩ := invert_spec hperm k (by omega)
    exact ⟨k, hk, hkl, by rw [← hkl]; exact hinv⟩
  have hlt : ∀ i < n, (invert idx).getD (p.label.getD (ρ i) 0) 0 < p.num := by
    intro i hi
    obtain ⟨k, hk, -, h2⟩ := hpos _ (hp.seen i hi)
    rw [h2]; omega
  obtain ⟨q', e2', h1, h2, h3, h4⟩ := pass2_spec hC hp idx key hlt
  rw [e2] at e2'
  cases e2'
  have hinj : ∀ l l', l < p.num → l' < p.num → (invert idx).getD l 0 = (invert idx).getD l' 0 →
      l = l' := by
    intro l l' hl hl' he
    obtain ⟨k, hk, hkl, hki⟩ := hpos l hl
    obtain ⟨k', hk', hkl', hki'⟩ := hpos l' hl'
    have hkk : k = k' := by omega
    subst hkk
    exact hkl.symm.trans hkl'
  have hfil : ∀ c, ((List.range n).filter (fun i => decide (q.clusterIdx.getD i 0 = c))) =
      (List.range n).filter (fun i => decide ((invert idx).getD (p.label.getD (ρ i) 0) 0 = c)) := by
    intro c
    apply List.filter_congr
    intro i hi
    rw [h2 i (List.mem_range.mp hi)]
  -- sizes and old labels
  have hsize : ∀ k (hk : k < idx.length), clusterSize n (fun i => q.clusterIdx.getD i 0) k =
      p.count.getD idx[k] 0 := by
    intro k hk
    have hl : idx[k] < p.num := List.mem_range.mp (hperm.subset (List.getElem_mem hk))
    rw [hp.count _ (lt_of_lt_of_le hl hp.num), if_pos hl]
    unfold clusterSize
    rw [hfil k]
    congr 1
    apply List.filter_congr
    intro i hi
    have hin := List.mem_range.mp hi
    obtain ⟨hk', hinv⟩ := invert_spec hperm k (by omega)
    rw [decide_eq_decide]
    constructor
    · intro h; exact hinj _ _ (hp.seen i hin) hl (h.trans hinv.symm)
    · intro h; rw [h]; exact hinv
  refine ⟨h1, h3, ?_, ⟨?_, ?_, ?_⟩, ?_⟩
  · intro x hx y hy
    simp only
    rw [h2 x hx, h2 y hy]
    constructor
    · intro h; exact hp.inj x hx y hy (hinj _ _ (hp.seen x hx) (hp.seen y hy) h)
    · intro h; rw [h]
  · intro i hi; simp only; rw [h2 i hi]; exact hlt i hi
  · intro c hc
    simp only at hc
    obtain ⟨hk, hinv⟩ := invert_spec hperm c hc
    have hl : idx[c] < p.num := List.mem_range.mp (hperm.subset (List.getElem_mem hk))
    obtain ⟨j, hj, hjl, -⟩ := hp.first _ hl
    exact ⟨j, hj, by simp only; rw [h2 j hj, hjl, hinv]⟩
  · intro c d hcd hd
    simp only at hd
    have hc' : c < idx.length := by omega
    have hd' : d < idx.length := by omega
    have hlc : idx[c] < p.num := List.mem_range.mp (hperm.subset (List.getElem_mem hc'))
    have hld : idx[d] < p.num := List.mem_range.mp (hperm.subset (List.getElem_mem hd'))
    rw [hsize c hc', hsize d hd']
    have hs := List.pairwise_iff_getElem.mp hsort c d hc' hd' hcd
    rw [less_spec] at hs
    rcases hs with hs | ⟨hs, hmin⟩
    · exact .inl hs
    · refine .inr ⟨hs, ?_⟩
      obtain ⟨i, hi, hil, him, hif⟩ := hp.first _ hlc
      obtain ⟨j, hj, hjl, hjm, hjf⟩ := hp.first _ hld
      have hne : idx[c] ≠ idx[d] := by
        intro he
        have := (List.Nodup.getElem_inj_iff (hperm.nodup_iff.mpr List.nodup_range)).mp he
        omega
      obtain ⟨_, hinvc⟩ := invert_spec hperm c (by omega)
      obtain ⟨_, hinvd⟩ := invert_spec hperm d (by omega)
      refine ⟨i, hi, by simp only; rw [h2 i hi, hil, hinvc], ?_⟩
      intro k hk hkd
      simp only at hkd
      rw [h2 k hk] at hkd
      have hkl : p.label.getD (ρ k) 0 = idx[d] :=
        hinj _ _ (hp.seen k hk) hld (hkd.trans hinvd.symm)
      have h5 := hjf k hk hkl
      have h6 : i ≠ j := by rintro rfl; exact hne (hil.symm.trans hjl)
      omega
  · intro c hc
    simp only at hc ⊢
    rw [h4 c hc, hfil c]

end Cluster

/-- **C32** and **C33** end to end: after every interleaving, and for every behaviour of the sort,
the labels of two points are equal exactly when the points are connected by a chain of bonds, the
labels are canonical, and `cluster_keys[c]` lists the keys of the points with label `c` in order
of their index. -/
theorem C33_cluster_labels (n : ℕ) (work : List (List (ℕ × ℕ)))
    (hb : ∀ e ∈ work.flatten, e.1 < n ∧ e.2 < n) (s : DState) (hr : Reachable n work s)
    (hfin : ∀ t ∈ s.threads, t.finished) (key : ℕ → ℕ) (res : Result)
    (hres : Finish n s.mem key res) :
    res.clusterIdx.length = n ∧ res.keys.length = res.num ∧
      (∀ x < n, ∀ y < n, res.clusterIdx.getD x 0 = res.clusterIdx.getD y 0 ↔
        Connected work.flatten x y) ∧
      Canonical n res.num (fun i => res.clusterIdx.getD i 0) ∧
      ∀ c < res.num, res.keys.getD c [] =
        ((List.range n).filter (fun i => res.clusterIdx.getD i 0 = c)).map key := by
  have hs := sinv_reachable hb hr
  have hC := connOK work.flatten
  have hex : ∀ x, ∃ r, x < n → RootOf s.mem x r ∧ r < n := by
    intro x
    by_cases hx : x < n
    · obtain ⟨r, h1, h2, -⟩ := hs.mem.root_exists x (by rw [hs.size]; exact hx)
      exact ⟨r, fun _ => ⟨h1, by rw [hs.size] at h2; exact h2⟩⟩
    · exact ⟨0, fun h => absurd h hx⟩
  choose ρ hρ using hex
  obtain ⟨h1, h2, h3, h4, h5⟩ := finish_spec hC hs.size hs.mem hs.out (fun x hx => (hρ x hx).2)
    (fun x hx => (hρ x hx).1) key res hres
  refine ⟨h1, h2, fun x hx y hy => ?_, h4, h5⟩
  rw [h3 x hx y hy]
  obtain ⟨mx, my, rx, ry, ex, ey, hiff⟩ := C32_components n work hb s hr hfin x y hx hy
  have hfind : ∀ x < n, ∀ mx rx, findSeq (n + 1) s.mem x = some (mx, rx) → rx = ρ x := by
    intro x hx mx rx ex
    obtain ⟨m', r, e, hroot, -⟩ := findSeq_spec hC (n + 1) hs.out hs.mem
      (x := x) (by rw [hs.size]; exact hx)
      (by have := above_le s.mem x; rw [hs.size] at this; omega)
    rw [e] at ex
    cases ex
    exact hroot.unique (hρ x hx).1
  rw [← hiff, hfind x hx mx rx ex, hfind y hy my ry ey]

/-- **C33**: the passes after the loop always end with a result. -/
theorem C33_result_exists (n : ℕ) (work : List (List (ℕ × ℕ)))
    (hb : ∀ e ∈ work.flatten, e.1 < n ∧ e.2 < n) (s : DState) (hr : Reachable n work s)
    (key : ℕ → ℕ) : ∃ res, Finish n s.mem key res := by
  have hs := sinv_reachable hb hr
  have hC := connOK work.flatten
  have hex : ∀ x, ∃ r, x < n → RootOf s.mem x r ∧ r < n := by
    intro x
    by_cases hx : x < n
    · obtain ⟨r, h1, h2, -⟩ := hs.mem.root_exists x (by rw [hs.size]; exact hx)
      exact ⟨r, fun _ => ⟨h1, by rw [hs.size] at h2; exact h2⟩⟩
    · exact ⟨0, fun h => absurd h hx⟩
  choose ρ hρ using hex
  obtain ⟨p, e1, hp⟩ := pass1_spec hC hs.size hs.mem hs.out (fun x hx => (hρ x hx).2)
    (fun x hx => (hρ x hx).1)
  obtain ⟨idx, hidx⟩ : ∃ idx, Bond.SortedBy (less p.count p.minId) (List.range p.num) idx := by
    refine ⟨(List.range p.num).mergeSort (fun a b => !less p.count p.minId b a),
      List.mergeSort_perm _ _, ?_⟩
    have := List.pairwise_mergeSort (le := fun a b => !less p.count p.minId b a) ?_ ?_
      (List.range p.num)
    · exact this.imp (fun h => by simpa using h)
    · intro a b c h1 h2
      simp only [Bool.not_eq_true', less_spec] at *
      omega
    · intro a b
      simp only [Bool.or_eq_true, Bool.not_eq_true', less_spec]
      omega
  have hlen : idx.length = p.num := by rw [hidx.1.length_eq, List.length_range]
  have hlt : ∀ i < n, (invert idx).getD (p.label.getD (ρ i) 0) 0 < p.num := by
    intro i hi
    have : p.label.getD (ρ i) 0 ∈ idx := hidx.1.symm.subset (List.mem_range.mpr (hp.seen i hi))
    obtain ⟨k, hk, hkl⟩ := List.mem_iff_getElem.mp this
    obtain ⟨_, hinv⟩ := invert_spec hidx.1 k (by omega)
    rw [← hkl, hinv]; omega
  obtain ⟨q, e2, -⟩ := pass2_spec hC hp idx key hlt
  exact ⟨_, p, idx, q, e1, hidx, e2, rfl⟩

/-- **C33**: canonical labels are a function of the partition: two canonical numberings of the same
partition are equal. With `C33_cluster_labels`, the labels depend on the connected components only,
not on the order of the bonds, the interleaving or the sort. -/
theorem C33_canonical_unique (n num num' : ℕ) (lab lab' : ℕ → ℕ) (h : Canonical n num lab)
    (h' : Canonical n num' lab')
    (hpart : ∀ x < n, ∀ y < n, lab x = lab y ↔ lab' x = lab' y) :
    num = num' ∧ ∀ x < n, lab x = lab' x := by
  have hsize : ∀ x < n, clusterSize n lab (lab x) = clusterSize n lab' (lab' x) := by
    intro x hx
    unfold clusterSize
    congr 1
    apply List.filter_congr
    intro y hy
    rw [decide_eq_decide]
    exact hpart y (List.mem_range.mp hy) x hx
  -- the order of labels is the order of the partition
  have hord : ∀ (num num' : ℕ) (lab lab' : ℕ → ℕ), Canonical n num lab → Canonical n num' lab' →
      (∀ x < n, ∀ y < n, lab x = lab y ↔ lab' x = lab' y) →
      (∀ x < n, clusterSize n lab (lab x) = clusterSize n lab' (lab' x)) →
      ∀ x < n, ∀ y < n, lab x < lab y → lab' x < lab' y := by
    intro num num' lab lab' h h' hpart hsize x hx y hy hlt
    by_contra hc
    rcases Nat.lt_or_eq_of_le (not_lt.mp hc) with hgt | heq
    · have a := h.order _ _ hlt (h.range y hy)
      have b := h'.order _ _ hgt (h'.range x hx)
      rw [← hsize x hx, ← hsize y hy] at b
      rcases a with a | ⟨a, i, hi, hil, him⟩
      · rcases b with b | ⟨b, -⟩ <;> omega
      · rcases b with b | ⟨b, j, hj, hjl, hjm⟩
        · omega
        · have e1 : lab' i = lab' x := (hpart i hi x hx).mp hil
          have e2 : lab j = lab y := (hpart j hj y hy).mpr hjl
          have := him j hj e2
          have := hjm i hi e1
          omega
    · have := (hpart y hy x hx).mpr heq
      omega
  have hlt1 := hord num num' lab lab' h h' hpart hsize
  have hlt2 := hord num' num lab' lab h' h (fun x hx y hy => (hpart x hx y hy).symm)
    (fun x hx => (hsize x hx).symm)
  -- equal by strong induction on the label
  have key : ∀ c x, x < n → lab x = c → lab' x = c := by
    intro c
    induction c using Nat.strong_induction_on with
    | _ c ih =>
      intro x hx hxc
      rcases Nat.lt_trichotomy (lab' x) c with hl | he | hg
      · obtain ⟨y, hy, hyl⟩ := h.onto (lab' x) (by have := h.range x hx; omega)
        have h1 := ih _ hl y hy hyl
        have := hlt1 y hy x hx (by omega)
        omega
      · exact he
      · obtain ⟨y, hy, hyl⟩ := h'.onto c (by have := h'.range x hx; omega)
        have h1 := hlt2 y hy x hx (by omega)
        have h2 := ih (lab y) (by omega) y hy rfl
        omega
  refine ⟨?_, fun x hx => (key _ x hx rfl).symm⟩
  rcases Nat.lt_trichotomy num num' with hl | he | hg
  · obtain ⟨y, hy, hyl⟩ := h'.onto num hl
    have := key _ y hy rfl
    have := h.range y hy
    omega
  · exact he
  · obtain ⟨y, hy, hyl⟩ := h.onto num' hg
    have := key _ y hy rfl
    have := h'.range y hy
    omega

-- two clusters of equal size: the one with the smaller point index comes first
example : Canonical 5 3 (fun i => [1, 0, 0, 1, 2].getD i 0) → False := by
  intro h
  have := h.order 0 1 (by decide) (by decide)
  revert this
  decide

example : Canonical 5 3 (fun i => [0, 1, 1, 0, 2].getD i 0) :=
  ⟨by decide, by decide, by
    intro c d hcd hd
    have : d = 1 ∨ d = 2 := by omega
    rcases this with rfl | rfl <;> have : c = 0 ∨ c = 1 := by omega
    all_goals rcases this with rfl | rfl
    all_goals first | omega | decide⟩

end Freud
