import Verif.Model.NeighborListStore
import Verif.Props.NeighborListSort

/-!
# Property C18: cached arrays and copies of neighbor lists
-/

set_option linter.unusedSectionVars false

namespace Freud
open Spec NList NLStore

variable {K : Type*} [Zero K] [LinearOrder K]

/-- `segs` and `cnts` describe the bonds: for every query point `k`, `cnts[k]` is the number of
bonds of `k`, and the bonds of `k` are those numbered `segs[k] ≤ b < segs[k] + cnts[k]`. -/
structure Spec.Describes (nq : ℕ) (bonds : List (Bond K)) (segs cnts : List ℕ) : Prop where
  lenS : segs.length = nq
  lenC : cnts.length = nq
  count : ∀ k < nq, cnts.getD k 0 = (bonds.filter (fun b => b.q = k)).length
  block : ∀ k < nq, ∀ b, ((bonds[b]?).map (·.q) = some k ↔
    segs.getD k 0 ≤ b ∧ b < segs.getD k 0 + cnts.getD k 0)

/-- The description depends on the query indices only. -/
theorem describes_congr {nq : ℕ} {l l' : List (Bond K)} {segs cnts : List ℕ}
    (h : l.map (·.q) = l'.map (·.q)) (hd : Describes nq l segs cnts) : Describes nq l' segs cnts := by
  refine ⟨hd.lenS, hd.lenC, fun k hk => ?_, fun k hk b => ?_⟩
  · rw [hd.count k hk]
    have : ∀ m : List (Bond K), (m.filter (fun b => b.q = k)).length = (m.map (·.q)).count k := by
      intro m
      rw [List.count_eq_length_filter, List.filter_map, List.length_map]
      congr 1
    rw [this, this, h]
  · rw [← hd.block k hk b, ← List.getElem?_map, ← List.getElem?_map, h]

/-- The invariant of a store. -/
structure StoreOK (s : NLStore K) : Prop where
  addr : ∀ o ∈ s.objs, o.addr < s.heap.length
  distinct : s.objs.Pairwise (fun a b => a.addr ≠ b.addr)
  good : ∀ o ∈ s.objs, GoodList (s.view o)
  cache : ∀ o ∈ s.objs, o.segUpdated = true →
    Describes o.numQueryPoints (s.heap.getD o.addr []) o.segments o.counts

/-- What a user may do: operate on an existing list, pass a mask with an entry for every bond;
a sort comes out sorted. -/
def Spec.LegalOp (s : NLStore K) : Op K → Prop
  | .filter i mask => ∃ n, s.viewAt i = some n ∧ n.bonds.length ≤ mask.length
  | .filterR i _ _ => ∃ n, s.viewAt i = some n
  | .sort i d out => ∃ n, s.viewAt i = some n ∧ Bond.SortedBy (Bond.less d) n.bonds out
  | .copyInto dst src => (∃ n, s.viewAt src = some n) ∧ ∃ n, s.viewAt dst = some n
  | .newCopy src => ∃ n, s.viewAt src = some n
  | .segments i => ∃ n, s.viewAt i = some n
  | .counts i => ∃ n, s.viewAt i = some n

/-- The list an operation is applied to (the destination of a copy). -/
def Spec.target (s : NLStore K) : Op K → ℕ
  | .filter i _ => i
  | .filterR i _ _ => i
  | .sort i _ _ => i
  | .copyInto dst _ => dst
  | .newCopy _ => s.objs.length
  | .segments i => i
  | .counts i => i

theorem keep_sublist (bs : List (Bond K)) (ms : List Bool) : (keep bs ms).Sublist bs := by
  induction bs generalizing ms with
  | nil => simp [keep]
  | cons b bs ih => cases ms with
    | nil => simp [keep]
    | cons m ms => cases m with
      | false => simp only [keep, Bool.false_eq_true, if_false]; exact (ih ms).cons _
      | true => simp only [keep, if_true]; exact (ih ms).cons_cons _

theorem goodList_sublist {n m : NList K} (h : GoodList n) (hs : m.bonds.Sublist n.bonds)
    (hq : m.numQueryPoints = n.numQueryPoints) (hp : m.numPoints = n.numPoints) : GoodList m :=
  ⟨h.sorted.sublist (hs.map _), fun b hb => hq ▸ h.qlt b (hs.subset hb),
    fun b hb => hp ▸ h.plt b (hs.subset hb), hq ▸ h.small⟩

theorem sorted_out_q {l out : List (Bond K)} {d : Bool} (h : Bond.SortedBy (Bond.less d) l out) :
    (out.map (·.q)).Pairwise (· ≤ ·) := by
  rw [List.pairwise_map]
  cases d with
  | false =>
    refine (C19_by_index l out h).2.imp ?_
    rintro a b (h | ⟨h, -⟩) <;> omega
  | true =>
    refine (C19_by_distance l out h).2.imp ?_
    rintro a b (h | ⟨h, -⟩) <;> omega

theorem getD_append_lt {α : Type*} (l : List α) (x d : α) (i : ℕ) (h : i < l.length) :
    (l ++ [x]).getD i d = l.getD i d := by
  simp [List.getD_eq_getElem?_getD, List.getElem?_append_left h]

theorem getD_append_self {α : Type*} (l : List α) (x d : α) :
    (l ++ [x]).getD l.length d = x := by
  simp [List.getD_eq_getElem?_getD]

/-- Elements of `l.set i o` other than `o` itself come from `l`. -/
theorem pairwise_set_addr {l : List NLObj} {i a : ℕ} {o : NLObj}
    (h : l.Pairwise (fun a b => a.addr ≠ b.addr)) (ha : o.addr = a) (hl : ∀ x ∈ l, x.addr ≠ a) :
    (l.set i o).Pairwise (fun a b => a.addr ≠ b.addr) := by
  induction l generalizing i with
  | nil => simp
  | cons x xs ih =>
    obtain ⟨h1, h2⟩ := List.pairwise_cons.mp h
    cases i with
    | zero =>
      simp only [List.set_cons_zero, List.pairwise_cons]
      exact ⟨fun y hy => by rw [ha]; exact (hl y (List.mem_cons_of_mem _ hy)).symm, h2⟩
    | succ i =>
      simp only [List.set_cons_succ, List.pairwise_cons]
      refine ⟨fun y hy => ?_, ih h2 (fun x hx => hl x (List.mem_cons_of_mem _ hx))⟩
      rcases List.mem_or_eq_of_mem_set hy with h | rfl
      · exact h1 y h
      · rw [ha]; exact hl x List.mem_cons_self

theorem pairwise_set_same {l : List NLObj} {i : ℕ} {o p : NLObj}
    (h : l.Pairwise (fun a b => a.addr ≠ b.addr)) (hi : l[i]? = some o) (ha : p.addr = o.addr) :
    (l.set i p).Pairwise (fun a b => a.addr ≠ b.addr) := by
  have : (l.set i p).map (·.addr) = l.map (·.addr) := by
    rw [List.map_set, ha]
    apply List.ext_getElem?
    intro k
    rw [List.getElem?_set]
    split_ifs with h1 h2
    · subst h1; simp [hi]
    · subst h1
      rw [List.getElem?_eq_none (by simpa using h2)]
    · rfl
  have h' : (l.map (·.addr)).Pairwise (· ≠ ·) := by rw [List.pairwise_map]; exact h
  rw [← this, List.pairwise_map] at h'
  exact h'

theorem putNew_ok {s : NLStore K} (hs : StoreOK s) (i : ℕ) (o : NLObj) (hi : s.objs[i]? = some o)
    (n : NList K) (hn : GoodList n) (hseg : n.segUpdated = false) : StoreOK (s.putNew i n) := by
  have hview : ∀ x ∈ s.objs, (s.putNew i n).view x = s.view x := by
    intro x hx
    simp only [NLStore.view, NLStore.putNew, getD_append_lt _ _ _ _ (hs.addr x hx)]
  have hnew : (s.putNew i n).heap.getD s.heap.length [] = n.bonds := getD_append_self _ _ _
  refine ⟨?_, ?_, ?_, ?_⟩
  · intro x hx
    simp only [NLStore.putNew, List.length_append, List.length_singleton] at hx ⊢
    rcases List.mem_or_eq_of_mem_set hx with h | rfl
    · have := hs.addr x h; omega
    · exact Nat.lt_succ_self _
  · exact pairwise_set_addr hs.distinct rfl (fun x hx => (hs.addr x hx).ne)
  · intro x hx
    rcases List.mem_or_eq_of_mem_set hx with h | rfl
    · rw [hview x h]; exact hs.good x h
    · have : (s.putNew i n).view ⟨n.numQueryPoints, n.numPoints, s.heap.length, n.segUpdated,
          n.counts, n.segments⟩ = n := by
        simp only [NLStore.view, hnew]
      rw [this]; exact hn
  · intro x hx hu
    rcases List.mem_or_eq_of_mem_set hx with h | rfl
    · have := hs.cache x h hu
      have hv := congrArg NList.bonds (hview x h)
      simp only [NLStore.view] at hv
      rw [hv]; exact this
    · simp [hseg] at hu

theorem copy_ok {s : NLStore K} (hs : StoreOK s) (o : NLObj) (ho : o ∈ s.objs) :
    let p := s.copyObj o
    (∀ x ∈ s.objs, p.1.view x = s.view x) ∧ p.1.view p.2 = s.view o := by
  refine ⟨fun x hx => ?_, ?_⟩
  · simp only [NLStore.view, NLStore.copyObj, getD_append_lt _ _ _ _ (hs.addr x hx)]
  · simp only [NLStore.view, NLStore.copyObj, getD_append_self]

theorem viewAt_some {s : NLStore K} {i : ℕ} {n : NList K} (h : s.viewAt i = some n) :
    ∃ o, s.objs[i]? = some o ∧ o ∈ s.objs ∧ s.view o = n := by
  simp only [NLStore.viewAt, Option.map_eq_some_iff] at h
  obtain ⟨o, e, hv⟩ := h
  exact ⟨o, e, List.mem_of_getElem? e, hv⟩

/-- A read of the cached arrays returns arrays that describe the current bonds. -/
theorem read_spec {s : NLStore K} (hs : StoreOK s) (i : ℕ) (o : NLObj) (hi : s.objs[i]? = some o)
    (f : NList K → List ℕ) :
    ∃ c sg, s.readAt i o f = some (⟨s.heap, s.objs.set i
        ⟨o.numQueryPoints, o.numPoints, o.addr, true, c, sg⟩⟩,
        .array (f ⟨o.numQueryPoints, o.numPoints, s.heap.getD o.addr [], true, c, sg⟩)) ∧
      Describes o.numQueryPoints (s.heap.getD o.addr []) sg c := by
  have ho := List.mem_of_getElem? hi
  cases hu : o.segUpdated with
  | true =>
    refine ⟨o.counts, o.segments, ?_, hs.cache o ho hu⟩
    simp [NLStore.readAt, updateSegmentCounts, NLStore.view, hu]
  | false =>
    obtain ⟨n', e, h1, h2, h3, h4⟩ := C15_segments (s.view o) (hs.good o ho) hu
    have hn' : n' = ⟨o.numQueryPoints, o.numPoints, s.heap.getD o.addr [], true, n'.counts,
        n'.segments⟩ := by
      simp only [updateSegmentCounts, NLStore.view, hu, Bool.false_eq_true, if_false,
        Option.map_eq_some_iff] at e
      obtain ⟨cs, -, rfl⟩ := e
      rfl
    refine ⟨n'.counts, n'.segments, ?_, h2, h3, fun k hk => (h4 k hk).1, fun k hk => (h4 k hk).2⟩
    simp only [NLStore.readAt, e, Option.map_some]
    rw [hn']

/-- One step keeps the invariant, succeeds, and leaves every other list as it is. -/
theorem step_spec {s : NLStore K} (hs : StoreOK s) (op : Op K) (hop : LegalOp s op) :
    ∃ s' out, s.step op = some (s', out) ∧ StoreOK s' ∧
      (∀ j n, j ≠ target s op → s.viewAt j = some n → s'.viewAt j = some n) := by
  have hset_view : ∀ (s' : NLStore K) (i : ℕ) (p : NLObj), s'.objs = s.objs.set i p →
      (∀ x ∈ s.objs, s'.view x = s.view x) → ∀ j n, j ≠ i → s.viewAt j = some n →
      s'.viewAt j = some n := by
    intro s' i p he hv j n hj hn
    obtain ⟨o, e, hm, hvo⟩ := viewAt_some hn
    simp only [NLStore.viewAt, he, List.getElem?_set]
    rw [if_neg (Ne.symm hj), e]
    simp [hv o hm, hvo]
  cases op with
  | filter i mask =>
    obtain ⟨n, hn, hlen⟩ := hop
    obtain ⟨o, hi, hm, hv⟩ := viewAt_some hn
    subst hv
    obtain ⟨n', r, e, hb, -, hq, hp⟩ := C16_filter (s.view o) mask hlen
    have hseg : n'.segUpdated = false := by
      unfold NList.filter at e
      rw [if_neg (by omega)] at e
      cases e
      rfl
    have hgood : GoodList n' := goodList_sublist (hs.good o hm) (by
      rw [hb]; exact keep_sublist _ _) hq hp
    refine ⟨s.putNew i n', .removed r, by simp [NLStore.step, hi, NLStore.filterAt, e],
      putNew_ok hs i o hi n' hgood hseg, ?_⟩
    refine hset_view _ i _ rfl ?_
    intro x hx
    simp only [NLStore.view, NLStore.putNew, getD_append_lt _ _ _ _ (hs.addr x hx)]
  | filterR i rMax rMin =>
    obtain ⟨n, hn⟩ := hop
    obtain ⟨o, hi, hm, hv⟩ := viewAt_some hn
    subst hv
    cases hf : (s.view o).filterR rMax rMin with
    | none => exact ⟨s, .raised, by simp [NLStore.step, hi, hf], hs, fun _ _ _ h => h⟩
    | some p =>
      obtain ⟨n', r⟩ := p
      have hvalid : ¬ (rMax ≤ 0 ∨ rMin < 0 ∨ rMax ≤ rMin) := by
        intro hc
        rw [(C16_filter_r_raises_iff (s.view o) rMax rMin).mpr hc] at hf
        simp at hf
      push Not at hvalid
      obtain ⟨n'', r', e, hb, -, hq, hp⟩ := C16_filter_r (s.view o) rMax rMin hvalid.1 hvalid.2.1
        hvalid.2.2
      rw [hf] at e
      cases e
      have hseg : n'.segUpdated = false := by
        unfold filterR at hf
        rw [if_neg (not_le.mpr hvalid.1), if_neg (not_lt.mpr hvalid.2.1),
          if_neg (not_le.mpr hvalid.2.2)] at hf
        unfold NList.filter at hf
        rw [if_neg (by simp)] at hf
        cases hf
        rfl
      have hgood : GoodList n' := goodList_sublist (hs.good o hm) (by
        rw [hb]; exact List.filter_sublist) hq hp
      refine ⟨s.putNew i n', .removed r, by simp [NLStore.step, hi, hf],
        putNew_ok hs i o hi n' hgood hseg, ?_⟩
      refine hset_view _ i _ rfl ?_
      intro x hx
      simp only [NLStore.view, NLStore.putNew, getD_append_lt _ _ _ _ (hs.addr x hx)]
  | sort i d out =>
    obtain ⟨n, hn, hsort⟩ := hop
    obtain ⟨o, hi, hm, hv⟩ := viewAt_some hn
    subst hv
    have hother : ∀ x ∈ s.objs, x.addr ≠ o.addr →
        (s.heap.set o.addr out).getD x.addr [] = s.heap.getD x.addr [] := by
      intro x _ hne
      simp [List.getD_eq_getElem?_getD, List.getElem?_set, Ne.symm hne]
    have hself : (s.heap.set o.addr out).getD o.addr [] = out := by
      simp [List.getD_eq_getElem?_getD, hs.addr o hm]
    have huniq : ∀ x ∈ s.objs, x.addr = o.addr → x = o := by
      intro x hx he
      obtain ⟨a, ha, hax⟩ := List.mem_iff_getElem.mp hx
      obtain ⟨b, hb, hbo⟩ := List.mem_iff_getElem.mp hm
      by_contra hc
      have hab : a ≠ b := by rintro rfl; exact hc (hax.symm.trans hbo)
      rcases Nat.lt_or_gt_of_ne hab with h | h
      · have := List.pairwise_iff_getElem.mp hs.distinct a b ha hb h
        rw [hax, hbo] at this; exact this he
      · have := List.pairwise_iff_getElem.mp hs.distinct b a hb ha h
        rw [hax, hbo] at this; exact this he.symm
    have hbonds : (s.view o).bonds = s.heap.getD o.addr [] := rfl
    have hqs : out.map (·.q) = (s.heap.getD o.addr []).map (·.q) := by
      refine (hsort.1.map _).eq_of_pairwise (fun a b _ _ => le_antisymm) (sorted_out_q hsort) ?_
      exact (hs.good o hm).sorted
    refine ⟨{ s with heap := s.heap.set o.addr out }, .nothing, by simp [NLStore.step, hi], ?_, ?_⟩
    · refine ⟨fun x hx => by simpa using hs.addr x hx, hs.distinct, ?_, ?_⟩
      · intro x hx
        by_cases he : x.addr = o.addr
        · rw [huniq x hx he]
          have g := hs.good o hm
          refine ⟨?_, ?_, ?_, g.small⟩
          · simp only [NLStore.view, hself]; exact sorted_out_q hsort
          · intro b hb
            simp only [NLStore.view, hself] at hb
            exact g.qlt b (hsort.1.subset hb)
          · intro b hb
            simp only [NLStore.view, hself] at hb
            exact g.plt b (hsort.1.subset hb)
        · have : ({ s with heap := s.heap.set o.addr out } : NLStore K).view x = s.view x := by
            simp only [NLStore.view, hother x hx he]
          rw [this]; exact hs.good x hx
      · intro x hx hu
        by_cases he : x.addr = o.addr
        · rw [huniq x hx he] at hu ⊢
          simp only [hself]
          exact describes_congr hqs.symm (hs.cache o hm hu)
        · simp only [hother x hx he]; exact hs.cache x hx hu
    · intro j n hj hjn
      obtain ⟨x, e, hx, hvx⟩ := viewAt_some hjn
      have he : x.addr ≠ o.addr := by
        have hj : j ≠ i := hj
        obtain ⟨ha, hax⟩ := List.getElem?_eq_some_iff.mp e
        obtain ⟨hb, hbo⟩ := List.getElem?_eq_some_iff.mp hi
        rcases Nat.lt_or_gt_of_ne hj with h | h
        · have := List.pairwise_iff_getElem.mp hs.distinct j i ha hb h
          rw [hax, hbo] at this; exact this
        · have := List.pairwise_iff_getElem.mp hs.distinct i j hb ha h
          rw [hax, hbo] at this; exact this.symm
      simp only [NLStore.viewAt, e, Option.map_some, Option.some.injEq]
      rw [← hvx]
      simp only [NLStore.view, hother x hx he]
  | copyInto dst src =>
    obtain ⟨⟨n, hn⟩, ⟨m, hm'⟩⟩ := hop
    obtain ⟨o, hi, hm, hv⟩ := viewAt_some hn
    obtain ⟨x0, hx0, -, -⟩ := viewAt_some hm'
    obtain ⟨hc1, hc2⟩ := copy_ok hs o hm
    refine ⟨{ (s.copyObj o).1 with objs := (s.copyObj o).1.objs.set dst (s.copyObj o).2 }, .nothing,
      by simp [NLStore.step, hi, hx0], ⟨?_, ?_, ?_, ?_⟩, hset_view _ dst _ rfl hc1⟩
    · intro x hx
      simp only [NLStore.copyObj, List.length_append, List.length_singleton] at hx ⊢
      rcases List.mem_or_eq_of_mem_set hx with h | rfl
      · have := hs.addr x h; omega
      · simp
    · exact pairwise_set_addr hs.distinct rfl (fun x hx => (hs.addr x hx).ne)
    · intro x hx
      rcases List.mem_or_eq_of_mem_set hx with h | rfl
      · exact (hc1 x h) ▸ hs.good x h
      · exact hc2 ▸ hs.good o hm
    · intro x hx hu
      rcases List.mem_or_eq_of_mem_set hx with h | rfl
      · have := congrArg NList.bonds (hc1 x h)
        simp only [NLStore.view] at this
        rw [this]; exact hs.cache x h hu
      · have := congrArg NList.bonds hc2
        simp only [NLStore.view] at this
        rw [this]; exact hs.cache o hm hu
  | newCopy src =>
    obtain ⟨n, hn⟩ := hop
    obtain ⟨o, hi, hm, hv⟩ := viewAt_some hn
    obtain ⟨hc1, hc2⟩ := copy_ok hs o hm
    refine ⟨{ (s.copyObj o).1 with objs := (s.copyObj o).1.objs ++ [(s.copyObj o).2] }, .nothing,
      by simp [NLStore.step, hi], ⟨?_, ?_, ?_, ?_⟩, ?_⟩
    · intro x hx
      simp only [NLStore.copyObj, List.length_append, List.length_singleton, List.mem_append,
        List.mem_singleton] at hx ⊢
      rcases hx with h | rfl
      · have := hs.addr x h; omega
      · simp
    · simp only [NLStore.copyObj]
      rw [List.pairwise_append]
      refine ⟨hs.distinct, by simp, ?_⟩
      intro x hx y hy
      simp only [List.mem_singleton] at hy
      subst hy
      have := hs.addr x hx
      simp only
      omega
    · intro x hx
      rcases List.mem_append.mp hx with h | h
      · exact (hc1 x h) ▸ hs.good x h
      · simp only [List.mem_singleton] at h
        subst h
        exact hc2 ▸ hs.good o hm
    · intro x hx hu
      rcases List.mem_append.mp hx with h | h
      · have := congrArg NList.bonds (hc1 x h)
        simp only [NLStore.view] at this
        rw [this]; exact hs.cache x h hu
      · simp only [List.mem_singleton] at h
        subst h
        have := congrArg NList.bonds hc2
        simp only [NLStore.view] at this
        rw [this]; exact hs.cache o hm hu
    · intro j n hj hn
      obtain ⟨x, e, hx, hvx⟩ := viewAt_some hn
      have : ((s.copyObj o).1.objs ++ [(s.copyObj o).2])[j]? = some x := by
        rw [List.getElem?_append_left]
        · exact e
        · exact (List.getElem?_eq_some_iff.mp e).1
      simp only [NLStore.viewAt, this, Option.map_some, Option.some.injEq]
      rw [← hvx]
      exact hc1 x hx
  | segments i =>
    obtain ⟨n, hn⟩ := hop
    obtain ⟨o, hi, hm, hv⟩ := viewAt_some hn
    obtain ⟨c, sg, e, hd⟩ := read_spec hs i o hi (·.segments)
    have e' := e
    rw [show s.readAt i o (·.segments) = s.step (.segments i) by simp [NLStore.step, hi]] at e'
    refine ⟨_, _, e', ?_, hset_view _ i _ rfl (fun x _ => rfl)⟩
    refine ⟨?_, pairwise_set_same hs.distinct hi rfl, ?_, ?_⟩
    · intro x hx
      rcases List.mem_or_eq_of_mem_set hx with h | rfl
      · exact hs.addr x h
      · exact hs.addr o hm
    · intro x hx
      rcases List.mem_or_eq_of_mem_set hx with h | rfl
      · exact hs.good x h
      · have g := hs.good o hm
        exact ⟨g.sorted, g.qlt, g.plt, g.small⟩
    · intro x hx hu
      rcases List.mem_or_eq_of_mem_set hx with h | rfl
      · exact hs.cache x h hu
      · exact hd
  | counts i =>
    obtain ⟨n, hn⟩ := hop
    obtain ⟨o, hi, hm, hv⟩ := viewAt_some hn
    obtain ⟨c, sg, e, hd⟩ := read_spec hs i o hi (·.counts)
    have e' := e
    rw [show s.readAt i o (·.counts) = s.step (.counts i) by simp [NLStore.step, hi]] at e'
    refine ⟨_, _, e', ?_, hset_view _ i _ rfl (fun x _ => rfl)⟩
    refine ⟨?_, pairwise_set_same hs.distinct hi rfl, ?_, ?_⟩
    · intro x hx
      rcases List.mem_or_eq_of_mem_set hx with h | rfl
      · exact hs.addr x h
      · exact hs.addr o hm
    · intro x hx
      rcases List.mem_or_eq_of_mem_set hx with h | rfl
      · exact hs.good x h
      · have g := hs.good o hm
        exact ⟨g.sorted, g.qlt, g.plt, g.small⟩
    · intro x hx hu
      rcases List.mem_or_eq_of_mem_set hx with h | rfl
      · exact hs.cache x h hu
      · exact hd

/-- Every operation of a history is legal in the state in which it is executed. -/
def Spec.LegalHistory (s : NLStore K) : List (Op K) → Prop
  | [] => True
  | o :: os => LegalOp s o ∧ ∀ s' out, s.step o = some (s', out) → Spec.LegalHistory s' os

theorem run_spec {s : NLStore K} (hs : StoreOK s) (os : List (Op K)) (hl : LegalHistory s os) :
    ∃ s', s.run os = some s' ∧ StoreOK s' := by
  induction os generalizing s with
  | nil => exact ⟨s, rfl, hs⟩
  | cons o os ih =>
    obtain ⟨s1, out, e, hs1, -⟩ := step_spec hs o hl.1
    obtain ⟨s2, e2, hs2⟩ := ih hs1 (hl.2 s1 out e)
    exact ⟨s2, by simp [NLStore.run, e, e2], hs2⟩

/-- A store holding one list as it comes out of a query or of `from_arrays`. -/
def Spec.single (n : NList K) : NLStore K :=
  ⟨[n.bonds], [⟨n.numQueryPoints, n.numPoints, 0, false, n.counts, n.segments⟩]⟩

theorem single_ok (n : NList K) (h : GoodList n) : StoreOK (single n) := by
  refine ⟨?_, by simp [single], ?_, ?_⟩
  · intro o ho; simp only [single, List.mem_singleton] at ho; subst ho; simp [single]
  · intro o ho
    simp only [single, List.mem_singleton] at ho
    subst ho
    exact ⟨h.sorted, h.qlt, h.plt, h.small⟩
  · intro o ho hu
    simp only [single, List.mem_singleton] at ho
    subst ho
    simp at hu

/-- **C18**: after any history of filters, range filters, sorts, copies and reads, starting from
one new list, nothing fails, and for every list then present, reading `segments` and
`neighbor_counts` (in this order) returns arrays that describe its current bonds. -/
theorem C18_reads_current (n : NList K) (hn : GoodList n) (history : List (Op K))
    (hl : LegalHistory (single n) history) :
    ∃ s, (single n).run history = some s ∧
      ∀ i m, s.viewAt i = some m →
        ∃ s1 s2 segs cnts, s.step (.segments i) = some (s1, .array segs) ∧
          s1.step (.counts i) = some (s2, .array cnts) ∧
          Describes m.numQueryPoints m.bonds segs cnts := by
  obtain ⟨s, e, hs⟩ := run_spec (single_ok n hn) history hl
  refine ⟨s, e, fun i m hm => ?_⟩
  obtain ⟨o, hi, hmem, hv⟩ := viewAt_some hm
  subst hv
  obtain ⟨c, sg, e1, hd⟩ := read_spec hs i o hi (·.segments)
  have hlt : i < s.objs.length := (List.getElem?_eq_some_iff.mp hi).1
  refine ⟨_, ⟨s.heap, (s.objs.set i ⟨o.numQueryPoints, o.numPoints, o.addr, true, c, sg⟩).set i
    ⟨o.numQueryPoints, o.numPoints, o.addr, true, c, sg⟩⟩, sg, c,
    by simp only [NLStore.step, hi, Option.bind_some]; exact e1, ?_, hd⟩
  simp only [NLStore.step, List.getElem?_set_self hlt, Option.bind_some, NLStore.readAt,
    updateSegmentCounts, NLStore.view, if_true, Option.map_some]

/-- **C18**: an operation on one list never changes another: after any history, any further
operation leaves every list other than its target exactly as it was. In particular a copy and
its source are independent of each other. -/
theorem C18_copies_independent (n : NList K) (hn : GoodList n) (history : List (Op K))
    (hl : LegalHistory (single n) history) :
    ∃ s, (single n).run history = some s ∧
      ∀ op, LegalOp s op → ∃ s' out, s.step op = some (s', out) ∧
        ∀ j m, j ≠ target s op → s.viewAt j = some m → s'.viewAt j = some m := by
  obtain ⟨s, e, hs⟩ := run_spec (single_ok n hn) history hl
  refine ⟨s, e, fun op hop => ?_⟩
  obtain ⟨s', out, e', -, h⟩ := step_spec hs op hop
  exact ⟨s', out, e', h⟩

/-- **C18**: a copy shows the same bonds, numbers of points and cached arrays as its source, for
copies to a new object and into an existing one. -/
theorem C18_copy_equal (n : NList K) (hn : GoodList n) (history : List (Op K))
    (hl : LegalHistory (single n) history) :
    ∃ s, (single n).run history = some s ∧
      ∀ src m, s.viewAt src = some m →
        (∃ s', s.step (.newCopy src) = some (s', .nothing) ∧
          s'.viewAt s.objs.length = some m ∧ s'.viewAt src = some m) ∧
        ∀ dst m', s.viewAt dst = some m' →
          ∃ s', s.step (.copyInto dst src) = some (s', .nothing) ∧ s'.viewAt dst = some m := by
  obtain ⟨s, e, hs⟩ := run_spec (single_ok n hn) history hl
  refine ⟨s, e, fun src m hm => ?_⟩
  obtain ⟨o, hi, hmem, hv⟩ := viewAt_some hm
  obtain ⟨hc1, hc2⟩ := copy_ok hs o hmem
  refine ⟨⟨{ (s.copyObj o).1 with objs := (s.copyObj o).1.objs ++ [(s.copyObj o).2] },
    by simp only [NLStore.step, hi, Option.map_some], ?_, ?_⟩, fun dst m' hm' => ?_⟩
  · simp only [NLStore.viewAt]
    have : (s.copyObj o).1.objs = s.objs := rfl
    rw [this, List.getElem?_append_right (le_refl _)]
    simp only [Nat.sub_self, List.getElem?_cons_zero, Option.map_some, Option.some.injEq]
    exact hc2.trans hv
  · simp only [NLStore.viewAt]
    have : (s.copyObj o).1.objs = s.objs := rfl
    rw [this, List.getElem?_append_left (List.getElem?_eq_some_iff.mp hi).1, hi]
    simp only [Option.map_some, Option.some.injEq]
    exact (hc1 o hmem).trans hv
  · obtain ⟨o', hi', -, -⟩ := viewAt_some hm'
    refine ⟨{ (s.copyObj o).1 with objs := (s.copyObj o).1.objs.set dst (s.copyObj o).2 },
      by simp only [NLStore.step, hi, hi', Option.map_some, Option.bind_some], ?_⟩
    have hlt : dst < s.objs.length := (List.getElem?_eq_some_iff.mp hi').1
    simp only [NLStore.viewAt]
    have : (s.copyObj o).1.objs = s.objs := rfl
    rw [this, List.getElem?_set_self hlt]
    simp only [Option.map_some, Option.some.injEq]
    exact hc2.trans hv

theorem legalHistory_cons {s s' : NLStore K} {o : Op K} {out : Out} {os : List (Op K)}
    (e : s.step o = some (s', out)) (ho : LegalOp s o) (h : LegalHistory s' os) :
    LegalHistory s (o :: os) :=
  ⟨ho, fun s1 out1 e1 => by rw [e] at e1; cases e1; exact h⟩

-- read, copy, filter the copy, read the copy
example : LegalHistory (single exList) [.segments 0, .newCopy 0, .filter 1 [true, false, true],
    .counts 1] :=
  legalHistory_cons rfl ⟨_, rfl⟩ (legalHistory_cons rfl ⟨_, rfl⟩ (legalHistory_cons rfl
    ⟨_, rfl, by decide⟩ (legalHistory_cons rfl ⟨_, rfl⟩ trivial)))

end Freud
