import Verif.Model.DSet
import Mathlib.Data.Finset.Card
import Mathlib.Data.Finset.Range
import Mathlib.Tactic.Common

/-!
# Lemmas about the lock-free disjoint set
-/

namespace Freud
namespace DSet

/-- The words along parent pointers: `r` is the root that the chain from `x` ends in. -/
inductive RootOf (m : DMem) : ℕ → ℕ → Prop
  | here {x : ℕ} (h : (m.cell x).parent = x) : RootOf m x x
  | up {x r : ℕ} (h : (m.cell x).parent ≠ x) (hr : RootOf m (m.cell x).parent r) : RootOf m x r

theorem RootOf.isRoot {m : DMem} {x r : ℕ} (h : RootOf m x r) : (m.cell r).parent = r := by
  induction h with
  | here h => exact h
  | up _ _ ih => exact ih

theorem RootOf.unique {m : DMem} {x r s : ℕ} (h : RootOf m x r) (h' : RootOf m x s) : r = s := by
  induction h with
  | here h => cases h' with
    | here _ => rfl
    | up h2 _ => exact absurd h h2
  | up h hr ih => cases h' with
    | here h2 => exact absurd h2 h
    | up _ h2 => exact ih h2

/-- Same tree. -/
def FE (m : DMem) (x y : ℕ) : Prop := ∃ r, RootOf m x r ∧ RootOf m y r

theorem FE.symm {m : DMem} {x y : ℕ} (h : FE m x y) : FE m y x := by
  obtain ⟨r, h1, h2⟩ := h; exact ⟨r, h2, h1⟩

theorem FE.trans {m : DMem} {x y z : ℕ} (h : FE m x y) (h' : FE m y z) : FE m x z := by
  obtain ⟨r, h1, h2⟩ := h
  obtain ⟨s, h3, h4⟩ := h'
  have := h2.unique h3
  subst this
  exact ⟨r, h1, h4⟩

/-- The order in which trees grow: by rank, then by falling index. -/
def keyLt (m : DMem) (x y : ℕ) : Prop :=
  (m.cell x).rank < (m.cell y).rank ∨ ((m.cell x).rank = (m.cell y).rank ∧ y < x)

theorem keyLt.trans {m : DMem} {x y z : ℕ} (h : keyLt m x y) (h' : keyLt m y z) : keyLt m x z := by
  unfold keyLt at *; omega

theorem keyLt.ne {m : DMem} {x y : ℕ} (h : keyLt m x y) : y ≠ x := by
  rintro rfl; unfold keyLt at h; omega

/-- The number of elements above `x`. -/
noncomputable def above (m : DMem) (x : ℕ) : ℕ := by
  classical exact ((Finset.range m.size).filter (fun y => keyLt m x y)).card

theorem above_lt {m : DMem} {x y : ℕ} (h : keyLt m x y) (hy : y < m.size) :
    above m y < above m x := by
  classical
  unfold above
  refine Finset.card_lt_card ⟨fun z hz => ?_, fun hc => ?_⟩
  · simp only [Finset.mem_filter, Finset.mem_range] at hz ⊢
    exact ⟨hz.1, h.trans hz.2⟩
  · have : y ∈ (Finset.range m.size).filter (fun z => keyLt m y z) :=
      hc (by simp only [Finset.mem_filter, Finset.mem_range]; exact ⟨hy, h⟩)
    simp only [Finset.mem_filter] at this
    exact this.2.ne rfl

theorem above_le (m : DMem) (x : ℕ) : above m x ≤ m.size := by
  classical
  unfold above
  exact (Finset.card_filter_le _ _).trans (by simp)

/-- The invariant of the memory; `Conn` is the connectivity that may be used. -/
structure MInv (Conn : ℕ → ℕ → Prop) (m : DMem) : Prop where
  lt : ∀ x < m.size, (m.cell x).parent < m.size
  key : ∀ x < m.size, (m.cell x).parent = x ∨ keyLt m x (m.cell x).parent
  conn : ∀ x < m.size, Conn x (m.cell x).parent

theorem MInv.root_exists {Conn : ℕ → ℕ → Prop} {m : DMem} (h : MInv Conn m) (x : ℕ)
    (hx : x < m.size) : ∃ r, RootOf m x r ∧ r < m.size ∧ (r = x ∨ keyLt m x r) := by
  generalize hk : above m x = k
  induction k using Nat.strong_induction_on generalizing x with
  | _ k ih =>
    rcases h.key x hx with he | hlt
    · exact ⟨x, .here he, hx, .inl rfl⟩
    · obtain ⟨r, hr, hrn, hor⟩ := ih _ (hk ▸ above_lt hlt (h.lt x hx)) _ (h.lt x hx) rfl
      refine ⟨r, .up hlt.ne hr, hrn, .inr ?_⟩
      rcases hor with rfl | h2
      · exact hlt
      · exact hlt.trans h2

theorem MInv.refl {Conn : ℕ → ℕ → Prop} {m : DMem} (h : MInv Conn m) {x : ℕ}
    (hx : x < m.size) : FE m x x := by
  obtain ⟨r, hr, -⟩ := h.root_exists x hx
  exact ⟨r, hr, hr⟩

theorem MInv.parent {Conn : ℕ → ℕ → Prop} {m : DMem} (h : MInv Conn m) {x : ℕ}
    (hx : x < m.size) : FE m (m.cell x).parent x := by
  by_cases he : (m.cell x).parent = x
  · rw [he]; exact h.refl hx
  · obtain ⟨r, hr, -⟩ := h.root_exists _ (h.lt x hx)
    exact ⟨r, hr, .up he hr⟩

theorem MInv.conn_root {Conn : ℕ → ℕ → Prop} (hrefl : ∀ x, Conn x x)
    (htrans : ∀ x y z, Conn x y → Conn y z → Conn x z) {m : DMem} (h : MInv Conn m) {x r : ℕ}
    (hx : x < m.size) (hr : RootOf m x r) : Conn x r := by
  induction hr with
  | here _ => exact hrefl _
  | up _ _ ih => exact htrans _ _ _ (h.conn _ hx) (ih (h.lt _ hx))

/-- How the memory evolves. -/
structure Evolves (m m' : DMem) : Prop where
  size : m'.size = m.size
  fe : ∀ x y, FE m x y → FE m' x y
  frozen : ∀ x, (m.cell x).parent ≠ x → (m'.cell x).parent ≠ x ∧ (m'.cell x).rank = (m.cell x).rank
  rank : ∀ x, (m.cell x).rank ≤ (m'.cell x).rank

theorem Evolves.rfl' {m : DMem} : Evolves m m :=
  ⟨rfl, fun _ _ h => h, fun _ h => ⟨h, rfl⟩, fun _ => le_refl _⟩

theorem Evolves.key {m m' : DMem} (h : Evolves m m') {x y : ℕ} (hx : (m.cell x).parent ≠ x)
    (hk : keyLt m x y) : keyLt m' x y := by
  have h1 := (h.frozen x hx).2
  have h2 := h.rank y
  unfold keyLt at *
  omega

theorem store_cell (m : DMem) (i : ℕ) (c : Cell) (x : ℕ) :
    (m.store i c).cell x = if x = i then c else m.cell x := by
  simp [DMem.store, Function.update_apply]

/-- Path halving leaves every root as it is. -/
theorem rootOf_halve {Conn : ℕ → ℕ → Prop} {m : DMem} (h : MInv Conn m) {id np : ℕ}
    (hid : id < m.size) (hroot : (m.cell id).parent ≠ id) (hnp : np < m.size)
    (hk : keyLt m id np) (hfe : FE m np id) {x r : ℕ} (hx : x < m.size) (hr : RootOf m x r) :
    RootOf (m.store id ⟨(m.cell id).rank, np⟩) x r := by
  generalize hkk : above m x = k
  induction k using Nat.strong_induction_on generalizing x with
  | _ k ih =>
    by_cases hxid : x = id
    · subst hxid
      have hc : (m.store x ⟨(m.cell x).rank, np⟩).cell x = ⟨(m.cell x).rank, np⟩ := by
        rw [store_cell, if_pos rfl]
      refine .up (by rw [hc]; exact hk.ne) ?_
      rw [hc]
      obtain ⟨s, h1, h2⟩ := hfe
      have := h2.unique hr
      subst this
      exact ih _ (hkk ▸ above_lt hk hnp) hnp h1 rfl
    · have hc : (m.store id ⟨(m.cell id).rank, np⟩).cell x = m.cell x := by
        rw [store_cell, if_neg hxid]
      cases hr with
      | here hh => exact .here (by rw [hc]; exact hh)
      | up hh hr' =>
        refine .up (by rw [hc]; exact hh) ?_
        rw [hc]
        have hlt := (h.key x hx).resolve_left hh
        exact ih _ (hkk ▸ above_lt hlt (h.lt x hx)) (h.lt x hx) hr' rfl

/-- Elements out of range are never written, so they are their own roots. -/
def OutOK (m : DMem) : Prop := ∀ x, m.size ≤ x → (m.cell x).parent = x

theorem rootOf_out {m : DMem} (h : OutOK m) {x r : ℕ} (hx : m.size ≤ x) (hr : RootOf m x r) :
    r = x := hr.unique (.here (h x hx))

theorem halve_spec {Conn : ℕ → ℕ → Prop} (hsymm : ∀ x y, Conn x y → Conn y x)
    (hrefl : ∀ x, Conn x x)
    (htrans : ∀ x y z, Conn x y → Conn y z → Conn x z) {m : DMem} (ho : OutOK m)
    (h : MInv Conn m) {id np : ℕ}
    (hid : id < m.size) (hroot : (m.cell id).parent ≠ id) (hnp : np < m.size)
    (hk : keyLt m id np) (hfe : FE m np id) :
    MInv Conn (m.store id ⟨(m.cell id).rank, np⟩) ∧ OutOK (m.store id ⟨(m.cell id).rank, np⟩) ∧
      Evolves m (m.store id ⟨(m.cell id).rank, np⟩) := by
  have hrank : ∀ x, ((m.store id ⟨(m.cell id).rank, np⟩).cell x).rank = (m.cell x).rank := by
    intro x; rw [store_cell]; split_ifs with hx
    · rw [hx]
    · rfl
  have hkey : ∀ x y, keyLt (m.store id ⟨(m.cell id).rank, np⟩) x y ↔ keyLt m x y := by
    intro x y; simp only [keyLt, hrank]
  refine ⟨⟨?_, ?_, ?_⟩, ?_, ⟨rfl, ?_, ?_, fun x => (hrank x).ge⟩⟩
  · intro x hx
    rw [store_cell]; split_ifs
    · exact hnp
    · exact h.lt x hx
  · intro x hx
    rw [hkey, store_cell]; split_ifs with hxid
    · subst hxid; exact .inr hk
    · exact h.key x hx
  · intro x hx
    rw [store_cell]; split_ifs with hxid
    · subst hxid
      obtain ⟨r, h1, h2⟩ := hfe
      exact htrans _ _ _ (h.conn_root hrefl htrans hx h2) (hsymm _ _ (h.conn_root hrefl htrans hnp h1))
    · exact h.conn x hx
  · intro x hx
    rw [store_cell, if_neg]
    · exact ho x hx
    · rintro rfl; exact absurd hid (not_lt.mpr hx)
  · rintro x y ⟨r, h1, h2⟩
    have key : ∀ z, RootOf m z r → RootOf (m.store id ⟨(m.cell id).rank, np⟩) z r := by
      intro z hz
      by_cases hzn : z < m.size
      · exact rootOf_halve h hid hroot hnp hk hfe hzn hz
      · have := rootOf_out ho (not_lt.mp hzn) hz
        subst this
        refine .here ?_
        rw [store_cell, if_neg]
        · exact ho _ (not_lt.mp hzn)
        · rintro rfl; exact hzn hid
    exact ⟨r, key x h1, key y h2⟩
  · intro x hx
    refine ⟨?_, hrank x⟩
    rw [store_cell]; split_ifs with hxid
    · subst hxid; exact hk.ne
    · exact hx

/-- Linking a root below another element joins their trees. -/
theorem rootOf_link {Conn : ℕ → ℕ → Prop} {m : DMem} (h : MInv Conn m) {i j rj : ℕ}
    (hi : i < m.size) (hroot : (m.cell i).parent = i) (hj : j < m.size) (hk : keyLt m i j)
    (hrj : RootOf m j rj) {x r : ℕ} (hx : x < m.size) (hr : RootOf m x r) :
    RootOf (m.store i ⟨(m.cell i).rank, j⟩) x (if r = i then rj else r) := by
  have hrji : rj ≠ i := by
    obtain ⟨s, hs, -, hor⟩ := h.root_exists j hj
    have := hs.unique hrj
    subst this
    rcases hor with rfl | h2
    · exact hk.ne
    · exact (hk.trans h2).ne
  generalize hkk : above m x = k
  induction k using Nat.strong_induction_on generalizing x r with
  | _ k ih =>
    by_cases hxi : x = i
    · subst hxi
      have hrx : r = x := hr.unique (.here hroot)
      subst hrx
      rw [if_pos rfl]
      have hc : (m.store r ⟨(m.cell r).rank, j⟩).cell r = ⟨(m.cell r).rank, j⟩ := by
        rw [store_cell, if_pos rfl]
      refine .up (by rw [hc]; exact hk.ne) ?_
      rw [hc]
      have := ih _ (hkk ▸ above_lt hk hj) hj hrj rfl
      rwa [if_neg hrji] at this
    · have hc : (m.store i ⟨(m.cell i).rank, j⟩).cell x = m.cell x := by
        rw [store_cell, if_neg hxi]
      cases hr with
      | here hh => rw [if_neg hxi]; exact .here (by rw [hc]; exact hh)
      | up hh hr' =>
        refine .up (by rw [hc]; exact hh) ?_
        rw [hc]
        have hlt := (h.key x hx).resolve_left hh
        exact ih _ (hkk ▸ above_lt hlt (h.lt x hx)) (h.lt x hx) hr' rfl

theorem link_spec {Conn : ℕ → ℕ → Prop} {m : DMem} (ho : OutOK m)
    (h : MInv Conn m) {i j : ℕ} (hi : i < m.size) (hroot : (m.cell i).parent = i)
    (hj : j < m.size) (hk : keyLt m i j) (hc : Conn i j) :
    MInv Conn (m.store i ⟨(m.cell i).rank, j⟩) ∧ OutOK (m.store i ⟨(m.cell i).rank, j⟩) ∧
      Evolves m (m.store i ⟨(m.cell i).rank, j⟩) ∧ FE (m.store i ⟨(m.cell i).rank, j⟩) i j := by
  obtain ⟨rj, hrj, -⟩ := h.root_exists j hj
  have hrank : ∀ x, ((m.store i ⟨(m.cell i).rank, j⟩).cell x).rank = (m.cell x).rank := by
    intro x; rw [store_cell]; split_ifs with hx
    · rw [hx]
    · rfl
  have hkey : ∀ x y, keyLt (m.store i ⟨(m.cell i).rank, j⟩) x y ↔ keyLt m x y := by
    intro x y; simp only [keyLt, hrank]
  have hM : MInv Conn (m.store i ⟨(m.cell i).rank, j⟩) := by
    refine ⟨?_, ?_, ?_⟩
    · intro x hx
      rw [store_cell]; split_ifs
      · exact hj
      · exact h.lt x hx
    · intro x hx
      rw [hkey, store_cell]; split_ifs with hxid
      · subst hxid; exact .inr hk
      · exact h.key x hx
    · intro x hx
      rw [store_cell]; split_ifs with hxid
      · subst hxid; exact hc
      · exact h.conn x hx
  refine ⟨hM, ?_, ⟨rfl, ?_, ?_, fun x => (hrank x).ge⟩, ?_⟩
  · intro x hx
    rw [store_cell, if_neg]
    · exact ho x hx
    · rintro rfl; exact absurd hi (not_lt.mpr hx)
  · rintro x y ⟨r, h1, h2⟩
    have key : ∀ z, RootOf m z r →
        RootOf (m.store i ⟨(m.cell i).rank, j⟩) z (if r = i then rj else r) := by
      intro z hz
      by_cases hzn : z < m.size
      · exact rootOf_link h hi hroot hj hk hrj hzn hz
      · have := rootOf_out ho (not_lt.mp hzn) hz
        subst this
        have hri : r ≠ i := by rintro rfl; exact hzn hi
        rw [if_neg hri]
        refine .here ?_
        rw [store_cell, if_neg hri]
        exact ho _ (not_lt.mp hzn)
    exact ⟨_, key x h1, key y h2⟩
  · intro x hx
    refine ⟨?_, hrank x⟩
    rw [store_cell]; split_ifs with hxid
    · subst hxid; exact absurd hroot hx
    · exact hx
  · have := hM.parent (x := i) hi
    rw [store_cell, if_pos rfl] at this
    exact this.symm

/-- Raising the rank of a root. -/
theorem bump_spec {Conn : ℕ → ℕ → Prop} {m : DMem} (ho : OutOK m)
    (h : MInv Conn m) {i : ℕ} (hi : i < m.size) (hroot : (m.cell i).parent = i) :
    MInv Conn (m.store i ⟨(m.cell i).rank + 1, i⟩) ∧ OutOK (m.store i ⟨(m.cell i).rank + 1, i⟩) ∧
      Evolves m (m.store i ⟨(m.cell i).rank + 1, i⟩) := by
  have hpar : ∀ x, ((m.store i ⟨(m.cell i).rank + 1, i⟩).cell x).parent = (m.cell x).parent := by
    intro x; rw [store_cell]; split_ifs with hx
    · subst hx; exact hroot.symm
    · rfl
  have hrk : ∀ x, ((m.store i ⟨(m.cell i).rank + 1, i⟩).cell x).rank =
      if x = i then (m.cell i).rank + 1 else (m.cell x).rank := by
    intro x; rw [store_cell]; split_ifs <;> rfl
  have hRoot : ∀ x r, RootOf m x r → RootOf (m.store i ⟨(m.cell i).rank + 1, i⟩) x r := by
    intro x r hr
    induction hr with
    | here hh => exact .here (by rw [hpar]; exact hh)
    | up hh _ ih => exact .up (by rw [hpar]; exact hh) (by rw [hpar]; exact ih)
  refine ⟨⟨?_, ?_, ?_⟩, ?_, ⟨rfl, ?_, ?_, ?_⟩⟩
  · intro x hx; rw [hpar]; exact h.lt x hx
  · intro x hx
    rw [hpar]
    rcases h.key x hx with he | hlt
    · exact .inl he
    · right
      have hxi : x ≠ i := by rintro rfl; exact hlt.ne hroot
      simp only [keyLt, hrk, if_neg hxi] at hlt ⊢
      split_ifs with h1
      · rw [h1] at hlt; omega
      · exact hlt
  · intro x hx; rw [hpar]; exact h.conn x hx
  · intro x hx; rw [hpar]; exact ho x hx
  · rintro x y ⟨r, h1, h2⟩; exact ⟨r, hRoot _ _ h1, hRoot _ _ h2⟩
  · intro x hx
    refine ⟨by rw [hpar]; exact hx, ?_⟩
    rw [hrk, if_neg]
    rintro rfl; exact hx hroot
  · intro x; rw [hrk]; split_ifs with hx
    · subst hx; omega
    · exact le_refl _

/-! ### Local invariants of the threads -/

/-- The two working elements are in the trees of the two ends of the bond. -/
def Pair (m : DMem) (a b x y : ℕ) : Prop :=
  x < m.size ∧ y < m.size ∧ ((FE m x a ∧ FE m y b) ∨ (FE m x b ∧ FE m y a))

theorem Pair.swap {m : DMem} {a b x y : ℕ} (h : Pair m a b x y) : Pair m a b y x := by
  obtain ⟨h1, h2, h3⟩ := h
  exact ⟨h2, h1, h3.elim (fun h => .inr ⟨h.2, h.1⟩) (fun h => .inl ⟨h.2, h.1⟩)⟩

theorem Pair.mono {m m' : DMem} (e : Evolves m m') {a b x y : ℕ} (h : Pair m a b x y) :
    Pair m' a b x y := by
  obtain ⟨h1, h2, h3⟩ := h
  exact ⟨e.size ▸ h1, e.size ▸ h2, h3.imp (fun h => ⟨e.fe _ _ h.1, e.fe _ _ h.2⟩)
    (fun h => ⟨e.fe _ _ h.1, e.fe _ _ h.2⟩)⟩

theorem Pair.move {m : DMem} {a b x x' y : ℕ} (h : Pair m a b x y) (hx : x' < m.size)
    (hf : FE m x' x) : Pair m a b x' y := by
  obtain ⟨h1, h2, h3⟩ := h
  exact ⟨hx, h2, h3.imp (fun h => ⟨hf.trans h.1, h.2⟩) (fun h => ⟨hf.trans h.1, h.2⟩)⟩

theorem Pair.eq {m : DMem} {a b x : ℕ} (h : Pair m a b x x) : FE m a b := by
  obtain ⟨-, -, h | h⟩ := h
  · exact h.1.symm.trans h.2
  · exact h.2.symm.trans h.1

/-- The element `find` is at. -/
def FindPc.id : FindPc → ℕ
  | .f0 i => i
  | .f1 i => i
  | .f2 i _ => i
  | .f3 i _ _ => i

/-- The other working element. -/
def Cont.other : Cont → ℕ
  | .same1 x => x
  | .same2 x => x
  | .unite1 x => x
  | .unite2 x => x

/-- The facts `find` relies on. -/
def FOK (m : DMem) : FindPc → Prop
  | .f0 _ => True
  | .f1 i => (m.cell i).parent ≠ i
  | .f2 i v => (m.cell i).parent ≠ i ∧ v.rank = (m.cell i).rank ∧ v.parent < m.size ∧
      keyLt m i v.parent ∧ FE m v.parent i
  | .f3 i v np => (m.cell i).parent ≠ i ∧ v.rank = (m.cell i).rank ∧ np < m.size ∧
      keyLt m i np ∧ FE m np i

/-- The local invariant. -/
def LInv (m : DMem) (a b : ℕ) : Pc → Prop
  | .find f k => FOK m f ∧ Pair m a b f.id k.other
  | .sameCheck x y => Pair m a b x y
  | .rank1 x y => Pair m a b x y ∧ x ≠ y
  | .rank2 x y r => Pair m a b x y ∧ x ≠ y ∧ r ≤ (m.cell x).rank
  | .cas x y r1 r2 => Pair m a b x y ∧ r2 ≤ (m.cell y).rank ∧ (r1 < r2 ∨ (r1 = r2 ∧ y < x))
  | .bump x _ => x < m.size ∧ FE m a b

theorem FOK.mono {m m' : DMem} (e : Evolves m m') {f : FindPc} (h : FOK m f) : FOK m' f := by
  cases f with
  | f0 i => trivial
  | f1 i => exact (e.frozen i h).1
  | f2 i v =>
    obtain ⟨h1, h2, h3, h4, h5⟩ := h
    exact ⟨(e.frozen i h1).1, h2.trans (e.frozen i h1).2.symm, e.size ▸ h3, e.key h1 h4,
      e.fe _ _ h5⟩
  | f3 i v np =>
    obtain ⟨h1, h2, h3, h4, h5⟩ := h
    exact ⟨(e.frozen i h1).1, h2.trans (e.frozen i h1).2.symm, e.size ▸ h3, e.key h1 h4,
      e.fe _ _ h5⟩

theorem LInv.mono {m m' : DMem} (e : Evolves m m') {a b : ℕ} {p : Pc} (h : LInv m a b p) :
    LInv m' a b p := by
  cases p with
  | find f k => exact ⟨h.1.mono e, h.2.mono e⟩
  | sameCheck x y => exact Pair.mono e h
  | rank1 x y => exact ⟨h.1.mono e, h.2⟩
  | rank2 x y r => exact ⟨h.1.mono e, h.2.1, h.2.2.trans (e.rank x)⟩
  | cas x y r1 r2 => exact ⟨h.1.mono e, h.2.1.trans (e.rank y), h.2.2⟩
  | bump x r => exact ⟨e.size ▸ h.1, e.fe _ _ h.2⟩

theorem ret_spec {m : DMem} {a b id : ℕ} {k : Cont} (h : Pair m a b id k.other) :
    match ret id k with
    | some p => LInv m a b p
    | none => FE m a b := by
  cases k with
  | same1 y => exact ⟨trivial, h.swap⟩
  | same2 y =>
    simp only [ret]
    by_cases he : y = id
    · rw [if_pos he]; subst he; exact h.eq
    · rw [if_neg he]; exact h.swap
  | unite1 y => exact ⟨trivial, h.swap⟩
  | unite2 y =>
    simp only [ret]
    by_cases he : y = id
    · rw [if_pos he]; subst he; exact h.eq
    · rw [if_neg he]; exact ⟨h.swap, he⟩

theorem load_some {m : DMem} {i : ℕ} (h : i < m.size) : m.load i = some (m.cell i) := by
  simp [DMem.load, h]

/-- The connectivity relation is an equivalence that contains the bond. -/
structure ConnOK (Conn : ℕ → ℕ → Prop) : Prop where
  refl : ∀ x, Conn x x
  symm : ∀ x y, Conn x y → Conn y x
  trans : ∀ x y z, Conn x y → Conn y z → Conn x z

theorem FE.conn {Conn : ℕ → ℕ → Prop} (hC : ConnOK Conn) {m : DMem} (hm : MInv Conn m) {x y : ℕ}
    (hx : x < m.size) (hy : y < m.size) (h : FE m x y) : Conn x y := by
  obtain ⟨r, h1, h2⟩ := h
  exact hC.trans _ _ _ (hm.conn_root hC.refl hC.trans hx h1)
    (hC.symm _ _ (hm.conn_root hC.refl hC.trans hy h2))

/-- One atomic operation never accesses memory out of range, keeps the invariants, and ends the
work on a bond only when its two ends are in one tree. -/
theorem stepPc_spec {Conn : ℕ → ℕ → Prop} (hC : ConnOK Conn) (sp : Bool) {m : DMem}
    (ho : OutOK m) (hm : MInv Conn m) {a b : ℕ} (ha : a < m.size) (hb : b < m.size)
    (hab : Conn a b) (p : Pc) (hp : LInv m a b p) :
    ∃ m' p', stepPc sp m a b p = some (m', p') ∧ MInv Conn m' ∧ OutOK m' ∧ Evolves m m' ∧
      match p' with
      | some q => LInv m' a b q
      | none => FE m' a b := by
  cases p with
  | find f k =>
    obtain ⟨hf, hpair⟩ := hp
    cases f with
    | f0 i =>
      have hi : i < m.size := hpair.1
      refine ⟨m, _, by simp only [stepPc, load_some hi, Option.map_some]; rfl, hm, ho,
        Evolves.rfl', ?_⟩
      by_cases he : (m.cell i).parent = i
      · rw [if_pos he]; exact ret_spec hpair
      · rw [if_neg he]; exact ⟨he, hpair⟩
    | f1 i =>
      have hi : i < m.size := hpair.1
      refine ⟨m, some (.find (.f2 i (m.cell i)) k),
        by simp only [stepPc, load_some hi, Option.map_some], hm, ho,
        Evolves.rfl', ⟨hf, rfl, hm.lt i hi, (hm.key i hi).resolve_left hf, hm.parent hi⟩, hpair⟩
    | f2 i v =>
      have hi : i < m.size := hpair.1
      obtain ⟨h1, h2, h3, h4, h5⟩ := hf
      refine ⟨m, _, by simp only [stepPc, load_some h3, Option.map_some]; rfl, hm, ho,
        Evolves.rfl', ?_⟩
      have hfe : FE m (m.cell v.parent).parent i := (hm.parent h3).trans h5
      by_cases he : (m.cell v.parent).parent = v.parent
      · rw [if_neg (not_not.mpr he)]
        exact ⟨trivial, hpair.move (hm.lt _ h3) hfe⟩
      · rw [if_pos he]
        exact ⟨⟨h1, h2, hm.lt _ h3, h4.trans ((hm.key _ h3).resolve_left he), hfe⟩, hpair⟩
    | f3 i v np =>
      have hi : i < m.size := hpair.1
      obtain ⟨h1, h2, h3, h4, h5⟩ := hf
      by_cases hc : m.cell i = v ∧ sp = false
      · have hs := halve_spec hC.symm hC.refl hC.trans ho hm hi h1 h3 h4 h5
        rw [← h2] at hs
        refine ⟨m.store i ⟨v.rank, np⟩, some (.find (.f0 np) k), ?_, hs.1, hs.2.1, hs.2.2, trivial,
          (hpair.move h3 h5).mono hs.2.2⟩
        simp only [stepPc, load_some hi, Option.map_some, if_pos hc]
      · refine ⟨m, some (.find (.f0 np) k), ?_, hm, ho, Evolves.rfl', trivial, hpair.move h3 h5⟩
        simp only [stepPc, load_some hi, Option.map_some, if_neg hc]
  | sameCheck x y =>
    have hx : x < m.size := hp.1
    refine ⟨m, _, by simp only [stepPc, load_some hx, Option.map_some]; rfl, hm, ho,
      Evolves.rfl', ?_⟩
    by_cases he : (m.cell x).parent = x
    · rw [if_pos he]; exact ⟨trivial, ha, hb, .inl ⟨hm.refl ha, hm.refl hb⟩⟩
    · rw [if_neg he]; exact ⟨trivial, hp⟩
  | rank1 x y =>
    have hx : x < m.size := hp.1.1
    exact ⟨m, some (.rank2 x y (m.cell x).rank),
      by simp only [stepPc, load_some hx, Option.map_some], hm, ho, Evolves.rfl', hp.1, hp.2, le_refl _⟩
  | rank2 x y r =>
    obtain ⟨hpair, hne, hr⟩ := hp
    have hy : y < m.size := hpair.2.1
    refine ⟨m, _, by simp only [stepPc, load_some hy, Option.map_some]; rfl, hm, ho,
      Evolves.rfl', ?_⟩
    by_cases hc : r > (m.cell y).rank ∨ (r = (m.cell y).rank ∧ x < y)
    · rw [if_pos hc]; exact ⟨hpair.swap, hr, by omega⟩
    · rw [if_neg hc]; exact ⟨hpair, le_refl _, by omega⟩
  | cas x y r1 r2 =>
    obtain ⟨hpair, hr, hk⟩ := hp
    have hx : x < m.size := hpair.1
    have hy : y < m.size := hpair.2.1
    by_cases hc : m.cell x = ⟨r1, x⟩
    · have hroot : (m.cell x).parent = x := by rw [hc]
      have hrank : (m.cell x).rank = r1 := by rw [hc]
      have hkey : keyLt m x y := by unfold keyLt; omega
      have hconn : Conn x y := by
        rcases hpair.2.2 with ⟨h1, h2⟩ | ⟨h1, h2⟩
        · exact hC.trans _ _ _ (h1.conn hC hm hx ha)
            (hC.trans _ _ _ hab (hC.symm _ _ (h2.conn hC hm hy hb)))
        · exact hC.trans _ _ _ (h1.conn hC hm hx hb)
            (hC.trans _ _ _ (hC.symm _ _ hab) (hC.symm _ _ (h2.conn hC hm hy ha)))
      obtain ⟨hs1, hs2, hs3, hs4⟩ := link_spec ho hm hx hroot hy hkey hconn
      rw [hrank] at hs1 hs2 hs3 hs4
      have hfe : FE (m.store x ⟨r1, y⟩) a b := by
        rcases (hpair.mono hs3).2.2 with ⟨h1, h2⟩ | ⟨h1, h2⟩
        · exact h1.symm.trans (hs4.trans h2)
        · exact h2.symm.trans (hs4.symm.trans h1)
      refine ⟨m.store x ⟨r1, y⟩, if r1 = r2 then some (.bump y r2) else none, ?_, hs1, hs2, hs3, ?_⟩
      · simp only [stepPc, load_some hx, Option.map_some, if_pos hc]
      · by_cases he : r1 = r2
        · rw [if_pos he]; exact ⟨hy, hfe⟩
        · rw [if_neg he]; exact hfe
    · refine ⟨m, some (.find (.f0 x) (.unite1 y)), ?_, hm, ho, Evolves.rfl', trivial, hpair⟩
      simp only [stepPc, load_some hx, Option.map_some, if_neg hc]
  | bump x r =>
    obtain ⟨hx, hfe⟩ := hp
    by_cases hc : m.cell x = ⟨r, x⟩ ∧ sp = false
    · have hroot : (m.cell x).parent = x := by rw [hc.1]
      have hrank : (m.cell x).rank = r := by rw [hc.1]
      have hs := bump_spec ho hm hx hroot
      rw [hrank] at hs
      refine ⟨m.store x ⟨r + 1, x⟩, none, ?_, hs.1, hs.2.1, hs.2.2, hs.2.2.fe _ _ hfe⟩
      simp only [stepPc, load_some hx, Option.map_some, if_pos hc]
    · refine ⟨m, none, ?_, hm, ho, Evolves.rfl', hfe⟩
      simp only [stepPc, load_some hx, Option.map_some, if_neg hc]

end DSet
end Freud
