import Verif.Lemmas.CellSort

/-!
# The iterator of `CellQuery` visits all rows around a cell
-/

namespace Freud
namespace CellQuery

/-- The nine rows around a cell, in order. -/
def nine : List (ℤ × ℤ) :=
  [(-1, -1), (-1, 0), (-1, 1), (0, -1), (0, 0), (0, 1), (1, -1), (1, 0), (1, 1)]

theorem rowsFrom_first : rowsFrom (-1) (-1) = nine := by decide

theorem rowsFrom_suffix {pre rest : List (ℤ × ℤ)} {d : ℤ × ℤ} (h : pre ++ d :: rest = nine) :
    rowsFrom d.1 d.2 = d :: rest := by
  have hl : pre.length < 9 := by
    have := congrArg List.length h
    simp [nine] at this; omega
  have e : d :: rest = nine.drop pre.length := by rw [← h]; simp
  have key : ∀ k < 9, ∀ x ∈ (nine.drop k).head?, rowsFrom x.1 x.2 = nine.drop k := by decide
  have := key pre.length hl d (by rw [← e]; rfl)
  rw [this, ← e]

/-- The row is inside the grid. -/
def InGrid (g : Grid) (c : Vec3 ℤ) (d : ℤ × ℤ) : Prop :=
  0 ≤ c.z + d.1 ∧ c.z + d.1 < g.nz ∧ 0 ≤ c.y + d.2 ∧ c.y + d.2 < g.ny

instance (g : Grid) (c : Vec3 ℤ) (d : ℤ × ℤ) : Decidable (InGrid g c d) := by
  unfold InGrid; infer_instance

/-- The entries of the buffer with index in `[a, e)`. -/
def slice (g : Grid) (a e : ℕ) : List Tagged := (g.buffer.drop a).take (e - a)

/-- The entries of a row. -/
def rowEntries (g : Grid) (it : Iter) (d : ℤ × ℤ) : List Tagged :=
  if InGrid g it.cell d then
    slice g (rowRange g it (it.cell.y + d.2) (it.cell.z + d.1)).1
      (rowRange g it (it.cell.y + d.2) (it.cell.z + d.1)).2
  else []

/-- The bonds of a row. -/
noncomputable def rowBonds (g : Grid) (it : Iter) (d : ℤ × ℤ) : List (Bond ℝ) :=
  (rowEntries g it d).filterMap (test it)

/-- The bonds from a position in the rows. -/
noncomputable def bondsFrom (g : Grid) (it : Iter) : List (ℤ × ℤ) → Option ℕ → ℕ → List (Bond ℝ)
  | [], _, _ => []
  | _ :: rest, some i, e => (slice g i e).filterMap (test it) ++ rest.flatMap (rowBonds g it)
  | d :: rest, none, _ => (d :: rest).flatMap (rowBonds g it)

theorem scan_spec (g : Grid) (it : Iter) (e i : ℕ) (he : e ≤ g.buffer.length) :
    (scan g it e i = none ∧ (slice g i e).filterMap (test it) = []) ∨
    ∃ j b, scan g it e i = some (j, b) ∧
      (slice g i e).filterMap (test it) = b :: (slice g (j + 1) e).filterMap (test it) := by
  induction hk : e - i generalizing i with
  | zero =>
    left
    rw [scan, if_neg (by omega)]
    exact ⟨rfl, by simp [slice, hk]⟩
  | succ k ih =>
    rw [scan, if_pos (by omega)]
    have hs : slice g i e = g.buffer[i]'(by omega) :: slice g (i + 1) e := by
      unfold slice
      rw [hk, List.drop_eq_getElem_cons (by omega), List.take_succ_cons,
        show e - (i + 1) = k by omega]
    have hd : g.buffer.getD i ⟨⟨0, 0, 0⟩, 0⟩ = g.buffer[i]'(by omega) := by
      rw [List.getD_eq_getElem?_getD, List.getElem?_eq_getElem (by omega), Option.getD_some]
    rw [hs, hd]
    cases ht : test it (g.buffer[i]'(by omega)) with
    | some b =>
      right
      exact ⟨i, b, rfl, by rw [List.filterMap_cons_some ht]⟩
    | none =>
      rw [List.filterMap_cons_none ht]
      exact ih (i + 1) (by omega)

theorem findIn_in (g : Grid) (it : Iter) (dz dy : ℤ) (rest : List (ℤ × ℤ)) (pidx : Option ℕ) (le : ℕ)
    (h : InGrid g it.cell (dz, dy)) :
    findIn g it ((dz, dy) :: rest) pidx le =
      match scan g it (startOf g it (it.cell.y + dy) (it.cell.z + dz) pidx le).2
        (startOf g it (it.cell.y + dy) (it.cell.z + dz) pidx le).1 with
      | some (i, b) => { it with cur := some b, dy := dy, dz := dz, pidx := some (i + 1), listEnd := (startOf g it (it.cell.y + dy) (it.cell.z + dz) pidx le).2 }
      | none => findIn g it rest none (startOf g it (it.cell.y + dy) (it.cell.z + dz) pidx le).2 := by
  rw [findIn]
  exact if_pos h

theorem findIn_out (g : Grid) (it : Iter) (dz dy : ℤ) (rest : List (ℤ × ℤ)) (pidx : Option ℕ) (le : ℕ)
    (h : ¬ InGrid g it.cell (dz, dy)) :
    findIn g it ((dz, dy) :: rest) pidx le = findIn g it rest pidx le := by
  rw [findIn]
  exact if_neg h

theorem findIn_spec (g : Grid) (it : Iter)
    (hR : ∀ d, InGrid g it.cell d →
      (rowRange g it (it.cell.y + d.2) (it.cell.z + d.1)).2 ≤ g.buffer.length)
    (rows pre : List (ℤ × ℤ)) (hrows : pre ++ rows = nine) (pidx : Option ℕ) (le : ℕ)
    (hp : pidx ≠ none → (∃ d rest, rows = d :: rest ∧ InGrid g it.cell d) ∧ le ≤ g.buffer.length) :
    (findIn g it rows pidx le = { it with cur := none } ∧ bondsFrom g it rows pidx le = []) ∨
    ∃ b dz dy i e, findIn g it rows pidx le =
        { it with cur := some b, dy := dy, dz := dz, pidx := some i, listEnd := e } ∧
      bondsFrom g it rows pidx le = b :: bondsFrom g it (rowsFrom dz dy) (some i) e ∧
      InGrid g it.cell (dz, dy) ∧ e ≤ g.buffer.length ∧
      (∃ pre rest, pre ++ (dz, dy) :: rest = nine) := by
  induction rows generalizing pre pidx le with
  | nil => left; exact ⟨rfl, rfl⟩
  | cons d rest ih =>
    have hsuf := rowsFrom_suffix hrows
    obtain ⟨dz, dy⟩ := d
    have hrest : (pre ++ [(dz, dy)]) ++ rest = nine := by rw [← hrows]; simp
    by_cases hin : InGrid g it.cell (dz, dy)
    · obtain ⟨se, hse⟩ : ∃ se, startOf g it (it.cell.y + dy) (it.cell.z + dz) pidx le = se := ⟨_, rfl⟩
      have hb : bondsFrom g it ((dz, dy) :: rest) pidx le =
            (slice g se.1 se.2).filterMap (test it) ++ rest.flatMap (rowBonds g it) := by
        cases pidx with
        | some i => subst hse; rfl
        | none =>
          subst hse
          rw [bondsFrom, List.flatMap_cons, rowBonds, rowEntries, if_pos hin]
          rfl
      have hle : se.2 ≤ g.buffer.length := by
        cases pidx with
        | some i => subst hse; exact (hp (by simp)).2
        | none => subst hse; exact hR (dz, dy) hin
      rw [findIn_in g it dz dy rest pidx le hin, hse]
      rcases scan_spec g it se.2 se.1 hle with ⟨h1, h2⟩ | ⟨j, b, h1, h2⟩
      · simp only [h1]
        have hb' : bondsFrom g it ((dz, dy) :: rest) pidx le = bondsFrom g it rest none se.2 := by
          rw [hb, h2, List.nil_append]
          cases rest <;> rfl
        rw [hb']
        exact ih _ hrest none se.2 (fun h => absurd rfl h)
      · simp only [h1]
        right
        refine ⟨b, dz, dy, j + 1, se.2, rfl, ?_, hin, hle, pre, rest, hrows⟩
        rw [hb, h2, hsuf]
        rfl
    · have hn : pidx = none := by
        by_contra hne
        obtain ⟨⟨d, r, h1, h2⟩, -⟩ := hp hne
        obtain ⟨rfl, -⟩ := List.cons.inj h1
        exact hin h2
      subst hn
      rw [findIn_out g it dz dy rest none le hin]
      have hb' : bondsFrom g it ((dz, dy) :: rest) none le = bondsFrom g it rest none le := by
        rw [bondsFrom, List.flatMap_cons, rowBonds, rowEntries, if_neg hin]
        cases rest <;> rfl
      rw [hb']
      exact ih _ hrest none le (fun h => absurd rfl h)

/-- The iterator will return the bonds `l` if the grid stays as it is. -/
def Yields (g : Grid) (it : Iter) (l : List (Bond ℝ)) : Prop :=
  (∀ d, InGrid g it.cell d →
      (rowRange g it (it.cell.y + d.2) (it.cell.z + d.1)).2 ≤ g.buffer.length) ∧
  ((it.finished = true ∧ l = []) ∨
   (it.finished = false ∧
    ((it.cur = none ∧ l = []) ∨
     ∃ b i, it.cur = some b ∧ it.pidx = some i ∧
      l = b :: bondsFrom g it (rowsFrom it.dz it.dy) (some i) it.listEnd ∧
      InGrid g it.cell (it.dz, it.dy) ∧ it.listEnd ≤ g.buffer.length ∧
      ∃ pre rest, pre ++ (it.dz, it.dy) :: rest = nine)))

theorem yields_next {g : Grid} {it : Iter} {l : List (Bond ℝ)} (h : Yields g it l) :
    (l = [] ∧ (it.next g).1 = none ∧ (it.next g).2.finished = true ∧ Yields g (it.next g).2 []) ∨
    ∃ b l', l = b :: l' ∧ (it.next g).1 = some b ∧ it.finished = false ∧ Yields g (it.next g).2 l' := by
  obtain ⟨hR, h⟩ := h
  rcases h with ⟨hf, rfl⟩ | ⟨hf, ⟨hc, rfl⟩ | ⟨b, i, hc, hp, rfl, hin, hle, pre, rest, hn⟩⟩
  · left
    have e : it.next g = (none, it) := by rw [Iter.next, if_pos hf]
    rw [e]
    exact ⟨rfl, rfl, hf, hR, Or.inl ⟨hf, rfl⟩⟩
  · left
    have e : it.next g = (none, { it with finished := true }) := by
      rw [Iter.next, if_neg (by simp [hf]), hc]
    rw [e]
    exact ⟨rfl, rfl, rfl, hR, Or.inl ⟨rfl, rfl⟩⟩
  · right
    have hs := rowsFrom_suffix hn
    simp only at hs
    have e : it.next g = (some b, findNext g it) := by
      rw [Iter.next, if_neg (by simp [hf]), hc]
    rw [e]
    refine ⟨b, _, rfl, rfl, hf, ?_⟩
    rw [findNext, hp]
    rcases findIn_spec g it hR (rowsFrom it.dz it.dy) pre (by rw [hs]; exact hn) (some i) it.listEnd
        (fun _ => ⟨⟨_, _, hs, hin⟩, hle⟩) with ⟨h1, h2⟩ | ⟨b', dz, dy, j, e, h1, h2, h3, h4, h5⟩
    · rw [h1, h2]
      exact ⟨hR, Or.inr ⟨hf, Or.inl ⟨rfl, rfl⟩⟩⟩
    · rw [h1, h2]
      exact ⟨hR, Or.inr ⟨hf, Or.inr ⟨b', j, rfl, rfl, rfl, h3, h4, h5⟩⟩⟩

theorem yields_collect {g : Grid} {it : Iter} {l : List (Bond ℝ)} (h : Yields g it l) :
    ∃ fuel, it.collect g fuel = some l := by
  have base : ∀ it : Iter, it.finished = true → it.collect g 1 = some [] := by
    intro it hf; simp [Iter.collect, hf]
  induction l generalizing it with
  | nil =>
    by_cases hf : it.finished = true
    · exact ⟨1, base it hf⟩
    · refine ⟨2, ?_⟩
      rcases yields_next h with ⟨-, h1, h2, -⟩ | ⟨b, l', h1, -⟩
      · rw [Iter.collect, if_neg hf]
        simp only [base _ h2, h1]
        rfl
      · cases h1
  | cons b l ih =>
    rcases yields_next h with ⟨h1, -⟩ | ⟨b', l', h1, h2, h3, h4⟩
    · cases h1
    · obtain ⟨rfl, rfl⟩ := List.cons.inj h1
      obtain ⟨fuel, hf⟩ := ih h4
      refine ⟨fuel + 1, ?_⟩
      rw [Iter.collect, if_neg (by simp [h3])]
      simp only [hf, h2]
      rfl

/-- The bonds around a query point on a grid. -/
noncomputable def around (g : Grid) (qp : Vec3 ℝ) (qi : ℕ) (rMax rMin : ℝ) (excl : Bool) :
    List (Bond ℝ) :=
  match cellIdxSafe g.minPos g.inv ⟨g.nx, g.ny, g.nz⟩ qp with
  | none => []
  | some _ => nine.flatMap (rowBonds g ⟨qp, qi, rMax, rMin, excl, cellXYZ g.minPos g.inv qp, -1, -1,
      none, 0, none, false⟩)

theorem yields_new (g : Grid) (qp : Vec3 ℝ) (qi : ℕ) (rMax rMin : ℝ) (excl : Bool)
    (hR : ∀ it d, InGrid g it.cell d →
      (rowRange g it (it.cell.y + d.2) (it.cell.z + d.1)).2 ≤ g.buffer.length) :
    Yields g (Iter.new g qp qi rMax rMin excl) (around g qp qi rMax rMin excl) := by
  unfold Iter.new around
  cases cellIdxSafe g.minPos g.inv ⟨g.nx, g.ny, g.nz⟩ qp with
  | none => exact ⟨hR _, Or.inl ⟨rfl, rfl⟩⟩
  | some _ =>
    simp only [findNext, rowsFrom_first]
    set it : Iter := ⟨qp, qi, rMax, rMin, excl, cellXYZ g.minPos g.inv qp, -1, -1, none, 0, none,
      false⟩ with hit
    have hb : nine.flatMap (rowBonds g it) = bondsFrom g it nine none 0 := rfl
    rw [hb]
    refine ⟨hR _, ?_⟩
    rcases findIn_spec g it (hR it) nine [] rfl none 0 (fun h => absurd rfl h) with
      ⟨h1, h2⟩ | ⟨b', dz, dy, j, e, h1, h2, h3, h4, h5⟩
    · rw [h1, h2]; exact Or.inr ⟨rfl, Or.inl ⟨rfl, rfl⟩⟩
    · rw [h1, h2]; exact Or.inr ⟨rfl, Or.inr ⟨b', j, rfl, rfl, rfl, h3, h4, h5⟩⟩

/-! ### Results of queries -/

/-- The result will return the bonds `l` if the grid stays as it is. -/
def Result.Yields (g : Grid) (r : Result) (l : List (Bond ℝ)) : Prop :=
  (r.finished = true ∧ l = []) ∨
  (r.finished = false ∧ ∃ cur, CellQuery.Yields g r.iter cur ∧ r.curP < r.qpts.length ∧
    l = cur ++ (List.range' (r.curP + 1) (r.qpts.length - (r.curP + 1))).flatMap fun i =>
      around g (r.qpts.getD i 0) i r.rMax r.rMin r.excl)

theorem advance_yields (g : Grid)
    (hR : ∀ (it : Iter) d, InGrid g it.cell d →
      (rowRange g it (it.cell.y + d.2) (it.cell.z + d.1)).2 ≤ g.buffer.length)
    (left : ℕ) (r : Result) (hl : r.qpts.length ≤ left + r.curP + 1) (hf : r.finished = false)
    (hc : r.curP < r.qpts.length) (l : List (Bond ℝ))
    (hlist : l = (List.range' (r.curP + 1) (r.qpts.length - (r.curP + 1))).flatMap fun i =>
      around g (r.qpts.getD i 0) i r.rMax r.rMin r.excl) :
    (l = [] ∧ (advance g left r).1 = none ∧ Result.Yields g (advance g left r).2 []) ∨
    ∃ b l', l = b :: l' ∧ (advance g left r).1 = some b ∧
      Result.Yields g (advance g left r).2 l' := by
  induction left generalizing r with
  | zero =>
    have : r.qpts.length - (r.curP + 1) = 0 := by omega
    rw [this] at hlist
    left
    exact ⟨hlist, rfl, Or.inl ⟨rfl, rfl⟩⟩
  | succ left ih =>
    rw [advance]
    by_cases hge : r.curP + 1 ≥ r.qpts.length
    · simp only [if_pos hge]
      have : r.qpts.length - (r.curP + 1) = 0 := by omega
      rw [this] at hlist
      left
      exact ⟨hlist, trivial, Or.inl ⟨rfl, rfl⟩⟩
    · simp only [if_neg hge]
      obtain ⟨k, hk⟩ : ∃ k, r.qpts.length - (r.curP + 1) = k + 1 :=
        ⟨_, (by omega : _ = r.qpts.length - (r.curP + 1) - 1 + 1)⟩
      have hk' : r.qpts.length - (r.curP + 1 + 1) = k := by omega
      rw [hk, List.range'_succ, List.flatMap_cons] at hlist
      have hy := yields_new g (r.qpts.getD (r.curP + 1) 0) (r.curP + 1) r.rMax r.rMin r.excl hR
      simp only [querySingle]
      rcases yields_next hy with ⟨h1, h2, -, h3⟩ | ⟨b, l', h1, h2, -, h3⟩
      · rw [h2]
        rw [h1, List.nil_append] at hlist
        exact ih ⟨r.qpts, r.rMax, r.rMin, r.excl, r.curP + 1, _, r.finished⟩ (by simp only; omega) hf
          (by simp only; omega) (by rw [hlist]; simp only; rw [hk'])
      · rw [h2]
        right
        refine ⟨b, l' ++ (List.range' (r.curP + 1 + 1) k).flatMap fun i =>
          around g (r.qpts.getD i 0) i r.rMax r.rMin r.excl, by rw [hlist, h1]; rfl, rfl,
          Or.inr ⟨hf, l', h3, ?_, ?_⟩⟩
        · simp only; omega
        · simp only; rw [hk']

theorem result_next {g : Grid}
    (hR : ∀ (it : Iter) d, InGrid g it.cell d →
      (rowRange g it (it.cell.y + d.2) (it.cell.z + d.1)).2 ≤ g.buffer.length)
    {r : Result} {l : List (Bond ℝ)} (h : Result.Yields g r l) :
    (l = [] ∧ (r.next g).1 = none ∧ Result.Yields g (r.next g).2 []) ∨
    ∃ b l', l = b :: l' ∧ (r.next g).1 = some b ∧ Result.Yields g (r.next g).2 l' := by
  rcases h with ⟨hf, rfl⟩ | ⟨hf, cur, hy, hc, hl⟩
  · left
    have e : r.next g = (none, r) := by rw [Result.next, if_pos hf]
    rw [e]
    exact ⟨rfl, rfl, Or.inl ⟨hf, rfl⟩⟩
  · rw [Result.next, if_neg (by simp [hf])]
    rcases yields_next hy with ⟨rfl, h2, -, h3⟩ | ⟨b, l', rfl, h2, -, h3⟩
    · simp only [h2]
      exact advance_yields g hR r.qpts.length ⟨r.qpts, r.rMax, r.rMin, r.excl, r.curP, (r.iter.next g).2, r.finished⟩
        (by simp only; omega) hf hc l hl
    · simp only [h2]
      right
      exact ⟨b, _, hl, rfl, Or.inr ⟨hf, l', h3, hc, rfl⟩⟩

theorem result_collect {g : Grid}
    (hR : ∀ (it : Iter) d, InGrid g it.cell d →
      (rowRange g it (it.cell.y + d.2) (it.cell.z + d.1)).2 ≤ g.buffer.length)
    {r : Result} {l : List (Bond ℝ)} (h : Result.Yields g r l) :
    ∃ fuel, r.collect g fuel = some l := by
  induction l generalizing r with
  | nil =>
    refine ⟨1, ?_⟩
    rcases result_next hR h with ⟨-, h1, -⟩ | ⟨b, l', h1, -⟩
    · simp [Result.collect, h1]
    · cases h1
  | cons b l ih =>
    rcases result_next hR h with ⟨h1, -⟩ | ⟨b', l', h1, h2, h3⟩
    · cases h1
    · obtain ⟨rfl, rfl⟩ := List.cons.inj h1
      obtain ⟨fuel, hf⟩ := ih h3
      exact ⟨fuel + 1, by rw [Result.collect, h2]; simp [hf]⟩

theorem result_collect_fuel {g : Grid} {r : Result} {l l' : List (Bond ℝ)} {f f' : ℕ}
    (h : r.collect g f = some l) (h' : r.collect g f' = some l') : l = l' := by
  induction f generalizing r l l' f' with
  | zero => simp [Result.collect] at h
  | succ f ih =>
    cases f' with
    | zero => simp [Result.collect] at h'
    | succ f' =>
      rw [Result.collect] at h h'
      cases hn : (r.next g).1 with
      | none => rw [hn] at h h'; simp only [Option.some.injEq] at h h'; rw [← h, ← h']
      | some b =>
        rw [hn] at h h'
        simp only [Option.map_eq_some_iff] at h h'
        obtain ⟨a, h1, rfl⟩ := h
        obtain ⟨a', h1', rfl⟩ := h'
        rw [ih h1 h1']

end CellQuery
end Freud
