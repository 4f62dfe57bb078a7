import Verif.Lemmas.SteinhardtSeveral

/-!
# C107: several `l` at once
-/

namespace Freud
open Spec

namespace Steinhardt.Several

/-- The arguments of a call are legal for the list `ls`: a neighbor list of the points, executions of the
loops over the particles, and for every `l` an order of its `2 l + 1` cells. -/
structure _root_.Freud.Spec.LegalSeveral (ls : List ℕ) (c : Call) : Prop where
  list : ListFor c.nlist c.points.length
  ev : IsExecution c.points.length c.ev
  evAve : IsExecution c.points.length c.evAve
  evWl : IsExecution c.points.length c.evWl
  orders : ∀ j < ls.length, (c.reduceOrders.getD j []).Perm (List.range (2 * ls.getD j 0 + 1))

/-- The computation for one `l`, in detail. -/
theorem single_spec (sph : Sph) (p : Params) (locals : TLS (MArray (WithTop ℂ)))
    (hs : StorageOK [2 * p.l + 1] locals) (c : Steinhardt.Call) (hlist : ListFor c.nlist c.points.length)
    (hev : IsExecution c.points.length c.ev) (hevA : IsExecution c.points.length c.evAve)
    (hord : c.reduceOrder.Perm (List.range (2 * p.l + 1))) (hl : p.wl = true → p.l ≤ 20) :
    ∃ (loc : TLS (MArray (WithTop ℂ))) (rows : List Row) (used : ℕ → Row) (q : MArray (WithTop ℂ))
      (g : ℕ → Option ℝ) (norm : Option ℝ),
      Steinhardt.compute sph p locals c = some (loc,
        { qlmi := rows, qli := rows.map (Option.map (ql p.l))
          qliAve := if p.average then (List.range c.points.length).map fun i => (used i).map (ql p.l) else []
          wli := if p.wl then (List.range c.points.length).map g else []
          order := norm }) ∧ StorageOK [2 * p.l + 1] loc ∧
      rows.length = c.points.length ∧
      (∀ i < c.points.length, rows.getD i none = rowOf sph p c.box c.points c.nlist.bonds i) ∧
      (p.average = false → ∀ i, used i = rows.getD i none) ∧
      (p.average = true → ∀ i < c.points.length,
        avePoint rows i (c.nlist.bonds.filter fun nb => nb.q = i) = some (used i)) ∧
      (locals.resetWith MArray.reset).parallelFor (fun i a => addCells (cells p.l c.points.length (used i)) a)
        (if p.average then c.evAve else c.ev) = some loc ∧
      storageReduceInto loc c.reduceOrder (MArray.mk' [2 * p.l + 1]) = some q ∧
      (p.wl = true → ∀ i < c.points.length, wlValue p (used i) = some (g i)) ∧
      (if p.wl then wlValue p (toRow q) else some ((toRow q).map (ql p.l))) = some norm := by
  set n := c.points.length with hn
  have hord1 : (c.ev.map (·.2)).Perm (List.range n) := hev
  have hordA : (c.evAve.map (·.2)).Perm (List.range n) := hevA
  obtain ⟨a, ea, -, hda⟩ := C66_schedule_independent c.nlist hlist.good n _ hord1
    (⟨[n], List.replicate n (some fun _ => 0)⟩ : MArray Row) (by simp)
    (fun i bonds _ => basePoint sph p c.box c.points i bonds)
    (fun i => rowOf sph p c.box c.points c.nlist.bonds i)
    (by
      intro i x hx
      obtain ⟨hi, -⟩ := List.getElem?_eq_some_iff.mp hx
      simp only [List.length_replicate] at hi
      exact basePoint_spec sph p c.box c.points c.nlist.bonds i hi hlist.points)
  have hrows : baseRows sph p c = some a.data := by
    unfold baseRows; rw [← hn, ea]; rfl
  have hlen : a.data.length = n := by rw [hda]; simp
  have hget : ∀ i < n, a.data.getD i none = rowOf sph p c.box c.points c.nlist.bonds i := by
    intro i hi
    rw [hda, List.getD_eq_getElem?_getD, List.getElem?_map, List.getElem?_range hi]; rfl
  have hused : ∃ used, (if p.average then aveRows a.data c else some a.data) = some used ∧
      used.length = n ∧ (p.average = false → ∀ i, used.getD i none = a.data.getD i none) ∧
      (p.average = true → ∀ i < n,
        avePoint a.data i (c.nlist.bonds.filter fun nb => nb.q = i) = some (used.getD i none)) := by
    cases hav : p.average with
    | false => exact ⟨a.data, rfl, hlen, fun _ _ => rfl, by simp⟩
    | true =>
      have hp : ∀ i < n, ∀ nb ∈ c.nlist.bonds.filter (fun nb => nb.q = i), nb.p < a.data.length := by
        intro i hi nb hnb
        obtain ⟨h1, h2⟩ := List.mem_filter.mp hnb
        rw [hlen]
        exact hlist.points nb h1 (by rw [of_decide_eq_true h2]; exact hi)
      obtain ⟨a', ea', -, hda'⟩ := C66_schedule_independent c.nlist hlist.good n _ hordA
        (⟨[n], List.replicate n (some fun _ => 0)⟩ : MArray Row) (by simp)
        (fun i bonds _ => avePoint a.data i bonds)
        (fun i => meanRow (((c.nlist.bonds.filter (fun nb => nb.q = i)).map (·.p) ++ [i]).map
          fun j => a.data.getD j none))
        (by
          intro i x hx
          obtain ⟨hi, -⟩ := List.getElem?_eq_some_iff.mp hx
          simp only [List.length_replicate] at hi
          exact avePoint_spec a.data i (by omega) _ (hp i hi))
      refine ⟨a'.data, ?_, by rw [hda']; simp, by simp, fun _ i hi => ?_⟩
      · rw [if_pos rfl]; unfold aveRows; rw [← hn, ea']; rfl
      · rw [hda', List.getD_eq_getElem?_getD, List.getElem?_map, List.getElem?_range hi]
        exact avePoint_spec a.data i (by omega) _ (hp i hi)
  obtain ⟨used, eu, hul, hu0, hu1⟩ := hused
  obtain ⟨loc, q, e2, hSO, e3, -, -⟩ := storage_after_reset [2 * p.l + 1] n
    (fun i => cells p.l n (used.getD i none))
    (by
      intro i _ x hx
      unfold cells at hx
      obtain ⟨k, hk, rfl⟩ := List.mem_map.mp hx
      simpa using List.mem_range.mp hk)
    locals hs (if p.average then c.evAve else c.ev)
    (by cases p.average <;> [exact hev; exact hevA]) c.reduceOrder (by simpa using hord)
  have husys : used = (List.range n).map fun i => used.getD i none := by
    have := list_eq_range used none
    rw [hul] at this
    exact this
  have hwl : ∃ (g : ℕ → Option ℝ) (norm : Option ℝ), (if p.wl then used.mapM (wlValue p) else some []) =
        some (if p.wl then (List.range n).map g else []) ∧
      (p.wl = true → ∀ i < n, wlValue p (used.getD i none) = some (g i)) ∧
      (if p.wl then wlValue p (toRow q) else some ((toRow q).map (ql p.l))) = some norm := by
    cases h : p.wl with
    | false => exact ⟨fun _ => none, _, rfl, by simp, rfl⟩
    | true =>
      have hl' := hl h
      choose g hg using wlValue_some (p := p) hl'
      refine ⟨fun i => g (used.getD i none), _, ?_, fun _ i _ => hg _, hg (toRow q)⟩
      rw [if_pos rfl, if_pos rfl, mapM_some _ g used fun r _ => hg r]
      conv_lhs => rw [husys, List.map_map]
      rfl
  obtain ⟨g, norm, e4, e4', e5⟩ := hwl
  refine ⟨loc, a.data, fun i => used.getD i none, q, g, norm, ?_, hSO, hlen, hget, hu0, hu1, e2, e3, e4', e5⟩
  have e6 : used.map (Option.map (ql p.l)) = (List.range n).map fun i => (used.getD i none).map (ql p.l) := by
    conv_lhs => rw [husys, List.map_map]
    rfl
  unfold Steinhardt.compute
  simp only [hrows, Option.bind_some, eu, ← hn, e2, e3, e4, e5, e6, Option.map_some]

theorem table_getD {A : Type*} {n i : ℕ} (hi : i < n) (g : ℕ → A) (d : A) :
    ((List.range n).map g).getD i d = g i := by
  rw [List.getD_eq_getElem?_getD, table_get hi]; rfl

theorem map_getD (rows : List Row) {i : ℕ} (hi : i < rows.length) (F : Row → Option ℝ) :
    (rows.map F).getD i none = F (rows.getD i none) := by
  rw [List.getD_eq_getElem?_getD, List.getElem?_map, List.getD_eq_getElem?_getD, List.getElem?_eq_getElem hi]
  rfl

/-- One call, with the storage of every `l` compared with that of an object for this `l` alone. -/
theorem compute_columns (sph : Sph) (f : Flags) (ls : List ℕ) (m : Mem) (lo : ℕ → TLS (MArray (WithTop ℂ)))
    (hm : m.locals = (List.range ls.length).map lo)
    (hlo : ∀ j < ls.length, StorageOK [2 * ls.getD j 0 + 1] (lo j)) (c : Call) (hc : LegalSeveral ls c)
    (hl : f.wl = true → ∀ l ∈ ls, l ≤ 20) :
    ∃ (m' : Mem) (R : Results) (lo' : ℕ → TLS (MArray (WithTop ℂ))) (r : ℕ → Result),
      compute sph f ls m c = some (m', R) ∧ m'.locals = (List.range ls.length).map lo' ∧
      ShapesAre f ls c.points.length R ∧
      ∀ j < ls.length, StorageOK [2 * ls.getD j 0 + 1] (lo' j) ∧
        Steinhardt.compute sph (f.at (ls.getD j 0)) (lo j) (alone c j) = some (lo' j, r j) ∧
        ColumnIs f (ls.getD j 0) c.points.length j R (r j) := by
  have hlj : ∀ j < ls.length, f.wl = true → ls.getD j 0 ≤ 20 := by
    intro j hj hw
    refine hl hw _ ?_
    rw [List.getD_eq_getElem?_getD, List.getElem?_eq_getElem hj]
    exact List.getElem_mem hj
  have hsing : ∀ j, ∃ (loc : TLS (MArray (WithTop ℂ))) (rows : List Row) (used : ℕ → Row) (q : MArray (WithTop ℂ))
      (g : ℕ → Option ℝ) (norm : Option ℝ), j < ls.length →
      Steinhardt.compute sph (f.at (ls.getD j 0)) (lo j) (alone c j) = some (loc,
        { qlmi := rows, qli := rows.map (Option.map (ql (ls.getD j 0)))
          qliAve := if f.average then (List.range c.points.length).map fun i => (used i).map (ql (ls.getD j 0)) else []
          wli := if f.wl then (List.range c.points.length).map g else []
          order := norm }) ∧ StorageOK [2 * ls.getD j 0 + 1] loc ∧
      rows.length = c.points.length ∧
      (∀ i < c.points.length, rows.getD i none = rowFor sph f ls c j i) ∧
      (f.average = false → ∀ i, used i = rows.getD i none) ∧
      (f.average = true → ∀ i < c.points.length,
        avePoint rows i (c.nlist.bonds.filter fun nb => nb.q = i) = some (used i)) ∧
      ((lo j).resetWith MArray.reset).parallelFor
        (fun i a => addCells (cells (ls.getD j 0) c.points.length (used i)) a)
        (if f.average then c.evAve else c.ev) = some loc ∧
      storageReduceInto loc (c.reduceOrders.getD j []) (MArray.mk' [2 * ls.getD j 0 + 1]) = some q ∧
      (f.wl = true → ∀ i < c.points.length, wlValue (f.at (ls.getD j 0)) (used i) = some (g i)) ∧
      (if f.wl then wlValue (f.at (ls.getD j 0)) (toRow q) else some ((toRow q).map (ql (ls.getD j 0)))) =
        some norm := by
    intro j
    by_cases hj : j < ls.length
    · obtain ⟨a1, a2, a3, a4, a5, a6, h⟩ := single_spec sph (f.at (ls.getD j 0)) (lo j) (hlo j hj) (alone c j)
        hc.list hc.ev hc.evAve (hc.orders j hj) (hlj j hj)
      exact ⟨a1, a2, a3, a4, a5, a6, fun _ => h⟩
    · exact ⟨lo j, [], fun _ => none, MArray.mk' [0], fun _ => none, none, fun h => absurd h hj⟩
  choose lo' rows used qs g norms hsing using hsing
  set n := c.points.length with hn
  have hev : ∀ i, i < n → i ∈ c.ev.map (·.2) := fun i hi => hc.ev.symm.subset (List.mem_range.mpr hi)
  have hevA : ∀ i, i < n → i ∈ c.evAve.map (·.2) := fun i hi => hc.evAve.symm.subset (List.mem_range.mpr hi)
  have hlt : ∀ (ev : List (ℕ × ℕ)), IsExecution n ev → ∀ e ∈ ev, e.2 < n := fun ev h e he =>
    List.mem_range.mp (h.subset (List.mem_map_of_mem he))
  have hnd : ∀ (ev : List (ℕ × ℕ)), IsExecution n ev → (ev.map (·.2)).Nodup := fun ev h =>
    h.nodup_iff.mpr List.nodup_range
  -- the loop over the particles
  let reset : ℕ → TLS (MArray (WithTop ℂ)) := fun j => (lo j).resetWith MArray.reset
  have hbase := base_events sph f ls c hc.list c.ev (hnd _ hc.ev) (hlt _ hc.ev) (fun _ _ _ => 0) (fun _ _ => 0)
    (if f.average then arrays n ls (fun _ _ _ => 0) else m.qlmiAve)
    (if f.average then grid n ls.length (fun _ _ => 0) else m.qliAve) reset
    (fun j => if f.average then reset j else lo' j) (fun _ _ _ _ _ _ => rfl) (fun _ _ _ _ => rfl)
    (by
      intro j hj
      unfold Stored
      obtain ⟨-, -, -, h4, h5, -, h7, -⟩ := hsing j hj
      cases hav : f.average with
      | true => rfl
      | false =>
        rw [if_neg (by simp), if_neg (by simp)]
        rw [hav, if_neg (by simp)] at h7
        rw [← h7]
        unfold TLS.parallelFor
        have : ∀ (es : List (ℕ × ℕ)), (∀ e ∈ es, e.2 < n) → ∀ s,
            es.foldlM (TLS.step fun i a => addCells (cells (ls.getD j 0) n (rowFor sph f ls c j i)) a) s =
            es.foldlM (TLS.step fun i a => addCells (cells (ls.getD j 0) n (used j i)) a) s := by
          intro es
          induction es with
          | nil => intro _ _; rfl
          | cons e es ih =>
            intro he s
            rw [List.foldlM_cons, List.foldlM_cons]
            have h1 : rowFor sph f ls c j e.2 = used j e.2 := by
              rw [h5 hav, h4 _ (he e List.mem_cons_self)]
            have h2 : TLS.step (fun i a => addCells (cells (ls.getD j 0) n (rowFor sph f ls c j i)) a) s e =
                TLS.step (fun i a => addCells (cells (ls.getD j 0) n (used j i)) a) s e := by
              unfold TLS.step; dsimp only; rw [h1]
            rw [h2]
            congr 1
            funext s'
            exact ih (fun e h => he e (List.mem_cons_of_mem _ h)) s'
        exact this c.ev (hlt _ hc.ev) _)
  have ha : arrays n ls (fun j i k => if i ∈ c.ev.map (·.2) then value (rowFor sph f ls c j i) k else 0) =
      arrays n ls (fun j i k => value (rowFor sph f ls c j i) k) :=
    arrays_congr fun j _ i hi k _ => if_pos (hev i hi)
  have hq : grid n ls.length (fun i j =>
      if i ∈ c.ev.map (·.2) then asTop ((rowFor sph f ls c j i).map (ql (ls.getD j 0))) else 0) =
      grid n ls.length (fun i j => asTop ((rowFor sph f ls c j i).map (ql (ls.getD j 0)))) :=
    grid_congr fun i hi j _ => if_pos (hev i hi)
  rw [← hn, ha, hq] at hbase
  -- the mean over the neighbors
  let m2 : Mem := ⟨arrays n ls (fun j i k => value (rowFor sph f ls c j i) k),
    grid n ls.length (fun i j => asTop ((rowFor sph f ls c j i).map (ql (ls.getD j 0)))),
    if f.average then arrays n ls (fun j i k => value (used j i) k) else m.qlmiAve,
    if f.average then grid n ls.length (fun i j => asTop ((used j i).map (ql (ls.getD j 0)))) else m.qliAve,
    (List.range ls.length).map lo'⟩
  have have' : (if f.average then c.evAve.foldlM (fun m e => aveIteration ls c e.1 e.2 m)
        (⟨arrays n ls (fun j i k => value (rowFor sph f ls c j i) k),
          grid n ls.length (fun i j => asTop ((rowFor sph f ls c j i).map (ql (ls.getD j 0)))),
          if f.average then arrays n ls (fun _ _ _ => 0) else m.qlmiAve,
          if f.average then grid n ls.length (fun _ _ => 0) else m.qliAve,
          (List.range ls.length).map fun j => if f.average then reset j else lo' j⟩ : Mem)
      else some ⟨arrays n ls (fun j i k => value (rowFor sph f ls c j i) k),
          grid n ls.length (fun i j => asTop ((rowFor sph f ls c j i).map (ql (ls.getD j 0)))),
          if f.average then arrays n ls (fun _ _ _ => 0) else m.qlmiAve,
          if f.average then grid n ls.length (fun _ _ => 0) else m.qliAve,
          (List.range ls.length).map fun j => if f.average then reset j else lo' j⟩) = some m2 := by
    cases hav : f.average with
    | false => simp only [m2, hav]; rfl
    | true =>
      simp only [m2, hav, if_true]
      refine (ave_events ls c hc.list c.evAve (hnd _ hc.evAve) (hlt _ hc.evAve) (fun j i => rowFor sph f ls c j i)
        rows (fun j hj p hp => (hsing j hj).2.2.2.1 p hp) used
        (fun j hj i hi => (hsing j hj).2.2.2.2.2.1 hav i hi) (fun _ _ _ => 0) (fun _ _ => 0) _ reset lo'
        (fun _ _ _ _ _ _ => rfl) (fun _ _ _ _ => rfl) ?_).trans ?_
      · intro j hj
        have := (hsing j hj).2.2.2.2.2.2.1
        rw [hav, if_pos rfl] at this
        exact this
      · congr 2
        · exact arrays_congr fun j _ i hi k _ => if_pos (hevA i hi)
        · exact grid_congr fun i hi j _ => if_pos (hevA i hi)
  -- the reduction
  have hred : ((List.range ls.length).mapM fun j => m2.locals[j]?.bind fun s =>
      storageReduceInto s (c.reduceOrders.getD j []) (MArray.mk' [2 * ls.getD j 0 + 1])) =
      some ((List.range ls.length).map qs) := by
    refine mapM_some _ qs _ fun j hj => ?_
    have hj' := List.mem_range.mp hj
    rw [table_get hj', Option.bind_some]
    exact (hsing j hj').2.2.2.2.2.2.2.1
  have hnorm : normalizeSystem f ls ((List.range ls.length).map qs) = some ((List.range ls.length).map norms) := by
    unfold normalizeSystem
    refine mapM_some _ norms _ fun j hj => ?_
    have hj' := List.mem_range.mp hj
    rw [table_get hj', Option.bind_some]
    exact (hsing j hj').2.2.2.2.2.2.2.2.2
  -- the third order invariants
  have husedF : f.average = false → ∀ j < ls.length, ∀ i < n, used j i = rowFor sph f ls c j i := by
    intro hav j hj i hi
    obtain ⟨-, -, -, h4, h5, -⟩ := hsing j hj
    rw [h5 hav, h4 i hi]
  have hwl : (if f.wl then
      if f.average then aggregate f ls m2.qlmiAve m2.qliAve (c.evWl.map (·.2)) (MArray.mk' [n, ls.length])
      else aggregate f ls m2.qlmi m2.qli (c.evWl.map (·.2)) (MArray.mk' [n, ls.length])
    else some (MArray.mk' [0])) =
      some (if f.wl then grid n ls.length (fun i j => asTop (g j i)) else MArray.mk' [0]) := by
    cases hw : f.wl with
    | false => rfl
    | true =>
      simp only [if_true]
      have hagg := aggregate_spec f ls (n := n) used g (fun j hj i hi => (hsing j hj).2.2.2.2.2.2.2.2.1 hw i hi)
        (c.evWl.map (·.2)) (fun i hi => List.mem_range.mp (hc.evWl.subset hi)) (fun _ _ => 0)
      have hfin : grid n ls.length (fun i j => if i ∈ c.evWl.map (·.2) then asTop (g j i) else 0) =
          grid n ls.length (fun i j => asTop (g j i)) :=
        grid_congr fun i hi j _ => if_pos (hc.evWl.symm.subset (List.mem_range.mpr hi))
      rw [hfin] at hagg
      rw [grid_zero]
      cases hav : f.average with
      | true => simp only [m2, hav, if_true]; exact hagg
      | false =>
        simp only [m2]
        rw [if_neg (by simp)]
        rw [← hagg]
        congr 1
        · exact arrays_congr fun j hj i hi k _ => by rw [husedF hav j hj i hi]
        · exact grid_congr fun i hi j hj => by rw [husedF hav j hj i hi]
  have hgrid_at : ∀ {T : Type} (M : ℕ) (F : ℕ → ℕ → T) (i k : ℕ), i < n → k < M →
      (grid n M F).at? [i, k] = some (F i k) := by
    intro T M F i k hi hk
    have : MArray.linIndex (grid n M F).shape [i, k] = i * M + k := by
      simp [grid, MArray.linIndex]; ring
    unfold MArray.at?
    rw [this, grid_get _ hi hk]
  let R : Results := ⟨m2.qlmi, m2.qli, m2.qliAve,
    if f.wl then grid n ls.length (fun i j => asTop (g j i)) else MArray.mk' [0], (List.range ls.length).map norms⟩
  have hql : R.getQl f = grid n ls.length (fun i j => asTop ((used j i).map (ql (ls.getD j 0)))) := by
    unfold Results.getQl
    cases hav : f.average with
    | true => simp only [R, m2, hav, if_true]
    | false =>
      rw [if_neg (by simp)]
      show grid n ls.length (fun i j => asTop ((rowFor sph f ls c j i).map (ql (ls.getD j 0)))) = _
      exact grid_congr fun i hi j hj => by rw [husedF hav j hj i hi]
  have hpo : R.getParticleOrder f = grid n ls.length (fun i j =>
      if f.wl then asTop (g j i) else asTop ((used j i).map (ql (ls.getD j 0)))) := by
    unfold Results.getParticleOrder
    cases hw : f.wl with
    | true => simp only [R, hw, if_true]
    | false => rw [if_neg (by simp), hql]; simp
  refine ⟨m2, R, lo', _, ?_, rfl, ⟨?_, ?_, ?_, ?_⟩, fun j hj => ⟨(hsing j hj).2.1, (hsing j hj).1, ?_⟩⟩
  · unfold compute
    have hreset : m.locals.map (fun s => s.resetWith MArray.reset) = (List.range ls.length).map reset := by
      rw [hm, List.map_map]; rfl
    have e0 : ({ reallocate f ls c.points.length m with
        locals := (reallocate f ls c.points.length m).locals.map fun s => s.resetWith MArray.reset } : Mem) =
        ⟨arrays n ls (fun _ _ _ => 0), grid n ls.length (fun _ _ => 0),
          if f.average then arrays n ls (fun _ _ _ => 0) else m.qlmiAve,
          if f.average then grid n ls.length (fun _ _ => 0) else m.qliAve, (List.range ls.length).map reset⟩ := by
      unfold reallocate
      rw [arrays_zero, ← hn, grid_zero]
      simp only [hreset]
    simp only [e0]
    rw [hbase, Option.bind_some, have', Option.bind_some, hred, Option.bind_some, ← hn, hwl, Option.bind_some, hnorm]
    rfl
  · show (arrays n ls _).map _ = _
    unfold arrays
    rw [List.map_map]
    apply List.ext_getElem
    · simp
    · intro x h1 h2
      simp only [List.length_map, List.length_range] at h1
      simp only [List.getElem_map, List.getElem_range, Function.comp_apply, grid, List.getD_eq_getElem?_getD,
        List.getElem?_eq_getElem h1, Option.getD_some]
  · rw [hql]; simp [grid]
  · rw [hpo]; simp [grid]
  · simp [R]
  · obtain ⟨-, -, h3, h4, h5, -⟩ := hsing j hj
    refine ⟨⟨_, arrays_get _ hj, rfl, fun i hi k hk => ?_⟩, fun i hi => ?_, fun i hi => ?_, table_get hj _⟩
    · rw [hgrid_at _ _ i k hi hk, h4 i hi]
    · rw [hql, hgrid_at _ _ i j hi hj]
      unfold Result.getQl
      congr 2
      show _ = List.getD (if f.average then _ else _) i none
      cases hav : f.average with
      | true =>
        show _ = ((List.range n).map fun i => (used j i).map (ql (ls.getD j 0))).getD i none
        rw [table_getD hi]
      | false =>
        rw [h5 hav]
        exact (map_getD _ (by omega) _).symm
    · rw [hpo, hgrid_at _ _ i j hi hj]
      unfold Result.particleOrder Result.getQl
      congr 1
      show _ = asTop (List.getD (if f.wl then _ else if f.average then _ else _) i none)
      cases hw : f.wl with
      | true =>
        show _ = asTop (((List.range n).map (g j)).getD i none)
        rw [table_getD hi, if_pos rfl]
      | false =>
        rw [if_neg (by simp), if_neg (by simp)]
        cases hav : f.average with
        | true =>
          show _ = asTop (((List.range n).map fun i => (used j i).map (ql (ls.getD j 0))).getD i none)
          rw [table_getD hi]
        | false =>
          rw [h5 hav]
          exact congrArg asTop (map_getD _ (by omega) _).symm

theorem run_columns (sph : Sph) (f : Flags) (ls : List ℕ) (hl : f.wl = true → ∀ l ∈ ls, l ≤ 20)
    (cs : List Call) (hcs : ∀ c ∈ cs, LegalSeveral ls c) (m : Mem) (lo : ℕ → TLS (MArray (WithTop ℂ)))
    (hm : m.locals = (List.range ls.length).map lo)
    (hlo : ∀ j < ls.length, StorageOK [2 * ls.getD j 0 + 1] (lo j)) :
    ∃ (m' : Mem) (lo' : ℕ → TLS (MArray (WithTop ℂ))), run sph f ls cs m = some m' ∧
      m'.locals = (List.range ls.length).map lo' ∧
      ∀ j < ls.length, StorageOK [2 * ls.getD j 0 + 1] (lo' j) ∧
        Steinhardt.run sph (f.at (ls.getD j 0)) (cs.map (alone · j)) (lo j) = some (lo' j) := by
  induction cs generalizing m lo with
  | nil => exact ⟨m, lo, rfl, hm, fun j hj => ⟨hlo j hj, rfl⟩⟩
  | cons c cs ih =>
    obtain ⟨m1, R, lo1, r, e1, hm1, -, h1⟩ := compute_columns sph f ls m lo hm hlo c (hcs c List.mem_cons_self) hl
    obtain ⟨m2, lo2, e2, hm2, h2⟩ := ih (fun c hc => hcs c (List.mem_cons_of_mem _ hc)) m1 lo1 hm1
      (fun j hj => (h1 j hj).1)
    refine ⟨m2, lo2, by rw [run, e1, Option.bind_some]; exact e2, hm2, fun j hj => ⟨(h2 j hj).1, ?_⟩⟩
    rw [List.map_cons, Steinhardt.run, (h1 j hj).2.1, Option.bind_some]
    exact (h2 j hj).2

theorem newMem_locals (ls : List ℕ) :
    (newMem ls).locals = (List.range ls.length).map fun j => newLocals (ls.getD j 0) := by
  show ls.map newLocals = _
  conv_lhs => rw [list_eq_range ls 0, List.map_map]
  rfl

end Steinhardt.Several

/-- **C107** (columns): an object made for a list of `l` gives, after any history of calls and for every
thread schedule, arrays with one column for every `l`, and column `j` of `particle_harmonics`, `ql`,
`particle_order` and `order` is what an object for the `l` in place `j` alone gives after the same history:
the computations for the different `l` do not disturb each other. -/
theorem C107_columns (sph : Steinhardt.Sph) (f : Steinhardt.Several.Flags) (ls : List ℕ)
    (hl : f.wl = true → ∀ l ∈ ls, l ≤ 20) (history : List Steinhardt.Several.Call)
    (hh : ∀ c ∈ history, LegalSeveral ls c) (c : Steinhardt.Several.Call) (hc : LegalSeveral ls c) :
    ∃ R, Steinhardt.Several.resultAfter sph f ls history c = some R ∧ ShapesAre f ls c.points.length R ∧
      ∀ (j l : ℕ), ls[j]? = some l →
        ∃ r, Steinhardt.resultAfter sph (f.at l) (history.map (alone · j)) (alone c j) = some r ∧
          ColumnIs f l c.points.length j R r := by
  obtain ⟨m, lo, e, hm, h⟩ := Steinhardt.Several.run_columns sph f ls hl history hh _ _
    (Steinhardt.Several.newMem_locals ls) (fun j _ => Steinhardt.new_ok _)
  obtain ⟨m', R, lo', r, e', -, hS, h'⟩ := Steinhardt.Several.compute_columns sph f ls m lo hm
    (fun j hj => (h j hj).1) c hc hl
  refine ⟨R, by unfold Steinhardt.Several.resultAfter; rw [e, Option.bind_some, e']; rfl, hS, fun j l hjl => ?_⟩
  obtain ⟨hj, hl'⟩ := List.getElem?_eq_some_iff.mp hjl
  have hg : ls.getD j 0 = l := by rw [List.getD_eq_getElem?_getD, hjl]; rfl
  have h1 := (h j hj).2
  obtain ⟨-, h2, h3⟩ := h' j hj
  rw [hg] at h1 h2 h3
  refine ⟨r j, ?_, h3⟩
  unfold Steinhardt.resultAfter
  show Option.bind (Steinhardt.run sph (f.at l) _ (Steinhardt.newLocals l)) _ = _
  rw [h1, Option.bind_some, h2]
  rfl

/-- **C107** (failure): with `wl`, one `l` above 20 makes every call on the object raise an exception. -/
theorem C107_large (sph : Steinhardt.Sph) (f : Steinhardt.Several.Flags) (ls : List ℕ) (hw : f.wl = true)
    (l : ℕ) (hls : l ∈ ls) (hl : 20 < l) (m : Steinhardt.Several.Mem) (c : Steinhardt.Several.Call) :
    Steinhardt.Several.compute sph f ls m c = none := by
  have h : ∀ row, Steinhardt.wlValue (f.at l) row = none := fun row => by
    unfold Steinhardt.wlValue
    show Option.bind (Steinhardt.getWigner3j l) _ = none
    rw [C78_large l hl]; rfl
  have h2 : ∀ qlm, Steinhardt.Several.normalizeSystem f ls qlm = none := by
    intro qlm
    obtain ⟨j, hj, rfl⟩ := List.getElem_of_mem hls
    unfold Steinhardt.Several.normalizeSystem
    have hm : ∀ (L : List ℕ), j ∈ L → (L.mapM fun j => (qlm[j]?).bind fun a =>
        if f.wl then Steinhardt.wlValue (f.at (ls.getD j 0)) (Steinhardt.toRow a)
        else some ((Steinhardt.toRow a).map (Steinhardt.ql (ls.getD j 0)))) = none := by
      intro L
      induction L with
      | nil => simp
      | cons x L ih =>
        intro hx
        rw [List.mapM_cons]
        rcases List.mem_cons.mp hx with rfl | hx
        · have hg : ls.getD j 0 = ls[j] := by rw [List.getD_eq_getElem?_getD, List.getElem?_eq_getElem hj]; rfl
          simp only [hg, h, hw, if_true, Option.bind_fun_none]
          rfl
        · rw [ih hx]
          exact Option.bind_fun_none _
    exact hm _ (List.mem_range.mpr hj)
  unfold Steinhardt.Several.compute
  simp only [h2, Option.map_none, Option.bind_fun_none]

/-- **C107** (argument): the constructor takes a number or a sequence of numbers; it refuses an empty
sequence and numbers that are negative or do not fit in 32 bits, and keeps the order of the others. -/
theorem C107_argument (ns : List ℤ) :
    (∀ n, Steinhardt.Several.new (.one n) = Steinhardt.Several.new (.seq [n])) ∧
    Steinhardt.Several.new (.seq ns) =
      if ns ≠ [] ∧ ∀ n ∈ ns, 0 ≤ n ∧ n < 2 ^ 32 then some (ns.map Int.toNat) else none := by
  refine ⟨fun n => rfl, ?_⟩
  have key : ∀ L : List ℤ, L.mapM asUInt = if ∀ n ∈ L, 0 ≤ n ∧ n < 2 ^ 32 then some (L.map Int.toNat) else none := by
    intro L
    induction L with
    | nil => simp
    | cons n L ih =>
      rw [List.mapM_cons, ih]
      unfold asUInt
      by_cases h : 0 ≤ n ∧ n < 2 ^ 32
      · rw [if_pos h]
        by_cases h2 : ∀ n ∈ L, 0 ≤ n ∧ n < 2 ^ 32
        · rw [if_pos h2, if_pos (by
            intro x hx
            rcases List.mem_cons.mp hx with rfl | hx
            · exact h
            · exact h2 x hx)]
          rfl
        · rw [if_neg h2, if_neg (fun h3 => h2 fun x hx => h3 x (List.mem_cons_of_mem _ hx))]
          rfl
      · rw [if_neg h, if_neg (show ¬ ∀ x ∈ n :: L, 0 ≤ x ∧ x < 2 ^ 32 from fun h3 => h (h3 n List.mem_cons_self))]
        rfl
  unfold Steinhardt.Several.new
  dsimp only
  rw [key]
  by_cases h0 : ns = []
  · subst h0; simp
  · have : ns.length ≠ 0 := fun h => h0 (List.length_eq_zero_iff.mp h)
    rw [if_neg this]
    by_cases h2 : ∀ n ∈ ns, 0 ≤ n ∧ n < 2 ^ 32
    · rw [if_pos h2, if_pos ⟨h0, h2⟩]
    · rw [if_neg h2, if_neg fun h => h2 h.2]

/-- **C107** (one `l`): for a single `l`, given as a number or as a list of length one, the properties are
the number itself, flat arrays with one entry for every particle, and one array of harmonics; for two or
more `l` they are lists and arrays with one column for every `l`. -/
theorem C107_shapes (sph : Steinhardt.Sph) (f : Steinhardt.Several.Flags) (ls : List ℕ)
    (hl : f.wl = true → ∀ l ∈ ls, l ≤ 20) (history : List Steinhardt.Several.Call)
    (hh : ∀ c ∈ history, LegalSeveral ls c) (c : Steinhardt.Several.Call) (hc : LegalSeveral ls c) :
    ∃ R, Steinhardt.Several.resultAfter sph f ls history c = some R ∧
      (∀ l, ls = [l] → ∃ r a,
        Steinhardt.resultAfter sph (f.at l) (history.map (alone · 0)) (alone c 0) = some r ∧
        Steinhardt.Several.pyL ls = .one l ∧ R.pyOrder = .one r.order ∧ R.pyHarmonics = .one a ∧
        a.shape = [c.points.length, 2 * l + 1] ∧
        (R.pyQl f).shape = [c.points.length] ∧
        (R.pyQl f).data = (List.range c.points.length).map (fun i =>
          Steinhardt.Several.asTop ((r.getQl (f.at l)).getD i none)) ∧
        (R.pyParticleOrder f).shape = [c.points.length] ∧
        (R.pyParticleOrder f).data = (List.range c.points.length).map (fun i =>
          Steinhardt.Several.asTop ((r.particleOrder (f.at l)).getD i none))) ∧
      (2 ≤ ls.length → Steinhardt.Several.pyL ls = .many ls ∧ R.pyOrder = .many R.norm ∧
        R.pyHarmonics = .many R.qlmi ∧ (R.pyQl f).shape = [c.points.length, ls.length] ∧
        (R.pyParticleOrder f).shape = [c.points.length, ls.length]) := by
  obtain ⟨R, e, hS, hcol⟩ := C107_columns sph f ls hl history hh c hc
  refine ⟨R, e, fun l hls => ?_, fun h2 => ?_⟩
  · subst hls
    obtain ⟨r, er, hC⟩ := hcol 0 l rfl
    obtain ⟨a, ha, hs, -⟩ := hC.harmonics
    have flat : ∀ (A : MArray (WithTop ℝ)) (v : ℕ → Option ℝ), A.shape = [c.points.length, 1] →
        A.data.length = c.points.length * 1 →
        (∀ i < c.points.length, A.at? [i, 0] = some (Steinhardt.Several.asTop (v i))) →
        (Steinhardt.Several.ravel1 A).shape = [c.points.length] ∧
        (Steinhardt.Several.ravel1 A).data = (List.range c.points.length).map fun i => Steinhardt.Several.asTop (v i) := by
      intro A v h1 h2 h3
      have hr : Steinhardt.Several.ravel1 A = ⟨[A.data.length], A.data⟩ := by
        unfold Steinhardt.Several.ravel1
        rw [if_pos]
        rw [h1]; rfl
      rw [hr]
      refine ⟨by simp [h2], ?_⟩
      apply List.ext_getElem
      · simp [h2]
      · intro i hi hi'
        have hi2 : i < c.points.length := by simpa [h2] using hi
        have := h3 i hi2
        unfold MArray.at? at this
        rw [h1] at this
        simp only [MArray.linIndex, List.zip_cons_cons, List.foldr_cons, List.zip_nil_right, List.foldr_nil,
          MArray.get?, MArray.size] at this
        simp only [zero_mul, add_zero, mul_one, one_mul, zero_add] at this
        rw [if_neg (by omega), List.getElem?_eq_getElem (by omega)] at this
        rw [List.getElem_map, List.getElem_range]
        exact Option.some.inj this
    have h1 := flat (R.getQl f) _ hS.ql.1 hS.ql.2 hC.ql
    have h2 := flat (R.getParticleOrder f) _ hS.particleOrder.1 hS.particleOrder.2 hC.particleOrder
    have hn : R.norm = [r.order] := by
      have h3 := hS.order
      have h4 := hC.order
      match hR : R.norm, h3, h4 with
      | [x], _, h4 => simpa using h4
    have hq : R.qlmi = [a] := by
      have h3 := congrArg List.length hS.harmonics
      match hR : R.qlmi, h3, ha with
      | [x], _, ha => simpa using ha
    refine ⟨r, a, er, rfl, ?_, ?_, hs, h1.1, h1.2, h2.1, h2.2⟩
    · unfold Steinhardt.Several.Results.pyOrder; rw [hn]; rfl
    · unfold Steinhardt.Several.Results.pyHarmonics; rw [hq]; rfl
  · have many : ∀ {A : Type} (L : List A), 2 ≤ L.length → Steinhardt.Several.unpack L = .many L := by
      intro A L hL
      match L, hL with
      | _ :: _ :: _, _ => rfl
    have keep : ∀ (A : MArray (WithTop ℝ)), A.shape = [c.points.length, ls.length] →
        Steinhardt.Several.ravel1 A = A := by
      intro A hA
      unfold Steinhardt.Several.ravel1
      rw [if_neg]
      rw [hA]
      simp only [List.getD_cons_succ, List.getD_cons_zero]
      omega
    refine ⟨many ls h2, many _ (by rw [hS.order]; exact h2), many _ ?_, ?_, ?_⟩
    · have := congrArg List.length hS.harmonics
      simp only [List.length_map] at this
      omega
    · unfold Steinhardt.Several.Results.pyQl; rw [keep _ hS.ql.1]; exact hS.ql.1
    · unfold Steinhardt.Several.Results.pyParticleOrder; rw [keep _ hS.particleOrder.1]; exact hS.particleOrder.1

/-! ### A concrete case -/

/-- The pair of neighbors, for three values of `l`, one of them twice. -/
noncomputable def Steinhardt.Several.pair : Steinhardt.Several.Call where
  box := Steinhardt.pair.box
  points := Steinhardt.pair.points
  nlist := Steinhardt.pair.nlist
  ev := [(0, 1), (1, 0)]
  evAve := [(1, 0), (1, 1)]
  evWl := [(0, 0), (2, 1)]
  reduceOrders := [[2, 0, 1], [0], [1, 2, 0]]

theorem Steinhardt.Several.pair_ok : LegalSeveral [1, 0, 1] Steinhardt.Several.pair := by
  refine ⟨Steinhardt.pair_ok.list, Steinhardt.pair_ok.ev, Steinhardt.pair_ok.evAve, List.Perm.refl _, ?_⟩
  intro j hj
  have : j < 3 := hj
  interval_cases j <;> decide

/-- The hypotheses are met, with a history, and the first column has the values of C76 for the pair: `q_1`
of both particles is 1. -/
example : ∃ R, Steinhardt.Several.resultAfter Steinhardt.sph1 ⟨false, false, false, false⟩ [1, 0, 1]
      [Steinhardt.Several.pair, Steinhardt.Several.pair] Steinhardt.Several.pair = some R ∧
    (R.getQl ⟨false, false, false, false⟩).at? [1, 2] = some 1 := by
  obtain ⟨R, e, -, h⟩ := C107_columns Steinhardt.sph1 ⟨false, false, false, false⟩ [1, 0, 1] (by simp)
    [Steinhardt.Several.pair, Steinhardt.Several.pair] (by
      intro c hc
      simp only [List.mem_cons, List.not_mem_nil, or_false, or_self] at hc
      rw [hc]; exact Steinhardt.Several.pair_ok) Steinhardt.Several.pair Steinhardt.Several.pair_ok
  refine ⟨R, e, ?_⟩
  obtain ⟨r, er, hC⟩ := h 2 1 rfl
  have hok : LegalSteinhardt 1 (alone Steinhardt.Several.pair 2) :=
    ⟨Steinhardt.pair_ok.list, Steinhardt.pair_ok.lengths, Steinhardt.pair_ok.ev, Steinhardt.pair_ok.evAve, by decide⟩
  obtain ⟨r', er', h1, -⟩ := C76_value Steinhardt.sph1 ⟨1, false, false, false, false⟩ Steinhardt.y1
    Steinhardt.y1_ok Steinhardt.sph1_ok (by simp)
    [alone Steinhardt.Several.pair 2, alone Steinhardt.Several.pair 2]
    (by
      intro c hc
      simp only [List.mem_cons, List.not_mem_nil, or_false, or_self] at hc
      rw [hc]; exact hok) _ hok
  have : r = r' := Option.some.inj (er.symm.trans er')
  subst this
  rw [hC.ql 1 (by decide)]
  show some (Steinhardt.Several.asTop (r.qli.getD 1 none)) = _
  rw [h1]
  have h2 : distribution (alone Steinhardt.Several.pair 2).box (alone Steinhardt.Several.pair 2).points false false
      (alone Steinhardt.Several.pair 2).nlist.bonds 1 = some [(1, ⟨-1, 0, 0⟩)] := by
    unfold distribution
    rw [if_neg (by simp)]
    exact Steinhardt.pair_plain.2
  rw [Steinhardt.Several.table_getD (show 1 < (alone Steinhardt.Several.pair 2).points.length by decide), h2]
  simp [qValue, legendre, Vec3.dot, Steinhardt.Several.asTop]

/-- A list with an `l` above 20 and `wl`. -/
example (m : Steinhardt.Several.Mem) : Steinhardt.Several.compute Steinhardt.sph1 ⟨false, true, false, false⟩
    [6, 21] m Steinhardt.Several.pair = none :=
  C107_large _ _ _ rfl 21 (by simp) (by norm_num) _ _

example : Steinhardt.Several.new (.seq [6, 4, 6]) = some [6, 4, 6] ∧ Steinhardt.Several.new (.seq []) = none ∧
    Steinhardt.Several.new (.seq [4, -1]) = none ∧ Steinhardt.Several.new (.one 6) = some [6] := by
  refine ⟨?_, ?_, ?_, ?_⟩ <;> decide

end Freud
