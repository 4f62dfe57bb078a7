import Verif.Model.Compute
import Verif.Model.MSD
import Verif.Props.RDF

/-!
# C56 and C57: what a failed compute leaves behind
-/

namespace Freud.Compute
open Freud

variable {A R V : Type*}

set_option linter.unusedSectionVars false

/-- Specification: a property guarded by the protocol is available. -/
def Spec.Available (get : R → R × V) (o : Obj R) : Prop := (read get o).2 ≠ .attributeError

/-- Specification: no statement of the body itself sets the flag. -/
def Spec.FlagFree (steps : List (Step A R)) : Prop := ∀ s ∈ steps, s ≠ Step.flag

open Spec

theorem body_called (steps : List (Step A R)) (h : FlagFree steps) (a : A) (o : Obj R) :
    (body steps a o).1.called = o.called := by
  induction steps generalizing o with
  | nil => rfl
  | cons s l ih =>
    have hl : FlagFree l := fun x hx => h x (List.mem_cons_of_mem _ hx)
    cases s with
    | act f =>
      simp only [body]
      split_ifs
      · rfl
      · exact ih hl _
    | flag => exact absurd rfl (h .flag (List.mem_cons_self ..))

theorem compute_called (steps : List (Step A R)) (h : FlagFree steps) (a : A) (o : Obj R) :
    (compute steps a o).1.called = (o.called || !(compute steps a o).2) := by
  have hb := body_called steps h a o
  simp only [compute]
  split_ifs with e
  · rw [hb, e]; simp
  · simp

theorem run_called (steps : List (Step A R)) (h : FlagFree steps) (get : R → R × V)
    (ops : List (Op A)) (o : Obj R) :
    (run steps get ops o).1.called = (o.called || (run steps get ops o).2.any (fun raised => !raised)) := by
  induction ops generalizing o with
  | nil => simp [run]
  | cons op ops ih =>
    cases op with
    | compute a =>
      simp only [run, List.any_cons]
      rw [ih, compute_called steps h, Bool.or_assoc]
    | read =>
      simp only [run]
      rw [ih]
      congr 1
      simp only [read]
      split_ifs <;> rfl

/-- **C56**: for every class whose `compute` does not touch the flag itself, after every history of
computes (successful or failing) and reads: a computed property raises `AttributeError` if and only if no
`compute` has returned so far; otherwise it gives its value.  The same holds for `plot`. -/
theorem C56_available_iff (steps : List (Step A R)) (h : FlagFree steps) (get : R → R × V)
    (draw : R → V) (r : R) (ops : List (Op A)) :
    let o := (run steps get ops (new r)).1
    let raised := (run steps get ops (new r)).2
    ((read get o).2 = .attributeError ↔ ∀ x ∈ raised, x = true) ∧
    ((∃ x ∈ raised, x = false) → (read get o).2 = .value (get o.res).2) ∧
    (plot draw o = .attributeError ↔ ∀ x ∈ raised, x = true) := by
  intro o raised
  have hc : o.called = raised.any (fun x => !x) := by
    have := run_called steps h get ops (new r)
    rw [this]; rfl
  have hiff : o.called = false ↔ ∀ x ∈ raised, x = true := by
    rw [hc, List.any_eq_false]
    constructor
    · intro h x hx
      have := h x hx
      cases x <;> simp_all
    · intro h x hx
      rw [h x hx]; simp
  refine ⟨?_, ?_, ?_⟩
  · rw [← hiff]
    simp only [read]
    split_ifs with e <;> simp [e]
  · rintro ⟨x, hx, hf⟩
    have : o.called = true := by
      by_contra hn
      have := hiff.1 (by simpa using hn) x hx
      rw [hf] at this; cases this
    simp only [read, this, if_true]
  · rw [← hiff]
    simp only [plot]
    split_ifs with e <;> simp [e]

/-- **C56**: the outcome of a call does not depend on earlier reads, and reads never change availability. -/
theorem C56_reads_do_not_matter (get : R → R × V) (o : Obj R) :
    ((read get (read get o).1).2 = .attributeError ↔ (read get o).2 = .attributeError) := by
  simp only [read]
  split_ifs <;> simp_all

/-- `C56_available_iff` applies to RDF, Cluster and to every class that validates first. -/
theorem C56_applies :
    FlagFree (rdfBody (3 : ℚ) ⟨2, 1, 2⟩) ∧ FlagFree clusterBody ∧
    ∀ (ok : A → Bool) (f : A → R → R), FlagFree (validateFirst ok f) := by
  refine ⟨?_, ?_, ?_⟩
  · intro s hs
    simp only [rdfBody, check, update, List.mem_cons, List.not_mem_nil, or_false] at hs
    rcases hs with rfl | rfl | rfl | rfl | rfl <;> exact nofun
  · intro s hs
    simp only [clusterBody, check, update, List.mem_cons, List.not_mem_nil, or_false] at hs
    rcases hs with rfl | rfl | rfl | rfl <;> exact nofun
  · intro ok f s hs
    simp only [validateFirst, check, update, List.mem_cons, List.not_mem_nil, or_false] at hs
    rcases hs with rfl | rfl <;> exact nofun

-- a history with failures before and after a success
example :
    let steps : List (Step (Bool × ℕ) ℕ) := validateFirst (fun a => a.1) (fun a _ => a.2)
    let get : ℕ → ℕ × ℕ := fun r => (r, r)
    (read get (run steps get [.compute (false, 7), .read] (new 0)).1).2 = .attributeError ∧
    (read get (run steps get [.compute (false, 7), .compute (true, 5), .compute (false, 9)] (new 0)).1).2
      = .value 5 := by decide

/-- **C56**, counterexample: `MSD.compute` sets the flag before it validates its arguments.  After a
first call that raises, reading `msd` no longer raises AttributeError (but ValueError). -/
theorem C56_msd_counterexample (box : Option (Box ℝ)) (mode : MSD.Mode) :
    let r := MSD.compute (MSD.new box mode) ⟨2, [[⟨0, 0, 0⟩]], none⟩ true
    MSD.msd (MSD.new box mode) = .attributeError ∧ r.2 = true ∧ MSD.msd r.1 = .valueError := by
  refine ⟨rfl, ?_, ?_⟩ <;> simp [MSD.compute, MSD.Arg.ok, MSD.new, MSD.msd, MSD.concatenate]

/-! ### C57 -/

/-- Specification: the statement leaves the results alone when it raises or passes. -/
def Spec.OnlyChecks (s : Step A R) : Prop := ∃ ok : A → Bool, s = check ok

/-- Specification: the statement never raises. -/
def Spec.NeverRaises (s : Step A R) : Prop := ∃ f : A → R → R, s = update f

theorem body_updates (l : List (Step A R)) (h : ∀ s ∈ l, NeverRaises s) (a : A) (o : Obj R) :
    (body l a o).2 = false := by
  induction l generalizing o with
  | nil => rfl
  | cons s l ih =>
    obtain ⟨f, rfl⟩ := h s (List.mem_cons_self ..)
    simp only [update, body, Bool.false_eq_true, if_false]
    exact ih (fun x hx => h x (List.mem_cons_of_mem _ hx)) _

/-- **C57**: for every class whose `compute` makes all its checks before its first change, a call that
raises leaves the object exactly as it was, so every property returns what it returned before. -/
theorem C57_checks_first (checks updates : List (Step A R)) (hc : ∀ s ∈ checks, OnlyChecks s)
    (hu : ∀ s ∈ updates, NeverRaises s) (a : A) (o : Obj R) (get : R → R × V)
    (hraise : (compute (checks ++ updates) a o).2 = true) :
    (compute (checks ++ updates) a o).1 = o ∧
    (read get (compute (checks ++ updates) a o).1).2 = (read get o).2 := by
  have key : ∀ l : List (Step A R), (∀ s ∈ l, OnlyChecks s) →
      (body (l ++ updates) a o).2 = true → (body (l ++ updates) a o).1 = o := by
    intro l
    induction l with
    | nil =>
      intro _ h
      have := body_updates updates hu a o
      rw [List.nil_append, this] at h
      cases h
    | cons s l ih =>
      intro hl h
      obtain ⟨ok, rfl⟩ := hl s (List.mem_cons_self ..)
      rw [List.cons_append] at h ⊢
      simp only [check, body] at h ⊢
      split_ifs at h ⊢ with e
      · rfl
      · exact ih (fun x hx => hl x (List.mem_cons_of_mem _ hx)) h
  have h1 : (compute (checks ++ updates) a o).1 = o := by
    simp only [compute] at hraise ⊢
    split_ifs at hraise ⊢ with e
    exact key checks hc e
  exact ⟨h1, by rw [h1]⟩

/-- **C57**, for the classes of `validateFirst` and any history before: a raising call changes nothing,
also over any number of raising calls in a row. -/
theorem C57_validate_first (ok : A → Bool) (f : A → R → R) (get : R → R × V) (r : R)
    (ops : List (Op A)) (bad : List A) (hbad : ∀ a ∈ bad, ok a = false) :
    let o := (run (validateFirst ok f) get ops (new r)).1
    (run (validateFirst ok f) get (bad.map Op.compute) o).1 = o := by
  intro o
  generalize o = o'
  induction bad with
  | nil => rfl
  | cons a bad ih =>
    have ha := hbad a (List.mem_cons_self ..)
    have : compute (validateFirst ok f) a o' = (o', true) := by
      simp [compute, validateFirst, check, body, ha]
    simp only [List.map_cons, run, this]
    exact ih (fun x hx => hbad x (List.mem_cons_of_mem _ hx))

example :
    let steps : List (Step (Bool × ℕ) ℕ) := validateFirst (fun a => a.1) (fun a _ => a.2)
    (compute steps (false, 9) ⟨true, 5⟩).2 = true ∧ (compute steps (false, 9) ⟨true, 5⟩).1.res = 5 ∧
    (compute steps (true, 9) ⟨true, 5⟩).1.res = 9 := by decide

section
variable {K : Type*} [Field K] [LinearOrder K] [IsStrictOrderedRing K] [FloorRing K]

/-- **C57** (part, for the accumulating histogram classes).  A call with `reset=False` whose arguments
are refused in Python leaves everything as it was.  Missing: `reset=True`, and arguments that are only
refused by the neighbor query; both are false, see the counterexamples. -/
theorem C57_histogram_partial (pi : K) (ax : RegularAxis K) (a : RDFArg K) (o : Obj (RDFRes K))
    (hr : a.reset = false) (hp : a.pyOk = false) :
    compute (rdfBody pi ax) a o = (o, true) := by
  simp [compute, rdfBody, check, update, body, hr, hp]

end

/-- A first frame in a box of edge 10 and a second one in a box of edge 20. -/
def exArg (reset pyOk cppOk : Bool) (L : ℚ) : RDFArg ℚ :=
  ⟨reset, pyOk, cppOk, ⟨rdfBox L, 2, 2⟩, 2, rdfDists, [(0, 0), (0, 1)]⟩

/-- What is read after a history of calls on an RDF object with two bins between 1 and 2. -/
def exRdf (ops : List (Op (RDFArg ℚ))) : Outcome (List ℚ) × List Bool :=
  let o := run (rdfBody (3 : ℚ) ⟨2, 1, 2⟩) (rdfGet 3 ⟨2, 1, 2⟩ [0, 1]) ops
    (new (RDF.new ⟨2, 1, 2⟩ .exact (rdfBox 1)))
  ((read (rdfGet 3 ⟨2, 1, 2⟩ [0, 1]) o.1).2, o.2)

/-- **C57**, counterexample: `RDF.compute(..., reset=True)` erases the earlier results before it looks
at its arguments; after a call that raises, `rdf` is zero. -/
theorem C57_reset_first_counterexample :
    exRdf [.compute (exArg true true true 10)] = (.value [0, 1000 / 37], [false]) ∧
    exRdf [.compute (exArg true true true 10), .compute (exArg true false true 10)] =
      (.value [0, 0], [false, true]) := by
  decide +kernel

/-- **C57**, counterexample: with `reset=False`, a query that raises in the C++ loop has already replaced the
box; the earlier bonds are then normalized with the volume of the refused system. -/
theorem C57_box_replaced_counterexample :
    exRdf [.compute (exArg true true true 10), .compute (exArg false true false 20)] ≠
      ((exRdf [.compute (exArg true true true 10)]).1, [false, true]) ∧
    -- if `rdf` was read in between, the old value is cached and survives
    exRdf [.compute (exArg true true true 10), .read, .compute (exArg false true false 20)] =
      ((exRdf [.compute (exArg true true true 10)]).1, [false, true]) := by
  decide +kernel

/-- **C57**, counterexample: `Cluster.compute` installs a new array of labels before the neighbor query,
which may raise; `cluster_idx` is then all zero although `num_clusters` is still that of the earlier
call. -/
theorem C57_cluster_counterexample :
    let good : ClusterArg := ⟨true, 3, true, ⟨2, [0, 1, 0], [[0, 2], [1]]⟩⟩
    let bad : ClusterArg := ⟨true, 3, false, ⟨1, [0, 0, 0], [[0, 1, 2]]⟩⟩
    let o1 := (compute clusterBody good (new ⟨0, [], []⟩)).1
    let r := compute clusterBody bad o1
    o1.res.clusterIdx = [0, 1, 0] ∧ r.2 = true ∧ r.1.called = true ∧
      r.1.res.clusterIdx = [0, 0, 0] ∧ r.1.res.num = 2 := by
  decide

/-- **C57**, counterexample: a failing `MSD.compute` with `reset=True` drops the earlier results. -/
theorem C57_msd_counterexample (s : MSD.State) :
    let r := MSD.compute s ⟨2, [[⟨0, 0, 0⟩]], none⟩ true
    r.2 = true ∧ r.1.batches = [] ∧ MSD.msd r.1 = .valueError := by
  refine ⟨?_, ?_, ?_⟩ <;> simp [MSD.compute, MSD.Arg.ok, MSD.msd, MSD.concatenate]

end Freud.Compute
