import Verif.Model.Parallel
import Mathlib.Tactic.SplitIfs
import Mathlib.Tactic.Ring
import Mathlib.Order.Basic

/-!
# C58: `NumThreads` restores the thread count

`requested` and `threadsFor` are the specification: what a request means, and how many threads it
gives.  `InForce hw n s` says that `get_num_threads()` reports `n` and TBB uses the matching number
of threads.
-/

namespace Freud.Parallel
open Freud.Parallel

/-- Specification: `None` and negative requests mean "all threads", reported as `0`. -/
def Spec.requested : Option Int → Int
  | none => 0
  | some k => max k 0

/-- Specification: threads used when `get_num_threads()` is `n`. -/
def Spec.threadsFor (hw : Nat) (n : Int) : Nat := if n = 0 then hw else n.toNat

/-- Specification: the thread count in force is `n`. -/
def Spec.InForce (hw : Nat) (n : Int) (s : State) : Prop :=
  getNumThreads s = n ∧ effective hw s = threadsFor hw n

/-- The request fits the 32-bit unsigned argument of the C++ function. -/
def Spec.Fits : Option Int → Prop
  | none => True
  | some k => k < 2 ^ 32

open Spec

/-- Specification: all requests of a program fit. -/
def Spec.AllFit : Prog → Prop
  | .skip | .raise | .work => True
  | .seq p q => AllFit p ∧ AllFit q
  | .attempt p => AllFit p
  | .set n | .new n => Fits n
  | .withObj _ p => AllFit p
  | .withNew n p => Fits n ∧ AllFit p

theorem requested_bounds {n : Option Int} (h : Fits n) :
    0 ≤ requested n ∧ requested n < 2 ^ 32 := by
  cases n with
  | none => simp [requested]
  | some k =>
    have h' : k < 2 ^ 32 := h
    simp only [requested]
    omega

theorem setNumThreads_ok (hw : Nat) (n : Option Int) (s : State) (h : Fits n) :
    setNumThreads hw n s =
      ({ s with numThreads := requested n, control := some (threadsFor hw (requested n)) }, false) := by
  have hb := requested_bounds h
  cases n with
  | none => rfl
  | some k =>
    have key : (if k < 0 then 0 else k) = requested (some k) := by
      simp only [requested]
      split_ifs <;> omega
    unfold setNumThreads cppSetNumThreads
    simp only [key, if_pos hb]
    rfl

/-- The states reached by programs whose requests fit: the reported count is a 32-bit number, TBB
uses the matching number of threads, and every constructed object remembers such a count. -/
def Good (hw : Nat) (s : State) : Prop :=
  (0 ≤ s.numThreads ∧ s.numThreads < 2 ^ 32) ∧ effective hw s = threadsFor hw s.numThreads ∧
    ∀ o ∈ s.objs, (0 ≤ o.restoreN ∧ o.restoreN < 2 ^ 32) ∧ Fits o.n

theorem good_init (hw : Nat) : Good hw init := by
  refine ⟨by decide, rfl, ?_⟩
  intro o ho
  cases ho

theorem good_set (hw : Nat) (n : Option Int) (s : State) (h : Fits n) (hs : Good hw s) :
    Good hw (setNumThreads hw n s).1 := by
  rw [setNumThreads_ok hw n s h]
  exact ⟨requested_bounds h, rfl, hs.2.2⟩

theorem good_construct (hw : Nat) (n : Option Int) (s : State) (h : Fits n) (hs : Good hw s) :
    Good hw (construct n s) := by
  refine ⟨hs.1, hs.2.1, ?_⟩
  intro o ho
  simp only [construct, List.mem_append, List.mem_singleton] at ho
  rcases ho with ho | rfl
  · exact hs.2.2 o ho
  · exact ⟨hs.1, h⟩

theorem good_withBlock (hw : Nat) (o : Obj) (body : State → State × Bool) (s : State)
    (ho : (0 ≤ o.restoreN ∧ o.restoreN < 2 ^ 32) ∧ Fits o.n)
    (hb : ∀ t, Good hw t → Good hw (body t).1) (hs : Good hw s) :
    Good hw (withBlock hw o body s).1 := by
  unfold withBlock
  have he : (setNumThreads hw o.n s).2 = false := by rw [setNumThreads_ok hw o.n s ho.2]
  simp only [he, Bool.false_eq_true, if_false]
  exact good_set hw _ _ ho.1.2 (hb _ (good_set hw _ _ ho.2 hs))

theorem good_exec (hw : Nat) (p : Prog) (s : State) (hp : AllFit p) (hs : Good hw s) :
    Good hw (exec hw p s).1 := by
  induction p generalizing s with
  | skip => exact hs
  | raise => exact hs
  | work => exact hs
  | seq p q ihp ihq =>
    simp only [exec]
    split_ifs with h
    · exact ihp s hp.1 hs
    · exact ihq _ hp.2 (ihp s hp.1 hs)
  | attempt p ih => exact ih s hp hs
  | set n => exact good_set hw n s hp hs
  | new n => exact good_construct hw n s hp hs
  | withObj k p ih =>
    simp only [exec]
    split
    · exact hs
    · rename_i o ho
      exact good_withBlock hw o _ s (hs.2.2 o (List.mem_of_getElem? ho)) (fun t ht => ih t hp ht) hs
  | withNew n p ih =>
    exact good_withBlock hw _ _ _ ⟨hs.1, hp.1⟩ (fun t ht => ih t hp.2 ht)
      (good_construct hw n s hp.1 hs)

/-- The state in which the body of `with NumThreads(n):` starts. -/
def enterNew (hw : Nat) (n : Option Int) (s : State) : State :=
  (setNumThreads hw n (construct n s)).1

/-- **C58**: after any program whose requests fit in 32 bits, the number of threads reported and the
number used agree, whatever blocks were entered and whatever exceptions were raised. -/
theorem C58_reported_is_used (hw : Nat) (p : Prog) (hp : AllFit p) :
    InForce hw (getNumThreads (exec hw p init).1) (exec hw p init).1 :=
  ⟨rfl, (good_exec hw p init hp (good_init hw)).2.1⟩

theorem with_block_good (hw : Nat) (body : Prog) (n : Option Int) (s : State)
    (hs : Good hw s) (hn : Fits n) :
    exec hw (.withNew n body) s =
      ({ (exec hw body (enterNew hw n s)).1 with
          numThreads := s.numThreads, control := some (threadsFor hw s.numThreads) },
        (exec hw body (enterNew hw n s)).2) := by
  have he := setNumThreads_ok hw n (construct n s) hn
  have hf : Fits (some s.numThreads) := hs.1.2
  have hm : requested (some s.numThreads) = s.numThreads := by
    have := hs.1.1
    simp only [requested]; omega
  have hr : exec hw (.withNew n body) s =
    withBlock hw ⟨s.numThreads, n⟩ (exec hw body) (construct n s) := rfl
  rw [hr]
  unfold withBlock
  have he2 : (setNumThreads hw n (construct n s)).2 = false := by rw [he]
  simp only [he2, Bool.false_eq_true, if_false]
  rw [setNumThreads_ok hw _ _ hf, hm]
  simp only [Bool.or_false]
  rfl

/-- **C58**: at any point of any program, `with NumThreads(n): body` runs the body with the requested
number of threads, for **every** body restores on exit the count in force at entry, and lets an
exception of the body through (and raises none of its own). -/
theorem C58_with_block (hw : Nat) (before body : Prog) (n : Option Int)
    (hp : AllFit before) (hn : Fits n) :
    let s := (exec hw before init).1
    let r := exec hw (.withNew n body) s
    InForce hw (requested n) (enterNew hw n s) ∧
    InForce hw (getNumThreads s) s ∧ InForce hw (getNumThreads s) r.1 ∧
    r.2 = (exec hw body (enterNew hw n s)).2 ∧
    r.1.log = (exec hw body (enterNew hw n s)).1.log := by
  intro s r
  have hs : Good hw s := good_exec hw before init hp (good_init hw)
  have hr2 := with_block_good hw body n s hs hn
  refine ⟨?_, ⟨rfl, hs.2.1⟩, ?_, ?_, ?_⟩
  · unfold enterNew
    rw [setNumThreads_ok hw n (construct n s) hn]
    exact ⟨rfl, rfl⟩
  · show InForce hw _ (exec hw (.withNew n body) s).1
    rw [hr2]; exact ⟨rfl, rfl⟩
  · show (exec hw (.withNew n body) s).2 = _
    rw [hr2]
  · show (exec hw (.withNew n body) s).1.log = _
    rw [hr2]

-- the hypotheses hold and the body can do anything, including failing half way
example :
    let s := (exec 8 (.set (some 3)) init).1
    let r := exec 8 (.withNew (some 2) (.seq .work (.seq (.set (some 5)) .raise))) s
    (getNumThreads r.1, effective 8 r.1, r.1.log, r.2) = (3, 3, [2], true) := by decide

/-- Nested blocks, with a computation just after each of them:
`with NumThreads(n₁): (with NumThreads(n₂): (…body…); work); work`. -/
def nest : List (Option Int) → Prog → Prog
  | [], body => body
  | n :: ns, body => .seq (.withNew n (nest ns body)) .work

/-- The state in which the innermost body starts. -/
def enterAll (hw : Nat) : List (Option Int) → State → State
  | [], s => s
  | n :: ns, s => enterAll hw ns (enterNew hw n s)

theorem nested_good (hw : Nat) (ns : List (Option Int)) (body : Prog) (s : State)
    (hs : Good hw s) (hns : ∀ n ∈ ns, Fits n)
    (hbody : (exec hw body (enterAll hw ns s)).2 = false) :
    (exec hw (nest ns body) s).2 = false ∧
    (exec hw (nest ns body) s).1.log = (exec hw body (enterAll hw ns s)).1.log ++
      ((s.numThreads :: ns.map requested).dropLast.map (threadsFor hw)).reverse := by
  induction ns generalizing s with
  | nil => exact ⟨hbody, by simp [nest, enterAll]⟩
  | cons n ns ih =>
    have hn : Fits n := hns n (List.mem_cons_self ..)
    have hg : Good hw (enterNew hw n s) := good_set hw _ _ hn (good_construct hw n s hn hs)
    have hnum : (enterNew hw n s).numThreads = requested n := by
      unfold enterNew
      rw [setNumThreads_ok hw n (construct n s) hn]
    obtain ⟨h1, h2⟩ := ih (enterNew hw n s) hg (fun m hm => hns m (List.mem_cons_of_mem _ hm)) hbody
    have hb := with_block_good hw (nest ns body) n s hs hn
    have hx : exec hw (nest (n :: ns) body) s = exec hw .work (exec hw (.withNew n (nest ns body)) s).1 := by
      show (if (exec hw (.withNew n (nest ns body)) s).2 = true then _ else _) = _
      rw [if_neg]
      rw [hb, h1]
      decide
    rw [hx]
    refine ⟨rfl, ?_⟩
    rw [hb]
    simp only [exec, effective, Option.getD_some]
    rw [h2, hnum]
    simp [enterAll]

/-- **C58**: nested blocks restore in reverse order.  However deep the nesting and whatever the
innermost body does (as long as it does not raise), the computations that follow the blocks, innermost
first, see the counts of the enclosing blocks in reverse order and finally the count in force
before the outermost. -/
theorem C58_nested (hw : Nat) (before body : Prog) (ns : List (Option Int))
    (hp : AllFit before) (hns : ∀ n ∈ ns, Fits n) :
    let s := (exec hw before init).1
    (exec hw body (enterAll hw ns s)).2 = false →
    (exec hw (nest ns body) s).2 = false ∧
    (exec hw (nest ns body) s).1.log = (exec hw body (enterAll hw ns s)).1.log ++
      ((getNumThreads s :: ns.map requested).dropLast.map (threadsFor hw)).reverse := by
  intro s hbody
  exact nested_good hw ns body s (good_exec hw before init hp (good_init hw)) hns hbody

example : (exec 8 (nest [some 2, none, some 3] (.seq .work (.set (some 7))))
    (exec 8 (.set (some 4)) init).1).1.log = [3, 8, 2, 4] := by decide

/-- **C58** (part: a block entered through an object constructed earlier).  `with x:` puts back the
count that was in force when `x` was **constructed**.  Missing: the count at entry, which is false,
see the counterexamples. -/
theorem C58_with_object_partial (hw : Nat) (first between body : Prog) (n : Option Int)
    (h1 : AllFit first) (hn : Fits n) (h2 : AllFit between) :
    let s0 := (exec hw first init).1
    let s1 := (exec hw between (construct n s0)).1
    s1.objs[s0.objs.length]? = some ⟨getNumThreads s0, n⟩ ∧
    InForce hw (getNumThreads s0) (exec hw (.withObj s0.objs.length body) s1).1 ∧
    (exec hw (.withObj s0.objs.length body) s1).2 =
      (exec hw body (setNumThreads hw n s1).1).2 := by
  intro s0 s1
  have hs0 : Good hw s0 := good_exec hw first init h1 (good_init hw)
  have keep : ∀ (p : Prog) (s : State), s.objs <+: (exec hw p s).1.objs := by
    have hset : ∀ (m : Option Int) (s : State), (setNumThreads hw m s).1.objs = s.objs := by
      intro m s
      unfold setNumThreads cppSetNumThreads
      dsimp only
      split <;> rename_i h
      · split_ifs at h
        all_goals (injection h with h; subst h; rfl)
      · rfl
    have hblk : ∀ (o : Obj) (b : State → State × Bool) (s : State),
        (∀ t, t.objs <+: (b t).1.objs) → s.objs <+: (withBlock hw o b s).1.objs := by
      intro o b s hb
      unfold withBlock
      dsimp only
      split_ifs with h
      · rw [hset]; exact List.prefix_refl _
      · rw [hset]
        have := hb (setNumThreads hw o.n s).1
        rwa [hset] at this
    intro p
    induction p with
    | skip => intro s; exact List.prefix_refl _
    | raise => intro s; exact List.prefix_refl _
    | work => intro s; exact List.prefix_refl _
    | seq p q ihp ihq =>
      intro s
      simp only [exec]
      split_ifs with h
      · exact ihp s
      · exact (ihp s).trans (ihq _)
    | attempt p ih => intro s; exact ih s
    | set m => intro s; simp only [exec]; rw [hset]; exact List.prefix_refl _
    | new m => intro s; exact List.prefix_append _ _
    | withObj k p ih =>
      intro s
      simp only [exec]
      split
      · exact List.prefix_refl _
      · exact hblk _ _ _ ih
    | withNew m p ih =>
      intro s
      have h1 : s.objs <+: (construct m s).objs := List.prefix_append _ _
      have h2 := hblk ⟨s.numThreads, m⟩ (exec hw p) (construct m s) ih
      exact h1.trans h2
  have hget : s1.objs[s0.objs.length]? = some ⟨getNumThreads s0, n⟩ := by
    obtain ⟨t, ht⟩ := keep between (construct n s0)
    show (exec hw between (construct n s0)).1.objs[s0.objs.length]? = _
    rw [← ht]
    simp [construct, getNumThreads]
  have hf : Fits (some s0.numThreads) := hs0.1.2
  have hm : requested (some s0.numThreads) = s0.numThreads := by
    have := hs0.1.1
    simp only [requested]; omega
  have hx : exec hw (.withObj s0.objs.length body) s1 =
      withBlock hw ⟨getNumThreads s0, n⟩ (exec hw body) s1 := by
    simp only [exec, hget]
  have he2 : (setNumThreads hw n s1).2 = false := by rw [setNumThreads_ok hw n s1 hn]
  refine ⟨hget, ?_, ?_⟩
  · rw [hx]
    unfold withBlock
    simp only [he2, Bool.false_eq_true, if_false]
    rw [setNumThreads_ok hw (some (getNumThreads s0)) _ hf]
    refine ⟨hm, ?_⟩
    show threadsFor hw (requested (some s0.numThreads)) = _
    rw [hm]; rfl
  · rw [hx]
    unfold withBlock
    simp only [he2, Bool.false_eq_true, if_false]
    rw [setNumThreads_ok hw (some (getNumThreads s0)) _ hf]
    simp

/-- **C58**, counterexample: `x = NumThreads(2); set_num_threads(4); with x: pass` leaves the count at
its value when `x` was constructed (all threads), not at 4. -/
theorem C58_constructed_earlier_counterexample :
    let s := (exec 8 (.seq (.new (some 2)) (.set (some 4))) init).1
    getNumThreads s = 4 ∧ getNumThreads (exec 8 (.withObj 0 .skip) s).1 = 0 := by decide

/-- **C58**, counterexample: entering the same object again inside its own block
(`with NumThreads(2) as x:` / `with x: pass`) leaves the rest of the outer block with all threads. -/
theorem C58_reentered_counterexample :
    (exec 8 (.withNew (some 2) (.seq .work (.seq (.withObj 0 .skip) .work))) init).1.log = [2, 8] := by
  decide

/-- **C58**, counterexample: a request too large for the C++ argument raises after the module variable
was assigned; the block is never entered, nothing is restored, and the reported count is no longer the
count in use. -/
theorem C58_too_large_counterexample :
    let r := exec 8 (.withNew (some (2 ^ 40)) .skip) (exec 8 (.set (some 3)) init).1
    r.2 = true ∧ getNumThreads r.1 = 2 ^ 40 ∧ effective 8 r.1 = 3 := by decide

end Freud.Parallel
