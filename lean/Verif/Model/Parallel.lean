/-!
# Thread count control (freud/parallel.py, freud/parallel/tbb_config.cc)

`freud.parallel` keeps the requested number of threads in a module variable and hands it to a
`tbb::global_control`.  The model has the module variable, the live control object, the `NumThreads`
objects constructed so far, and a log of the number of threads in force at each computation.
Programs are Python statement blocks built from the public functions, `with` blocks and `raise`.

Simplifications: integers only (a float argument is outside the model); a control object is its
parallelism limit; `std::thread::hardware_concurrency()` is the parameter `hw`.
-/

namespace Freud.Parallel

/-- A `NumThreads` object: `self.restore_N`, `self.N` (freud/parallel.py:52-54). -/
structure Obj where
  restoreN : Int
  n : Option Int
  deriving DecidableEq

/-- `_num_threads` (freud/parallel.py:15), `tbb_thread_control` (freud/parallel/tbb_config.cc:16,
empty before the first call), the `NumThreads` objects in order of construction, and the thread
counts in force at each computation so far (newest last). -/
structure State where
  numThreads : Int
  control : Option Nat
  objs : List Obj
  log : List Nat
  deriving DecidableEq

/-- The state after `import freud` (freud/parallel.py:15; tbb_config.cc:16). -/
def init : State := ⟨0, none, [], []⟩

/-- The number of threads TBB uses: the control's limit, or all hardware threads when there is no
control (tbb_config.cc:16-36). -/
def effective (hw : Nat) (s : State) : Nat := s.control.getD hw

/-- `get_num_threads()` (freud/parallel.py:18-26). -/
def getNumThreads (s : State) : Int := s.numThreads

/-- C++ `setNumThreads(unsigned int N)` (tbb_config.cc:25-36).  The binding refuses values that do not
fit an `unsigned int` (`none`: TypeError). -/
def cppSetNumThreads (hw : Nat) (n : Int) (s : State) : Option State :=
  if 0 ≤ n ∧ n < 2 ^ 32 then
    some { s with control := some (if n = 0 then hw else n.toNat) }
  else none

/-- `set_num_threads(nthreads)` (freud/parallel.py:29-43).  The Boolean says whether it raised; the
module variable is assigned before the C++ call. -/
def setNumThreads (hw : Nat) (nthreads : Option Int) (s : State) : State × Bool :=
  let n := match nthreads with
    | none => 0
    | some k => if k < 0 then 0 else k
  let s1 := { s with numThreads := n }
  match cppSetNumThreads hw n s1 with
  | some s2 => (s2, false)
  | none => (s1, true)

/-- `NumThreads(N)` (freud/parallel.py:52-54). -/
def construct (n : Option Int) (s : State) : State :=
  { s with objs := s.objs ++ [⟨s.numThreads, n⟩] }

/-- Python programs over this module. -/
inductive Prog
  /-- nothing -/
  | skip
  /-- `p; q` -/
  | seq (p q : Prog)
  /-- `raise` -/
  | raise
  /-- `try: p` / `except: pass` -/
  | attempt (p : Prog)
  /-- a parallel computation: logs the number of threads in force -/
  | work
  /-- `set_num_threads(n)` -/
  | set (n : Option Int)
  /-- `x = NumThreads(n)` -/
  | new (n : Option Int)
  /-- `with x: p` for the `k`-th object constructed -/
  | withObj (k : Nat) (p : Prog)
  /-- `with NumThreads(n): p` -/
  | withNew (n : Option Int) (p : Prog)

/-- `with o: body` (freud/parallel.py:56-61 and the language's `with` protocol): if `__enter__` raises
the body and `__exit__` are skipped; otherwise `__exit__` runs whether or not the body raised, and
returns `None`, so an exception of the body goes on. -/
def withBlock (hw : Nat) (o : Obj) (body : State → State × Bool) (s : State) : State × Bool :=
  let e := setNumThreads hw o.n s
  if e.2 then e
  else
    let b := body e.1
    let x := setNumThreads hw (some o.restoreN) b.1
    (x.1, b.2 || x.2)

/-- Execution; the Boolean says whether an exception leaves the program. -/
def exec (hw : Nat) : Prog → State → State × Bool
  | .skip, s => (s, false)
  | .seq p q, s => let r := exec hw p s; if r.2 then r else exec hw q r.1
  | .raise, s => (s, true)
  | .attempt p, s => ((exec hw p s).1, false)
  | .work, s => ({ s with log := s.log ++ [effective hw s] }, false)
  | .set n, s => setNumThreads hw n s
  | .new n, s => (construct n s, false)
  | .withObj k p, s =>
    match s.objs[k]? with
    | none => (s, true)
    | some o => withBlock hw o (exec hw p) s
  | .withNew n p, s =>
    withBlock hw ⟨s.numThreads, n⟩ (exec hw p) (construct n s)

end Freud.Parallel
