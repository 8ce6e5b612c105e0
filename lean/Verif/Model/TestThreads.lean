/-!
# Model of tests that run in several threads (`unpythonic/test/fixtures.py`, `unpythonic/syntax/testingtools.py`)

The counters of the test framework are shared by all threads, and updated under a lock (fixtures.py:166-175): a thread waits for the lock, reads the counter, writes
it, and releases the lock.  Between any two of these steps other threads may run.  The state of the testsets belongs to a thread, and exists only in the
thread that has imported the module (fixtures.py:533-534, 567, 604), which is that with number 0; its tests are in a session.

What a test does before it is counted is in `Verif.Model.Fixtures`; here a test is its outcome.  No postprocessors.
-/
namespace Unpy.TestThreads

/-- `tests_run`, `tests_failed`, `tests_errored`, `tests_warned` (fixtures.py:151-154) -/
inductive Counter where
  | run
  | failed
  | errored
  | warned
  deriving DecidableEq

inductive Outcome where
  | passed
  | failed
  | errored
  | warned
  deriving DecidableEq

/-- The code that a thread runs: tests, and testsets with more of it, one after the other. -/
inductive Code where
  | done
  | test (o : Outcome) (rest : Code)
  | testset (body rest : Code)

/-- What the assert functions add to the counters, in order (testingtools.py:621, 631-667, 720-742, 754-777). -/
def updates : Outcome → List (Counter × Int)
  | .passed => [(.run, 1)]
  | .failed => [(.run, 1), (.failed, 1)]
  | .errored => [(.run, 1), (.errored, 1)]
  | .warned => [(.run, 1), (.warned, 1), (.run, -1)]

inductive Act where
  /-- `_update(counter, delta)` -/
  | update (c : Counter) (d : Int)
  /-- `counters()`, when a testset begins (fixtures.py:622) -/
  | begin
  /-- `counters()` when it ends, and the report of the differences (fixtures.py:710-720) -/
  | report
  deriving DecidableEq

def acts (us : List (Counter × Int)) : List Act := us.map (fun u => .update u.1 u.2)

/-- What the thread that has imported the module does: a test that does not pass signals a condition, which the testset handles, and the program goes on. -/
def mainActs : Code → List Act
  | .done => []
  | .test o rest => acts (updates o) ++ mainActs rest
  | .testset body rest => .begin :: (mainActs body ++ .report :: mainActs rest)

/-- What another thread does.  Handlers belong to a thread, so when a test does not pass, there are none, and `cerror` raises `ControlError`
(testingtools.py:709); a testset looks at the counters, and then for the nesting level of the thread, which has none: AttributeError (fixtures.py:622, 630).
Either ends the thread. -/
def otherActs : Code → List Act
  | .done => []
  | .test o rest => acts (updates o) ++ (if o = .passed then otherActs rest else [])
  | .testset _ _ => [.begin]

/-- Where a thread is in an update (fixtures.py:174-175), or in reading the counters. -/
inductive Phase where
  | start
  /-- it has the lock -/
  | locked
  /-- it has the lock, and has read the counter -/
  | got (v : Int)
  /-- it has the lock, and has written the counter -/
  | wrote
  /-- it has read these counters -/
  | reading (vs : List Int)
  deriving DecidableEq

structure Thread where
  todo : List Act
  phase : Phase
  /-- the counters at the beginning of the testsets it is in, the innermost first -/
  begins : List (List Int)
  /-- the numbers in the reports, the last one first -/
  reports : List (List Int)

structure State where
  count : Counter → Int
  lock : Option Nat
  threads : List Thread

def set (count : Counter → Int) (c : Counter) (v : Int) : Counter → Int := fun c' => if c' = c then v else count c'

/-- The order in which `counters()` reads them (fixtures.py:617-621). -/
def order : List Counter := [.run, .failed, .errored, .warned]

/-- All four have been read. -/
def finish (th : Thread) (act : Act) (rest : List Act) (vs : List Int) : Thread :=
  match act, th.begins with
  | .report, b :: bs => { th with todo := rest, phase := .start, begins := bs, reports := List.zipWith (· - ·) vs b :: th.reports }
  | _, bs => { th with todo := rest, phase := .start, begins := vs :: bs }

/-- One step of thread `i`, in state `s`: what is shared, and the thread. -/
def stepThread (s : State) (i : Nat) (th : Thread) : (Counter → Int) × Option Nat × Thread :=
  match th.todo with
  | [] => (s.count, s.lock, th)
  | .update c d :: rest =>
    match th.phase with
    | .locked => (s.count, s.lock, { th with phase := .got (s.count c) })
    | .got v => (set s.count c (v + d), s.lock, { th with phase := .wrote })
    | .wrote => (s.count, none, { th with todo := rest, phase := .start })
    | _ => if s.lock = none then (s.count, some i, { th with phase := .locked }) else (s.count, s.lock, th)
  | act :: rest =>
    let vs := match th.phase with
      | .reading vs => vs
      | _ => []
    match order[vs.length]? with
    | some c =>
      if vs.length + 1 = order.length then (s.count, s.lock, finish th act rest (vs ++ [s.count c]))
      else (s.count, s.lock, { th with phase := .reading (vs ++ [s.count c]) })
    | none => (s.count, s.lock, th)

def step (s : State) (i : Nat) : State :=
  match s.threads[i]? with
  | none => s
  | some th =>
    let r := stepThread s i th
    ⟨r.1, r.2.1, s.threads.set i r.2.2⟩

/-- Which thread runs when. -/
def exec (s : State) (schedule : List Nat) : State := schedule.foldl step s

def thread (todo : List Act) : Thread := ⟨todo, .start, [], []⟩

/-- The main thread and the others begin. -/
def init (main : Code) (others : List Code) : State :=
  ⟨fun _ => 0, none, thread (mainActs main) :: others.map (fun c => thread (otherActs c))⟩

end Unpy.TestThreads
