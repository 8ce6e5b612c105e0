import Verif.Model.Py
/-!
# Model of `async_raise` (`unpythonic/excutil.py`)

Threads are started, run and end in any order.  CPython identifies a running thread by a number, which a later thread may get again once the thread has ended, and keeps for each at most one exception that is to be raised
asynchronously (`PyThreadState_SetAsyncExc`); it is raised when the thread runs next.

Simplified: exceptions have a class and nothing else, and a thread that gets one goes on running.  Starting a thread is one step (a thread that is being started has no number yet).  At most one thread has a number, so that the branch for several (excutil.py:314-317) is left out; and the interpreter is
CPython.
-/
namespace Unpy.AsyncRaise
open Unpy
variable {K I : Type}

/-- What is given to `async_raise`: an exception class, or an instance -/
inductive Exc (K I : Type) where
  | cls (k : K)
  | inst (i : I)
  deriving DecidableEq

/-- What is raised in a thread: an instance of a class; or, for what is not a class, a SystemError that says so -/
inductive Got (K : Type) where
  | exception (k : K)
  | systemError
  deriving DecidableEq

inductive Phase where
  | unstarted
  | running (ident : Nat)
  | ended (ident : Nat)
  deriving DecidableEq

/-- A thread object; what is to be raised in it; what has been raised in it. -/
structure Thread (K I : Type) where
  phase : Phase := .unstarted
  pending : Option (Exc K I) := none
  got : List (Got K) := []

/-- `thread_obj.ident` (excutil.py:302): it stays after the end of the thread. -/
def Phase.ident : Phase → Option Nat
  | .unstarted => none
  | .running n => some n
  | .ended n => some n

/-- `{thread.ident for thread in threading.enumerate()}` (excutil.py:303) -/
def active (ts : List (Thread K I)) : List Nat := ts.filterMap fun t => match t.phase with
  | .running n => some n
  | _ => none

/-- `PyThreadState_SetAsyncExc` (excutil.py:306): in the first running thread with this number, the exception takes the place of what was to be raised.  It says how many threads there were. -/
def setAsyncExc (ident : Nat) (e : Exc K I) : List (Thread K I) → Nat × List (Thread K I)
  | [] => (0, [])
  | t :: ts =>
    if t.phase = .running ident then (1, { t with pending := some e } :: ts)
    else let r := setAsyncExc ident e ts; (r.1, t :: r.2)

/-- The interpreter raises what is to be raised (a class is instantiated). -/
def deliver (t : Thread K I) : Thread K I :=
  match t.pending with
  | none => t
  | some (.cls k) => { t with pending := none, got := t.got ++ [.exception k] }
  | some (.inst _) => { t with pending := none, got := t.got ++ [.systemError] }

/-- What threads do: a new thread object; a thread is started, and gets a number; a thread runs; a thread ends. -/
inductive Event where
  | make
  | start (i : Nat) (ident : Nat)
  | run (i : Nat)
  | finish (i : Nat)

def modify (i : Nat) (f : Thread K I → Thread K I) (ts : List (Thread K I)) : List (Thread K I) := ts.modify i f

/-- Events that cannot be (starting a thread twice, a number that another running thread has) do nothing. -/
def happen (ts : List (Thread K I)) : Event → List (Thread K I)
  | .make => ts ++ [{}]
  | .start i n => if n ∈ active ts then ts else modify i (fun t => if t.phase = .unstarted then { t with phase := .running n } else t) ts
  | .run i => modify i (fun t => match t.phase with
    | .running _ => deliver t
    | _ => t) ts
  | .finish i => modify i (fun t => match t.phase with
    | .running n => { t with phase := .ended n }
    | _ => t) ts

/-- `async_raise(thread_obj, exception)` (excutil.py:296-316), where `none` is an object without `ident`; `between` is what other threads do between the check and the call of `PyThreadState_SetAsyncExc`. -/
def asyncRaise (ts : List (Thread K I)) (target : Option Nat) (e : Exc K I) (between : List Event) : Res Unit × List (Thread K I) :=
  match target with
  | none => (.error .TypeError, ts)
  | some i =>
    match ts[i]? with
    | none => (.error .TypeError, ts)      -- not a thread object
    | some t =>
      match t.phase.ident with
      | none => (.error .ValueError, ts)
      | some ident =>
        if ident ∉ active ts then (.error .ValueError, ts)
        else
          let r := setAsyncExc ident e (between.foldl happen ts)
          if r.1 = 0 then (.error .ValueError, r.2) else (.ok (), r.2)

/-- A history: events, and calls of `async_raise` with what happens in them -/
inductive Op (K I : Type) where
  | event (e : Event)
  | raise (target : Option Nat) (e : Exc K I) (between : List Event)

def step (ts : List (Thread K I)) : Op K I → List (Thread K I)
  | .event e => happen ts e
  | .raise target e between => (asyncRaise ts target e between).2

def history (ops : List (Op K I)) : List (Thread K I) := ops.foldl step []

end Unpy.AsyncRaise
