import Verif.Model.Py
/-!
# Model of `unpythonic.lazyutil.Lazy.force` (lazyutil.py:33-71) over threads

`thunk n` is what the `n`-th run of the thunk does: the thunk may be impure, so that running it twice
is visible.  One step = one access to the attributes of the promise.
Simplification: the thunk does not itself force this promise (that is an infinite recursion).
-/
namespace Unpy.LazyP
universe u v
variable {V : Type u} {E : Type v}

/-- What one run of the thunk does: return, raise an `Exception`, or raise another `BaseException`
(which `except Exception`, lazyutil.py:65, does not catch). -/
inductive ThunkOut (V : Type u) (E : Type v) where
  | ret (v : V)
  | exc (e : E)
  | base (e : E)
  deriving DecidableEq

/-- What a call of `force` does.  The cached object is a value or an exception instance. -/
inductive Forced (V : Type u) (E : Type v) where
  | returns (x : V ⊕ E)
  | raises (x : V ⊕ E)
  deriving DecidableEq

inductive Stage where
  | idle                     -- not inside `force`
  | run (id : Nat)           -- lazyutil.py:63, the thunk is running
  | setFlag (b : Bool)       -- about to do line 64 / 67
  | readFlag                 -- about to do line 68
  | readValue (b : Bool)     -- about to do line 69 / 71
  deriving DecidableEq

structure St (V : Type u) (E : Type v) where
  value : Option (V ⊕ E)     -- lazyutil.py:50; `none` is `_uninitialized`
  flag : Option Bool         -- lazyutil.py:51; `none` is `_uninitialized`
  runs : Nat                 -- ghost: how many times the thunk has been entered
  threads : Nat → Stage
  log : List (Nat × Forced V E)   -- ghost: completed forces

def St.set (st : St V E) (t : Nat) (s : Stage) : St V E :=
  { st with threads := fun t' => if t' = t then s else st.threads t' }

/-- One step of thread `t`; an idle thread calls `force()`. -/
def step (thunk : Nat → ThunkOut V E) (st : St V E) (t : Nat) : St V E :=
  match st.threads t with
  | .idle =>                                                            -- 61
    match st.value with
    | none => { st.set t (.run st.runs) with runs := st.runs + 1 }
    | some _ => st.set t .readFlag
  | .run id =>                                                          -- 62-66
    match thunk id with
    | .ret v => { st.set t (.setFlag true) with value := some (.inl v) }
    | .exc e => { st.set t (.setFlag false) with value := some (.inr e) }
    | .base e => { st.set t .idle with log := st.log ++ [(t, .raises (.inr e))] }
  | .setFlag b => { st.set t .readFlag with flag := some b }            -- 64, 67
  | .readFlag =>                                                        -- 68
    -- `if self.thunk_returned_normally:`; the symbol `_uninitialized` is truthy
    st.set t (.readValue (st.flag ≠ some false))
  | .readValue b =>                                                     -- 69-71
    match st.value with
    | some x => { st.set t .idle with log := st.log ++ [(t, if b then .returns x else .raises x)] }
    | none => st                                                        -- unreachable

def init : St V E := ⟨none, none, 0, fun _ => .idle, []⟩

/-- Run a schedule (thread ids in the order in which they take a step). -/
def run (thunk : Nat → ThunkOut V E) (sched : List Nat) : St V E := sched.foldl (step thunk) init

end Unpy.LazyP
