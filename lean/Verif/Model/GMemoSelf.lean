import Verif.Model.Py
/-!
# Model of memoized generators that use themselves (`unpythonic/gmemo.py`)

`Verif.Model.GMemo` has any number of threads and sets of arguments, but the underlying generator does not use memoized generators.  Here it may: while it computes an item, it may call `next` on instances that
it has made itself by calling the memoized function with the same arguments.  There is one thread and one set of arguments.
-/
namespace Unpy.GMemoSelf
variable {S V E : Type}

/-- What `next` does: return an item, raise, or raise StopIteration -/
inductive Out (V E : Type) where
  | item (v : V)
  | raised (e : E)
  | stopped
  deriving DecidableEq, Repr

/-- What the generator does next: yield, raise or return; or call `next` on an instance that has delivered so many items, and go on with what that does -/
inductive Act (S V E : Type) where
  | yield (v : V) (s : S)
  | raise (e : E)
  | stop
  | ask (n : Nat) (k : Out V E → S)

/-- A generator function: its state when it is called, and what it does in each state; and the `ValueError("generator already executing")` -/
structure Fn (S V E : Type) where
  start : S
  step : S → Act S V E
  busy : E

/-- The tuple `(gfunc(...), [], RLock())` (gmemo.py:100): the generator (`none` when it has ended) and the memo; and how many items each instance made by the user has delivered (gmemo.py:112, 131) -/
structure St (S V E : Type) where
  gen : Option S
  memo : List (Out V E)
  insts : List Nat
  log : List (Nat × Out V E)      -- for the theorems: what the instances have delivered

/-- `next(self.g)` (gmemo.py:126), in at most so many steps.  When the generator asks an instance of its own for an item that is not in the memo, that instance calls `next(self.g)` on the running generator,
which raises ValueError; this goes into the memo like any outcome (gmemo.py:125-129).  The lock does not prevent this, because it is the same thread. -/
def resume (fn : Fn S V E) : Nat → S → List (Out V E) → Option (Out V E × Option S × List (Out V E))
  | 0, _, _ => none
  | fuel + 1, s, memo =>
    match fn.step s with
    | .yield v s => some (.item v, some s, memo)
    | .raise e => some (.raised e, none, memo)
    | .stop => some (.stopped, none, memo)
    | .ask n k =>
      match memo[n]? with
      | some r => resume fn fuel (k r) memo
      | none => resume fn fuel (k (.raised fn.busy)) (memo ++ [.raised fn.busy])

/-- `next` of an instance that has delivered `j` items (gmemo.py:118-134) -/
def next (fn : Fn S V E) (fuel : Nat) (gen : Option S) (memo : List (Out V E)) (j : Nat) : Option (Out V E × Option S × List (Out V E)) :=
  match memo[j]? with
  | some r => some (r, gen, memo)
  | none =>
    match gen with
    | none => some (.stopped, none, memo ++ [.stopped])
    | some s =>
      match resume fn fuel s memo with
      | none => none
      | some (r, gen, memo) => some (r, gen, memo ++ [r])

/-- What the user does -/
inductive Op where
  | call                -- make an instance
  | next (i : Nat)      -- advance it
  deriving DecidableEq, Repr

def step (fn : Fn S V E) (fuel : Nat) (st : St S V E) : Op → Option (St S V E)
  | .call => some { st with insts := st.insts ++ [0] }
  | .next i =>
    match st.insts[i]? with
    | none => some st
    | some j =>
      match next fn fuel st.gen st.memo j with
      | none => none
      | some (r, gen, memo) => some ⟨gen, memo, st.insts.set i (j + 1), st.log ++ [(i, r)]⟩

/-- Some operations, from the first call on -/
def run (fn : Fn S V E) (fuel : Nat) : List Op → St S V E → Option (St S V E)
  | [], st => some st
  | o :: os, st =>
    match step fn fuel st o with
    | none => none
    | some st => run fn fuel os st

def init (fn : Fn S V E) : St S V E := ⟨some fn.start, [], [], []⟩

/-- What instance `i` has delivered -/
def St.delivered (st : St S V E) (i : Nat) : List (Out V E) := (st.log.filter (fun e => e.1 = i)).map Prod.snd

end Unpy.GMemoSelf
