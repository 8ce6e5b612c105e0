import Verif.Model.Py
/-!
# Model of `unpythonic.fun.memoize` (fun.py:53-99) as a state machine over threads

Keys `K` stand for the canonical binding key `k` computed at fun.py:77 (see `Model/Bind.lean` for that
computation).  The memoized function's body is any pure function that may call the memoized function
again (fun.py:68-70, "If `f` is recursive..."): `body k subs` says what the original does on
arguments `k` once the recursive calls it made so far have given the outcomes `subs`: make another
recursive call (`inl k'`), or finish with an outcome (`inr out`, a return value or an exception).

One step = one access to `memo` or the lock.  Every value or exception object created by the n-th
evaluation of the original carries the number n, so object identity is visible.
-/
namespace Unpy.Memo

universe u v
variable {K : Type u} {Out : Type v}

/-- Where a call of `memoized` is in its code. -/
inductive Stage (Out : Type v) where
  | probe                                   -- fun.py:78-79  `kind, value = memo[k]` (EAFP)
  | wait                                    -- fun.py:82     `with lock:`, acquiring
  | check                                   -- fun.py:83     `if k not in memo` (lock held)
  | run (id : Nat) (subs : List Out)        -- fun.py:86     evaluating `f` (lock held), evaluation `id`
  | reread                                  -- fun.py:93     `kind, value = memo[k]`

/-- One call of `memoized` in progress. -/
structure Frame (K : Type u) (Out : Type v) where
  key : K
  stage : Stage Out

/-- A thread: its stack of `memoized` calls in progress (innermost first), and the arguments of the
top-level calls it is going to make. -/
structure Thread (K : Type u) (Out : Type v) where
  frames : List (Frame K Out)
  todo : List K

/-- A completed call: who, with which key, and the outcome with its identity. -/
structure Delivery (K : Type u) (Out : Type v) where
  thread : Nat
  key : K
  out : Out
  id : Nat

structure St (K : Type u) (Out : Type v) where
  memo : List (K × (Out × Nat))             -- fun.py:74 the dict, latest assignment first
  owner : Option (Nat × Nat)                -- fun.py:73 the RLock: owning thread and recursion count
  evals : List K                            -- ghost: the evaluations of the original, in order
  threads : Nat → Thread K Out
  log : List (Delivery K Out)               -- ghost: completed calls, in order

def St.setThread (st : St K Out) (t : Nat) (th : Thread K Out) : St K Out :=
  { st with threads := fun t' => if t' = t then th else st.threads t' }

/-- leaving `with lock:` -/
def release : Option (Nat × Nat) → Option (Nat × Nat)
  | some (t, n + 2) => some (t, n + 1)
  | _ => none

def lookup [DecidableEq K] (memo : List (K × (Out × Nat))) (k : K) : Option (Out × Nat) :=
  (memo.find? (fun e => e.1 = k)).map Prod.snd

/-- fun.py:94-96: the call returns or raises the memoized outcome; if it was made by a running
evaluation, that evaluation receives it. -/
def deliver (st : St K Out) (t : Nat) (k : K) (rest : List (Frame K Out)) (r : Out × Nat) : St K Out :=
  let th := st.threads t
  let rest' := match rest with
    | ⟨k2, .run id subs⟩ :: rest => ⟨k2, .run id (subs ++ [r.1])⟩ :: rest
    | rest => rest
  { st.setThread t { th with frames := rest' } with log := st.log ++ [⟨t, k, r.1, r.2⟩] }

/-- One step of thread `t` (fun.py:76-96). -/
def step [DecidableEq K] (body : K → List Out → K ⊕ Out) (st : St K Out) (t : Nat) : St K Out :=
  let th := st.threads t
  match th.frames with
  | [] =>
    match th.todo with
    | [] => st
    | k :: ks => st.setThread t ⟨[⟨k, .probe⟩], ks⟩
  | ⟨k, .probe⟩ :: rest =>
    match lookup st.memo k with
    | some r => deliver st t k rest r
    | none => st.setThread t { th with frames := ⟨k, .wait⟩ :: rest }
  | ⟨k, .wait⟩ :: rest =>
    match st.owner with
    | none => { st.setThread t { th with frames := ⟨k, .check⟩ :: rest } with owner := some (t, 1) }
    | some (t', n) =>
      if t' = t then
        { st.setThread t { th with frames := ⟨k, .check⟩ :: rest } with owner := some (t, n + 1) }
      else st   -- blocked
  | ⟨k, .check⟩ :: rest =>
    match lookup st.memo k with
    | none => { st.setThread t { th with frames := ⟨k, .run st.evals.length []⟩ :: rest } with
                  evals := st.evals ++ [k] }
    | some _ => { st.setThread t { th with frames := ⟨k, .reread⟩ :: rest } with
                  owner := release st.owner }
  | ⟨k, .run id subs⟩ :: rest =>
    match body k subs with
    | .inl k' => st.setThread t { th with frames := ⟨k', .probe⟩ :: ⟨k, .run id subs⟩ :: rest }
    | .inr out => { st.setThread t { th with frames := ⟨k, .reread⟩ :: rest } with
                  memo := (k, (out, id)) :: st.memo, owner := release st.owner }
  | ⟨k, .reread⟩ :: rest =>
    match lookup st.memo k with
    | some r => deliver st t k rest r
    | none => st   -- KeyError; unreachable (`C03_memoize_progress`)

/-- Initially: empty memo, lock free, thread `t` going to make the calls `todo t`. -/
def init (todo : Nat → List K) : St K Out :=
  ⟨[], none, [], fun t => ⟨[], todo t⟩, []⟩

/-- Run a schedule: the list of thread ids in the order in which they take a step. -/
def run [DecidableEq K] (body : K → List Out → K ⊕ Out) (todo : Nat → List K) (sched : List Nat) :
    St K Out := sched.foldl (step body) (init todo)

end Unpy.Memo
