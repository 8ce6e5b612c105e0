import Verif.Model.Memo
/-!
# Model of several functions memoized by `unpythonic.fun.memoize` (fun.py:53-99) that call each other, in threads

As `Model/Memo.lean`, with one lock for each memoized function ("One lock per use site of `memoize`", fun.py:71-73).  A key
`K` stands for a function and its bindings; `fn k` is the function.  The dicts of the functions are one dict here, as keys of
different functions are different.
-/
namespace Unpy.MemoMany
open Unpy.Memo

universe u v w
variable {K : Type u} {Out : Type v} {F : Type w}

structure St (K : Type u) (Out : Type v) (F : Type w) where
  memo : List (K × (Out × Nat))             -- fun.py:74 the dicts, latest assignment first
  owner : F → Option (Nat × Nat)            -- fun.py:73 the RLocks: owning thread and recursion count
  evals : List K                            -- ghost: the evaluations of the originals, in order
  threads : Nat → Thread K Out
  log : List (Delivery K Out)               -- ghost: completed calls, in order

def St.setThread (st : St K Out F) (t : Nat) (th : Thread K Out) : St K Out F :=
  { st with threads := fun t' => if t' = t then th else st.threads t' }

/-- Change the state of the lock of `f`. -/
def setLock [DecidableEq F] (owner : F → Option (Nat × Nat)) (f : F) (o : Option (Nat × Nat)) : F → Option (Nat × Nat) :=
  fun g => if g = f then o else owner g

/-- The call returns or raises the memoized outcome (fun.py:94-96); if it was made by a running evaluation, that evaluation
receives it. -/
def deliver (st : St K Out F) (t : Nat) (k : K) (rest : List (Frame K Out)) (r : Out × Nat) : St K Out F :=
  let th := st.threads t
  let rest' := match rest with
    | ⟨k2, .run id subs⟩ :: rest => ⟨k2, .run id (subs ++ [r.1])⟩ :: rest
    | rest => rest
  { st.setThread t { th with frames := rest' } with log := st.log ++ [⟨t, k, r.1, r.2⟩] }

/-- One step of thread `t` (fun.py:76-96): one access to a dict or to a lock. -/
def step [DecidableEq K] [DecidableEq F] (fn : K → F) (body : K → List Out → K ⊕ Out) (st : St K Out F) (t : Nat) :
    St K Out F :=
  let th := st.threads t
  match th.frames with
  | [] =>
    match th.todo with
    | [] => st
    | k :: ks => st.setThread t ⟨[⟨k, .probe⟩], ks⟩
  | ⟨k, .probe⟩ :: rest =>
    match lookup st.memo k with
    | some r => deliver st t k rest r
    | none => st.setThread t { th with frames := ⟨k, .wait⟩ :: rest }
  | ⟨k, .wait⟩ :: rest =>
    match st.owner (fn k) with
    | none => { st.setThread t { th with frames := ⟨k, .check⟩ :: rest } with owner := setLock st.owner (fn k) (some (t, 1)) }
    | some (t', n) =>
      if t' = t then
        { st.setThread t { th with frames := ⟨k, .check⟩ :: rest } with owner := setLock st.owner (fn k) (some (t, n + 1)) }
      else st   -- blocked
  | ⟨k, .check⟩ :: rest =>
    match lookup st.memo k with
    | none => { st.setThread t { th with frames := ⟨k, .run st.evals.length []⟩ :: rest } with
                  evals := st.evals ++ [k] }
    | some _ => { st.setThread t { th with frames := ⟨k, .reread⟩ :: rest } with
                  owner := setLock st.owner (fn k) (release (st.owner (fn k))) }
  | ⟨k, .run id subs⟩ :: rest =>
    match body k subs with
    | .inl k' => st.setThread t { th with frames := ⟨k', .probe⟩ :: ⟨k, .run id subs⟩ :: rest }
    | .inr out => { st.setThread t { th with frames := ⟨k, .reread⟩ :: rest } with
                  memo := (k, (out, id)) :: st.memo, owner := setLock st.owner (fn k) (release (st.owner (fn k))) }
  | ⟨k, .reread⟩ :: rest =>
    match lookup st.memo k with
    | some r => deliver st t k rest r
    | none => st   -- KeyError

/-- Initially: empty memo, locks free, thread `t` going to make the calls `todo t`. -/
def init (todo : Nat → List K) : St K Out F :=
  ⟨[], fun _ => none, [], fun t => ⟨[], todo t⟩, []⟩

/-- Run a schedule: the list of thread ids in the order in which they take a step. -/
def run [DecidableEq K] [DecidableEq F] (fn : K → F) (body : K → List Out → K ⊕ Out) (todo : Nat → List K) (sched : List Nat) :
    St K Out F := sched.foldl (step fn body) (init todo)

end Unpy.MemoMany
