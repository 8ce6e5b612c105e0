import Verif.Model.GMemoSelf
/-!
# Model of several memoized generators that use each other, in threads (`unpythonic/gmemo.py`)

`Verif.Model.GMemo` has threads, but generators that do not use memoized generators; `Verif.Model.GMemoSelf` has one generator, that
uses itself, in one thread.  Here there are any number of each.  `G` stands for a memoized generator function together with its
arguments; each has its entry in a dict (gmemo.py:100).

Simplifications: the entries exist from the start (see `Verif.Model.GMemo` for their creation), and an instance is used only by the
thread or by the generator that made it.
-/
namespace Unpy.GMemoMany
open Unpy.GMemoSelf (Out)
variable {G S V E : Type}

/-- What a generator does next: yield, raise or return; or call `next` on its instance number `i`, and go on with what that does -/
inductive Act (S V E : Type) where
  | yield (v : V) (s : S)
  | raise (e : E)
  | stop
  | ask (i : Nat) (k : Out V E → S)

/-- The generators: their states when they are called, and what they do in each state; which memoized generator the instance number
`i`, made by the generator `g`, is an instance of; and the `ValueError("generator already executing")`. -/
structure Prog (G S V E : Type) where
  start : G → S
  step : G → S → Act S V E
  inner : G → Nat → G
  busy : E

/-- An entry `(gfunc(...), [], RLock())` (gmemo.py:100): the generator (`none` when it has ended), whether it is being executed, and
how many items the instances that it uses have delivered; the memo; and the lock: the owner, and how many times it is held. -/
structure Gen (S V E : Type) where
  state : Option S
  running : Bool
  pos : Nat → Nat
  memo : List (Out V E)
  lock : Option (Nat × Nat)

/-- Where a call of `__next__` is in its code (gmemo.py:118-134) -/
inductive Stage (V E : Type) where
  | wait                      -- gmemo.py:121 acquiring the lock
  | check                     -- gmemo.py:122 `if j < len(memo)`
  | run                       -- gmemo.py:126 `next(self.g)`
  | done (r : Out V E)        -- gmemo.py:130 with the result

/-- A call of `__next__` in progress, on the instance number `i` of whoever made it, an instance of `g` which has delivered `j` items
(`j = self.j`, gmemo.py:119) -/
structure Frame (G V E : Type) where
  g : G
  i : Nat
  j : Nat
  stage : Stage V E

/-- A thread: its calls in progress, innermost first; the instances on which it is going to call `next`; and how many items each of
its instances has delivered (gmemo.py:112, 131) -/
structure Thread (G V E : Type) where
  frames : List (Frame G V E)
  todo : List Nat
  pos : Nat → Nat

structure St (G S V E : Type) where
  gens : G → Gen S V E
  threads : Nat → Thread G V E
  log : List ((Nat × Nat) × Out V E)      -- for the theorems: what the instances of the threads have delivered

variable [DecidableEq G]

def St.setGen (st : St G S V E) (g : G) (x : Gen S V E) : St G S V E :=
  { st with gens := fun g' => if g' = g then x else st.gens g' }

def St.setThread (st : St G S V E) (t : Nat) (th : Thread G V E) : St G S V E :=
  { st with threads := fun t' => if t' = t then th else st.threads t' }

/-- `self.j += 1` (gmemo.py:131) -/
def bump (pos : Nat → Nat) (i : Nat) : Nat → Nat := fun i' => if i' = i then pos i + 1 else pos i'

/-- leaving `with self.lock:` -/
def release : Option (Nat × Nat) → Option (Nat × Nat)
  | some (t, n + 2) => some (t, n + 1)
  | _ => none

/-- The call returns or raises (gmemo.py:130-134): to the thread, or to the generator that has made it, which goes on. -/
def deliver (p : Prog G S V E) (st : St G S V E) (t i : Nat) (r : Out V E) : List (Frame G V E) → St G S V E
  | [] =>
    let th := st.threads t
    { st.setThread t { th with frames := [], pos := bump th.pos i } with log := st.log ++ [((t, i), r)] }
  | h :: rest =>
    let x := st.gens h.g
    let st := st.setThread t { st.threads t with frames := h :: rest }
    match x.state with
    | none => st
    | some s => match p.step h.g s with
      | .ask _ k => st.setGen h.g { x with state := some (k r), pos := bump x.pos i }
      | _ => st

/-- One step of thread `t` (gmemo.py:118-134).  `outer t i` is what the instance number `i` of thread `t` is an instance of. -/
def step (p : Prog G S V E) (outer : Nat → Nat → G) (st : St G S V E) (t : Nat) : St G S V E :=
  let th := st.threads t
  match th.frames with
  | [] => match th.todo with
    | [] => st
    | i :: is => st.setThread t { th with frames := [⟨outer t i, i, th.pos i, .wait⟩], todo := is }
  | ⟨g, i, j, stage⟩ :: rest =>
    let x := st.gens g
    let goto (stage : Stage V E) : St G S V E := st.setThread t { th with frames := ⟨g, i, j, stage⟩ :: rest }
    match stage with
    | .wait => match x.lock with
      | none => (goto .check).setGen g { x with lock := some (t, 1) }
      | some (t', n) => if t' = t then (goto .check).setGen g { x with lock := some (t, n + 1) } else st      -- blocked
    | .check => match x.memo[j]? with
      | some r => goto (.done r)
      | none =>
        if x.running then (goto (.done (.raised p.busy))).setGen g { x with memo := x.memo ++ [.raised p.busy] }
        else match x.state with
          | none => (goto (.done .stopped)).setGen g { x with memo := x.memo ++ [.stopped] }
          | some _ => (goto .run).setGen g { x with running := true }
    | .run => match x.state with
      | none => st      -- cannot happen
      | some s => match p.step g s with
        | .yield v s => (goto (.done (.item v))).setGen g { x with state := some s, running := false, memo := x.memo ++ [.item v] }
        | .raise e => (goto (.done (.raised e))).setGen g { x with state := none, running := false, memo := x.memo ++ [.raised e] }
        | .stop => (goto (.done .stopped)).setGen g { x with state := none, running := false, memo := x.memo ++ [.stopped] }
        | .ask i' _ => st.setThread t { th with frames := ⟨p.inner g i', i', x.pos i', .wait⟩ :: ⟨g, i, j, .run⟩ :: rest }
    | .done r => deliver p (st.setGen g { x with lock := release x.lock }) t i r rest

/-- At first: generators not started, memos empty, locks free. -/
def init (p : Prog G S V E) (todo : Nat → List Nat) : St G S V E :=
  ⟨fun g => ⟨some (p.start g), false, fun _ => 0, [], none⟩, fun t => ⟨[], todo t, fun _ => 0⟩, []⟩

/-- Run a schedule: the list of thread ids in the order in which they take a step. -/
def run (p : Prog G S V E) (outer : Nat → Nat → G) (todo : Nat → List Nat) (sched : List Nat) : St G S V E :=
  sched.foldl (step p outer) (init p todo)

/-- What the instance number `i` of thread `t` has delivered -/
def St.delivered (st : St G S V E) (t i : Nat) : List (Out V E) := (st.log.filter (fun e => e.1 = (t, i))).map Prod.snd

end Unpy.GMemoMany
