import Verif.Model.Py
import Verif.Model.PySlice
/-!
# Model of `unpythonic.gmemo` (gmemo.py:28-156) as a state machine over threads

`g k r n` is the outcome (item, exception or StopIteration) of the `n`-th `next` on the generator
made by the `r`-th call overall of the undecorated generator function, that call having the
arguments `k` (the canonical binding key of gmemo.py:97).  Nothing is assumed about `g`: the
generator function may be impure, infinite, raising.

A thread is between calls, or at one of the points inside `gmemoized` / `__next__` where another
thread may run in between.  The locked part of `__next__` is one step (gmemo.py:121-134: everything
the other threads can see of it happens under `self.lock`).
Simplification: the underlying generator does not itself advance memoized generators of the same key (see `Verif.Model.GMemoSelf`).
-/
namespace Unpy.GMemo
universe u v
variable {K : Type u} {Out : Type v}

/-- gmemo.py:100: the tuple `(gfunc(...), [], RLock())`. -/
structure Cell (K : Type u) (Out : Type v) where
  key : K
  memo : List Out       -- gmemo.py:110 `self.memo`
  calls : Nat           -- ghost: how many times `next(self.g)` has been called

/-- gmemo.py:106-112: a `_MemoizedGenerator`. -/
structure Inst where
  cell : Nat
  j : Nat               -- gmemo.py:112
  deriving DecidableEq

inductive Pend (K : Type u) where
  | idle
  | missed (k : K)            -- gmemo.py:98 found `k not in memos`; about to do line 100
  | ready (k : K)             -- about to do gmemo.py:101 `_MemoizedGenerator(*memos[k])`
  | reading (i : Nat) (j : Nat)   -- gmemo.py:119 has read `j = self.j` of instance `i`

structure St (K : Type u) (Out : Type v) where
  cells : List (Cell K Out)
  memos : List (K × Nat)      -- gmemo.py:94, key to cell, latest assignment first
  insts : List Inst
  made : List K               -- ghost: the arguments of the calls that made the instances
  pend : Nat → Pend K
  log : List (Nat × Out)      -- ghost: (instance, outcome delivered), in order

inductive Event (K : Type u) where
  | call (th : Nat) (k : K)   -- thread `th` calls the decorated function: gmemo.py:97-98
  | next (th : Nat) (i : Nat) -- thread `th` calls `next` on instance `i`: gmemo.py:118-120
  | go (th : Nat)             -- thread `th` goes on with what it is in the middle of

def St.setPend (st : St K Out) (th : Nat) (p : Pend K) : St K Out :=
  { st with pend := fun t => if t = th then p else st.pend t }

def find [DecidableEq K] (memos : List (K × Nat)) (k : K) : Option Nat :=
  (memos.find? (fun e => e.1 = k)).map Prod.snd

/-- gmemo.py:121-134, the locked part of `__next__`, on the memo: the outcome, the new memo, and
whether the underlying generator was advanced. -/
def advance (memo : List Out) (calls : Nat) (src : Nat → Out) (j : Nat) : Out × List Out × Nat :=
  match memo[j]? with
  | some r => (r, memo, calls)                                        -- 122-123
  | none => (src calls, memo ++ [src calls], calls + 1)               -- 124-129

def step [DecidableEq K] (g : K → Nat → Nat → Out) (st : St K Out) : Event K → St K Out
  | .call th k =>
    match st.pend th with
    | .idle =>
      match find st.memos k with
      | none => st.setPend th (.missed k)
      | some _ => st.setPend th (.ready k)
    | _ => st
  | .next th i =>
    match st.pend th, st.insts[i]? with
    | .idle, some inst => st.setPend th (.reading i inst.j)
    | _, _ => st
  | .go th =>
    match st.pend th with
    | .idle => st
    | .missed k =>                                                     -- 100
      { st.setPend th (.ready k) with
          cells := st.cells ++ [⟨k, [], 0⟩], memos := (k, st.cells.length) :: st.memos }
    | .ready k =>                                                      -- 101
      match find st.memos k with
      | some c => { st.setPend th .idle with insts := st.insts ++ [⟨c, 0⟩], made := st.made ++ [k] }
      | none => st                                                     -- KeyError; unreachable
    | .reading i j =>                                                  -- 121-134
      match st.insts[i]? with
      | none => st                                                     -- unreachable
      | some inst =>
        match st.cells[inst.cell]? with
        | none => st                                                   -- unreachable
        | some c =>
          let (r, memo', calls') := advance c.memo c.calls (g c.key inst.cell) j
          { st.setPend th .idle with
              cells := st.cells.set inst.cell ⟨c.key, memo', calls'⟩
              insts := st.insts.set i ⟨inst.cell, inst.j + 1⟩          -- 131 `self.j += 1`
              log := st.log ++ [(i, r)] }

def init : St K Out := ⟨[], [], [], [], fun _ => .idle, []⟩

def run [DecidableEq K] (g : K → Nat → Nat → Out) (evs : List (Event K)) : St K Out :=
  evs.foldl (step g) init

/-- what instance `i` has delivered, in order -/
def St.delivered (st : St K Out) (i : Nat) : List Out :=
  (st.log.filter (fun e => e.1 = i)).map Prod.snd

/-- gmemo.py:136-137 `__len__` -/
def St.len (st : St K Out) (i : Nat) : Nat :=
  match st.insts[i]? with
  | some inst => match st.cells[inst.cell]? with
    | some c => c.memo.length
    | none => 0
  | none => 0

/-- gmemo.py:138-156 `__getitem__` with an int index; a memoized
exception is an outcome like any other. -/
def St.getitem (st : St K Out) (i : Nat) (k : Int) : Res Out :=
  match st.insts[i]? with
  | some inst => match st.cells[inst.cell]? with
    | some c =>
      let length : Int := c.memo.length
      if k ≥ length ∨ k < -length then .error .IndexError
      else
        match c.memo[(if k < 0 then k + length else k).toNat]? with
        | some r => .ok r
        | none => .error .IndexError
    | none => .error .IndexError
  | none => .error .IndexError

/-- gmemo.py:145-150, the loop over the items of a slice: the values, or the first exception. -/
def walk (fail : Out → Bool) : List Out → List Out → Except Out (List Out)
  | [], lst => .ok lst
  | r :: rs, lst => if fail r then .error r else walk fail rs (lst ++ [r])

/-- gmemo.py:138-150 `__getitem__` with a slice; `fail` tells exceptions from items.  The list of the items, or the exception that is raised. -/
def St.getslice (fail : Out → Bool) (st : St K Out) (i : Nat) (s : Slice) : Res (Except Out (List Out)) :=
  match st.insts[i]? with
  | some inst => match st.cells[inst.cell]? with
    | some c => if s.step = some 0 then .error .ValueError else .ok (walk fail (pySlice c.memo s) [])
    | none => .error .IndexError
  | none => .error .IndexError

end Unpy.GMemo
