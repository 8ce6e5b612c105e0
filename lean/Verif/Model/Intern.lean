import Verif.Model.Py
/-!
# Model of `unpythonic/symbol.py` and `unpythonic/singleton.py` over threads

Both keep one object per key in a `WeakValueDictionary` guarded by a lock: the key is the name of a symbol, the UUID
of a gensym, or a singleton class.  Objects are numbered in the order of their creation; one step = one access to
the dictionary or the lock.  The garbage collector may remove an object from the dictionary at any time when there
is no reference to it.

Simplifications: `__init__` of a singleton, and destructors, do not themselves create symbols or singletons; the
lock of the gensyms (symbol.py:21) is taken to be that of the symbols; instances of subclasses of `sym` are not
considered (they share the dictionary with `sym`).
-/
namespace Unpy.Intern
variable {K : Type} [DecidableEq K]

/-- What an operation does: return the object with this number, or raise (`none`: what `__init__` raises). -/
abbrev Outcome := Except (Option PyErr) Nat

/-- Where a thread is.  `c` tells whether this is `__new__` called by itself (`none`: a symbol, or unpickling), or
from `ThereCanBeOnlyOne.__call__` (`some n`); `n`, of which the code knows nothing, is the number of objects ever
created when line 139 of singleton.py was passed. -/
inductive Stage (K : Type) where
  | idle
  | callLock (k : K)                               -- singleton.py:136
  | callCheck (k : K)                              -- singleton.py:139
  | lookup (k : K) (c : Option Nat)                -- symbol.py:69 / 115, singleton.py:177
  | lock (k : K) (c : Option Nat)                  -- symbol.py:72 / 117, singleton.py:180
  | check (k : K) (c : Option Nat)                 -- symbol.py:73 / 118, singleton.py:181
  | make (k : K) (c : Option Nat)                  -- symbol.py:76 / 119, singleton.py:184
  | fetch (k : K) (c : Option Nat)                 -- symbol.py:79 / 124, singleton.py:187
  | unlock (k : K) (c : Option Nat) (r : Outcome)  -- end of the inner `with`
  | new (k : K) (c : Option Nat) (r : Outcome)     -- `__new__` has ended
  | callUnlock (k : K) (n : Nat) (r : Outcome)     -- end of the `with` of singleton.py:136

/-- The number of the object of which an `Outcome` is a reference. -/
def refOf : Outcome → Option Nat
  | .ok i => some i
  | .error _ => none

/-- The object to which a thread inside the code has a reference. -/
def Stage.ref : Stage K → Option Nat
  | .unlock _ _ r => refOf r
  | .new _ _ r => refOf r
  | .callUnlock _ _ r => refOf r
  | _ => none

structure St (K : Type) where
  table : K → Option Nat                 -- the dictionary
  keys : List K                          -- of each object ever created, the key it was created for
  owner : Option (Nat × Nat)             -- the lock: thread, and how many times it has acquired it
  threads : Nat → Stage K
  held : List Nat                        -- references outside this code, one entry for each
  log : List (K × Option Nat × Outcome)  -- completed operations

def init : St K := ⟨fun _ => none, [], none, fun _ => .idle, [], []⟩

def St.go (st : St K) (t : Nat) (s : Stage K) : St K :=
  { st with threads := fun t' => if t' = t then s else st.threads t' }

/-- `lock.acquire()`: `none` if blocked. -/
def acquire (owner : Option (Nat × Nat)) (t : Nat) : Option (Nat × Nat) :=
  match owner with
  | none => some (t, 1)
  | some (t', n) => if t' = t then some (t, n + 1) else none

/-- `lock.release()`. -/
def release : Option (Nat × Nat) → Option (Nat × Nat)
  | some (t, n + 2) => some (t, n + 1)
  | _ => none

/-- An operation returns to its caller, who gets a reference, or an exception. -/
def St.finish (st : St K) (t : Nat) (k : K) (c : Option Nat) (r : Outcome) : St K :=
  { st.go t .idle with held := (refOf r).toList ++ st.held, log := (k, c, r) :: st.log }

/-- One step of a thread that is inside the code; `initOk`: whether `cls.__init__`, if it is run in this step,
returns. -/
def stepT (st : St K) (t : Nat) (initOk : Bool) : St K :=
  match st.threads t with
  | .idle => st
  | .callLock k =>
    match acquire st.owner t with
    | some o => { st.go t (.callCheck k) with owner := some o }
    | none => st
  | .callCheck k =>
    if (st.table k).isSome then st.go t (.callUnlock k st.keys.length (.error (some .TypeError)))
    else st.go t (.lookup k (some st.keys.length))
  | .lookup k c =>
    match st.table k with
    | some i => st.go t (.new k c (.ok i))
    | none => st.go t (.lock k c)
  | .lock k c =>
    match acquire st.owner t with
    | some o => { st.go t (.check k c) with owner := some o }
    | none => st
  | .check k c => if (st.table k).isNone then st.go t (.make k c) else st.go t (.fetch k c)
  | .make k c =>
    { st.go t (.unlock k c (.ok st.keys.length)) with
        keys := st.keys ++ [k], table := fun k' => if k' = k then some st.keys.length else st.table k' }
  | .fetch k c =>
    match st.table k with
    | some i => st.go t (.unlock k c (.ok i))
    | none => st.go t (.unlock k c (.error (some .KeyError)))
  | .unlock k c r => { st.go t (.new k c r) with owner := release st.owner }
  | .new k none r => st.finish t k none r
  | .new k (some n) r =>   -- singleton.py:146
    match r with
    | .ok i => st.go t (.callUnlock k n (if initOk then .ok i else .error none))
    | .error e => st.go t (.callUnlock k n (.error e))
  | .callUnlock k n r => { st.finish t k (some n) r with owner := release st.owner }

/-- What may happen next. -/
inductive Step : St K → St K → Prop where
  /-- a thread calls `sym(k)`, or unpickles a symbol or a singleton -/
  | startNew {st} (t k) : st.threads t = .idle → Step st (st.go t (.lookup k none))
  /-- a thread calls the singleton class `k` -/
  | startCall {st} (t k) : st.threads t = .idle → Step st (st.go t (.callLock k))
  | thread {st} (t b) : Step st (stepT st t b)
  /-- some code takes another reference -/
  | copy {st} (i) : i ∈ st.held → Step st { st with held := i :: st.held }
  /-- some code drops a reference -/
  | drop {st} (i) : Step st { st with held := st.held.erase i }
  /-- the garbage collector removes an object without references -/
  | gc {st k i} : st.table k = some i → i ∉ st.held → (∀ t, (st.threads t).ref ≠ some i) →
      Step st { st with table := fun k' => if k' = k then none else st.table k' }

/-- The states that can occur, in any number of threads and any interleaving. -/
inductive Reach : St K → Prop where
  | init : Reach init
  | step {st st'} : Reach st → Step st st' → Reach st'

end Unpy.Intern
