/-!
# Model of `memoize` with promises as arguments (`unpythonic/fun.py`, `unpythonic/lazyutil.py`)

Arguments are positional, and all parameters have the same default; how arguments are bound is in `Model/MemoCall.lean`.  The
default is not made part of the key of the memo here.  The values of promises
are no promises, and there are no promises inside of containers.  Values that are not promises have a hash value.  There is one
thread; see `Model/Memo.lean` for several.
-/
namespace Unpy.LazyMemo

/-- What is passed as an argument: a value, or a promise, which is an object (`Lazy` has no `__eq__`, lazyutil.py:33-76, so a
promise is equal to itself only). -/
inductive Arg (V : Type) where
  | plain (v : V)
  | promise (i : Nat)
  deriving DecidableEq

variable {V E : Type}

/-- What a function does: it ends, or it uses one of its parameters and goes on, knowing the value or the exception. -/
inductive Body (V E : Type) where
  | done (r : Except E V)
  | use (k : Nat) (next : Except E V → Body V E)

structure Fn (V E : Type) where
  body : Body V E
  /-- the default of its parameters, for those without an argument -/
  dflt : V
  /-- It was defined in a `with lazify` block, that is, it has the mark of `passthrough_lazy_args`. -/
  isLazy : Bool

structure St (V E : Type) where
  /-- the promises of which the expression has been evaluated, in this order -/
  forced : List Nat
  /-- `memo` (fun.py:73) -/
  memo : List (List (Arg V) × Except E V)
  /-- the arguments of each evaluation of the function (for the theorems) -/
  evals : List (List (Arg V))

/-- `force1` (lazyutil.py:78-86), and `force` of these arguments (lazyutil.py:88-98), with `Lazy.force` (lazyutil.py:53-71): the
expression of a promise is evaluated the first time only.  `thunk` tells what that gives. -/
def force1 (thunk : Nat → Except E V) (forced : List Nat) : Arg V → Except E V × List Nat
  | .plain v => (.ok v, forced)
  | .promise i => if i ∈ forced then (thunk i, forced) else (thunk i, forced ++ [i])

/-- `force(thunks)` (lazyutil.py:88-98): one after the other, up to the first that raises. -/
def forceAll (thunk : Nat → Except E V) (forced : List Nat) : List (Arg V) → Except E (List V) × List Nat
  | [] => (.ok [], forced)
  | a :: as => match force1 thunk forced a with
    | (.error e, forced) => (.error e, forced)
    | (.ok v, forced) => match forceAll thunk forced as with
      | (.error e, forced) => (.error e, forced)
      | (.ok vs, forced) => (.ok (v :: vs), forced)

/-- Run the function.  Uses of its parameters are forced (syntax/lazify.py:616-645); a plain value stays as it is. -/
def run (thunk : Nat → Except E V) (dflt : V) (args : List (Arg V)) : Body V E → List Nat → Except E V × List Nat
  | .done r, forced => (r, forced)
  | .use k next, forced => match args[k]? with
    | some a => match force1 thunk forced a with
      | (r, forced) => run thunk dflt args (next r) forced
    | none => run thunk dflt args (next (.ok dflt)) forced

/-- `maybe_force_args(f, *thunks)` (lazyutil.py:112-123) -/
def maybeForceArgs (thunk : Nat → Except E V) (isLazy : Bool) (call : List (Arg V) → St V E → Except E V × St V E)
    (args : List (Arg V)) (s : St V E) : Except E V × St V E :=
  if isLazy then call args s
  else match forceAll thunk s.forced args with
    | (.error e, forced) => (.error e, { s with forced := forced })
    | (.ok vs, forced) => call (vs.map .plain) { s with forced := forced }

/-- A call of `f` itself. -/
def callFn (thunk : Nat → Except E V) (f : Fn V E) (args : List (Arg V)) (s : St V E) : Except E V × St V E :=
  match run thunk f.dflt args f.body s.forced with
  | (r, forced) => (r, { s with forced := forced, evals := s.evals ++ [args] })

variable [DecidableEq V]

/-- `memo[k]` -/
def lookup (memo : List (List (Arg V) × Except E V)) (k : List (Arg V)) : Option (Except E V) :=
  (memo.find? (fun e => e.1 == k)).map Prod.snd

/-- `memoized` (fun.py:75-97) -/
def memoized (thunk : Nat → Except E V) (f : Fn V E) (args : List (Arg V)) (s : St V E) : Except E V × St V E :=
  match lookup s.memo args with
  | some r => (r, s)
  | none =>
    match maybeForceArgs thunk f.isLazy (callFn thunk f) args s with
    | (r, s) => (r, { s with memo := (args, r) :: s.memo })

/-- A call of `memoize(f)` in a `with lazify` block, `maybe_force_args(memoized, *thunks)` (syntax/lazify.py:785-790): the
memoized function has the mark if `f` has it (fun.py:98-99). -/
def lazyCall (thunk : Nat → Except E V) (f : Fn V E) (args : List (Arg V)) (s : St V E) : Except E V × St V E :=
  maybeForceArgs thunk f.isLazy (memoized thunk f) args s

/-- Calls one after the other. -/
def calls (thunk : Nat → Except E V) (f : Fn V E) : List (List (Arg V)) → St V E → List (Except E V) × St V E
  | [], s => ([], s)
  | a :: as, s => match lazyCall thunk f a s with
    | (r, s) => match calls thunk f as s with
      | (rs, s) => (r :: rs, s)

/-- At first. -/
def St.init : St V E := ⟨[], [], []⟩

end Unpy.LazyMemo
