import Verif.Model.DispatchList
import Verif.Model.Curry
/-!
# Model of partial application and currying of generic functions (`unpythonic/fun.py`)

The dispatchers are those of `Verif.Model.Dispatch`: which multimethod a call runs, and not what it does.  So a call of a curried function either waits
for more arguments, or runs a multimethod; if arguments are left over, they are then passed on as for other functions (`Verif.Model.Curry`).

Simplified: nothing is lazy, the construction of error messages does not fail, and no argument is named `f` or `func`: these are parameters of what passes
the arguments on (fun.py:110, lazyutil.py:113), and such a call raises TypeError whatever the function is, as in `Verif.Model.Curry`.
-/
namespace Unpy.CurryGeneric
open Unpy Unpy.Arity Unpy.Dispatch
open Unpy.Curry (Action partialOk)
variable {C V T : Type}

/-! ## Partial application -/

/-- `_resolve_bindings(f, args, kwargs, _partial=True)` (arity.py:414-421): some of the parameters may lack an argument, but every argument must fit. -/
def keyPartial (sig : Sig V) (args : List V) (kwargs : PyDict String V) : Res (List (String × BVal V)) :=
  match bind true sig args kwargs with
  | .error e => .error e
  | .ok r => if r.extraArgs.isEmpty && r.extraKwargs.isEmpty then .ok (applyDefaults sig r.arguments) else .error .TypeError

/-- The test of one multimethod (dispatch.py:524-527), in partial mode -/
def testPartial (isof : T → BVal V → Res Bool) (args : List V) (kwargs : PyDict String V) (m : MM V T) : Res Bool :=
  match keyPartial m.sig args kwargs with
  | .error e => .error e
  | .ok bound =>
    match mismatch isof m.hints bound with
    | .error e => .error e
    | .ok b => .ok (!b)

/-- The loop of `_resolve_multimethod` (dispatch.py:523-530), in partial mode: whether there is a match -/
def scanPartial (isof : T → BVal V → Res Bool) (args : List V) (kwargs : PyDict String V) : List (MM V T) → Res Bool
  | [] => .ok false
  | m :: ms =>
    match testPartial isof args kwargs m with
    | .ok true => .ok true
    | .ok false => scanPartial isof args kwargs ms
    | .error e => if e = .TypeError then scanPartial isof args kwargs ms else .error e

/-- `partial(f, *args, **kwargs)` for a generic function (fun.py:134-152, 176), or for a `functools.partial` of one, where `args` and `kwargs` are all that
were given: whether it returns the partial object or raises.  `self` is looked for among the arguments, also for a bound method. -/
def partialG (isof : T → BVal V → Res Bool) (w : World C V) (st : Reg V T) (d : Disp V T) (args : List V) (kwargs : PyDict String V) : Res Unit :=
  match extractSelf d args with
  | .error e => .error e
  | .ok self =>
    match scanPartial isof args kwargs (listMultimethods w st d self) with
    | .error e => .error e
    | .ok true => .ok ()
    | .ok false => .error .TypeError

/-! ## Currying -/

/-- Whether the bound arguments are of the right types: `not _get_argument_type_mismatches(...)` (fun.py:556, 562, 568) -/
def fits (isof : T → BVal V → Res Bool) (m : MM V T) (r : Analysis V) : Res Bool :=
  match mismatch isof m.hints r.arguments with
  | .error e => .error e
  | .ok b => .ok (!b)

/-- Step 1 (fun.py:552-557): is there an exact match? -/
def exact (isof : T → BVal V → Res Bool) (args : List V) (kwargs : PyDict String V) : List (MM V T) → Res Bool
  | [] => .ok false
  | m :: ms =>
    match bind false m.sig args kwargs with
    | .error e => .error e
    | .ok r =>
      if r.unbound.isEmpty && r.extraArgs.isEmpty && r.extraKwargs.isEmpty then
        match fits isof m r with
        | .error e => .error e
        | .ok true => .ok true
        | .ok false => exact isof args kwargs ms
      else exact isof args kwargs ms

/-- Step 2 (fun.py:558-563): the first complete match, with what is left over -/
def complete (isof : T → BVal V → Res Bool) (args : List V) (kwargs : PyDict String V) : List (MM V T) → Res (Option (Analysis V))
  | [] => .ok none
  | m :: ms =>
    match bind false m.sig args kwargs with
    | .error e => .error e
    | .ok r =>
      if r.unbound.isEmpty && (!r.extraArgs.isEmpty || !r.extraKwargs.isEmpty) then
        match fits isof m r with
        | .error e => .error e
        | .ok true => .ok (some r)
        | .ok false => complete isof args kwargs ms
      else complete isof args kwargs ms

/-- Step 3 (fun.py:564-569): is there a partial match? -/
def incomplete (isof : T → BVal V → Res Bool) (args : List V) (kwargs : PyDict String V) : List (MM V T) → Res Bool
  | [] => .ok false
  | m :: ms =>
    match bind false m.sig args kwargs with
    | .error e => .error e
    | .ok r =>
      if !r.unbound.isEmpty then
        match fits isof m r with
        | .error e => .error e
        | .ok true => .ok true
        | .ok false => incomplete isof args kwargs ms
      else incomplete isof args kwargs ms

/-- `_decide_curry_action` for generic functions (fun.py:528-573); `self` is looked for among the arguments, also for a bound method. -/
def decideGeneric (isof : T → BVal V → Res Bool) (w : World C V) (st : Reg V T) (d : Disp V T) (args : List V) (kwargs : PyDict String V) : Res (Action V) :=
  match extractSelf d args with
  | .error e => .error e
  | .ok self =>
    let ms := listMultimethods w st d self
    match exact isof args kwargs ms with
    | .error e => .error e
    | .ok true => .ok .call
    | .ok false =>
      match complete isof args kwargs ms with
      | .error e => .error e
      | .ok (some r) => .ok (.callWithPassthrough r.extraArgs r.extraKwargs)
      | .ok none =>
        match incomplete isof args kwargs ms with
        | .error e => .error e
        | .ok true => .ok .keepCurrying
        | .ok false => .error .TypeError

/-- What calling a curried generic function comes to -/
inductive Outcome (V T : Type) where
  /-- `m` runs with these arguments, and its value is returned -/
  | ran (m : MM V T) (args : List V) (kwargs : PyDict String V)
  /-- `m` runs with these arguments, and its value is passed on with the arguments left over -/
  | ranPassing (m : MM V T) (args : List V) (kwargs : PyDict String V) (laterArgs : List V) (laterKwargs : PyDict String V)
  /-- a new curried function, with these arguments so far -/
  | waits (args : List V) (kwargs : PyDict String V)

/-- What `inspect.signature` says of a dispatcher: because of `@wraps`, the signature of the function that created it; of a bound method, without its first parameter. -/
def signatureOf (d : Disp V T) : Callable V → Res (Sig V)
  | .bound _ _ =>
    match d.sig with
    | [] => .error .ValueError
    | p :: ps => if p.kind = .posOnly ∨ p.kind = .posOrKw then .ok ps else if p.kind = .varPos then .ok (p :: ps) else .error .ValueError
  | _ => .ok d.sig

/-- Currying the new partial object without arguments (fun.py:440), which asks for its signature (fun.py:327-333) -/
def curryPartial (d : Disp V T) (f : Callable V) (args : List V) (kwargs : PyDict String V) : Res (Outcome V T) :=
  match signatureOf d f with
  | .error e => .error e
  | .ok sig => if partialOk sig args kwargs then .ok (.waits args kwargs) else .error .ValueError

/-- Calling the dispatcher -/
def runs (isof : T → BVal V → Res Bool) (w : World C V) (st : Reg V T) (f : Callable V) (args : List V) (kwargs : PyDict String V) (k : MM V T → Outcome V T) : Res (Outcome V T) :=
  match callIt isof w st f args kwargs with
  | none => .error .TypeError
  | some (.error e) => .error e
  | some (.ok m) => .ok (k m)

/-- Calling a curried generic function, that has got `pargs` and `pkwargs` before (fun.py:336-444) -/
def callCurriedG (isof : T → BVal V → Res Bool) (w : World C V) (st : Reg V T) (f : Callable V) (pargs : List V) (pkwargs : PyDict String V) (args : List V) (kwargs : PyDict String V) :
    Res (Outcome V T) :=
  match f.fullname.bind (PyDict.get? st) with
  | none => .error .TypeError   -- not a generic function; does not happen
  | some d =>
    match decideGeneric isof w st d (pargs ++ args) (PyDict.update pkwargs kwargs) with
    | .error e => .error e
    | .ok .call => runs isof w st f (pargs ++ args) (PyDict.update pkwargs kwargs) (fun m => .ran m (pargs ++ args) (PyDict.update pkwargs kwargs))
    | .ok (.callWithPassthrough laterArgs laterKwargs) =>
      let nowArgs := if laterArgs.isEmpty then args else args.take (args.length - laterArgs.length)
      let nowKwargs := kwargs.filter (fun kv => !PyDict.has laterKwargs kv.1)
      runs isof w st f (pargs ++ nowArgs) (PyDict.update pkwargs nowKwargs) (fun m => .ranPassing m (pargs ++ nowArgs) (PyDict.update pkwargs nowKwargs) laterArgs laterKwargs)
    | .ok .keepCurrying =>
      match partialG isof w st d (pargs ++ args) (PyDict.update pkwargs kwargs) with
      | .error e => .error e
      | .ok () => curryPartial d f (pargs ++ args) (PyDict.update pkwargs kwargs)

/-- `curry(f)(*args1, **kwargs1)(*args2, **kwargs2)...`, until something runs: what comes of it, and the calls that are still to be made on that -/
def chainG (isof : T → BVal V → Res Bool) (w : World C V) (st : Reg V T) (f : Callable V) :
    List V → PyDict String V → List (List V × PyDict String V) → Res (Outcome V T × List (List V × PyDict String V))
  | pargs, pkwargs, [] => .ok (.waits pargs pkwargs, [])
  | pargs, pkwargs, c :: cs =>
    match callCurriedG isof w st f pargs pkwargs c.1 c.2 with
    | .error e => .error e
    | .ok (.waits args kwargs) => chainG isof w st f args kwargs cs
    | .ok o => .ok (o, cs)

end Unpy.CurryGeneric
