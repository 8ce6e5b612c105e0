import Verif.Model.CurryGeneric
/-!
# Model of partial application and currying of functions with type annotations (`unpythonic/fun.py`)

These are functions that are not generic; `partial` checks the arguments against the annotations.  What the function does is not modelled, only whether it is called, and with what.

Simplified: nothing is lazy, `typing.get_type_hints` does not raise, the construction of error messages does not fail, and no argument is named `f` or `func`: these are parameters of what
passes the arguments on (fun.py:110, lazyutil.py:113), and such a call raises TypeError whatever the function is, as in `Verif.Model.Curry`.
-/
namespace Unpy.CurryAnnotated
open Unpy Unpy.Arity
open Unpy.Curry (Action decideAction partialOk)
open Unpy.CurryGeneric (keyPartial)
variable {V T : Type}

/-- A function: its signature and its type hints (`typing.get_type_hints`); parameters may lack one, and there may be one for `return`. -/
structure AFn (V T : Type) where
  sig : Sig V
  hints : PyDict String T

/-- The function itself, or a `functools.partial` of it with these arguments -/
inductive Obj (V : Type) where
  | plain
  | part (args : List V) (kwargs : PyDict String V)

/-- Its arguments so far -/
def Obj.args : Obj V → List V
  | .plain => []
  | .part a _ => a

def Obj.kwargs : Obj V → PyDict String V
  | .plain => []
  | .part _ k => k

/-- The parameters of a `functools.partial`, of what `bind_partial` has bound and the named arguments (`inspect._signature_get_partial`, called at arity.py:415): parameters bound by position
disappear, those bound by name get that as a default, and the ones after can only be given by name.  `flag` says whether there was one bound by name. -/
def partialParams (ba : PyDict String (BVal V)) (kwargs : PyDict String V) : Bool → List (Param V) → List (Param V)
  | _, [] => []
  | flag, p :: ps =>
    let byName (flag : Bool) (p : Param V) : List (Param V) :=
      if flag then
        if p.kind = .posOrKw then [{ p with kind := .kwOnly }]
        else if p.kind = .varPos then []
        else [p]
      else [p]
    match PyDict.get? ba p.name with
    | none => byName flag p ++ partialParams ba kwargs flag ps
    | some b =>
      let q := match b with
        | .val v => { p with default := some v }
        | _ => p
      if p.kind = .posOnly then partialParams ba kwargs flag ps
      else if p.kind = .posOrKw then
        if PyDict.has kwargs p.name then byName true q ++ partialParams ba kwargs true ps
        else partialParams ba kwargs flag ps
      else if p.kind = .kwOnly then byName flag q ++ partialParams ba kwargs flag ps
      else byName flag p ++ partialParams ba kwargs flag ps

/-- `inspect.signature(func)` (arity.py:415) -/
def signatureA (sig : Sig V) : Obj V → Res (Sig V)
  | .plain => .ok sig
  | .part args kwargs =>
    match bind true sig args kwargs with
    | .error _ => .error .ValueError
    | .ok r => if r.extraArgs.isEmpty && r.extraKwargs.isEmpty then .ok (partialParams r.arguments kwargs false sig) else .error .ValueError

/-- `_get_argument_type_mismatches(type_signature, bound_arguments, skip_unannotated=True)` (dispatch.py:532-570): whether there is a mismatch -/
def mismatchSkip (isof : T → BVal V → Res Bool) (hints : PyDict String T) : List (String × BVal V) → Res Bool
  | [] => .ok false
  | (p, v) :: rest =>
    match PyDict.get? hints p with
    | none => mismatchSkip isof hints rest
    | some t =>
      match isof t v with
      | .error e => .error e
      | .ok ok =>
        match mismatchSkip isof hints rest with
        | .error e => .error e
        | .ok m => .ok (!ok || m)

/-- `partial(func, *args, **kwargs)` (fun.py:134-176): `func` can be a partial already.  All the arguments collected so far are bound to the parameters of `func`. -/
def partialA (isof : T → BVal V → Res Bool) (F : AFn V T) (func : Obj V) (args : List V) (kwargs : PyDict String V) : Res (Obj V) :=
  let all := func.args ++ args
  let named := PyDict.update func.kwargs kwargs
  if F.hints.isEmpty then .ok (.part all named)
  else
    match signatureA F.sig func with
    | .error e => .error e
    | .ok sig =>
      match keyPartial sig all named with
      | .error e => .error e
      | .ok bound =>
        match mismatchSkip isof F.hints bound with
        | .error e => .error e
        | .ok true => .error .TypeError
        | .ok false => .ok (.part all named)

/-- What calling a curried function comes to: the function is called with these arguments (the values are then passed on with those that are left over, see `Verif.Model.Curry`), or it is a new
curried function -/
inductive Outcome (V : Type) where
  | called (args : List V) (kwargs : PyDict String V) (laterArgs : List V) (laterKwargs : PyDict String V)
  | waits (func : Obj V)

/-- Calling a curried function (fun.py:336-444) -/
def callCurriedA (isof : T → BVal V → Res Bool) (F : AFn V T) (func : Obj V) (args : List V) (kwargs : PyDict String V) : Res (Outcome V) :=
  let all := func.args ++ args
  let named := PyDict.update func.kwargs kwargs
  match decideAction F.sig all named with
  | .error e => .error e
  | .ok .call => .ok (.called all named [] [])
  | .ok (.callWithPassthrough laterArgs laterKwargs) =>
    let nowArgs := if laterArgs.isEmpty then args else args.take (args.length - laterArgs.length)
    let nowKwargs := kwargs.filter (fun kv => !PyDict.has laterKwargs kv.1)
    .ok (.called (func.args ++ nowArgs) (PyDict.update func.kwargs nowKwargs) laterArgs laterKwargs)
  | .ok .keepCurrying =>
    match partialA isof F func args kwargs with
    | .error e => .error e
    | .ok p => if partialOk F.sig p.args p.kwargs then .ok (.waits p) else .error .ValueError

/-- `curry(f)(*args1, **kwargs1)(*args2, **kwargs2)...`, until the function is called: what comes of it, and the calls that are still to be made on that -/
def chainA (isof : T → BVal V → Res Bool) (F : AFn V T) : Obj V → List (List V × PyDict String V) → Res (Outcome V × List (List V × PyDict String V))
  | func, [] => .ok (.waits func, [])
  | func, c :: cs =>
    match callCurriedA isof F func c.1 c.2 with
    | .error e => .error e
    | .ok (.waits p) => chainA isof F p cs
    | .ok o => .ok (o, cs)

/-- `flip(f)` (fun.py:580-587), as `partial` sees it: `functools.wraps` copies the annotations, and sets `__wrapped__`, which `inspect.signature` follows; so it has the annotations and the
parameters of `f`, in the order of `f` -/
def flipped (F : AFn V T) : AFn V T := { sig := F.sig, hints := F.hints }

/-- What `f` is called with when `flip(f)`, or a partial application of it, is called (fun.py:583-584; `functools.partial` puts its arguments before, and lets later named arguments replace
earlier ones) -/
def callFlipped (func : Obj V) (args : List V) (kwargs : PyDict String V) : List V × PyDict String V :=
  ((func.args ++ args).reverse, PyDict.update func.kwargs kwargs)

end Unpy.CurryAnnotated
