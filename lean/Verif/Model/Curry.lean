import Verif.Model.Arity
import Verif.Spec.Arity
import Verif.Model.Eff
/-!
# Model of `curry` (`unpythonic/fun.py:197-451`)

Simplified: the functions are inspectable and neither `@generic` nor annotated (so `partial`,
fun.py:110-176, is `functools.partial`), and nothing is lazy (`force` and `passthrough_lazy_args` do nothing;
`maybe_force_args(f, *args, **kwargs)` calls `f`, but a named argument `f` clashes with its parameter, and likewise `func`
for `partial(func, *args, **kwargs)`, `self` for `Values`; which arguments are passed on as they are is said in
`Model/ForceArgs.lean`, see C133).  Arguments called `_curry_force_call` and
`_curry_allow_uninspectable` are left out.  Of the dynvar `curry_context` only whether it is empty is kept, since
that is all that `curry` looks at.
-/
namespace Unpy.Curry
open Unpy Unpy.Arity Unpy.Eff
open Unpy.Fold (Err Vals)
variable {σ ε A : Type}

/-- Python objects: an object `a` that `curry` did not make, or the curried function whose underlying
`functools.partial` is `partial(f, *args, **kwargs)` (of no arguments, for `curry(f)`). -/
inductive Obj (A : Type) where
  | atom (a : A)
  | curried (f : A) (args : List (Obj A)) (kwargs : List (String × Obj A))

/-- A Python function: its signature, and what it does when it is called with acceptable arguments in an
empty (`false`) or non-empty (`true`) curry context. -/
structure Func (σ ε A : Type) where
  sig : Sig (Obj A)
  body : Bool → List (Obj A) → PyDict String (Obj A) → Eff σ (Err ε) (Ret (Obj A))

/-- Which objects are functions; the others are not callable. -/
abbrev Funcs (σ ε A : Type) := A → Option (Func σ ε A)

/-- Python's own rule for calling a function: TypeError unless the arguments fit the parameters. -/
def pyCall (F : Func σ ε A) (ctx : Bool) (args : List (Obj A)) (kwargs : PyDict String (Obj A)) :
    Eff σ (Err ε) (Ret (Obj A)) :=
  if Spec.Arity.Accepts F.sig args kwargs then F.body ctx args kwargs else raise (.py .TypeError)

/-- `callable(x)` -/
def callable (fs : Funcs σ ε A) : Obj A → Bool
  | .atom a => (fs a).isSome
  | .curried _ _ _ => true

/-- The actions of `_decide_curry_action` (fun.py:467-472). -/
inductive Action (V : Type) where
  | call
  | callWithPassthrough (extraArgs : List V) (extraKwargs : PyDict String V)
  | keepCurrying

/-- `_decide_curry_action` for non-generics (fun.py:476-526). -/
def decideAction {V : Type} (sig : Sig V) (args : List V) (kwargs : PyDict String V) : Res (Action V) :=
  match Arity.bind false sig args kwargs with
  | .error e => .error e
  | .ok r =>
    if r.unbound.isEmpty && r.extraArgs.isEmpty && r.extraKwargs.isEmpty then .ok .call
    else if r.unbound.isEmpty then .ok (.callWithPassthrough r.extraArgs r.extraKwargs)
    else .ok .keepCurrying

/-- Whether `inspect.signature` accepts `functools.partial(f, *args, **kwargs)`: some of the parameters may lack an argument,
but every argument must fit.  Otherwise it raises ValueError ("partial object ... has incorrect arguments"). -/
def partialOk {V : Type} (sig : Sig V) (args : List V) (kwargs : PyDict String V) : Bool :=
  match Arity.bind true sig args kwargs with
  | .ok r => r.extraArgs.isEmpty && r.extraKwargs.isEmpty
  | .error _ => false

/-- The leftmost return value if there is one, and the arguments to pass on (fun.py:364-399): a callable
leftmost value is not among them, because it is called. -/
def inject (fs : Funcs σ ε A) (r : Ret (Obj A)) (laterArgs : List (Obj A)) (laterKwargs : PyDict String (Obj A)) :
    Option (Obj A) × List (Obj A) × PyDict String (Obj A) :=
  match r with
  | .many vs =>
    let kw := PyDict.update laterKwargs vs.kwrets
    match vs.rets with
    | leftmost :: others =>
      if callable fs leftmost then (some leftmost, others ++ laterArgs, kw)
      else (some leftmost, leftmost :: (others ++ laterArgs), kw)
    | [] => (none, laterArgs, kw)
  | .one leftmost =>
    if callable fs leftmost then (some leftmost, laterArgs, laterKwargs)
    else (some leftmost, leftmost :: laterArgs, laterKwargs)

/-- Calling a curried function, `curried(*args, **kwargs)` (fun.py:336-444), in an empty or non-empty outer
curry context `ctx`.  `depth` is what is left of Python's stack.  When it keeps currying, the new partial object is curried
without arguments (fun.py:440), which asks for its signature (fun.py:327-333). -/
def callCurried (fs : Funcs σ ε A) : Nat → Bool → A → List (Obj A) → PyDict String (Obj A) →
    List (Obj A) → PyDict String (Obj A) → Eff σ (Err ε) (Ret (Obj A))
  | 0, _, _, _, _, _, _ => raise (.py .RuntimeError)
  | depth + 1, ctx, f, pargs, pkwargs, args, kwargs =>
    match fs f with
    | none => raise (.py .TypeError)
    | some F =>
      match decideAction F.sig (pargs ++ args) (PyDict.update pkwargs kwargs) with
      | .error e => raise (.py e)
      | .ok .call =>
        if PyDict.has kwargs "f" then raise (.py .TypeError)
        else pyCall F true (pargs ++ args) (PyDict.update pkwargs kwargs)
      | .ok (.callWithPassthrough laterArgs laterKwargs) =>
        let nowArgs := if laterArgs.isEmpty then args else args.take (args.length - laterArgs.length)
        let nowKwargs := kwargs.filter (fun kv => !PyDict.has laterKwargs kv.1)
        if PyDict.has nowKwargs "f" then raise (.py .TypeError)
        else bind (pyCall F true (pargs ++ nowArgs) (PyDict.update pkwargs nowKwargs)) fun r =>
          let (leftmost, laterArgs, laterKwargs) := inject fs r laterArgs laterKwargs
          match leftmost with
          | some (.curried g ga gk) =>
            if PyDict.has laterKwargs "f" then raise (.py .TypeError)
            else callCurried fs depth true g ga gk laterArgs laterKwargs
          | some (.atom g) =>
            if (fs g).isSome then
              if PyDict.has laterKwargs "f" then raise (.py .TypeError)
              else callCurried fs depth true g [] [] laterArgs laterKwargs
            else if ctx && !PyDict.has laterKwargs "self" then ret (.many ⟨laterArgs, laterKwargs⟩)
            else raise (.py .TypeError)
          | none =>
            if ctx && !PyDict.has laterKwargs "self" then ret (.many ⟨laterArgs, laterKwargs⟩)
            else raise (.py .TypeError)
      | .ok .keepCurrying =>
        if PyDict.has kwargs "func" then raise (.py .TypeError)
        else if partialOk F.sig (pargs ++ args) (PyDict.update pkwargs kwargs) then
          ret (.one (.curried f (pargs ++ args) (PyDict.update pkwargs kwargs)))
        else raise (.py .ValueError)

/-- `curry(f, *args, **kwargs)` (fun.py:197-328, 441-451); a named argument `f` clashes with the parameter. -/
def curry (fs : Funcs σ ε A) (depth : Nat) (ctx : Bool) (f : Obj A) (args : List (Obj A))
    (kwargs : PyDict String (Obj A)) : Eff σ (Err ε) (Ret (Obj A)) :=
  if PyDict.has kwargs "f" then raise (.py .TypeError)
  else match f with
  | .curried g ga gk =>
    if args.isEmpty && kwargs.isEmpty then ret (.one (.curried g ga gk))
    else callCurried fs depth ctx g ga gk args kwargs
  | .atom a =>
    if (fs a).isSome then
      if args.isEmpty && kwargs.isEmpty then ret (.one (.curried a [] []))
      else callCurried fs depth ctx a [] [] args kwargs
    else ret (.one (.atom a))

/-- Calling any object. -/
def callObj (fs : Funcs σ ε A) (depth : Nat) (ctx : Bool) (f : Ret (Obj A)) (args : List (Obj A))
    (kwargs : PyDict String (Obj A)) : Eff σ (Err ε) (Ret (Obj A)) :=
  match f with
  | .one (.curried g ga gk) => callCurried fs depth ctx g ga gk args kwargs
  | .one (.atom a) => match fs a with
    | some F => pyCall F ctx args kwargs
    | none => raise (.py .TypeError)
  | .many _ => raise (.py .TypeError)

/-- `f(*args1, **kwargs1)(*args2, **kwargs2)...` -/
def callChain (fs : Funcs σ ε A) (depth : Nat) (ctx : Bool) : Ret (Obj A) →
    List (List (Obj A) × PyDict String (Obj A)) → Eff σ (Err ε) (Ret (Obj A))
  | f, [] => ret f
  | f, c :: cs => bind (callObj fs depth ctx f c.1 c.2) fun r => callChain fs depth ctx r cs

end Unpy.Curry
