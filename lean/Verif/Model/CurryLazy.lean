import Verif.Model.LazyCompose
/-!
# Model of curried functions in lazy code (`unpythonic/fun.py`, `unpythonic/lazyutil.py`)

In a `with lazify` block, each call is made by `maybe_force_args`, and the arguments may be promises.

Simplified: positional arguments only, functions have a fixed number of parameters (for the others see `Model/Curry.lean`) and are not
generic; they return one value, and there is no curry context around.  Promises are arguments themselves, not inside of containers.
-/
namespace Unpy.CurryLazy
open Unpy.Eff
open Unpy.LazyCompose (Arg forceAll)
variable {σ ε V P : Type}

/-- A function: how many parameters it has; whether it is marked, as the functions defined in the block are; whether it has type
annotations, and which of the parameters have one, other than `Any` (what values are of the type); and what it does. -/
structure Fn (σ ε V P : Type) where
  arity : Nat
  lazy : Bool
  annotated : Bool
  ann : Nat → Option (V → Bool)
  body : List (Arg V P) → Eff σ ε V

/-- Which values are functions, what promises do when they are forced, and the exceptions -/
structure World (σ ε V P : Type) where
  fns : V → Option (Fn σ ε V P)
  forceP : P → Eff σ ε V
  typeError : ε
  recursion : ε

/-- A value, or the curried function whose underlying `functools.partial` is `partial(f, *args)` (of no arguments, for `curry(f)`) -/
inductive Obj (V P : Type) where
  | val (v : V)
  | curried (f : V) (args : List (Arg V P))

/-- `isoftype(value, expected_type)` (typecheck.py:41-378, called at dispatch.py:568): a promise is a `Lazy`. -/
def isoftype (t : V → Bool) : Arg V P → Bool
  | .val v => t v
  | .promise _ => false

/-- whether the arguments are of the types of the parameters from number `i` on; those without an annotation are skipped
(dispatch.py:559-570) -/
def typesOk (ann : Nat → Option (V → Bool)) : Nat → List (Arg V P) → Bool
  | _, [] => true
  | i, a :: as => (match ann i with | none => true | some t => isoftype t a) && typesOk ann (i + 1) as

/-- the check in `partial(func, *args)` (fun.py:134-172), where `func` is a partial that has got `before`: all the arguments collected
are bound to the parameters that are left (fun.py:161, see C131). -/
def check (F : Fn σ ε V P) (before args : List (Arg V P)) : Bool :=
  !F.annotated || ((before ++ args).length ≤ F.arity - before.length && typesOk F.ann before.length (before ++ args))

/-- The arguments as `maybe_force_args` passes them on (lazyutil.py:122-124) -/
def pass (W : World σ ε V P) (lazy : Bool) (args : List (Arg V P)) : Eff σ ε (List (Arg V P)) :=
  if lazy then ret args else forceAll W.forceP args

/-- Calling a curried function in lazy code, `maybe_force_args(curried, *args)` (fun.py:336-447): it is marked if the function is
(fun.py:439-440, 445-446).  The first argument is what is left of Python's stack. -/
def callCurried (W : World σ ε V P) : Nat → V → List (Arg V P) → List (Arg V P) → Eff σ ε (Obj V P)
  | 0, _, _, _ => raise W.recursion
  | depth + 1, f, before, args => match W.fns f with
    | none => raise W.typeError      -- not callable
    | some F => bind (pass W F.lazy args) fun args =>
      if (before ++ args).length < F.arity then      -- `_keep_currying` (fun.py:434-441)
        if check F before args then ret (.curried f (before ++ args)) else raise W.typeError
      else bind (F.body ((before ++ args).take F.arity)) fun r =>
        if (before ++ args).length = F.arity then ret (.val r)      -- `_call` (fun.py:353-354)
        else match W.fns r with      -- `_call_with_passthrough` (fun.py:356-432)
          | some _ => callCurried W depth r [] ((before ++ args).drop F.arity)
          | none => raise W.typeError

/-- Calling any object in lazy code, `maybe_force_args(f, *args)` (lazyutil.py:113-124) -/
def call (W : World σ ε V P) (depth : Nat) (f : Obj V P) (args : List (Arg V P)) : Eff σ ε (Obj V P) :=
  match f with
  | .curried f before => callCurried W depth f before args
  | .val f => match W.fns f with
    | none => raise W.typeError
    | some F => bind (pass W F.lazy args) fun args =>
      if args.length = F.arity then bind (F.body args) fun r => ret (.val r) else raise W.typeError

/-- `f(*args1)(*args2)...` -/
def chain (W : World σ ε V P) (depth : Nat) : Obj V P → List (List (Arg V P)) → Eff σ ε (Obj V P)
  | f, [] => ret f
  | f, args :: rest => bind (call W depth f args) fun r => chain W depth r rest

end Unpy.CurryLazy
