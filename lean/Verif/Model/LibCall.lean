import Verif.Model.Arity
/-!
# Model of how named arguments travel through the library to the user's function

Only the way of the arguments is modelled: which functions of the library are called on the way, with which parameters of their own, and what they pass on.  How Python binds arguments to the parameters of each
of these functions is `Arity.bindStrict`.

Simplified: nothing is lazy (see `Model/ForceArgs.lean`), the arguments can be hashed, functions have no side effects, and of memoized, recursive and iterated functions it is the first call that is modelled.
-/
namespace Unpy.LibCall
open Unpy Unpy.Arity
variable {V R : Type}

/-- What calling an object does -/
abbrev Call (V : Type) := V → List V → PyDict String V → Res V

/-- What is collected by a parameter `*name` -/
def rest (m : PyDict String (BVal V)) (name : String) : List V :=
  match PyDict.get? m name with
  | some (.tuple vs) => vs
  | _ => []

/-- What is collected by a parameter `**name` -/
def named (m : PyDict String (BVal V)) (name : String) : PyDict String V :=
  match PyDict.get? m name with
  | some (.dict d) => d
  | _ => []

/-- A call of a function `def lib(first, *more, **kws): ...` of the library -/
def lib (first more kws : String) (body : V → List V → PyDict String V → Res R) (args : List V) (kwargs : PyDict String V) : Res R :=
  match bindStrict [⟨first, .posOrKw, none⟩, ⟨more, .varPos, none⟩, ⟨kws, .varKw, none⟩] args kwargs with
  | .error e => .error e
  | .ok m =>
    match PyDict.get? m first with
    | some (.val v) => body v (rest m more) (named m kws)
    | _ => .error .UnboundLocalError

/-- `maybe_force_args(f, *thunks, **kwthunks)` (lazyutil.py:113-125), for `f` other than `jump`; calls in `with lazify` blocks become this (syntax/lazify.py:786-789). -/
def maybeForceArgs (call : Call V) : List V → PyDict String V → Res V :=
  lib "f" "thunks" "kwthunks" call

/-- `call(f, *args, **kwargs)` (funutil.py:26-98) -/
def callFn (call : Call V) : List V → PyDict String V → Res V :=
  lib "f" "args" "kwargs" (fun f args kwargs => maybeForceArgs call (f :: args) kwargs)

/-- `callwith(*args, **kwargs)(f)` (funutil.py:100-197); `callwith` itself has no parameter that could be given by name. -/
def callWith (call : Call V) (f : V) (args : List V) (kwargs : PyDict String V) : Res V :=
  maybeForceArgs call (f :: args) kwargs

/-- A `_jump` (tco.py:159-170) -/
structure Jump (V : Type) where
  target : V
  args : List V
  kwargs : PyDict String V

/-- `jump(target, *args, **kwargs)` (tco.py:140-157); calls in tail position in `with tco` and `with continuations` blocks become this (syntax/tailtools.py:1135, 1609). -/
def jump : List V → PyDict String V → Res (Jump V) :=
  lib "target" "args" "kwargs" (fun target args kwargs => .ok ⟨target, args, kwargs⟩)

/-- The trampoline performs the jump (tco.py:248-262). -/
def bounce (call : Call V) (j : Jump V) : Res V := call j.target j.args j.kwargs

/-- The trampoline of lazy code performs the jump (tco.py:281-294). -/
def lazyBounce (call : Call V) (j : Jump V) : Res V := maybeForceArgs call (j.target :: j.args) j.kwargs

/-- `maybe_force_args(jump, target, *args, **kwargs)` (lazyutil.py:119-121), for tail calls in `with lazify, tco` -/
def lazyJump : List V → PyDict String V → Res (Jump V) :=
  lib "f" "thunks" "kwthunks" (fun _ thunks kwthunks => jump thunks kwthunks)

/-- `resolve_bindings(f, *args, **kwargs)` (arity.py:349-421); defaults are left out. -/
def resolveBindings (sigOf : V → Sig V) : List V → PyDict String V → Res (PyDict String (BVal V)) :=
  lib "f" "args" "kwargs" (fun f args kwargs => bindStrict (sigOf f) args kwargs)

/-- `gmemoized(*args, **kwargs)` (gmemo.py:95-101): how the generator is made -/
def gmemoized (sigOf : V → Sig V) (call : Call V) (gfunc : V) (args : List V) (kwargs : PyDict String V) : Res V :=
  match resolveBindings sigOf (gfunc :: args) kwargs with
  | .error e => .error e
  | .ok _ => call gfunc args kwargs

/-- `memoized(*args, **kwargs)` (fun.py:75-96): how the function is called -/
def memoized (sigOf : V → Sig V) (call : Call V) (f : V) (args : List V) (kwargs : PyDict String V) : Res V :=
  match bindStrict (sigOf f) args kwargs with
  | .error e => .error e
  | .ok _ => maybeForceArgs call (f :: args) kwargs

/-- `f_fix(*args, **kwargs)` (fix.py:216-230), where no call is in progress, without TCO -/
def fixed (memo : Bool) (sigOf : V → Sig V) (call : Call V) (f : V) (args : List V) (kwargs : PyDict String V) : Res V :=
  match resolveBindings sigOf (f :: args) kwargs with
  | .error e => .error e
  | .ok _ => if memo then memoized sigOf call f args kwargs else call f args kwargs

/-- `Values(*rets, **kwrets)` (funutil.py:298-305); `self` is the new instance. -/
def values (self : V) (args : List V) (kwargs : PyDict String V) : Res (List V × PyDict String V) :=
  lib "self" "rets" "kwrets" (fun _ rets kwrets => .ok (rets, kwrets)) (self :: args) kwargs

/-- `iterate(f, *args, **kwargs)` (it.py:567-585), as far as the first call of `f` -/
def iterate (self : V) (call : Call V) : List V → PyDict String V → Res V :=
  lib "f" "args" "kwargs" (fun f args kwargs =>
    match values self args kwargs with
    | .error e => .error e
    | .ok x => call f x.1 x.2)

/-- `unfold(proc, *inits, **kwinits)` (fold.py:301-330), as far as the first call of `proc` -/
def unfold (self : V) (call : Call V) : List V → PyDict String V → Res V :=
  lib "proc" "inits" "kwinits" (fun proc inits kwinits =>
    match values self inits kwinits with
    | .error e => .error e
    | .ok state => call proc state.1 state.2)

/-- `curry(f, *args, _curry_force_call=False, _curry_allow_uninspectable=False, **kwargs)` (fun.py:197-451), where the arguments fit the parameters of `f`: the curried function is called (fun.py:313, 450),
and calls `f` (fun.py:354).  `no` is `False`. -/
def curry (no : V) (call : Call V) (args : List V) (kwargs : PyDict String V) : Res V :=
  match bindStrict [⟨"f", .posOrKw, none⟩, ⟨"args", .varPos, none⟩, ⟨"_curry_force_call", .kwOnly, some no⟩,
      ⟨"_curry_allow_uninspectable", .kwOnly, some no⟩, ⟨"kwargs", .varKw, none⟩] args kwargs with
  | .error e => .error e
  | .ok m =>
    match PyDict.get? m "f" with
    | some (.val f) =>
      maybeForceArgs (fun f args kwargs => maybeForceArgs call (f :: args) kwargs) (f :: rest m "args") (named m "kwargs")
    | _ => .error .UnboundLocalError

/-- `_currycall(f, *args, **kwargs)` (fun.py:453-465); calls in `with autocurry` blocks become this (syntax/autocurry.py:113-115).  It is an error to give the same name twice. -/
def currycall (yes no : V) (call : Call V) : List V → PyDict String V → Res V :=
  lib "f" "args" "kwargs" (fun f args kwargs =>
    if PyDict.has kwargs "_curry_force_call" || PyDict.has kwargs "_curry_allow_uninspectable" then .error .TypeError
    else curry no call (f :: args) (("_curry_force_call", yes) :: ("_curry_allow_uninspectable", yes) :: kwargs))

/-- `Singleton.__new__(cls, *args, **kwargs)` (singleton.py:169-189), where there is no instance: the new `instance` -/
def singletonNew (instance_ : V) : List V → PyDict String V → Res V :=
  lib "cls" "args" "kwargs" (fun _ _ _ => .ok instance_)

/-- A call `cls(*args, **kwargs)` of a class derived from `Singleton`, where there is no instance: `ThereCanBeOnlyOne.__call__(cls, *args, **kwargs)` (singleton.py:127-148); `init` is the `__init__` of the
class. -/
def singleton (instance_ init : V) (call : Call V) : List V → PyDict String V → Res V :=
  lib "cls" "args" "kwargs" (fun cls args kwargs =>
    match singletonNew instance_ (cls :: args) kwargs with
    | .error e => .error e
    | .ok inst => call init (inst :: args) kwargs)

/-- The ways to a function of the user -/
inductive Via where
  | call | callwith | inTco | inLazify | inLazifyTco | inAutocurry | memoize | gmemoize | fix (memo : Bool)
  | iterate | unfold | singleton
  deriving DecidableEq, Repr

/-- Objects that are not the user's: instances, classes, truth values -/
structure Things (V : Type) where
  self : V
  cls : V
  yes : V
  no : V

/-- The call of `f` with the given arguments by a way; for a singleton `f` is the `__init__`. -/
def run (things : Things V) (sigOf : V → Sig V) (call : Call V) (f : V) (args : List V) (kwargs : PyDict String V) : Via → Res V
  | .call => callFn call (f :: args) kwargs
  | .callwith => callWith call f args kwargs
  | .inTco => match jump (f :: args) kwargs with | .error e => .error e | .ok j => bounce call j
  | .inLazify => maybeForceArgs call (f :: args) kwargs
  | .inLazifyTco => match lazyJump (things.self :: f :: args) kwargs with | .error e => .error e | .ok j => lazyBounce call j
  | .inAutocurry => currycall things.yes things.no call (f :: args) kwargs
  | .memoize => memoized sigOf call f args kwargs
  | .gmemoize => gmemoized sigOf call f args kwargs
  | .fix memo => fixed memo sigOf call f args kwargs
  | .iterate => iterate things.self call (f :: args) kwargs
  | .unfold => unfold things.self call (f :: args) kwargs
  | .singleton => singleton things.self f call (things.cls :: args) kwargs

end Unpy.LibCall
