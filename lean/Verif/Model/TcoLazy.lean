import Verif.Model.LazyCompose
/-!
# Model of tail calls in lazy code (`unpythonic/tco.py`, `unpythonic/lazyutil.py`, `unpythonic/syntax/lazify.py`)

In a `with lazify, tco` block, a call is made by `maybe_force_args`, and a tail call becomes `return maybe_force_args(jump, f, ...)`.

Simplified: positional arguments only; what is called is a function; promises are arguments themselves, not inside of containers; a
promise does not make tail calls.
-/
namespace Unpy.TcoLazy
open Unpy.Eff
open Unpy.LazyCompose (Arg forceAll)
variable {σ ε V P : Type}

/-- What is left to do in the body of a function: return a value; any computation (such as forcing a promise), and go on with its
value; a call that is not in a tail position; a tail call. -/
inductive Code (σ ε V P : Type) where
  | done (v : V)
  | eff (m : Eff σ ε V) (k : V → Code σ ε V P)
  | call (f : Nat) (args : List (Arg V P)) (k : V → Code σ ε V P)
  | tail (f : Nat) (args : List (Arg V P))

/-- A function: whether it is marked, as the functions defined in a `with lazify` block are (`wraps` and tco.py:301-302 make its
trampoline marked as well); the trampoline it has, if any, and whether that is aware of lazy code; and its body -/
structure Fn (σ ε V P : Type) where
  mark : Bool
  tramp : Option Bool
  body : List (Arg V P) → Code σ ε V P

/-- The functions, what promises do when they are forced, and two exceptions: for running out of steps, and for a jump that no
trampoline takes -/
structure World (σ ε V P : Type) where
  fns : Nat → Fn σ ε V P
  forceP : P → Eff σ ε V
  recursion : ε
  unclaimed : ε

/-- `trampolined(function)` (tco.py:236-305): which trampoline it gets depends on the dynamic variable `_build_lazy_trampoline`, which
is true while a `with lazify` block runs (syntax/lazify.py:883). -/
def trampolined (lazyTrampoline : Bool) (F : Fn σ ε V P) : Fn σ ε V P := { F with tramp := some lazyTrampoline }

/-- The arguments as `maybe_force_args` passes them on (lazyutil.py:122-124) -/
def pass (W : World σ ε V P) (mark : Bool) (args : List (Arg V P)) : Eff σ ε (List (Arg V P)) :=
  if mark then ret args else forceAll W.forceP args

/-- What a body returns: a value, or a `_jump` (tco.py:159-170; `maybe_force_args` makes it without forcing the arguments,
lazyutil.py:119-121) -/
inductive Tail (V P : Type) where
  | value (v : V)
  | jump (f : Nat) (args : List (Arg V P))

/-- Running a body; `call` is what calls of functions do. -/
def runBody (call : Nat → List (Arg V P) → Eff σ ε V) : Code σ ε V P → Eff σ ε (Tail V P)
  | .done v => ret (.value v)
  | .eff m k => bind m fun v => runBody call (k v)
  | .call f args k => bind (call f args) fun v => runBody call (k v)
  | .tail f args => ret (.jump f args)

/-- How a function is entered: by a call in lazy code, or by a jump that a trampoline has got, which is aware of lazy code or not -/
inductive Mode where
  | call
  | jump (lazyTrampoline : Bool)

/-- The arguments on the way to the body.  By a call, `maybe_force_args` (lazyutil.py:113-124); in the trampoline that is aware of lazy
code, `maybe_force_args` of the function itself (tco.py:284), also in the first round; in the other one, nothing (tco.py:250). -/
def enter (W : World σ ε V P) (F : Fn σ ε V P) (mode : Mode) (args : List (Arg V P)) : Eff σ ε (List (Arg V P)) :=
  match mode with
  | .call => bind (pass W F.mark args) fun args => match F.tramp with
    | some true => pass W F.mark args
    | _ => ret args
  | .jump true => pass W F.mark args
  | .jump false => ret args

/-- The trampoline that gets a jump out of the body: that of the function called (tco.py:246-261, 280-295); functions entered by a jump
are run without their own (`_entrypoint`, tco.py:167). -/
def trampOf (F : Fn σ ε V P) : Mode → Option Bool
  | .call => F.tramp
  | .jump lz => some lz

/-- A call or a jump, and all that follows.  The first argument is the number of steps.  Simplified: a jump that is returned by a
function without a trampoline is an exception (in the code, the jump is what the call returns, with a warning when it is deleted). -/
def run (W : World σ ε V P) : Nat → Mode → Nat → List (Arg V P) → Eff σ ε V
  | 0, _, _, _ => raise W.recursion
  | n + 1, mode, f, args =>
    bind (enter W (W.fns f) mode args) fun args =>
      bind (runBody (run W n .call) ((W.fns f).body args)) fun r => match r with
        | .value v => ret v
        | .jump g as => match trampOf (W.fns f) mode with
          | some lz => run W n (.jump lz) g as
          | none => raise W.unclaimed

end Unpy.TcoLazy
