import Verif.Model.Eff
/-!
# Model of function composition in lazy code (`unpythonic/fun.py`, `unpythonic/lazyutil.py`)

Functions are objects that may carry the mark of `passthrough_lazy_args`; `maybe_force_args` looks at it whenever a function is called.

Simplified: positional arguments only; promises are arguments themselves, not inside of containers (for those see `Model/ForceArgs.lean`); functions return values, not promises (as the documentation says of `with lazify`), are not
curried, can be marked, and are not marked while a composition runs.
-/
namespace Unpy.LazyCompose
open Unpy Unpy.Eff
variable {σ ε V P : Type}

/-- An argument: a value, or a promise -/
inductive Arg (V P : Type) where
  | val (v : V)
  | promise (p : P)

/-- What a function returns: a value, or `Values` -/
inductive Out (V : Type) where
  | one (v : V)
  | many (vs : List V)

/-- The functions that have been marked -/
abbrev Marks := List Nat

/-- A function object, with its identity; whether its `__name__` is `_let`; and what it does when it is called -/
structure Fn (σ ε V P : Type) where
  id : Nat
  isLet : Bool := false
  call : Marks → List (Arg V P) → Eff σ ε (Out V)

/-- `islazy(f)` (lazyutil.py:103-111) -/
def islazy (marks : Marks) (f : Fn σ ε V P) : Bool := marks.contains f.id || f.isLet

/-- `force(thunks)` (lazyutil.py:88-98), from left to right; what a promise does is any computation. -/
def forceAll (forceP : P → Eff σ ε V) : List (Arg V P) → Eff σ ε (List (Arg V P))
  | [] => ret []
  | .val v :: as => bind (forceAll forceP as) fun vs => ret (.val v :: vs)
  | .promise p :: as => bind (forceP p) fun v => bind (forceAll forceP as) fun vs => ret (.val v :: vs)

/-- `maybe_force_args(f, *thunks)` (lazyutil.py:113-124); `f` is not `jump`. -/
def maybeForce (forceP : P → Eff σ ε V) (marks : Marks) (f : Fn σ ε V P) (args : List (Arg V P)) : Eff σ ε (Out V) :=
  if islazy marks f then f.call marks args else bind (forceAll forceP args) (f.call marks)

/-- The call of the function made by `compose_two(f, g)` (fun.py:883-900), or by `compose1_two(f, g)` (fun.py:801-803), which does not unpack -/
def composedCall (forceP : P → Eff σ ε V) (pack : List V → V) (unpack : Bool) (f g : Fn σ ε V P) (marks : Marks) (args : List (Arg V P)) : Eff σ ε (Out V) :=
  bind (maybeForce forceP marks g args) fun a =>
    match a with
    | .many vs => if unpack then maybeForce forceP marks f (vs.map .val) else maybeForce forceP marks f [.val (pack vs)]
    | .one v => maybeForce forceP marks f [.val v]

/-- The loop of `reducel` (fun.py:824, 911): each step makes a new function. -/
def loop (forceP : P → Eff σ ε V) (pack : List V → V) (unpack right : Bool) (acc : Fn σ ε V P) (next : Nat) : List (Fn σ ε V P) → Fn σ ε V P × Nat
  | [] => (acc, next)
  | elt :: rest =>
    let c : Fn σ ε V P := { id := next, call := if right then composedCall forceP pack unpack acc elt else composedCall forceP pack unpack elt acc }
    loop forceP pack unpack right c (next + 1) rest

/-- `compose(fs)` and `compose1(fs)` (fun.py:806-826, 903-913): the result of `reducel` is marked.  For no functions, this is `None`, which cannot be marked.  `next` is the identity of the next object that is made. -/
def compose (forceP : P → Eff σ ε V) (pack : List V → V) (unpack right : Bool) (marks : Marks) (next : Nat) (fs : List (Fn σ ε V P)) : Res (Fn σ ε V P × Marks × Nat) :=
  match fs with
  | [] => .error .AttributeError
  | f :: fs =>
    let r := loop forceP pack unpack right f next fs
    .ok (r.1, r.1.id :: marks, r.2)

/-- `flip(f)` (fun.py:580-587): marked if `f` is, when it is made (also because `wraps` copies attributes); `wraps` copies the name as well. -/
def flip (forceP : P → Eff σ ε V) (marks : Marks) (next : Nat) (f : Fn σ ε V P) : Fn σ ε V P × Marks × Nat :=
  let g : Fn σ ε V P := { id := next, isLet := f.isLet, call := fun marks args => maybeForce forceP marks f args.reverse }
  (g, if islazy marks f then next :: marks else marks, next + 1)

end Unpy.LazyCompose
