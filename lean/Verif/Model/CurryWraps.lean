/-!
# Model of `curry` on functions that other decorators have made from curried functions (`unpythonic/fun.py`)

A decorator that uses `functools.wraps` copies the attributes of the function it gets, and with them the mark of curried functions
(fun.py:447), which is all that `iscurried` looks at (fun.py:191-193).  The decorator here is `flip`, as many times as you like.

Simplified: functions have a fixed number of positional parameters, and return values that are not callable; so arguments left over are an error
(fun.py:429-435), where no outer curry context is active.  Nothing is lazy.
-/
namespace Unpy.CurryWraps
variable {V : Type}

/-- A function object -/
inductive Fn (V : Type) where
  /-- a function of `n` parameters -/
  | base (n : Nat) (body : List V → V)
  /-- what `curry` makes of `functools.partial(f, *given)`; or of `f` itself, for no arguments (fun.py:336-448) -/
  | curried (f : Fn V) (given : List V)
  /-- `flip(f)` (fun.py:580-587) -/
  | flipped (f : Fn V)

/-- The number of parameters according to `inspect.signature`, which looks at the function inside (`__wrapped__`), and knows `functools.partial` -/
def Fn.arity : Fn V → Nat
  | .base n _ => n
  | .curried f given => f.arity - given.length
  | .flipped f => f.arity

/-- `iscurried(f)` (fun.py:191-193): `curry` sets the mark (fun.py:447), and `@wraps` (fun.py:582) copies it -/
def Fn.iscurried : Fn V → Bool
  | .base _ _ => false
  | .curried _ _ => true
  | .flipped f => f.iscurried

/-- What a call comes to: a value, a function that waits for more arguments, or TypeError -/
inductive Res (V : Type) where
  | val (v : V)
  | fn (f : Fn V)
  | typeError

/-- Calling a function object: Python's rule for functions; `curried` (fun.py:336-444) with the decision of `_decide_curry_action` (fun.py:453-478);
`flipped` (fun.py:583-584) -/
def call : Fn V → List V → Res V
  | .base n body, args => if args.length = n then .val (body args) else .typeError
  | .curried f given, args =>
    let total := given ++ args
    if total.length < f.arity then .fn (.curried f total)
    else if total.length = f.arity then call f total
    else .typeError
  | .flipped f, args => call f args.reverse

/-- `curry(f)` (fun.py:308-315, 441-451): a function that is curried already is left as it is -/
def curry (f : Fn V) : Fn V := if f.iscurried then f else .curried f []

/-- `r(*args1)(*args2)...` -/
def calls : Res V → List (List V) → Res V
  | r, [] => r
  | .fn f, args :: more => calls (call f args) more
  | _, _ :: _ => .typeError

end Unpy.CurryWraps
