import Verif.Model.Fix
/-!
# Model of `@fix` functions that are defined in a `with lazify` block

`functools.wraps` copies the mark of lazy functions to `f_fix` (fix.py:216), so it gets promises as arguments, and puts them in
`visited` (fix.py:219, 223), and in the memo.  A promise is equal to itself only (`Lazy`, lazyutil.py:33-76, has no `__eq__`).

The functions are as in `Model/Fix.lean`.  All arguments of a call together are one; the calls in a function pass at least one
expression that is not just a name, so that they make a promise (syntax/lazify.py:682-691).  That the promise is
evaluated only when the function needs it makes no difference to functions that are pure and whose arguments do not raise.
-/
namespace Unpy.Fix

variable {F A V E : Type}

/-- The arguments of a call, as an object: their values, and what tells them from those of other calls: the number of the call
in the body of the caller, and the same of the caller's caller, and so on. -/
abbrev Obj (A : Type) := A × List Nat

/-- The body of a function after `lazify`: each call makes new promises.  `n` calls have been made so far in the call with the
arguments `p`. -/
def lazyProg (p : List Nat) (n : Nat) : Prog F A E V → Prog F (Obj A) E V
  | .ret v => .ret v
  | .raise e => .raise e
  | .call f a k => .call f (a, n :: p) fun r => lazyProg p (n + 1) (k r)

/-- The functions after `lazify` (syntax/lazify.py:657-680). -/
def lazyDefs (d : Defs F A E V) : Defs F (Obj A) E V :=
  { body := fun f a => lazyProg a.2 0 (d.body f a.1), memo := d.memo, bottom := fun f a => d.bottom f a.1, keyError := d.keyError }

end Unpy.Fix
