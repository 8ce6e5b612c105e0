import Verif.Model.Curry
/-!
# What currying should do

`allArgs`, `allKwargs`: all arguments given in a chain of calls.  `passOn`: what happens to a result when
there are arguments left over.
-/
namespace Unpy.Spec.Curry
open Unpy Unpy.Curry Unpy.Eff
open Unpy.Fold (Err Vals)
variable {σ ε A : Type}

/-- All positional arguments of a chain of calls, in order. -/
def allArgs (cs : List (List (Obj A) × PyDict String (Obj A))) : List (Obj A) := (cs.map (·.1)).flatten

/-- All named arguments of a chain of calls; a name given again gets the later value. -/
def allKwargs (cs : List (List (Obj A) × PyDict String (Obj A))) : PyDict String (Obj A) :=
  PyDict.update [] (cs.map (·.2)).flatten

/-- The positional and named values in a result. -/
def values : Ret (Obj A) → Vals (Obj A)
  | .one v => ⟨[v], []⟩
  | .many vs => vs

/-- `args` and `kwargs` were left over when a function returned `r`.  The values in `r` go before them.  If the
first one is callable, it is curried and called on the rest; otherwise all the values are returned to the
surrounding curry context, or it is a TypeError if there is none. -/
def passOn (fs : Funcs σ ε A) (depth : Nat) (ctx : Bool) (r : Ret (Obj A)) (args : List (Obj A))
    (kwargs : PyDict String (Obj A)) : Eff σ (Err ε) (Ret (Obj A)) :=
  let vals := (values r).rets ++ args
  let named := PyDict.update kwargs (values r).kwrets
  match (values r).rets with
  | g :: others =>
    if callable fs g then
      bind (curry fs depth true g [] []) fun c => callObj fs depth true c (others ++ args) named
    else if ctx then ret (.many ⟨vals, named⟩) else raise (.py .TypeError)
  | [] => if ctx then ret (.many ⟨vals, named⟩) else raise (.py .TypeError)

end Unpy.Spec.Curry
