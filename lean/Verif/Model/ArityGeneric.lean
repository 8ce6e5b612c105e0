import Verif.Model.DispatchList
/-!
# Model of the arity queries for generic functions (arity.py:240-249, 305-312) and for some built-ins

The multimethods are inspectable functions (registering one takes its signature); they are not generic themselves.
-/
namespace Unpy.Dispatch
open Unpy.Arity
variable {C V T : Type}

/-- The arities in the table of built-ins (arity.py:33-158); only `print` is modelled (arity.py:92); `none` is infinity. -/
def builtinArities : String → Option (Int × Option Int)
  | "print" => some (1, none)
  | _ => none

/-- `a < b`, where `none` is infinity -/
def ltInf : Option Int → Option Int → Bool
  | some a, some b => a < b
  | some _, none => true
  | none, _ => false

/-- The loop over the multimethods (arity.py:241-249): smallest lower and largest upper arity -/
def hull (ms : List (MM V T)) : Option Int × Option Int :=
  ms.foldl (fun acc m =>
    let r := arities false m.sig
    (if ltInf (some r.1) acc.1 then some r.1 else acc.1, if ltInf acc.2 r.2 then r.2 else acc.2)) (none, some 0)

/-- `arities(f)` of a generic function or bound generic method (arity.py:205-249): `getfunc` gives the raw function, of which the multimethods are listed; the kind (bound or not) is not used.  For other callables see `Unpy.Arity.arities`; here they are a TypeError. -/
def aritiesG (w : World C V) (st : Reg V T) (f : Callable V) : Res (Option Int × Option Int) :=
  match f.fullname with
  | none => .error .TypeError
  | some n =>
    match listMethods w st (.raw n) with
    | .error e => .error e
    | .ok l => .ok (hull l)

/-- `arity_includes(f, n)` (arity.py:334-340) -/
def arityIncludesG (w : World C V) (st : Reg V T) (f : Callable V) (n : Int) : Res Bool :=
  match aritiesG w st f with
  | .error e => .error e
  | .ok (l, u) => .ok (!ltInf (some n) l && !ltInf u (some n))

/-- `d.update(s)` of a dict with a set of strings (arity.py:311): each string is taken for a key and a value, so it must be of length 2.  The order in which a set is iterated over is that of the list; whether this raises does not depend on it. -/
def updateFromSet (d : PyDict String String) : List String → Res (PyDict String String)
  | [] => .ok d
  | s :: l =>
    match s.toList with
    | [a, b] => updateFromSet (PyDict.set d (String.singleton a) (String.singleton b)) l
    | _ => .error .ValueError

/-- `_kwargs(f, optionals)` of a generic function (arity.py:303-312); the result is a dict -/
def kwargsG (optionals : Bool) (w : World C V) (st : Reg V T) (f : Callable V) : Res (PyDict String String) :=
  match f.fullname with
  | none => .error .TypeError
  | some n =>
    match listMethods w st (.raw n) with
    | .error e => .error e
    | .ok l => l.foldlM (fun d m => updateFromSet d (kwargsOf optionals m.sig)) []

/-- How `signal` calls a handler that is a generic function or method (conditions.py:184-198): with the condition, if `arity_includes(handler, 1)`, else without arguments -/
def callHandler (isof : T → BVal V → Res Bool) (w : World C V) (st : Reg V T) (f : Callable V) (condition : V) : Option (Res (MM V T)) :=
  match arityIncludesG w st f 1 with
  | .ok true => callIt isof w st f [condition] []
  | .ok false => callIt isof w st f [] []
  | .error _ => none

end Unpy.Dispatch
