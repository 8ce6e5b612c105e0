import Verif.Spec.Dispatch
import Verif.Model.DispatchError
/-!
# What the error of a call without a matching multimethod should say
-/
namespace Unpy.DispatchError.Spec
open Unpy Unpy.Arity Unpy.Dispatch Unpy.Spec.Arity Unpy.Spec.Dispatch
variable {V T : Type}

/-- Arguments as they are written in a call. -/
def inCall (as : List String) (kws : List (String × String)) : String :=
  ", ".intercalate (as ++ kws.map fun p => p.1 ++ "=" ++ p.2)

def more (l : List String) : List String := if l.isEmpty then [] else l ++ ["..."]

/-- Arguments as they are written in a partial application: more positional arguments, and more named arguments, may follow. -/
def inPartial (as : List String) (kws : List (String × String)) : String :=
  ", ".intercalate (if as.isEmpty && kws.isEmpty then ["..."] else more as ++ more (kws.map fun p => p.1 ++ "=" ++ p.2))

/-- The text: what was tried, and the multimethods in the order in which they were tried. -/
def text (what qualname args kind fullname : String) (methods : List String) : String :=
  "No multiple-dispatch match for the " ++ what ++ " " ++ qualname ++ "(" ++ args ++ ").\n" ++ "Multimethods for @" ++ kind ++ " " ++ fullname ++
    " (most recent match attempt last):\n" ++ "\n".intercalate (methods.map ("  " ++ ·))

/-- The parameters whose values are of the wrong type, with these values and types, in the order of the parameters. -/
def wrong (isof : T → BVal V → Res Bool) (args : List V) (kwargs : PyDict String V) (m : MM V T) : List (String × BVal V × T) :=
  m.sig.filterMap fun p =>
    match seen m.sig args kwargs p, PyDict.get? m.hints p.name with
    | some b, some t => match isof t b with
      | .ok true => none
      | _ => some (p.name, b, t)
    | _, _ => none

/-- What is said about them. -/
def complaint (l : List (String × String × String)) : String :=
  "\nParameter binding(s) do not match type specification: " ++ "; ".intercalate (l.map fun q => q.1 ++ "=" ++ q.2.1 ++ ", expected " ++ q.2.2)

def kind (typed : Bool) : String := if typed then "typed" else "generic"

/-- For examples: values are numbers, written as such, but 13 cannot be written. -/
def numbers (name : String) : Texts Nat Nat where
  repr v := if v = 13 then .error .ValueError else .ok (toString v)
  reprB b := match b with
    | .val v => .ok (toString v)
    | _ => .ok "several"
  type t := "t" ++ toString t
  line m := "method " ++ toString m.body
  qualname := name
  fullname := "m." ++ name

end Unpy.DispatchError.Spec
