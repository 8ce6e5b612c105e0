import Verif.Model.AsyncRaise
/-!
# What should be raised in threads
-/
namespace Unpy.AsyncRaise.Spec
open Unpy Unpy.AsyncRaise
variable {K I : Type}

/-- What a thread gets -/
def shown : Exc K I → Got K
  | .cls k => .exception k
  | .inst _ => .systemError

/-- What has been asked for to be raised in thread `j`, by calls of `async_raise` that returned, in order -/
def asked (ts : List (Thread K I)) : List (Op K I) → Nat → List (Exc K I)
  | [], _ => []
  | .event e :: ops, j => asked (step ts (.event e)) ops j
  | .raise target e between :: ops, j =>
    (match target, (asyncRaise ts target e between).1 with
    | some i, .ok _ => if i = j then [e] else []
    | _, _ => []) ++ asked (step ts (.raise target e between)) ops j

/-- The numbers that threads are given, in order -/
def numbersOf : List Event → List Nat
  | [] => []
  | .start _ n :: es => n :: numbersOf es
  | _ :: es => numbersOf es

def numbers : List (Op K I) → List Nat
  | [] => []
  | .event e :: ops => numbersOf [e] ++ numbers ops
  | .raise _ _ between :: ops => numbersOf between ++ numbers ops

end Unpy.AsyncRaise.Spec
