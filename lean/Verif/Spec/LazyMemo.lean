import Verif.Model.LazyMemo
/-!
# What functions do in lazy code, memoized or not
-/
namespace Unpy.Spec.LazyMemo
open Unpy.LazyMemo (Arg Body Fn)

variable {V E : Type}

/-- The value of an argument; `thunk` tells what the expressions of promises give. -/
def value (thunk : Nat → Except E V) : Arg V → Except E V
  | .plain v => .ok v
  | .promise i => thunk i

/-- The promises that are an argument: none or one. -/
def promises : Arg V → List Nat
  | .plain _ => []
  | .promise i => [i]

/-- The `k`th argument. -/
def arg (f : Fn V E) (args : List (Arg V)) (k : Nat) : Arg V := args.getD k (.plain f.dflt)

/-- What a function returns or raises that uses parameters when it needs them. -/
def outcome (thunk : Nat → Except E V) (f : Fn V E) (args : List (Arg V)) : Body V E → Except E V
  | .done r => r
  | .use k next => outcome thunk f args (next (value thunk (arg f args k)))

/-- The promises it uses, in order. -/
def used (thunk : Nat → Except E V) (f : Fn V E) (args : List (Arg V)) : Body V E → List Nat
  | .done _ => []
  | .use k next => promises (arg f args k) ++ used thunk f args (next (value thunk (arg f args k)))

/-- The first of the arguments that raises an exception. -/
def firstError (thunk : Nat → Except E V) : List (Arg V) → Option E
  | [] => none
  | a :: as => match value thunk a with
    | .error e => some e
    | .ok _ => firstError thunk as

/-- The promises that are evaluated before an ordinary call: up to the first that raises. -/
def before (thunk : Nat → Except E V) : List (Arg V) → List Nat
  | [] => []
  | a :: as => promises a ++ match value thunk a with
    | .error _ => []
    | .ok _ => before thunk as

/-- What a call of the function gives: of a lazy one, or of an ordinary one, for which all arguments are evaluated. -/
def result (thunk : Nat → Except E V) (f : Fn V E) (args : List (Arg V)) : Except E V :=
  if f.isLazy then outcome thunk f args f.body
  else match firstError thunk args with
    | some e => .error e
    | none => outcome thunk f args f.body

/-- The promises that a call needs, in order. -/
def needed (thunk : Nat → Except E V) (f : Fn V E) (args : List (Arg V)) : List Nat :=
  if f.isLazy then used thunk f args f.body else before thunk args

/-- Without those that were there before. -/
def firsts : List Nat → List Nat
  | [] => []
  | i :: is => i :: (firsts is).filter (· ≠ i)

end Unpy.Spec.LazyMemo
