import Verif.Model.DispatchList
import Verif.Spec.Dispatch
/-! # Specification of what is known about a generic function, from the history of the decorations -/
namespace Unpy.Spec.DispatchList
open Unpy Unpy.Arity Unpy.Dispatch
variable {C V T : Type}

/-- The definitions that were registered with a generic function, in order: those decorated without an exception -/
def registered (n : String) (history : List (Op V T × Except Err Unit)) : List (Fn V T) :=
  (history.filter (fun p => decide (p.1.target = n ∧ p.2 = .ok ()))).map (·.1.fn)

/-- `@generic` or `@typed` was used for this name, whether or not it worked. -/
def Declared (n : String) (history : List (Op V T × Except Err Unit)) : Prop :=
  ∃ p ∈ history, (∃ f, p.1 = .generic n f) ∨ (∃ f, p.1 = .typed n f)

/-- `@typed` has worked for this name. -/
def DeclaredTyped (n : String) (history : List (Op V T × Except Err Unit)) : Prop :=
  ∃ p ∈ history, (∃ f, p.1 = .typed n f) ∧ p.2 = .ok ()

/-- The arguments that arrive: a bound method passes the object it is bound to first. -/
def passed : Callable V → List V → List V
  | .bound _ s, args => s :: args
  | _, args => args

/-- The callable follows the convention: the first parameter has a self-like name (in the definition that created the generic function) if it is a bound method, and only then. -/
def Conventional (st : Reg V T) (f : Callable V) : Prop :=
  ∀ n d, f.fullname = some n → PyDict.get? st n = some d → match f with
    | .bound _ _ => Spec.Dispatch.IsMethod d
    | _ => Spec.Dispatch.NotMethod d

/-- the line between two parts of a docstring -/
def rule : String := "\n\n" ++ "".pushn '-' 80 ++ "\n"

/-- The part of a definition: its description, and its docstring if there is one -/
def part (desc : Fn V T → Option String) (docOf : Fn V T → Option String) (f : Fn V T) : String :=
  (desc f).getD "" ++ (match docOf f with
    | none => ""
    | some s => if s = "" then "" else "\n" ++ s)

end Unpy.Spec.DispatchList
