import Verif.Model.LibCall
/-!
# What it means that a function gets its named arguments, whatever their names (C146)
-/
namespace Unpy.Spec.LibCall
open Unpy Unpy.Arity Unpy.LibCall
variable {V : Type}

/-- The call that the user wrote: of the function itself with the arguments, or, for a class, of its `__init__` with the new instance and the arguments. -/
def direct (things : Things V) (call : Call V) (f : V) (args : List V) (kwargs : PyDict String V) : Via → Res V
  | .singleton => call f (things.self :: args) kwargs
  | _ => call f args kwargs

/-- The names that cannot be used -/
def taken : Via → List String
  | .call | .callwith | .inLazify | .memoize | .gmemoize | .fix _ => ["f"]
  | .inTco => ["target"]
  | .inLazifyTco => ["f", "target"]
  | .inAutocurry => ["f", "_curry_force_call", "_curry_allow_uninspectable"]
  | .iterate => ["f", "self"]
  | .unfold => ["proc", "self"]
  | .singleton => ["cls"]

/-- Python refuses arguments that do not fit the parameters. -/
def Refuses (sigOf : V → Sig V) (call : Call V) (f : V) (args : List V) (kwargs : PyDict String V) : Prop :=
  ∀ e, bindStrict (sigOf f) args kwargs = .error e → call f args kwargs = .error e

end Unpy.Spec.LibCall
