import Verif.Spec.CurryGeneric
/-!
# When arguments fit the annotations of a function
-/
namespace Unpy.Spec.CurryAnnotated
open Unpy Unpy.Arity Unpy.Spec.Arity Unpy.Spec.CurryGeneric
variable {V T : Type}

/-- There is a parameter for each of the arguments, and what each parameter is bound to, by an argument or a default, is of the type it is annotated with, if it has an annotation. -/
def Fits (isof : T → BVal V → Res Bool) (hints : PyDict String T) (sig : Sig V) (args : List V) (kwargs : PyDict String V) : Prop :=
  Takes sig args kwargs ∧ ∀ p ∈ sig, ∀ b, seen sig args kwargs p = some b → ∀ t, PyDict.get? hints p.name = some t → isof t b = .ok true

end Unpy.Spec.CurryAnnotated
